#!/usr/bin/env python3
"""Run seeded mutations of the model (seeded/mutations.py) in a scratch copy and log the outcome.

usage: mut.py [id ...]   (default: those not yet in seeded/LOG.jsonl)
"""
import json, os, re, shutil, subprocess, sys
sys.path.insert(0, '/verif/seeded')
from mutations import MUT
LOG = '/verif/seeded/LOG.jsonl'
done = {json.loads(l)['id'] for l in open(LOG)} if os.path.exists(LOG) else set()
ids = sys.argv[1:]
todo = [m for m in MUT if (m['id'] in ids if ids else m['id'] not in done)]
S = '/tmp/mut'
def sync():
    os.makedirs(S, exist_ok=True)
    subprocess.run(['rsync','-a','--delete','/verif/lean/',S+'/lean/'] , check=True) if shutil.which('rsync') else (
        shutil.rmtree(S+'/lean', ignore_errors=True), shutil.copytree('/verif/lean', S+'/lean', symlinks=True))
def enclosing(f, line):
    name = None
    for i, l in enumerate(open(f), 1):
        m = re.match(r'\s*(?:@\[[^\]]*\]\s*)?(?:private |protected |noncomputable )?(theorem|def|example|instance|inductive|lemma)\s*(\S*)', l)
        if m: 
            if i > line: break
            name = m.group(2) if m.group(1) != 'example' else 'example@%d' % i
    return name
sync()
for m in todo:
    p = f"{S}/lean/Verif/{m['file']}"
    src = open(p).read()
    n = src.count(m['old'])
    if n != 1:
        print(m['id'], 'PATTERN COUNT', n); continue
    open(p, 'w').write(src.replace(m['old'], m['new']))
    r = subprocess.run(['lake', 'build'], cwd=S+'/lean', capture_output=True, text=True)
    out = r.stdout + r.stderr
    fails = []
    for f, ln in re.findall(r'error: (Verif/\S+?\.lean):(\d+)', out):
        nm = enclosing(f'{S}/lean/{f}', int(ln))
        if nm and nm not in fails: fails.append(nm)
    blocked = sorted(set(re.findall(r'^- (Verif\.\S+)', out, re.M)))
    open(p, 'w').write(src)
    rec = dict(id=m['id'], definition=m['definition'], edit=m['edit'], claim=m['claim'], theorems_failed=fails,
               modules_failed=blocked, tightened=m.get('tightened', []))
    if m.get('note'): rec['note'] = m['note']
    print(m['id'], 'CAUGHT' if fails else '*** SURVIVED ***', fails[:6], blocked)
    lines = [l for l in open(LOG)] if os.path.exists(LOG) else []
    lines = [l for l in lines if json.loads(l)['id'] != m['id']]
    lines.append(json.dumps(rec) + '\n')
    open(LOG, 'w').writelines(lines)
