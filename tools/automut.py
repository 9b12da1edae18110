#!/usr/bin/env python3
"""Random small edits of definitions of the model, each tried in a scratch copy: does some theorem fail?
Stops a build at the first error.  Results: /verif/seeded/AUTO.jsonl (one line per valid edit).

usage: automut.py PER_DEF SEED [file substring]
       automut.py redo 0        tries the edits again that survived last time, but those of the class of an exception
"""
import json, os, re, random, subprocess, sys, glob, signal, time
REDO = sys.argv[1] == 'redo'
PER, SEED = 0 if REDO else int(sys.argv[1]), int(sys.argv[2])
SUB = sys.argv[3] if len(sys.argv) > 3 else ''
SRC, PRI, S = '/verif/lean/', '/tmp/amut/pristine/', '/tmp/amut/work/'
OUT = '/verif/seeded/AUTO.jsonl'
SKIP = {'M', 'M.bind', 'DT.eqb', 'FT.beq', 'FT.beqL', 'Val.beq', 'Val.beqL', 'PyVal.beq', 'PyVal.beqL'}
def sync(a, b):
    have = {}
    for r, _, fs in os.walk(a):
        for f in fs: have[os.path.relpath(os.path.join(r, f), a)] = os.stat(os.path.join(r, f))
    for r, _, fs in os.walk(b):
        for f in fs:
            k = os.path.relpath(os.path.join(r, f), b)
            t = os.stat(os.path.join(r, f))
            if k in have and have[k].st_size == t.st_size and have[k].st_mtime_ns == t.st_mtime_ns: del have[k]
            elif k not in have: os.remove(os.path.join(r, f))
    for k in have:
        os.makedirs(os.path.dirname(os.path.join(b, k)), exist_ok=True)
        subprocess.run(['cp', '-a', os.path.join(a, k), os.path.join(b, k)], check=True)
OPS = [
    (r'(?<![\w.xA-F"])0(?![\w.xX"])', '1'), (r'(?<![\w.])1(?![\w.])', '2'), (r'(?<![\w.])1(?![\w.])', '0'), (r'(?<![\w.])([2-9]|\d\d+)(?![\w.])', lambda m: str(int(m.group(1)) + 1)),
    (r' == ', ' != '), (r' != ', ' == '), (r' ≠ ', ' = '), (r' < ', ' ≤ '), (r' ≤ ', ' < '),
    (r' && ', ' || '), (r' \|\| ', ' && '), (r' ∧ ', ' ∨ '), (r' ∨ ', ' ∧ '), (r'\btrue\b', 'false'), (r'\bfalse\b', 'true'),
    (r'\.reverse\b', ''), (r'!(?=[a-z(])', ''), (r'\bif ([^\n]*?) then', lambda m: 'if ¬ (' + m.group(1) + ') then' if ':' not in m.group(1) else m.group(0)),
    (r'p!"([^"]*)"', lambda m: 'p!"' + (m.group(1)[:-1] + ('y' if m.group(1)[-1:] == 'x' else 'x')) + '"'),
    (r'\.map\b', '.filterMap some ∘ List.map'), (r' \+ ', ' - '), (r' - ', ' + '), (r' \* ', ' + '), (r' / ', ' * '), (r' % ', ' / '),
    (r'\bsome ([a-z]\w*)(?= *(\n|$|\)))', 'none'), (r'\.headD\b', '.getLastD'), (r'\.getLastD\b', '.headD'), (r' \+\+ ', lambda m: ' ++ [] ++ '),
    (r'\.all\b', '.any'), (r'\.any\b', '.all'), (r'\.tail\b', ''), (r'\.take\b', '.drop'), (r'\.drop\b', '.take'),
    (r'\.(keyError|typeError|valueError|unicodeError|indexError|osError|notImplemented|cantWrite|other)\b', lambda m: '.attributeError' if False else ('.typeError' if m.group(1) != 'typeError' else '.valueError')),
]
def mutants(body):
    "all edits of the text of a definition, as (edit, new text)"
    res = []
    i = body.find(':=') if ':=' in body.split('\n')[0] or '\n  |' not in body else len(body.split('\n')[0])
    m0 = re.search(r':=|\n  \|', body)
    start = m0.start() if m0 else 0
    for pat, rep in OPS:
        for m in re.finditer(pat, body):
            if m.start() < start: continue
            ls = body.rfind('\n', 0, m.start()) + 1
            if body[ls:m.start()].lstrip().startswith('--'): continue
            new = rep(m) if callable(rep) else m.expand(rep)
            if new == m.group(0) or '[] ++' in new: continue
            res.append((m.group(0).strip() + '  ->  ' + new.strip() + '   in: ' + body[ls:body.find('\n', m.end()) if body.find('\n', m.end()) > 0 else len(body)].strip()[:120], body[:m.start()] + new + body[m.end():]))
    lines = body.split('\n')
    for k in range(1, len(lines) - 1):
        l = lines[k]
        if re.match(r'\s+(set|unlink|create|modify|delete|raise|liftRes|ensure|mod)\w*', l) and len(lines[k + 1]) - len(lines[k + 1].lstrip()) == len(l) - len(l.lstrip()):
            res.append(('line dropped: ' + l.strip(), '\n'.join(lines[:k] + lines[k + 1:])))
    # exchange two adjacent arguments of a call
    for m in re.finditer(r'(?<=[\w\')] )([a-z]\w*) ([a-z]\w*)(?=[ )\n])', body):
        if m.start() >= start and m.group(1) not in ('if', 'then', 'else', 'match', 'with', 'let', 'fun', 'do', 'in', 'for', 'return') and m.group(2) not in ('if', 'then', 'else', 'with', 'do', 'fun', 'match', 'in') and m.group(1) != m.group(2):
            ls = body.rfind('\n', 0, m.start()) + 1
            res.append((f'{m.group(1)} {m.group(2)}  ->  exchanged   in: ' + body[ls:].split('\n')[0].strip()[:120], body[:m.start()] + m.group(2) + ' ' + m.group(1) + body[m.end():]))
    return res
def defs(src):
    ms = list(re.finditer(r'^(?:private )?def ([A-Za-z0-9_.\']+)', src, re.M))
    ends = [m.start() for m in re.finditer(r'^(?:private def|def|theorem|inductive|structure|instance|abbrev|mutual|end|namespace|/--|@\[|deriving|example|open|--)', src, re.M)] + [len(src)]
    for m in ms:
        e = min(x for x in ends if x > m.start())
        yield m.group(1), m.start(), e
def enclosing(f, line):
    name = None
    for i, l in enumerate(open(f), 1):
        m = re.match(r'\s*(?:@\[[^\]]*\]\s*)?(?:private |protected |noncomputable )?(theorem|def|example|instance|inductive|lemma)\s*(\S*)', l)
        if m:
            if i > line: break
            name = m.group(2) if m.group(1) != 'example' else 'example@%d' % i
    return name
rnd = random.Random(SEED)
done = set()
if os.path.exists(OUT):
    for l in open(OUT):
        e = json.loads(l); done.add((e['definition'], e['edit']))
todo = []
for f in sorted(glob.glob(SRC + 'Verif/Model/*.lean')):
    if SUB and SUB not in f: continue
    src = open(f).read()
    for d, a, b in defs(src):
        if d in SKIP: continue
        ms = mutants(src[a:b])
        rnd.shuffle(ms)
        for edit, new in ms[:PER]:
            if (d, edit) not in done: todo.append((f[len(SRC):], d, edit, src[:a] + new + src[b:]))
if REDO:
    last = {}
    for l in open(OUT):
        e = json.loads(l); last[(e['definition'], e['edit'])] = e
    for (d, edit), e in last.items():
        if e['verdict'] != 'survived' or re.match(r'\.\w+Error  ->|\.other  ->', edit) or not os.path.exists(SRC + e['file']): continue
        src = open(SRC + e['file']).read()
        for d2, a, b in defs(src):
            if d2 != d: continue
            for edit2, new in mutants(src[a:b]):
                if edit2 == edit: todo.append((e['file'], d, edit, src[:a] + new + src[b:]))
rnd.shuffle(todo)
print(len(todo), 'edits', flush=True)
sync(SRC, PRI); sync(PRI, S)
for f, d, edit, text in todo:
    t0 = time.time()
    open(S + f, 'w').write(text)
    p = subprocess.Popen(['nice', '-n', '15', 'lake', 'build'], cwd=S, stdout=subprocess.PIPE, stderr=subprocess.STDOUT, text=True, preexec_fn=os.setsid)
    verdict, th = 'survived', None
    for l in p.stdout:
        m = re.search(r'error: (Verif/\S+?\.lean):(\d+)', l)
        if m:
            if '/Model/' in m.group(1): verdict = 'invalid'
            else: verdict, th = 'caught', enclosing(S + m.group(1), int(m.group(2)))
            break
    try: os.killpg(p.pid, signal.SIGKILL)
    except ProcessLookupError: pass
    p.wait()
    print(verdict, int(time.time() - t0), d, '|', edit, '|', th, flush=True)
    if verdict != 'invalid':
        with open(OUT, 'a') as o: o.write(json.dumps(dict(definition=d, file=f, edit=edit, verdict=verdict, first_failed=th), ensure_ascii=False) + '\n')
    sync(PRI, S)
