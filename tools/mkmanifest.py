#!/usr/bin/env python3
"""Generate MANIFEST.json: theorem names Cnn_* found in Verif/Props, plus status and notes below."""
import glob, json, re
NOTES = json.load(open('/verif/tools/notes.json'))
ths = {}
for f in sorted(glob.glob('/verif/lean/Verif/Props/*.lean')):
    ns = []
    for l in open(f):
        m = re.match(r'namespace\s+(\S+)', l)
        if m: ns.append(m.group(1))
        m = re.match(r'end\s+(\S+)', l)
        if m and ns and ns[-1] == m.group(1): ns.pop()
        m = re.match(r'theorem\s+((C\d\d\d?)_\S+)', l)
        if m: ths.setdefault(m.group(2), []).append('.'.join(ns + [m.group(1)]))
claims = []
for l in open('/verif/properties.jsonl'):
    pid = json.loads(l)['id']
    t = ths.get(pid, [])
    n = NOTES.get(pid, {})
    if not t and n.get('status') != 'not_applicable':
        continue
    st = n.get('status') or ('partial' if any('_partial' in x for x in t) else 'proved')
    claims.append({'property': pid, 'status': st, 'theorems': t, 'note': n.get('note', '')})
json.dump({'claims': claims}, open('/verif/MANIFEST.json', 'w'), indent=1, ensure_ascii=False)
print(len(claims), 'claims', sum(len(c['theorems']) for c in claims), 'theorems;', {s: sum(c['status']==s for c in claims) for s in ('proved','partial','not_applicable')})
