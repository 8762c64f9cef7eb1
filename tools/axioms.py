"""Axiom audit: print the axioms every theorem of MANIFEST.json depends on.

Writes /tmp/Audit.lean, runs it with `lake env lean`, and prints one line per set of axioms.
"""
import collections, json, re, subprocess
names = [t for c in json.load(open('/verif/MANIFEST.json'))['claims'] for t in c['theorems']]
with open('/tmp/Audit.lean', 'w') as f:
  f.write('import Verif\n' + ''.join(f'#print axioms {n}\n' for n in names))
out = subprocess.run('cd /verif/lean && lake env lean /tmp/Audit.lean', shell=True, capture_output=True, text=True).stdout
sets = collections.defaultdict(list)
for m in re.finditer(r"'([^']+)' (?:depends on axioms: \[([^\]]*)\]|does not depend on any axioms)", out):
  sets[', '.join(sorted((m.group(2) or 'none').replace('\n', ' ').split(', ')))].append(m.group(1))
print(len(names), 'theorems')
for k, v in sorted(sets.items(), key=lambda e: -len(e[1])):
  print(f'{len(v)} theorems: {k}')
  if len(v) < 60:
    print('   ', ' '.join(v))
