"""Run seeded bugs: mutate.py mutants/<file>.json

Each entry: {"file", "old", "new", "definition", "edit", "claim"}.  The last commit is copied to /tmp/mut,
the text is replaced (it must occur; "nth" selects the occurrence), the project is built, and one line
is added to seeded/LOG.jsonl.
"""
import json, os, re, subprocess, sys
ROOT = '/verif/lean'
MUT = '/tmp/mut'
SRC = '/tmp/mutsrc'
LOG = '/verif/seeded/LOG.jsonl'


def sh(cmd):
  return subprocess.run(cmd, shell=True, stdout=subprocess.PIPE, stderr=subprocess.STDOUT, text=True).stdout


def name_at(path, line):
  name = '?'
  for i, l in enumerate(open(path)):
    if i + 1 > line:
      break
    m = re.match(r'(?:private |noncomputable |protected )*(theorem|lemma|def|instance|example|structure|abbrev)\s*([^\s:({\[]*)', l)
    if m:
      name = (m.group(2) or m.group(1)) if m.group(1) != 'example' else 'example'
  return name


def imports(mod):
  p = MUT + '/' + mod.replace('.', '/') + '.lean'
  if not os.path.exists(p):
    return []
  return re.findall(r'^import (Verif\.\S+)', open(p).read(), re.M)


def main():
  ms = json.load(open(sys.argv[1]))
  done = set()
  if os.path.exists(LOG):
    for l in open(LOG):
      d = json.loads(l)
      done.add((d['definition'], d['edit']))
  sh(f'rm -rf {SRC}; mkdir -p {SRC}; cd /verif && git archive HEAD | tar -x -C {SRC}')
  for m in ms:
    if (m['definition'], m['edit']) in done:
      continue
    os.makedirs(MUT, exist_ok=True)
    if not os.path.exists(MUT + '/.lake'):
      sh(f'cp -r {ROOT}/.lake {MUT}/.lake')
    sh(f'rm -rf {MUT}/Verif; cd {SRC}/lean && cp -r Verif Verif.lean lakefile.toml {MUT}/; '
       f'cp {SRC}/lean/lean-toolchain {SRC}/lean/lake-manifest.json {MUT}/')
    p = f'{MUT}/Verif/{m["file"]}'
    s = open(p).read()
    n = m.get('nth', 0)
    parts = s.split(m['old'])
    if len(parts) <= n + 1:
      print('NOT FOUND', m['definition'], m['edit']); continue
    s = m['old'].join(parts[:n + 1]) + m['new'] + m['old'].join(parts[n + 1:])
    open(p, 'w').write(s)
    # every module is tried, also those importing failed ones are reported as blocked
    out = sh(f'cd {MUT} && nice -n 10 lake build 2>&1')
    failed = []
    mods = set()
    for e in re.finditer(r'^error: (Verif/\S+\.lean):(\d+):\d+', out, re.M):
      f, l = e.group(1), int(e.group(2))
      mod = f[:-5].replace('/', '.')
      mods.add(mod)
      nm = mod[6:] + ':' + name_at(MUT + '/' + f, l)
      if nm not in failed:
        failed.append(nm)
    allmods = re.findall(r'^import (Verif\.\S+)', open(MUT + '/Verif.lean').read(), re.M)
    blocked = set()
    changed = True
    while changed:
      changed = False
      for a in allmods:
        if a not in mods and a not in blocked and any(i in mods or i in blocked for i in imports(a)):
          blocked.add(a); changed = True
    rec = {'definition': m['definition'], 'edit': m['edit'], 'claim': m['claim'],
           'failed': failed, 'blocked': sorted(b[6:] for b in blocked if '.Props.' in b),
           'tightened': m.get('tightened', [])}
    if 'Verif.Model' in ' '.join(mods):
      rec['note'] = 'the edited model did not compile'
    print(('SURVIVED ' if not failed else 'killed ') + m['definition'] + ' | ' + m['edit'] + ' | ' + ' '.join(failed[:6]), flush=True)
    if 'note' in rec:
      print('   NOT COMPILED', flush=True)
      continue
    if not failed and not m.get('accept'):
      print('   not logged', flush=True); continue
    if m.get('accept'):
      rec['note'] = m['accept']
    with open(LOG, 'a') as g:
      g.write(json.dumps(rec) + '\n')


main()
