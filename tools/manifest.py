#!/usr/bin/env python3
"""Regenerates lean/Verif.lean (imports of every module) and MANIFEST.json (from the theorem names in Props)."""
import glob, json, os, re
root = os.path.dirname(os.path.dirname(os.path.abspath(__file__)))
lean = os.path.join(root, 'lean')
mods = sorted(os.path.relpath(f, lean)[:-5].replace('/', '.') for f in glob.glob(lean + '/Verif/**/*.lean', recursive=True))
open(lean + '/Verif.lean', 'w').write(''.join('import %s\n' % m for m in mods))
notes = json.load(open(os.path.join(root, 'tools', 'notes.json')))
props = [json.loads(l)['id'] for l in open(os.path.join(root, 'properties.jsonl'))]
thms = {p: [] for p in props}
for f in sorted(glob.glob(lean + '/Verif/Props/*.lean')):
    for m in re.finditer(r'^theorem ((C\d\d+)_\w+)', open(f).read(), re.M):
        thms[m.group(2)].append('Verif.' + m.group(1))
claims = []
for p in props:
    n = notes.get(p, {})
    st = n.get('status')
    if st is None:
        st = 'partial' if any(t.endswith('_partial') for t in thms[p]) else 'proved'
    if not thms[p] and st != 'not_applicable':
        print('no theorem yet for', p)
        continue
    claims.append({'property': p, 'status': st, 'theorems': thms[p], 'note': n.get('note', '')})
json.dump({'claims': claims}, open(os.path.join(root, 'MANIFEST.json'), 'w'), indent=1, ensure_ascii=False)
