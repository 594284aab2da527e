"""Writes MANIFEST.json and lean/Verif.lean from the theorems found in lean/Verif/Props.

A property is `partial` when one of its theorems carries `_partial` or `_refuted` in its name,
`proved` otherwise. Notes are kept in tools/notes.json.
"""
import json, os, re

root = os.path.join(os.path.dirname(os.path.abspath(__file__)), '..')
props = [json.loads(l) for l in open(os.path.join(root, 'properties.jsonl'))]
notes = json.load(open(os.path.join(root, 'tools', 'notes.json')))
thms = {}
mods = []
for d, _, fs in os.walk(os.path.join(root, 'lean', 'Verif')):
    for f in fs:
        if f.endswith('.lean'):
            p = os.path.join(d, f)
            mods.append(os.path.relpath(p, os.path.join(root, 'lean'))[:-5].replace('/', '.'))
            if '/Props' in d:
                for m in re.finditer(r'^(?:@\[[^\]]*\] )?theorem ((C\d\d+)_\w+)', open(p).read(), re.M):
                    thms.setdefault(m.group(2), []).append('Verif.Props.' + m.group(1))
mods.sort()
with open(os.path.join(root, 'lean', 'Verif.lean'), 'w') as f:
    f.write(''.join('import %s\n' % m for m in mods))
claims = []
missing = []
for p in props:
    t = sorted(thms.get(p['id'], []))
    if not t:
        missing.append(p['id'])
        continue
    status = 'partial' if any('_partial' in x or '_refuted' in x for x in t) else 'proved'
    claims.append({'property': p['id'], 'status': status, 'theorems': t,
                   'note': notes.get(p['id'], '')})
json.dump({'claims': claims}, open(os.path.join(root, 'MANIFEST.json'), 'w'), indent=1)
print('missing:', missing)
print('unknown:', [k for k in thms if k not in {p['id'] for p in props}])
print('theorems:', sum(len(c['theorems']) for c in claims))
