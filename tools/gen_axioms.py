"""Writes AXIOMS.md: the axioms every property theorem depends on, as printed by Lean (run after `lake build`)."""
import json, os, re, subprocess, tempfile

root = os.path.join(os.path.dirname(os.path.abspath(__file__)), '..')
claims = json.load(open(os.path.join(root, 'MANIFEST.json')))['claims']
names = [t for c in claims for t in c['theorems']]
with tempfile.NamedTemporaryFile('w', suffix='.lean', delete=False) as f:
    f.write('import Verif\n' + ''.join('#print axioms %s\n' % n for n in names))
out = subprocess.run(['lake', 'env', 'lean', f.name], cwd=os.path.join(root, 'lean'), capture_output=True, text=True).stdout
os.unlink(f.name)
out = re.sub(r'\s+', ' ', out)
res = {}
for m in re.finditer(r"'(\S+)' (?:depends on axioms: \[([^\]]*)\]|does not depend on any axioms)", out):
    res[m.group(1)] = m.group(2) or 'none'
groups = {}
for n in names:
    groups.setdefault(res.get(n, 'MISSING'), []).append(n.replace('Verif.Props.', ''))
with open(os.path.join(root, 'AXIOMS.md'), 'w') as f:
    f.write('# Axioms of the property theorems\n\nOutput of `#print axioms` for every theorem of MANIFEST.json (namespace `Verif.Props`), grouped.\n')
    for k, v in sorted(groups.items()):
        f.write('\n## %s\n\n%s\n' % (k, ', '.join('`%s`' % x for x in v)))
print({k: len(v) for k, v in groups.items()})
