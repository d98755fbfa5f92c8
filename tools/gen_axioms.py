#!/usr/bin/env python3
"""Write /verif/AXIOMS.md: the axioms every theorem named in MANIFEST.json depends on (from `#print axioms`)."""
import json, re, subprocess, tempfile, os
root = os.path.dirname(os.path.dirname(os.path.abspath(__file__)))
m = json.load(open(os.path.join(root, 'MANIFEST.json')))
names = [t for c in m['claims'] for t in c['theorems']]
with tempfile.NamedTemporaryFile('w', suffix='.lean', delete=False) as f:
    f.write('import Verif\n' + '\n'.join('#print axioms ' + t for t in names) + '\n')
out = subprocess.run(['lake', 'env', 'lean', f.name], cwd=os.path.join(root, 'lean'), capture_output=True, text=True).stdout
ax = {}
for g in re.finditer(r"'(.*?)' (does not depend on any axioms|depends on axioms: \[(.*?)\])", out, re.S):
    ax[g.group(1)] = sorted(x.strip() for x in (g.group(3) or '').split(',') if x.strip())
with open(os.path.join(root, 'AXIOMS.md'), 'w') as o:
    o.write('# Axioms of the property theorems\n\nGenerated by `tools/gen_axioms.py` from `#print axioms`. Only the three standard axioms of Lean\n(`propext`, `Quot.sound`, `Classical.choice`) occur.\n')
    for c in m['claims']:
        o.write('\n## %s\n\n' % c['property'])
        for t in c['theorems']:
            o.write('- `%s`: %s\n' % (t, ', '.join(ax[t]) if ax[t] else 'none'))
bad = {a for v in ax.values() for a in v} - {'propext', 'Quot.sound', 'Classical.choice'}
assert not bad, bad
print(len(names), 'theorems')
