#!/usr/bin/env python3
"""Regenerates AXIOMS.md: the axioms of every theorem named in MANIFEST.json, as printed by Lean."""
import json, os, re, subprocess, tempfile
root = os.path.dirname(os.path.dirname(os.path.abspath(__file__)))
m = json.load(open(root + '/MANIFEST.json'))
names = [t for c in m['claims'] for t in c['theorems']]
with tempfile.NamedTemporaryFile('w', suffix='.lean', delete=False) as f:
    f.write('import Verif\n' + ''.join('#print axioms %s\n' % t for t in names))
out = subprocess.run(['lake', 'env', 'lean', f.name], cwd=root + '/lean', capture_output=True, text=True).stdout
os.unlink(f.name)
got = {n: 'none' for n in re.findall(r"'([^']+)' does not depend on any axioms", out)}
for n, a in re.findall(r"'([^']+)' depends on axioms: \[([^\]]*)\]", out):
    got[n] = ', '.join(a.split()).replace(',,', ',')
missing = [n for n in names if n not in got]
groups = {}
for n in names: groups.setdefault(got.get(n, '?'), []).append(n)
with open(root + '/AXIOMS.md', 'w') as f:
    f.write('# Axioms of the property theorems\n\nOutput of `#print axioms` (tools/axioms.py), grouped.\n')
    for a, ns in sorted(groups.items(), key=lambda x: -len(x[1])):
        f.write('\n## %s (%d theorems)\n\n' % (a, len(ns)))
        f.writelines('* %s\n' % n for n in ns)
print({a: len(ns) for a, ns in groups.items()}, 'missing', missing)
