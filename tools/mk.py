#!/usr/bin/env python3
"""Regenerate lean/Verif.lean (imports) and check MANIFEST.json theorem names."""
import json, os, re, sys
root = os.path.dirname(os.path.dirname(os.path.abspath(__file__)))
mods = []
for d, _, fs in os.walk(os.path.join(root, 'lean', 'Verif')):
    for f in fs:
        if f.endswith('.lean'):
            p = os.path.relpath(os.path.join(d, f), os.path.join(root, 'lean'))
            mods.append(p[:-5].replace('/', '.'))
open(os.path.join(root, 'lean', 'Verif.lean'), 'w').write(
    ''.join('import %s\n' % m for m in sorted(mods)))
names = set()
for m in mods:
    ns = []
    for line in open(os.path.join(root, 'lean', m.replace('.', '/') + '.lean')):
        x = re.match(r'namespace (\S+)', line)
        if x: ns.append(x.group(1))
        x = re.match(r'end (\S+)', line)
        if x and ns and ns[-1] == x.group(1): ns.pop()
        x = re.match(r'(?:@\[[^\]]*\] )?(?:private |protected )?theorem (\S+)', line)
        if x: names.add('.'.join(ns + [x.group(1)]))
try:
    man = json.load(open(os.path.join(root, 'MANIFEST.json')))
except FileNotFoundError:
    sys.exit(0)
props = [json.loads(l)['id'] for l in open(os.path.join(root, 'properties.jsonl'))]
seen = {}
for c in man['claims']:
    seen[c['property']] = c
    for t in c['theorems']:
        if t not in names: print('MISSING', c['property'], t)
print(len(names), 'theorems;', 'no claim:', [p for p in props if p not in seen])
