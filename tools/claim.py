#!/usr/bin/env python3
"""claim.py ID STATUS 'thm1 thm2 ...' 'note': add or replace one claim of MANIFEST.json.
Theorem names are relative to Blogc.ID unless they start with Blogc."""
import json, os, sys
root = os.path.dirname(os.path.dirname(os.path.abspath(__file__)))
p = os.path.join(root, 'MANIFEST.json')
man = json.load(open(p)) if os.path.exists(p) else {'claims': []}
pid, status, thms, note = sys.argv[1:5]
t = [x if x.startswith('Blogc.') else 'Blogc.%s.%s' % (pid, x) for x in thms.split()]
man['claims'] = sorted([c for c in man['claims'] if c['property'] != pid] +
    [{'property': pid, 'status': status, 'theorems': t, 'note': note}], key=lambda c: c['property'])
json.dump(man, open(p, 'w'), indent=1, ensure_ascii=False)
