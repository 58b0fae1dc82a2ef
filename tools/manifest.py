#!/usr/bin/env python3
"""Rebuild MANIFEST.json from the list of property theorems (tools/axioms.txt, run as a Lean file, output on stdin)."""
import json, re, sys, collections
th = collections.defaultdict(list)
for l in sys.stdin:
    n, ax = l.split(' ', 1)
    assert set(re.findall(r'[\w.]+', ax)) <= {'propext', 'Classical.choice', 'Quot.sound'}, l
    th[re.search(r'(?:^|\.)(C\d\d)_', n).group(1)].append(n)
notes = json.load(open('/verif/tools/notes.json'))
ids = [json.loads(l)['id'] for l in open('/verif/properties.jsonl')]
assert len(set(ids)) == len(ids)
claims = []
for i in ids:
    t = sorted(th.pop(i, []))
    st = 'proved'
    if not t: st = 'not_applicable'
    elif any(x.endswith('_partial') for x in t) and i in notes.get('partial', []): st = 'partial'
    claims.append({'property': i, 'status': st, 'theorems': t, 'note': notes.get(i, '')})
assert not th, th
json.dump({'claims': claims}, open('/verif/MANIFEST.json', 'w'), indent=1, ensure_ascii=False)
print(len(claims), [c['property'] for c in claims if c['status'] != 'proved'])
