#!/usr/bin/env python3
"""claim.py ns < lines 'Cxx|status|thm thm ..|note' : upsert claims into MANIFEST.json"""
import sys,json
ns=sys.argv[1]
m=json.load(open('/verif/MANIFEST.json'))
d={c['property']:c for c in m['claims']}
for l in sys.stdin:
    l=l.rstrip('\n')
    if not l.strip(): continue
    p,st,th,note=l.split('|',3)
    d[p]=dict(property=p,status=st,theorems=[(t if t.startswith('Verif.') else ns+'.'+t) for t in th.split()],note=note)
m['claims']=[d[k] for k in sorted(d)]
json.dump(m,open('/verif/MANIFEST.json','w'),indent=1)
