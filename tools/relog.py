#!/usr/bin/env python3
"""Recompute `claims_depending_on_them` of every line of seeded/LOG.jsonl from `theorems_failed`."""
import json,sys
sys.path.insert(0,'/verif/tools')
import seed
bi=seed.alltheorems(seed.SRC)
out=[]
for l in open('/verif/seeded/LOG.jsonl'):
    d=json.loads(l)
    if 'theorems_failed' in d:
        d['claims_depending_on_them']=seed.closure([f for f in d['theorems_failed'] if not f.startswith('example@')],bi)
    out.append(json.dumps(d,ensure_ascii=False))
open('/verif/seeded/LOG.jsonl','w').write('\n'.join(out)+'\n')
