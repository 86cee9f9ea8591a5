#!/usr/bin/env python3
"""usage: log.py results.jsonl : append mutation results to seeded/LOG.jsonl (field `tightened` optional in input)."""
import json,sys,os
os.makedirs('/verif/seeded',exist_ok=True)
with open('/verif/seeded/LOG.jsonl','a') as out:
    for l in open(sys.argv[1]):
        r=json.loads(l)
        if 'error' in r: print('skip',r['def'],r['error']); continue
        failed=sorted({n for v in (r['errs'].values() if isinstance(r['errs'],dict) else []) for n in v})
        rec={'definition':f"Verif/Model/{r['file']}:{r['def']}",'edit':r['edit'],'old':r['old'],'new':r['new'],'claim_broken':r['claim'],
             'build_failed':r['rc']!=0,'theorems_failed':failed,'theorems_tightened':r.get('tightened',[])}
        if r.get('note'): rec['note']=r['note']
        out.write(json.dumps(rec)+'\n')
