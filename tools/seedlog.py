# append results of tools/seed.py (JSON lines) to seeded/LOG.jsonl, without duplicates
import json,sys
have=set()
try:
    for l in open('/verif/seeded/LOG.jsonl'):
        o=json.loads(l); have.add((o['definition'],o['edit']))
except FileNotFoundError: pass
with open('/verif/seeded/LOG.jsonl','a') as out:
    for l in open(sys.argv[1]):
        o=json.loads(l)
        if (o['definition'],o['edit']) in have: continue
        have.add((o['definition'],o['edit']))
        out.write(json.dumps({'definition':o['definition'],'file':o['file'],'edit':o['edit'],'claim':o['claim'],
          'theorems_failed':o.get('theorems_failed',[]),'theorems_tightened':o.get('theorems_tightened',[]),'note':o.get('note','')})+'\n')
