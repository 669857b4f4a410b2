"""Usage: prop.py < json-lines : replace (by id) or append property records in properties.jsonl"""
import json,sys
P='/verif/properties.jsonl'
rows=[json.loads(l) for l in open(P) if l.strip()]
ix={r['id']:i for i,r in enumerate(rows)}
for l in sys.stdin:
    if not l.strip(): continue
    r=json.loads(l)
    if r['id'] in ix: rows[ix[r['id']]].update(r)
    else: rows.append(r)
rows.sort(key=lambda r:int(r['id'][1:]))
open(P,'w').write(''.join(json.dumps(r)+'\n' for r in rows))
