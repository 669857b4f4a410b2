#!/usr/bin/env python3
"""Regenerate MANIFEST.json and lean/Verif.lean from the Lean sources."""
import json,re,os,glob
R=os.path.dirname(os.path.dirname(os.path.abspath(__file__)))
props=[json.loads(l) for l in open(R+'/properties.jsonl')]
over=json.load(open(R+'/tools/overrides.json'))
th={}
for f in sorted(glob.glob(R+'/lean/Verif/Props/*.lean')):
    ns=[]
    for l in open(f):
        m=re.match(r'namespace (\S+)',l)
        if m: ns.append(m.group(1))
        m=re.match(r'end (\S+)',l)
        if m and ns and ns[-1]==m.group(1): ns.pop()
        m=re.match(r'(?:@\[[^\]]*\]\s*)?theorem (_root_\.Primpy\.)?((C\d{2,3})_\S+)',l)
        if m: th.setdefault(m.group(3),[]).append('.'.join((['Primpy'] if m.group(1) else ns)+[m.group(2)]))
claims=[]
for p in props:
    i=p['id']; t=th.get(i,[])
    o=over.get(i,{})
    st=o.get('status') or ('partial' if (not t or any(x.endswith('_partial') for x in t)) else 'proved')
    claims.append({"property":i,"status":st,"theorems":t,"note":o.get('note','' if t else 'not yet done')})
json.dump({"claims":claims},open(R+'/MANIFEST.json','w'),indent=1,ensure_ascii=False)
mods=[]
for d in ['Model','Spec','Lemmas','Props']:
    for f in sorted(glob.glob(R+'/lean/Verif/%s/*.lean'%d)):
        mods.append('import Verif.%s.%s'%(d,os.path.basename(f)[:-5]))
open(R+'/lean/Verif.lean','w').write('\n'.join(mods)+'\n')
print(sum(len(c['theorems']) for c in claims),'theorems;',[c['property'] for c in claims if not c['theorems']])
