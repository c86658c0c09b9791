import json,re,glob
import sys
sys.path.insert(0,'/verif/tools')
names=set()
for f in glob.glob('/verif/lean/Verif/*.lean'):
    for m in re.finditer(r'^(?:@\[.*\]\s*)?(?:private )?theorem\s+(\S+)',open(f).read(),re.M): names.add(m.group(1))
from claims import claims
props=[json.loads(l)['id'] for l in open('/verif/properties.jsonl')]
out=[]
for p in props:
    st,ths,note=claims[p]
    for t in ths: assert t in names,(p,t)
    out.append({"property":p,"status":st,"theorems":["Addrs."+t for t in ths],"note":note})
json.dump({"claims":out},open('/verif/MANIFEST.json','w'),indent=1)
used={t.split('_')[0] for t in names}
allt=sorted(t for t in names if re.match(r'C\d\d_',t)); ref={t for c in claims.values() for t in c[1]}
print("unreferenced:",[t for t in allt if t not in ref])
print({s:sum(1 for c in out if c['status']==s) for s in('proved','partial','not_applicable')})
