"""Builds /verif/seeded/LOG.jsonl from the seeding runs in /tmp/seed (m*.py: the edits, results.jsonl: the
outcomes).  Attempts that are no longer in /tmp/seed but already in LOG.jsonl are kept."""
import json,glob,importlib.util,os
LOG='/verif/seeded/LOG.jsonl'
old={}
if os.path.exists(LOG):
    for l in open(LOG):
        d=json.loads(l); old[d['id']]=d
muts={}
for f in sorted(glob.glob('/tmp/seed/m*.py')):
    spec=importlib.util.spec_from_file_location('m',f); mod=importlib.util.module_from_spec(spec); spec.loader.exec_module(mod)
    for m in mod.M:
        assert m['id'] not in muts,('two attempts with the id',m['id'])
        muts[m['id']]=m
TIGHT={}
tf='/verif/seeded/tightened.json'
if os.path.exists(tf): TIGHT=json.load(open(tf))
res={}
for l in open('/tmp/seed/results.jsonl'):
    r=json.loads(l); res[r['id']]=r      # the last run of an attempt counts
for i,r in res.items():
    m=muts.get(i)
    if not m: continue
    old[i]={'id':i,'definition':m['defn'],'edit':m['desc'],
      'edits':[{'file':f'lean/Verif/{f}.lean','from':a,'to':b} for f,a,b in m['edits']],
      'claim':m['claim'],'build':'survived' if r['ok'] else 'failed',
      'theorems_failed':[x.replace('Addrs.','') for x in r['fails']],
      'claim_theorems_lost':r['claimthms'],
      'other_claims_lost':[c for c in r['blocked'] if c!=r['claim']],
      'theorems_tightened':TIGHT.get(i,{}).get('theorems',[]),
      'note':TIGHT.get(i,{}).get('note','')}

# automatic edits (one operator or constant of one definition of the model at a time)
AUTO={'q0006':'equivalent: Walk compares with an empty tree, so the comparison function is never called','q0111':'as q0006','q0167':'as q0006',
 'q0044':'changed only what the model answers when the bound on iterations is used up; C19_bound, added since, now fails',
 'q0149':'equivalent: an equation for a depth of zero that an earlier one covers','q0301':'equivalent: as q0149',
 'q0172':'equivalent: only called on nodes that are not nil','q0249':'equivalent: the flag only says to copy the tree, which is the same tree',
 'q0300':'equivalent: this branch is only reached with different lengths','q0340':'equivalent: the flag of an empty result is not looked at'}
af='/tmp/auto/results.jsonl'
if os.path.exists(af):
    for l in open(af):
        d=json.loads(l)
        if d['status']=='invalid' or (d['status']=='survived' and d['id'] not in AUTO): continue
        if not d['defn'].isidentifier() and '«' not in d['defn'] and '.' not in d['defn']: continue
        old[d['id']]={'id':d['id'],'definition':d['mod']+'.lean: '+d['defn'],'edit':f"in `{d['src']}`: `{d['old'].strip()}` becomes `{d['new'].strip()}`",
          'claim':', '.join(d['blocked'][:6]) or 'none','build':'survived' if d['status']=='survived' else 'failed',
          'theorems_failed':[d['fail'].replace('Addrs.','')] if d['fail'] else [],
          'claim_theorems_lost':d['blocked'] or ([d['fail']] if d['fail'] else []),'other_claims_lost':[],
          'theorems_tightened':['C19_bound'] if d['id']=='q0044' else [],'note':AUTO.get(d['id'],'automatic edit; only the first theorem to fail is listed')}
with open(LOG,'w') as f:
    for i in sorted(old): f.write(json.dumps(old[i])+'\n')
print(len(old),'attempts;','survived:',[i for i in old if old[i]['build']=='survived'],'claim not hit:',[i for i in old if not old[i]['claim_theorems_lost']])
