"""Which functions of /repo are cited by no definition of the model?  (a function counts as covered if its
`func` line, or that of the function of the same name in the other address family, lies in a cited range)"""
import re,glob,os
cites={}
for f in glob.glob('/verif/lean/Verif/*.lean'):
    s=open(f).read()
    for m in re.finditer(r'(ip(?:v4|v6)?/[a-z0-9_]+\.go):((?:\d+(?:-\d+)?)(?:,\s*\d+(?:-\d+)?)*)',s):
        for r in re.split(r',\s*',m.group(2)):
            a,_,b=r.partition('-'); cites.setdefault(m.group(1),[]).append((int(a),int(b or a)))
fs={}
for f in sorted(glob.glob('/repo/ip*/*.go')):
    if f.endswith('_test.go'): continue
    k=f[len('/repo/'):]
    for i,l in enumerate(open(f),1):
        m=re.match(r'func (\([^)]*\) )?(\w+)',l)
        if m:
            recv=(m.group(1) or '').strip('() ').split(' ')[-1].replace('*','').split('[')[0]
            fs[(k,recv,m.group(2))]=i
def cov(k,i): return any(a<=i<=b for a,b in cites.get(k,[]))
un=[]
for (k,r,n),i in fs.items():
    ok=cov(k,i)
    if not ok:
        o=k.replace('ipv4/','X/').replace('ipv6/','ipv4/').replace('X/','ipv6/')
        j=fs.get((o,r,n))
        ok=j is not None and cov(o,j)
    if not ok: un.append((k,i,r,n))
print(len(fs),'functions,',len(un),'uncovered')
for u in un: print(*u)
