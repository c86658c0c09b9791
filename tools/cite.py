"""check the citations in the model's comments: `file:a-b` exists, and where a name follows in backquotes the
cited lines contain the declaration of that name"""
import re,glob,os
src={}
def lines(f):
    if f not in src: src[f]=open('/repo/'+f).read().split('\n')
    return src[f]
bad=n=0
for p in sorted(glob.glob('/verif/lean/Verif/*.lean')):
    for ln,l in enumerate(open(p).read().split('\n'),1):
        for m in re.finditer(r'((?:ip|ipv4|ipv6)/[a-z0-9_]+\.go):(\d+)(?:-(\d+))?((?:, \d+-\d+)*)(?:\)?,? `([A-Za-z_.0-9]+)(?:\([^`]*)?`)?',l):
            f,a,b,more,name=m.groups(); n+=1
            if not os.path.exists('/repo/'+f): print(p,ln,'no file',f); bad+=1; continue
            L=lines(f); a=int(a); b=int(b or a)
            if b>len(L) or a>b: print(os.path.basename(p),ln,'range',m.group(0)); bad+=1; continue
            if name:
                nm=name.split('.')[-1]
                txt='\n'.join(L[a-1:b])
                if not re.search(r'\b%s\b'%re.escape(nm),txt): print(os.path.basename(p),ln,'name not in lines',m.group(0)); bad+=1
                else:
                    # function declared there?
                    fn=[i+1 for i,x in enumerate(L) if re.match(r'func (\([^)]*\) )?%s\b'%re.escape(nm),x)]
                    if fn and not any(a-1<=i<=b for i in fn): print(os.path.basename(p),ln,'decl elsewhere',m.group(0),fn); bad+=1
                    elif fn:
                        # end of function = matching closing brace at col 0
                        i=[i for i in fn if a-1<=i<=b][0]
                        e=next((j+1 for j in range(i-1,len(L)) if L[j].startswith('}')),None)
                        if L[i-1].rstrip().endswith('}'): e=i
                        if e!=b and abs(e-b)>0: print(os.path.basename(p),ln,'end',m.group(0),'func',i,'-',e); bad+=1
print(n,'citations',bad,'suspicious')
