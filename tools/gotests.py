#!/usr/bin/env python3
"""Reads the table-driven tests of /repo as text and writes lean/Verif/RepoTests{4,6}.lean: the rows of the Go
tests as Lean terms, checked against the model by kernel reduction.  These are tests of the MODEL (does it do what
the authors of the Go code expect of the code?), not proofs of properties."""
import re,sys
TOK=re.compile(r'\s+|//[^\n]*|("(?:\\.|[^"\\])*"|`[^`]*`)|([A-Za-z_]\w*)|(0[xX][0-9a-fA-F_]+|\d[\d_]*)|(:=|==|!=|<=|>=|&&|\|\||<<|>>|\+\+|\.\.\.|[-+*/%&|^!<>=(){}\[\],.:;])')
def toks(s):
    i=0; out=[]
    while i<len(s):
        m=TOK.match(s,i)
        if not m: raise Exception('tok '+s[i:i+40])
        i=m.end()
        for k,g in zip(('str','id','num','op'),m.groups()):
            if g is not None: out.append((k,g))
    return out
class P:
    """expressions: ('str',s) ('num',n) ('id',x) ('call',f,args) ('sel',x,name) ('lit',type,[(key,val)]) ('un',op,x)"""
    def __init__(s,t): s.t=t; s.i=0
    def pk(s,k=0): return s.t[s.i+k] if s.i+k<len(s.t) else ('eof','')
    def nx(s): s.i+=1; return s.t[s.i-1]
    def eat(s,v):
        assert s.pk()[1]==v,(v,s.t[s.i-5:s.i+5]); s.i+=1
    def type(s):
        if s.pk()[1]=='[':
            s.nx()
            if s.pk()[1]!=']': s.nx()
            s.eat(']'); return '[]'+s.type()
        if s.pk()[1]=='*': s.nx(); return '*'+s.type()
        if s.pk()[1]=='map':
            s.nx(); s.eat('['); k=s.type(); s.eat(']'); return 'map['+k+']'+s.type()
        if s.pk()[1]=='interface': s.nx(); s.eat('{'); s.eat('}'); return 'any'
        if s.pk()[1]=='struct':
            s.nx(); s.eat('{'); f=[]
            while s.pk()[1]!='}':
                ns=[s.nx()[1]]
                while s.pk()[1]==',': s.nx(); ns.append(s.nx()[1])
                ty=s.type()
                f+=[(n,ty) for n in ns]
            s.eat('}'); return ('struct',f)
        if s.pk()[1]=='func':
            while s.pk()[1]!='}' : s.nx()
            return 'func'
        n=s.nx()[1]
        if s.pk()[1]=='.': s.nx(); n+='.'+s.nx()[1]
        return n
    def lit(s,ty):
        s.eat('{'); els=[]
        while s.pk()[1]!='}':
            if s.pk()[0]=='id' and s.pk(1)[1]==':': k=s.nx()[1]; s.nx()
            else: k=None
            v=s.lit(None) if s.pk()[1]=='{' else s.expr()
            els.append((k,v))
            if s.pk()[1]==',': s.nx()
        s.eat('}'); return ('lit',ty,els)
    def expr(s): return s.bin(0)
    def bin(s,_):
        x=s.un()
        while s.pk()[1] in ('+','-','*','<<','==','!=','|','&'):
            o=s.nx()[1]; x=('bin',o,x,s.un())
        return x
    def un(s):
        if s.pk()[1] in('&','-','!','^'):
            o=s.nx()[1]; return ('un',o,s.un())
        return s.post(s.prim())
    def prim(s):
        k,v=s.pk()
        if k=='str': s.nx(); return ('str',v[1:-1])
        if k=='num': s.nx(); return ('num',int(v.replace('_',''),0))
        if v in('[','struct','map'):
            t=s.type()
            if isinstance(t,str) and s.pk()[1]!='{': return ('id',t)
            if isinstance(t,tuple): return s.lit(t)
            return s.lit(t)
        if v=='(':
            s.nx(); x=s.expr(); s.eat(')'); return x
        if k=='id':
            s.nx()
            if v[0].isupper() and s.pk()[1]=='{' or v in('uint128','trieNode','setNode','pair32','pair','pair128','diffAction') and s.pk()[1]=='{': return s.lit(v)
            return ('id',v)
        raise Exception(('prim',s.t[s.i-8:s.i+8]))
    def post(s,x):
        while True:
            v=s.pk()[1]
            if v=='.': s.nx(); x=('sel',x,s.nx()[1])
            elif v=='(':
                s.nx(); a=[]
                while s.pk()[1]!=')':
                    a.append(s.expr())
                    if s.pk()[1]==',': s.nx()
                s.eat(')'); x=('call',x,a)
            elif v=='{' and x[0]=='sel' and x[2][0].isupper(): x=s.lit(x[1][1]+'.'+x[2])
            else: return x
class Fam:
    def __init__(s,n):
        s.n=n; s.pkg='ipv%d'%n; s.w={4:'(BitVec 32)',6:'U128'}[n]; s.bits={4:32,6:128}[n]
    def src(s,f): return open(f'/repo/{s.pkg}/{f}_test.go').read()
    def body(s,f,name):
        t=s.src(f); i=t.index('func %s('%name); j=t.index('\n}\n',i); return t[i:j], t[:i].count('\n')+1, t[:j].count('\n')+2
def toks_upto(s):
    """the tokens of a composite literal at the start of s"""
    # cut at the line that closes it
    d=0; seen=0; i=0
    instr=None
    while i<len(s):
        c=s[i]
        if instr:
            if c=='\\' and instr=='"': i+=1
            elif c==instr: instr=None
        elif s.startswith('//',i): i=s.index('\n',i); continue
        elif c in '"`': instr=c
        elif c=='{': d+=1; seen=max(seen,d)
        elif c=='}':
            d-=1
            if d==0:
                # a struct type closes first: continue if a literal follows
                if s[i+1:i+2]=='{': pass
                else: return toks(s[:i+1])
        i+=1
    raise Exception('no end')
class Tr:
    def __init__(s,fam,env=None): s.f=fam; s.env=env or {}
    def w(s,n): return '%d#32'%n if s.f.n==4 else '⟨0#64, %d#64⟩'%n
    def e(s,x,ty=None):
        """Lean term for a Go expression of type ty"""
        f=s.f.n; k=x[0]
        if ty=='SetI':
            t=s.kind(x)
            return {'P':'.prefix ','A':'.address ','R':'.range '}[t]+s.e(x)
        if ty=='any': return s.data(x)
        if k=='str': return '"%s"'%x[1]
        if k=='num':
            if ty=='uint128': return s.w(x[1])
            return '%d'%x[1]
        if k=='un' and x[1]=='&': return s.e(x[2],ty)
        if k=='un' and x[1]=='-': return '(-%s)'%s.e(x[2])
        if k=='id':
            if x[1]=='nil' and ty=='*setNode': return '.nil'
            if x[1] in('true','false'): return x[1]
            if x[1] in s.env: return s.env[x[1]]
            raise Exception(('id',x))
        if k=='call':
            g,a=x[1],x[2]
            if g[0]=='id':
                n=g[1]
                if n=='_p': return '(p%d %s)'%(f,s.e(a[0]))
                if n=='_a': return '(a%d %s)'%(f,s.e(a[0]))
                if n=='_r': return '(Range.fromAddresses %s %s).1'%(s.e(a[0]),s.e(a[1]))
                if n in('int64','uint64','uint32','int'): return s.e(a[0])
                if n=='unsafePrefixFromUint32': return '(⟨%d#32, %s⟩ : Prefix (BitVec 32))'%(a[0][1],s.e(a[1]))
                if n=='unsafePrefixFromUint64': return '(⟨⟨%d#64, %d#64⟩, %s⟩ : Prefix U128)'%(a[0][1],a[1][1],s.e(a[2]))
                if n=='setNodeFromPrefix': return '(SetNode.fromPrefix %s)'%s.e(a[0])
            if g[0]=='sel':
                if g[2]=='Range': return '%s.range'%s.e(g[1])
                if g[2]=='Set': return '(SetI.%s).toSet'%s.e(g[1],'SetI')[1:]
                if g[2]=='Union': return '(SetNode.union %s %s)'%(s.e(g[1],'*setNode'),s.e(a[0],'*setNode'))
                if g[2] in('leadingZeros','onesCount','complement'): return '(U128.%s %s)'%(g[2],s.e(g[1]))
                if g[2] in('leftShift','rightShift'): return '(U128.%s %s %d)'%(g[2],s.e(g[1]),a[0][1])
                if g[2] in('addUint64','subtractUint64'): return '(U128.%s %s %d#64)'%(g[2],s.e(g[1]),a[0][1])
                if g[2]=='String': return '(String.ofList (V%d.%sString %s))'%(f,{'P':'prefix','A':'address','R':'range'}[s.kind(g[1])],s.e(g[1]))
                if g[2]=='NumAddresses' and s.kind(g[1])=='R': return '(Range.numAddresses %s).toNat'%s.e(g[1])
                if g[2]=='Network': return '%s.network'%s.e(g[1])
            raise Exception(('call',x))
        if k=='lit':
            t=x[1]; els=x[2]
            if t is None: t=ty
            if t=='Address':
                v=els[0][1] if els else ('num',0)
                return s.e(v,'uint128') if f==6 else '%d#32'%s.num(v)
            if t=='uint128':
                if not els: return '(⟨0#64, 0#64⟩ : U128)'
                d=s.fld(els,['high','low']); return '(⟨%d#64, %d#64⟩ : U128)'%(s.num(d.get('high',('num',0))),s.num(d.get('low',('num',0))))
            if t=='Range':
                d=s.fld(els,['first','last']); return '(⟨%s, %s⟩ : Range %s)'%(s.e(d['first'],'Address'),s.e(d['last'],'Address'),s.f.w)
            if t=='Prefix':
                d=s.fld(els,['addr','length'])
                ad=s.e(d['addr'],'Address') if 'addr' in d else s.w(0)
                return '(⟨%s, %s⟩ : Prefix %s)'%(ad,s.e(d['length']) if 'length' in d else 0,s.f.w)
            if t and t.startswith('[]'): return '['+', '.join(s.e(v,t[2:]) for _,v in els)+']'
            if t in('pair32','pair128','pair'):
                d=s.fld(els,['key','data']); return '(%s, %s)'%(s.e(d['key'],'Prefix'),s.data(d.get('data')))
            if t=='diffAction':
                a,pr,v=[y for _,y in els]
                c={'actionTypeRemove':'R','actionTypeAdd':'A','actionTypeChange':'C','actionTypeSame':'S'}[a[1]]
                return "⟨'%s', %s, %s⟩"%(c,s.e(pr,'pair32'),s.data(v))
        raise Exception(x)
    def num(s,v):
        if v[0]=='num': return v[1]
        if v[0]=='call': return s.num(v[2][0])
        raise Exception(v)
    def fld(s,els,names):
        if els and els[0][0] is None: return dict(zip(names,[v for _,v in els]))
        return dict(els)
    def data(s,v):
        if v is None or v==('id','nil'): return 'none'
        if v[0]=='id' and v[1] in('true','false'): return 'some %d'%(v[1]=='true')
        if v[0]=='num': return 'some %d'%v[1]
        if v[0]=='id': return 'some %s'%s.env[v[1]]
        raise Exception(v)
    def kind(s,x):
        if x[0]=='call':
            if x[1][0]=='id': return {'_p':'P','_a':'A','_r':'R'}[x[1][1]]
            return {'Range':'R','Network':'P'}[x[1][2]]
        if x[0]=='lit': return {'Prefix':'P','Address':'A','Range':'R'}[x[1]]
        raise Exception(x)
def default(ty,f):
    if ty in('[]SetI','[]Range','[]Address','[]Prefix','[]pair32','[]pair128','[]diffAction'): return '[]'
    if ty=='Prefix': return '(⟨%s, 0⟩ : Prefix %s)'%('0#32' if f.n==4 else '⟨0#64, 0#64⟩',f.w)
    if ty=='uint128': return '(⟨0#64, 0#64⟩ : U128)'
    return {'bool':'false','string':'""'}.get(ty,'0')
OUT={4:[],6:[]}; N={4:0,6:0}; SKIP=[]
def lit(b,var):
    i=b.index(var+' := ')+len(var)+4
    p=P(toks_upto(b[i:])); p.eat('['); p.eat(']'); ty=p.type(); return ty,p.lit(ty)
def emit(fam,file,name,l1,l2,rows,stmt):
    N[fam.n]+=rows
    OUT[fam.n].append('/-- /repo/%s/%s_test.go:%d-%d `%s`, %d rows -/\nexample : %s = true := by decide +kernel\n'%(fam.pkg,file,l1,l2,name,rows,stmt))
def run(fam,file,name,fields,chk,var='tests',var2=None):
    """one example: every row of the table of the Go test satisfies the Lean check `chk`"""
    if '%' in chk: chk=chk%fam.n
    try: b,l1,l2=fam.body(file,name)
    except ValueError: SKIP.append((fam.pkg,file,name,'no such test')); return
    tr=Tr(fam)
    for v in('a','b'):
        mm=re.search(r'\n\t'+v+r' := (setNodeFromPrefix\(_p\("[^"]*"\)\))',b)
        if mm: tr.env[v]=tr.e(P(toks(mm.group(1))).expr())
    if fields is None:
        ls=[]
        for v in (var,var2):
            if v:
                ty,m=lit(b,v); ls.append([tr.e(r,ty) for _,r in m[2]])
        txt=['[\n  '+',\n  '.join(l)+']' for l in ls]
        if chk.startswith('string'): emit(fam,file,name,l1,l2,len(ls[0]),'(%s.all %s)'%(txt[0],chk))
        else: emit(fam,file,name,l1,l2,len(ls[0]),'%s %s'%(chk,' '.join(txt)))
        return
    ty,m=lit(b,var)
    types=dict(ty[1]); order=[n for n,_ in ty[1]]; rows=[]
    for _,row in m[2]:
        d=tr.fld(row[2],order); vs=[]
        for f in fields:
            if f in d and d[f]!=('id','nil'): vs.append(tr.e(d[f],types[f]))
            else: vs.append(default(types[f],fam))
        rows.append('('+', '.join(vs)+')' if len(vs)>1 else vs[0])
    emit(fam,file,name,l1,l2,len(rows),'([\n  %s].all %s)'%(',\n  '.join(rows),chk))

def asserts(fam,file,name):
    """the lines assert.Equal(t, x, y) of a test without local variables"""
    try: b,l1,l2=fam.body(file,name)
    except ValueError: SKIP.append((fam.pkg,file,name,'no such test')); return
    tr=Tr(fam); L=[]
    for l in b.split('\n'):
        m=re.match(r'\s*assert\.Equal\((.*)\)$',l)
        if m:
            p=P(toks(m.group(1)+')')); p.eat('t'); p.eat(','); x=p.expr(); p.eat(','); y=p.expr(); assert p.pk()[1]==')'
            L.append('decide (%s = %s)'%(tr.e(x),tr.e(y)))
    emit(fam,file,name,l1,l2,len(L),'([\n  %s].all id)'%',\n  '.join(L))
A=[('uint128','Test'+x) for x in ('LeadingZero','OnesCount','Complement','LeftShift','RightShift','AddUint64','SubtractUint64')]+[('range','TestRangeString'),('range','TestRangeSize')]
class Script:
    """straight-line tests: declarations, calls that change a set or table, and assertions"""
    GLOB={'Eights':'A','Nines':'A','Ten24':'P','TenOne24':'P','TenTwo24':'P','Ten24128':'P','Ten24Router':'A','Ten24Broadcast':'A',
      'Ten112':'P','TenOne112':'P','TenTwo112':'P','Ten112x8000':'P','Ten112Router':'A','Ten112Broadcast':'A'}
    def __init__(s,fam): s.f=fam; s.k={}; s.out=[]; s.c=[]; s.tr=Tr(fam)
    def let(s,x,e): s.out.append('let %s := %s'%(x,e))
    def chk(s,e): s.c.append('c%d'%len(s.c)); s.let(s.c[-1],e)
    def arg(s,x,key=False):
        """an argument of type SetI or PrefixI"""
        if x==('id','nil'): return '.nil'
        k,e=s.v(x)
        if k=='N': return e
        if key: return {'P':'(.prefix %s)','A':'(.address %s)'}[k]%e
        return {'P':'(.prefix %s)','A':'(.address %s)','R':'(.range %s)','S':'(.set %s)'}[k]%e
    def v(s,x):
        """(kind, Lean term)"""
        if x[0]=='id':
            if x[1] in s.k: return s.k[x[1]],x[1]
            if x[1] in s.GLOB: return s.GLOB[x[1]],s.glob(x[1])
            if x[1] in('true','false'): return 'B',x[1]
        if x[0]=='num': return 'I',str(x[1])
        if x[0]=='un' and x[1]=='!': return 'B','!%s'%s.v(x[2])[1]
        if x[0]=='lit' and x[1] in('Set','Set_'): return 'S','(IPSet.empty : IPSet %s)'%s.f.w
        if x[0]=='lit' and x[1] in('Prefix','Address','Range'): return x[1][0],s.tr.e(x)
        if x[0]=='call':
            g,a=x[1],x[2]
            if g[0]=='id':
                if g[1] in('int64','int','uint64'): return s.v(a[0])
                if g[1]=='NewSet_': return 'S','(IPSet.empty : IPSet %s)'%s.f.w
                if g[1]=='NewTableInt': return 'M','(Table.new_ : Table %s Nat)'%s.f.w
                if g[1]=='NewTableBool': return 'M','(Table.new_ : Table %s Bool)'%s.f.w
                if g[1] in('_p','_a','_r'): return g[1][1].upper(),s.tr.e(x)
            if g[0]=='sel':
                n=g[2]
                if n in('NumNodes','isValid') and g[1][0]=='sel' and g[1][2]=='trie':
                    y=g[1]
                    while y[0]=='sel': y=y[1]
                    k,e=s.v(y); return ('I','%s.trie.numNodes'%e) if n=='NumNodes' else ('B','%s.trie.isValid'%e)
                k,e=s.v(g[1])
                if k in 'SM' and n in('Set','Table','Set_','Table_'): return k,e
                if k=='R' and n=='Set' or k=='P' and n=='Set' : return 'S','(SetI.%s %s).toSet'%({'R':'range','P':'prefix'}[k],e)
                if k=='P' and n=='Address': return 'A','%s.addr'%e
                if k=='P' and n=='Range': return 'R','%s.range'%e
                if k=='S' and n in('Union','Intersection','Difference'): return 'S','(%s.%s %s)'%(e,n.lower(),s.arg(a[0]))
                if k=='N' and n in('Union','Intersect','Difference'): return 'N','(SetNode.%s %s %s)'%(n.lower(),e,s.arg(a[0]))
                if k=='N' and n in('Insert','Remove'): return 'N','((SetNode.%s %s %s).getD .nil)'%({'Insert':'insertKey','Remove':'removeKey'}[n],s.v(a[0])[1],e)
                if k=='N' and n=='IsEmpty': return 'B','(SetNode.isEmpty %s)'%e
                if k=='N' and n=='NumAddresses': return 'I','(SetNode.numAddresses %s).toNat'%e
                if k=='N' and n=='Match': return 'O','(Trie.match %s %s)'%(s.v(a[0])[1],e)
                if k=='S' and n=='Contains': return 'B','(%s.contains %s)'%(e,s.arg(a[0]))
                if k=='S' and n=='Equal': return 'B','(%s.equal %s)'%(e,s.v(a[0])[1])
                if k=='S' and n in('isValid','IsEmpty'): return 'B','%s.%s'%(e,n[0].lower()+n[1:])
                if k=='S' and n=='NumAddresses': return 'I','%s.numAddresses.toNat'%e
                if k=='M' and n=='NumEntries': return 'I','%s.numEntries'%e
        raise Exception(('value',x))
    def glob(s,n):
        m=re.search(r'\n\t'+n+r'\s+= (_[pa]\("[^"]*"\))',s.f.src('set')); return s.tr.e(P(toks(m.group(1))).expr())
    def stmt(s,l):
        m=re.match(r'assert\.(\w+)\(t, (.*)\)$',l)
        if m:
            p=P(toks(m.group(2)+')')); xs=[p.expr()]
            while p.pk()[1]==',': p.nx(); xs.append(p.expr())
            assert p.pk()[1]==')' and p.i==len(p.t)-1
            n=m.group(1); vs=[s.v(x) for x in xs]
            if n=='True': return s.chk(vs[0][1])
            if n=='False': return s.chk('!%s'%vs[0][1])
            if n=='Equal': return s.chk('decide (%s = %s)'%(vs[0][1],vs[1][1]))
            if n=='NotEqual': return s.chk('decide (%s ≠ %s)'%(vs[0][1],vs[1][1]))
            if n=='Nil' and vs[0][0]=='O': return s.chk('%s.isNone'%vs[0][1])
            if n=='NotNil' and vs[0][0]=='O': return s.chk('%s.isSome'%vs[0][1])
            raise Exception(('assert',l))
        if re.match(r'var \w+ (bool|int)$',l): return
        if l=='var set Set_': l='set := Set_{}'
        m=re.match(r'var (\w+(?:, \w+)*) \*setNode$',l)
        if m:
            for x in m.group(1).split(', '): s.let(x,'(Trie.nil : SetNode %s)'%s.f.w); s.k[x]='N'
            return
        l=re.sub(r'(?:NewTable_\[(\w+)\]\(\)|Table\[(\w+)\]\{\}\.Table_\(\))',lambda m:'NewTable%s()'%(m.group(1) or m.group(2)).capitalize(),l)
        m=re.match(r'((?:\w+, )*\w+) :?= (.*)$',l)
        names=m.group(1).split(', ') if m else []
        p=P(toks(m.group(2) if m else l)); x=p.expr(); assert p.i==len(p.t),l
        if x[0]=='call' and x[1][0]=='sel' and x[1][1][0]=='id' and s.k.get(x[1][1][1]) in('S','M'):
            o=x[1][1][1]; n=x[1][2]; a=x[2]
            if s.k[o]=='S' and n in('Insert','Remove') and not names:
                return s.let(o,'%s.%s %s'%(o,{'Insert':'union','Remove':'difference'}[n],s.arg(a[0])))
            if s.k[o]=='M':
                if n in('Insert','Update','Remove'):
                    s.let('res','%s.%s %s%s'%(o,n.lower(),s.arg(a[0],True),' '+s.v(a[1])[1] if len(a)>1 else '')); s.let(o,'res.1')
                    if names: s.let(names[0],'res.2'); s.k[names[0]]='B'
                    return
                if n=='InsertOrUpdate': return s.let(o,'%s.insertOrUpdate %s %s'%(o,s.arg(a[0],True),s.v(a[1])[1]))
                if n=='GetOrInsert':
                    s.let('res','%s.getOrInsert %s %s'%(o,s.arg(a[0],True),s.v(a[1])[1])); s.let(o,'res.1'); s.let(names[0],'res.2'); s.k[names[0]]='D'; return
                if n in('Get','LongestMatch'):
                    s.let('res','%s.%s %s'%(o,n[0].lower()+n[1:],s.arg(a[0],True)))
                    for nm,pr,k in zip(names,['res.1','res.2'] if n=='Get' else ['res.1','res.2.1','res.2.2'],['D','B','P']):
                        if nm!='_': s.let(nm,pr); s.k[nm]=k
                    return
        if len(names)!=1: raise Exception(('stmt',l))
        k,e=s.v(x); s.let(names[0],e); s.k[names[0]]=k
def scripts(fam,file,skip):
    t=fam.src(file)
    for m in re.finditer(r'^func (Test\w+)\(t \*testing\.T\) \{\n(.*?)^\}\n',t,re.M|re.S):
        name=m.group(1); l1=t[:m.start()].count('\n')+1; l2=t[:m.end()].count('\n')
        if name in skip: continue
        s=Script(fam)
        try:
            for l in m.group(2).split('\n'):
                l=re.sub(r'\s*//.*$','',l.strip())
                l=re.sub(r'(?<![\w."])(prefix|match)(?![\w"])',r'\1_',l)
                if not l or l.startswith('fmt.Printf(') or l=='})' or re.match(r't\.Run\(".*", func\(t \*testing\.T\) \{$',l): continue
                if l=='a, b := NewSet_(), NewSet_()': s.stmt('a := NewSet_()'); l='b := NewSet_()'
                s.stmt(l)
            assert s.c
        except Exception as e: SKIP.append((fam.pkg,name,repr(e)[:110])); continue
        N[fam.n]+=len(s.c)
        OUT[fam.n].append('/-- /repo/%s/%s_test.go:%d-%d `%s`, %d assertions -/\nexample : (\n  %s\n  %s) = true := by decide +kernel\n'%(fam.pkg,file,l1,l2,name,len(s.c),'\n  '.join(s.out),' && '.join(s.c)))
T=[('range','TestRangeMinus',['a','b','result','backwards'],'minus'),('range','TestRangePlus',['a','b','result'],'plus'),
 ('range','TestRangeContains',['a','b'],'rangeContains'),('range','TestRangeFirstLast',['r','first','last'],'firstLast'),
 ('range','TestRangeComparable',['a','b','equal'],'rangeComparable'),('range','TestRangeNumPrefixes',['r','length','count','error'],'rangeNumPrefixes%d'),
 ('prefix','TestPrefixFromString',['cidr','expected','isErr'],'fromString%d'),('prefix','TestPrefixLessThan',None,'ascending','prefixes'),
 ('prefix','TestNetworkHostBroadcast',['prefix','network','host'],'networkHost'),('prefix','TestNetworkHost',['prefix','network','host'],'networkHost'),
 ('prefix','TestNetworkHostBroadcast',['prefix','broadcast'],'broadcast'),
 ('prefix','TestPrefixContainsPrefix',['container','containee'],'containsPrefix'),('prefix','TestPrefixContainsAddress',['container','containees','not'],'containsAddress'),
 ('prefix','TestPrefixSize',['prefix','expected'],'prefixSize'),('prefix','TestPrefixString',None,'string%d','cidrs'),
 ('prefix','TestPrefixHalves',['prefix','a','b'],'halves'),('prefix','TestWalkAddress',['prefix','first','last'],'walkAddress'),
 ('prefix','TestPrefixSet',['prefix','in','out'],'prefixSet'),('prefix','TestPrefixNumPrefixes',['prefix','length','count','error'],'prefixNumPrefixes%d'),
 ('set','TestWalkRanges',['prefixes','ranges'],'walkRanges'),('set','TestWalkRanges',['prefixes','str'],'setString4'),
 ('set','TestSetNumPrefixes',['prefixes','length','count','error'],'setNumPrefixes%d'),
 ('set','TestFindAvailablePrefix',['space','reserved','length','expected','err','change'],'findAvailable'),
 ('setnode','TestTrieNodeSet32Union',['sets','in','out'],'setUnion'),('setnode','TestTrieNodeSet128Union',['sets','in','out'],'setUnion'),
 ('setnode','TestInsertOverlappingSet',['a','b','c'],'overlappingSet'),
 ('node','TestNoMatchPrefixMisMatch',['nodeAddress','nodeLength','searchAddress','searchLength'],'mismatch'),
 ('node','TestMatchSimplePrefixMatch',['nodeAddress','nodeLength'],'simpleMatch'),
 ('node','TestInsertOverlapping',['a','b','c'],'overlapping'),('node','TestInsertDisjoint',['a','b','super'],'disjoint'),
 ('node','TestInsertMoreComplex',['keys'],'complex'),('node','TestContains',['a','b','matches','exact','common','child'],'nodeContains'),
 ('node','TestSuccessivelyBetter',None,'better','keys'),('node','TestWalk',None,'walks','keys','golden'),
 ('node','TestAggregate',['pairs','golden'],'aggregate'),('node','TestDiff',['left','right','actions','aggregated'],'diff'),
 ('node','TestMap',['original'],'map'),('uint128','TestCompare',['num','expected','comparedTo'],'fun (a, c, b) => decide (U128.compare a b = c)'),
 ('uint128','TestAnd',['num','andWith','expected'],'fun (a, b, c) => decide (U128.and a b = c)'),('uint128','TestOr',['num','orWith','expected'],'fun (a, b, c) => decide (U128.or a b = c)'),
 ('uint128','TestXor',['num','orWith','expected'],'fun (a, b, c) => decide (U128.xor a b = c)'),
 ('node','TestNewAggregate',['table','aggregated'],'newAggregate')]
def more(f):
    n=f.n; pf=lambda x:'p%d "%s"'%(n,x)
    for i in (1,2,3):
        b,l1,l2=f.body('table','TestTableTExample%d'%i)
        l=re.findall(r'm\.Insert\(_p\("([^"]*)"\), (\w+)\)',b)
        g=[x for x in re.findall(r'(?:\[\]string|\[\]pairT)\{\n(.*?)\n\t\t\},\n',b,re.S)]
        val=l[0][1]
        L=[re.findall(r'pairT\{prefix: "([^"]*)", value: (\w+)\}',x) if 'pairT' in x else [(y,val) for y in re.findall(r'"([^"]*)"',x)] for x in g]
        assert len(L)==2 and (i==2 or len({v for _,v in l})==1)
        emit(f,'table','TestTableTExample%d'%i,l1,l2,2,'tableExample '+' '.join('['+', '.join('(%s, %s)'%(pf(k),v) for k,v in x)+']' for x in [l]+L))
    b,l1,l2=f.body('table','TestTableVariousComparators')
    l=re.findall(r'Insert\(_p\("([^"]*)"\), creativeComparable\{(\d)\}\)',b)
    ex=[re.findall(r'"([^"]*)"',x) for x in re.findall(r'expected: \[\]string\{(.*?)\}',b,re.S)]
    assert re.findall(r'return ([^\n]*)\n',b)[:3]==['false','a.Equal(b)','a.i <= 3 && b.i <= 3']
    cs=['fun a b => decide (a = b)','fun _ _ => false','fun a b => decide (a ≤ 2 ∧ b ≤ 2)','fun a b => decide (a ≤ 3 ∧ b ≤ 3)']
    emit(f,'table','TestTableVariousComparators',l1,l2,4,'comparators [%s]\n  [%s]'%(', '.join('(%s, %s)'%(pf(k),v) for k,v in l),',\n   '.join('(%s, [%s])'%(c,', '.join(map(pf,x))) for c,x in zip(cs,ex))))
    b,l1,l2=f.body('set','TestSetNumPrefixesStairs')
    ps=re.findall(r's\.Insert\(_p\("([^"]*)"\)\)',b); rows=re.findall(r'length: (\d+), count: (0x[0-9a-f]+)',b)
    emit(f,'set','TestSetNumPrefixesStairs',l1,l2,len(rows),'([%s].all fun x => setNumPrefixes%d ([%s], x.1, x.2, false))'%(', '.join('(%s, %d)'%(a,int(c,16)) for a,c in rows),n,', '.join('.prefix (%s)'%pf(x) for x in ps)))
    name='TestOldEqualAllIPv%d'%n; b,l1,l2=f.body('set',name)
    L=[re.findall(r'_p\("([^"]*)"\)',re.search(v+r' := \[\]Prefix\{(.*?)\n\t\}',b,re.S).group(1)) for v in('bNets','cNets')]
    w=re.search(r'a\.Insert\(_p\("([^"]*)"\)\)',b).group(1)
    if n==6:
        # the rest of the lists is made by loops (the first length is 129, which is not a length of a prefix)
        emit(f,'set',name,l1,l2,6+4*130+5*129,'equalAll (%s)\n  (%s :: (List.range 129).map fun i => ⟨(⟨0x8000000000000000, 0⟩ : U128).rightShift (128 - i), 129 - i⟩)\n  (%s :: (List.range 128).map fun i => ⟨(⟨0xffffffffffffffff, 0xffffffffffffffff⟩ : U128).leftShift (i + 1), 128 - i⟩)'%(pf(w),pf(L[0][0]),pf(L[1][0])))
        return
    emit(f,'set',name,l1,l2,6+4*len(L[0])+5*len(L[1]),'equalAll (%s)\n  [%s]\n  [%s]'%(pf(w),', '.join(map(pf,L[0])),', '.join(map(pf,L[1]))))
for n in (4,6):
    f=Fam(n)
    for a in T:
        if n==4 and a[0]=='uint128': continue
        try: run(f,*a)
        except Exception as e: SKIP.append((f.pkg,a[1],repr(e)[:200]))
    for a in A:
        if n==6 or a[0]!='uint128':
            try: asserts(f,*a)
            except Exception as e: SKIP.append((f.pkg,a[1],repr(e)[:200]))
    for a in ('set','setnode','table'): scripts(f,a,{x[1] for x in T})
    for i in range(1,10):
        if 1:
            b,l1,l2=f.body('set','TestOldIntersectionAinB%d'%i)
            L=[re.search(v+r' := \[\]string(\{.*?\})',b).group(1).replace('{','[').replace('}',']') for v in('case1','case2','output')]
            OUT[n].append('/-- /repo/ipv%d/set_test.go:%d-%d `TestOldIntersectionAinB%d` -/\nexample : intersection%d (%s) = true := by decide +kernel\n'%(n,l1,l2,i,n,', '.join(L))); N[n]+=1
    more(f)
    open('/verif/lean/Verif/RepoTests%d.lean'%n,'w').write('import Verif.RepoTests\n/-\n  Written by tools/gotests.py from /repo/ipv%d/*_test.go: checks of the model, see `Verif/RepoTests.lean`.\n-/\nset_option maxRecDepth 10000\nnamespace Addrs\nnamespace RepoTest\nopen GoWord\n\n'%n+'\n'.join(OUT[n])+'\nend RepoTest\nend Addrs\n')
print(N); print('\n'.join(map(str,SKIP)))
