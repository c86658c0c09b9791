"""DESIGN.md = tools/design_head.md + a table of the properties + the axioms of every theorem of MANIFEST.json"""
import json,re,glob,subprocess
M={
'C01':('Bytes: byte slices of any length, big-endian assembly, uint32 / (uint64,uint64)','algebra on bit vectors; the number `beNat` of a byte list'),
'C02':('Bytes: masks','bitwise characterisation of leading-ones count = population count'),
'C03':('U128: every operation of uint128.go on two 64-bit words','each operation equals the one on `BitVec 128`; statements on numbers below 2^128'),
'C04':('Prefix','bits, then division with remainder'),
'C05':('Prefix.halves','as C04'),
'C06':('Prefix: Range.Minus with its wrap-around in prev/next','case analysis with order arithmetic'),
'C07':('Range.Plus','as C06; witness at the last address'),
'C08':('SetNode.fromPrefix, fromRange (recursive), SetApi.toSet','induction on the number of common leading bits; `BadRange` characterises the ranges that go wrong'),
'C09':('SetNode.union + flatten','induction on both tries with invariant `Inv`; result stated through Contains only'),
'C10':('SetNode.intersect','as C09'),
'C11':('SetNode.difference with halves','as C09; measure: sum of lengths'),
'C12':('IPSet.contains, isEmpty (one per family)','as C09'),
'C13':('SetNode.equal','two `Inv` tries with the same members have the same prefixes up to host bits; witness with host bits; `Tidy`: closure under all operations without them'),
'C14':('as C13','canonicity theorem'),
'C15':('SetNode.numAddresses (int64)','counting over the 2^32 addresses, sum over disjoint blocks'),
'C16':('IPSet.walkPrefixes = Trie.diff with nil','the walk is the in-order list of entries (`visit`); maximality from `Mergeable`-freeness'),
'C17':('as C16','a cover by prefixes refines the maximal blocks; counting nodes'),
'C18':('IPSet.walkRanges (state machine over WalkPrefixes)','loop invariant over the sorted list of blocks'),
'C19':('Prefix.walkAddresses as a loop with wrap-around','invariant for the terminating case; for the last address a proof that no number of iterations finishes'),
'C20':('numPrefixes4, numPrefixes6 of Prefix, Range, Set','counting aligned blocks'),
'C21':('SetNode.findSmallest, findSmallestReserved, best','induction on both tries; witness for n > width'),
'C22':('as C21','as C21: minimality over maximal free blocks'),
'C23':('Trie.insert/getOrInsert/del, Table API','simulation of a finite map keyed by (network number, length), induction on the history'),
'C24':('Trie.del','exact condition; witness'),
'C25':('Trie.match','path lemma: the entries containing a key lie on one path'),
'C26':('size field (uint32)','`size` = number of entries mod 2^32'),
'C27':('Trie.walk','sortedness of the in-order list'),
'C28':('Trie.diff, Diff','induction on the sum of sizes of both tries: the sequence of callbacks is a merge of the entry lists'),
'C29':('as C28','exact order of the callbacks by induction on the run over both tries: which pairs are swapped, stated through smallest enclosing prefixes of entries; witness'),
'C30':('HeapDiff: pointer shortcut `me == other`','equal pointers denote equal trees; on any two Diff calls of any execution'),
'C31':('Trie.map','simulation; witness of the extra mapper calls'),
'C32':('Trie.aggregate','lookup of every address before and after; the loss condition is exact; witness'),
'C33':('Trie.aggregate','no redundant nesting; witness against minimality'),
'C34':('the concurrent machine','frozen nodes never change: invariant of every reachable state'),
'C35':('the concurrent machine','objects are identities; own writes are seen'),
'C36':('the concurrent machine, CAS and panic','linearizability of every execution by ordering the successful CASes (old roots come back only through Remove, and only when the span of the entries changes, or through Insert of a Set; HeapRoots: where the root that union and difference return comes from); witnesses of lost updates by explicit schedules'),
'C37':('the concurrent machine','a read loads the root once; the log tells when'),
'C38':('the concurrent machine','`wp` excludes panic and stuck; termination by structural bound'),
'C39':('heap layer with comparators that may panic','`wp` for comparable values; explicit panicking runs otherwise'),
'C40':('heap layer, nil comparator','explicit panicking runs; reads proved'),
'C41':('machine (nil receivers) and API (nil arguments)','case analysis; witness'),
'C42':('machine: Build as clone, arbitrary calls, snapshot','corollary of C34/C35'),
'C43':('Prefix.lessThan','lexicographic order of (network, length, host)'),
'C44':('Bytes: net.IPNet, net.IPMask, package ip','round trips for arbitrary slices'),
'C45':('Text: printers and parsers of net and of the packages','a parser run on the printed text, for arbitrary values; witness'),
'C46':('h field, real depth','lengths grow along every path'),
'C47':('IPSet.String, rangeString, maskString','injectivity of the printers'),
'C48':('the machine; steps and allocations of a call','`Prog.AtMost`: a bound on actions along every branch, whatever is read'),
'C49':('Prefix.Contains, Range.Contains, NumAddresses','from C08, C12, C20'),
'C50':('Trie.isValid','induction on the invariants; soundness of the check on arbitrary tries'),
}
try:
    exec(open('/verif/tools/design_more.py').read())
except FileNotFoundError: pass
where={}
for f in sorted(glob.glob('/verif/lean/Verif/*.lean')):
    b=f.split('/')[-1][:-5]
    for m in re.finditer(r'^(?:@\[.*\]\s*)?(?:private )?theorem\s+(\S+)',open(f).read(),re.M): where['Addrs.'+m.group(1)]=b
man=json.load(open('/verif/MANIFEST.json'))['claims']
props={json.loads(l)['id']:json.loads(l) for l in open('/verif/properties.jsonl')}
out=[open('/verif/tools/design_head.md').read().rstrip(),'','## 5. Property by property','',
'| id | property | what is modelled | how it is proved | status | theorems in |','|---|---|---|---|---|---|']
for c in man:
    p=c['property']; a,b=M[p]
    out.append(f"| {p} | {props[p]['title']} | {a} | {b} | {c['status']} | {', '.join(sorted({where[t] for t in c['theorems']}))} |")
out+=['','Properties marked partial: what is missing, or why the property is false of the code, is in the notes of',
'MANIFEST.json:','']
for c in man:
    if c['status']!='proved': out.append(f"* {c['property']}: {c['note']}")
ths=[t for c in man for t in c['theorems']]
open('/tmp/ax.lean','w').write('import Verif\n'+''.join(f'#print axioms {t}\n' for t in ths))
r=subprocess.run('lake env lean /tmp/ax.lean',shell=True,cwd='/verif/lean',capture_output=True,text=True)
txt=r.stdout.replace('\n  ',' ').replace(',\n',', ')
ax={}
for m in re.finditer(r"'(\S+)' (?:depends on axioms: \[([^\]]*)\]|does not depend on any axioms)",txt):
    ax.setdefault(', '.join(sorted(x.strip() for x in (m.group(2) or '').split(',') if x.strip())) or 'none',[]).append(m.group(1).replace('Addrs.',''))
assert sum(map(len,ax.values()))==len(ths),(sum(map(len,ax.values())),len(ths),r.stdout[:500],r.stderr[:500])
out+=['','## 6. Axioms of each theorem','','From `#print axioms` (`tools/design.py`):','']
for k,v in sorted(ax.items()): out.append(f"* **{k}** ({len(v)} theorems): {', '.join(sorted(set(v)))}")
open('/verif/DESIGN.md','w').write('\n'.join(out)+'\n')
print({k:len(v) for k,v in ax.items()})
