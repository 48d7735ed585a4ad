#!/usr/bin/env python3
"""Generates lean/Verif/Model/SudokuR1cs.lean from /repo/packages/zkenc-cli/tests/r1cs/sudoku.{r1cs,sym} (data tables only) and
lean/Verif/Model/SudokuCert.lean (certificates that Lean checks).  The r1cs bytes are decoded here and re-encoded; the script fails if the
re-encoded bytes differ from the file."""
import struct, os
R='/repo/packages/zkenc-cli/tests/r1cs/sudoku.r1cs'
d=open(R,'rb').read()
p=12;secs={};order=[]
for _ in range(struct.unpack('<I',d[8:12])[0]):
    t,s=struct.unpack('<IQ',d[p:p+12]);secs[t]=d[p+12:p+12+s];order.append(t);p+=12+s
assert p==len(d)
h=secs[1];fs=struct.unpack('<I',h[:4])[0];prime=int.from_bytes(h[4:4+fs],'little')
hd=struct.unpack('<IIIIQI',h[4+fs:])
assert hd==(202,0,81,81,244,162) and fs==32 and order==[2,1,3]
c=secs[2];q=0;cons=[]
for _ in range(hd[5]):
    row=[]
    for _ in range(3):
        n=struct.unpack('<I',c[q:q+4])[0];q+=4;l=[]
        for _ in range(n):
            w=struct.unpack('<I',c[q:q+4])[0];v=int.from_bytes(c[q+4:q+36],'little');q+=36
            if v>prime//2:v-=prime
            l.append((w,v))
        row.append(l)
    cons.append(row)
assert q==len(c)
enc=lambda l: struct.pack('<I',len(l))+b''.join(struct.pack('<I',w)+(v%prime).to_bytes(32,'little') for w,v in l)
assert b''.join(enc(l) for r in cons for l in r)==c
w2l=[struct.unpack('<Q',secs[3][8*i:8*i+8])[0] for i in range(202)]
sym=[l.split(',') for l in open('/repo/packages/zkenc-cli/tests/r1cs/sudoku.sym').read().split('\n')]
assert sym[-1]==[''] ; sym=sym[:-1]
assert len(sym)==243
for i,s in enumerate(sym):
    nm='puzzle' if i<81 else 'solution' if i<162 else 'solutionSquared'
    assert s==[str(i+1), str(w2l.index(i+1)) if i+1 in w2l else '-1', '0', 'main.%s[%d]'%(nm,i%81)]
elim=[int(s[0]) for s in sym if s[1]=='-1']
def lc(l): return '['+', '.join('(%d, %d)'%t for t in l)+']'
out=['''import Verif.Basic.Str
import Verif.Model.Sudoku
/-!
# The compiled Sudoku circuit — `packages/zkenc-cli/tests/r1cs/sudoku.r1cs` and `sudoku.sym`

GENERATED by `tools/gen_sudoku.py` (data only). The same two files are in `packages/zkenc-js/tests/fixtures` and `docs/static/circuits`.
-/

namespace Zkenc

/-- The constraints of `sudoku.r1cs` (section 2 of the file), coefficients as signed integers. -/
def sudokuTable : List IntCstr := [''']
out.append(',\n'.join('  ⟨%s, %s, %s⟩'%tuple(lc(x) for x in r) for r in cons)+']\n')
out.append('/-- The wire-to-label table of `sudoku.r1cs` (section 3 of the file). -/\ndef sudokuLabels : List Nat := [')
out.append('  '+', '.join(map(str,w2l))+''']

/-- What `sudoku.r1cs` holds: header (section 1: 202 wires, 0 public outputs, 81 public inputs, 81 private inputs, 244 labels, 162 constraints),
constraints and labels. -/
def sudokuR1cs : R1csFile where
  fieldSize := 32
  prime := leBytes 32 frModulus
  nWires := 202
  nPubOut := 0
  nPubIn := 81
  nPrvIn := 81
  nLabels := 244
  nConstraints := 162
  constraints := sudokuTable.map IntCstr.toFile
  wire2label := sudokuLabels

/-- The three arrays of signals in the order of their labels (`sudoku.sym`, last column). -/
def sudokuSignalName (label : Nat) : Str :=
  if label < 82 then "main.puzzle[".toList ++ (natDec (label - 1) ++ [']'])
  else if label < 163 then "main.solution[".toList ++ (natDec (label - 82) ++ [']'])
  else "main.solutionSquared[".toList ++ (natDec (label - 163) ++ [']'])

/-- The wire of a signal, -1 if the compiler removed it (`sudoku.sym`, second column). -/
def sudokuWire (label : Nat) : Int := if label ∈ sudokuLabels then (sudokuLabels.idxOf label : Int) else -1

/-- A line of `sudoku.sym`. -/
def sudokuSymLine (label : Nat) : Str :=
  natDec label ++ ',' :: (intDec (sudokuWire label) ++ ',' :: ('0' :: ',' :: sudokuSignalName label))

/-- The text of `sudoku.sym`: one line per label from 1 to 243, each ended by a line feed. -/
def sudokuSym : Str := (List.range 243).flatMap fun i => sudokuSymLine (i + 1) ++ ['\\n']

end Zkenc''')
open('/verif/lean/Verif/Model/SudokuR1cs.lean','w').write('\n'.join(out)+'\n')
# certificates
P=lambda i:1+i
S=lambda i:82+i
Q=lambda i:163+i
units=[[r*9+c for c in range(9)] for r in range(9)]+[[r*9+c for r in range(9)] for c in range(9)]+\
  [[(b//3*3+i)*9+b%3*3+j for i in range(3) for j in range(3)] for b in range(9)]
def add(a,b,k=1):
    a=dict(a)
    for w,x in b.items():
        a[w]=a.get(w,0)+k*x
        if a[w]==0: del a[w]
    return a
lins=[]
for u in units:
    e={S(i):1 for i in u}; e[0]=-45; lins.append(e)
    e={Q(i):1 for i in u}; e[0]=-285; lins.append(e)
from fractions import Fraction
rem=[(dict(l),{k:Fraction(1)}) for k,l in enumerate(lins)]
piv={}
for e in elim:
    k=next(i for i,(l,_) in enumerate(rem) if l.get(e,0)!=0)
    l,x=rem.pop(k); f=Fraction(1)/l[e]
    l={w:y*f for w,y in l.items()}; x={w:y*f for w,y in x.items()}
    rem=[(add(l2,l,-l2.get(e,0)),add(c2,x,-l2.get(e,0))) for l2,c2 in rem]
    for e2 in piv:
        l2,c2=piv[e2]; piv[e2]=(add(l2,l,-l2.get(e,0)),add(c2,x,-l2.get(e,0)))
    piv[e]=(l,x)
assert all(not l for l,_ in rem)
out=['''import Verif.Model.Sudoku
/-!
# Elimination table for the compiled Sudoku circuit

GENERATED by `tools/gen_sudoku.py`. Proof data: checked in `Props/Sudoku.lean`, not trusted.
-/

namespace Zkenc

/-- A signal without a wire, its value in terms of signals with wires, and (number, factor) of linear constraints of the template. -/
structure ElimRow where
  sig : Nat
  expr : IntLc
  mult : List (Nat × Int)

/-- For every signal without a wire: the signal, its value as a combination of signals with wires, and the multiples of the linear constraints
of the template from which this follows. -/
def sudokuElim : List ElimRow := [''']
rows=[]
for e in elim:
    l,x=piv[e]
    ex=sorted((w,-y) for w,y in l.items() if w!=e)
    rows.append('  ⟨%d, %s, %s⟩'%(e,lc(ex),lc(sorted(x.items()))))
out.append(',\n'.join(rows)+']\n\nend Zkenc')
open('/verif/lean/Verif/Model/SudokuCert.lean','w').write('\n'.join(out)+'\n')
