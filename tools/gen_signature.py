#!/usr/bin/env python3
"""Generates lean/Verif/Model/SignatureR1cs.lean from /repo/packages/zkenc-cli/tests/r1cs/signature.{r1cs,sym}: the constraints of the compiled
multi-signature circuit that concern the choice of the signers and the check of the chosen keys (data only).  Everything Spec/Signature.lean
says about the two files is checked here."""
import struct, os
D='/repo/packages/zkenc-cli/tests/r1cs/'
P=21888242871839275222246405745257275088548364400416034343698204186575808495617
d=open(D+'signature.r1cs','rb').read()
p=12;secs={}
for _ in range(struct.unpack('<I',d[8:12])[0]):
    t,s=struct.unpack('<IQ',d[p:p+12]);secs[t]=d[p+12:p+12+s];p+=12+s
assert p==len(d)
h=secs[1];fs=struct.unpack('<I',h[:4])[0];assert fs==32 and int.from_bytes(h[4:36],'little')==P
hd=struct.unpack('<IIIIQI',h[36:]);assert hd==(8449,0,7,8,42593,8443)
c=secs[2];q=0;cons=[]
for _ in range(hd[5]):
    row=[]
    for _ in range(3):
        n=struct.unpack('<I',c[q:q+4])[0];q+=4;l=[]
        for _ in range(n):
            w=struct.unpack('<I',c[q:q+4])[0];v=int.from_bytes(c[q+4:q+36],'little');q+=36
            assert v<P and w<hd[0]
            l.append((w,v if v<=P//2 else v-P))
        row.append(l)
    cons.append(row)
assert q==len(c)
sym={}
for l in open(D+'signature.sym'):
    a=l.rstrip('\n').split(',');assert len(a)==4
    assert a[3] not in sym; sym[a[3]]=int(a[1])
want={'main.message':1}
for i in range(3):
    for j in range(2): want['main.publicKeys[%d][%d]'%(i,j)]=2+2*i+j
for n,w in want.items(): assert sym[n]==w
# no other name has one of the wires 1 to 7
assert sorted(n for n,w in sym.items() if 1<=w<=7)==sorted(want)
for n in ('signerIndices[0]','signerIndices[1]'): assert sym['main.'+n]==14+int(n[-2])
for k in (0,1):
    assert sym['main.selectKey%d.Ax'%k]==19+12*k and sym['main.selectKey%d.Ay'%k]==20+12*k
pos=list(range(29))+list(range(295,307))+[1149]+list(range(4502,4514))+[5356]
name={w:n for n,w in sym.items() if w>0}
def lc(l): return '['+', '.join('(%d, %d)'%t for t in l)+']'
out=['''import Verif.Model.Sudoku
/-!
# Part of the compiled multi-signature circuit — `packages/zkenc-cli/tests/r1cs/signature.r1cs`, from `tests/circuits/signature.circom`

GENERATED by `tools/gen_signature.py` (data only): the constraints that concern the choice of the signers (signature.circom 57-84) and the
doubling of the chosen keys in the two verifiers (90-108). The other constraints (hashing, scalar multiplication) are not in the model.
-/

namespace Zkenc

/-- The checks of `MultiSig2of3` and `SelectPublicKey` themselves (signature.circom 57-84): (position in section 2 of `signature.r1cs`, constraint). Wire 1 is
`message`; 2-7 are `publicKeys`; 14 and 15 `signerIndices`; 19, 20 and 31, 32 the keys that the verifiers get (`selectKey0`, `selectKey1`). -/
def signatureOwnRules : List (Nat × IntCstr) := [''']
def rows(pos): return ',\n'.join('  (%d, ⟨%s, %s, %s⟩)'%((i,)+tuple(lc(x) for x in cons[i])) for i in pos)+']\n'
out.append(rows(pos[:29])+'''
/-- In the two verifiers (`EdDSAPoseidonVerifier`, signature.circom 87-107): the key is doubled twice and the result must not be zero. -/
def signatureVerifierRules : List (Nat × IntCstr) := [''')
out.append(rows(pos[29:])+'''
/-- The constraints of the model. -/
def signatureRules : List (Nat × IntCstr) := signatureOwnRules ++ signatureVerifierRules

end Zkenc
''')
open(os.path.join(os.path.dirname(os.path.abspath(__file__)),'..','lean/Verif/Model/SignatureR1cs.lean'),'w').write('\n'.join(out))
print(len(pos),'constraints')
