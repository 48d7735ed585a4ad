# Writes lean/Verif/Proofs/G2Cert.lean: slopes for computing (r-1)·G2 and (10069-1)·Q on the twist of BN254 by doubling and adding.
import os
q=21888242871839275222246405745257275088696311157297823662689037894645226208583
r=21888242871839275222246405745257275088548364400416034343698204186575808495617
def mul(a,b): return ((a[0]*b[0]-a[1]*b[1])%q,(a[0]*b[1]+a[1]*b[0])%q)
def sub(a,b): return ((a[0]-b[0])%q,(a[1]-b[1])%q)
def add(a,b): return ((a[0]+b[0])%q,(a[1]+b[1])%q)
def inv(a):
    n=pow(a[0]*a[0]+a[1]*a[1],-1,q); return (a[0]*n%q,-a[1]*n%q)
def sc(k,a): return (k*a[0]%q,k*a[1]%q)
B=(19485874751759354771024239261021720505790618469301721065564631296452457478373,266929791119991161246907387137283842545076965332900288569378510910307636690)
assert mul(B,(9,1))==(3,0)
def dbl(P):
    if P is None: return None,None
    x,y=P
    if y==(0,0): return None,None
    l=mul(sc(3,mul(x,x)),inv(sc(2,y))); x2=sub(mul(l,l),sc(2,x)); return (x2,sub(mul(l,sub(x,x2)),y)),l
def padd(P,Q):
    if P is None: return Q,None
    if Q is None: return P,None
    if P[0]==Q[0]:
        return dbl(P) if P[1]==Q[1] else (None,None)
    l=mul(sub(P[1],Q[1]),inv(sub(P[0],Q[0]))); x2=sub(sub(mul(l,l),P[0]),Q[0]); return (x2,sub(mul(l,sub(P[0],x2)),P[1])),l
def smul(k,P):
    R=None
    for b in bin(k)[2:]:
        R=dbl(R)[0]
        if b=='1': R=padd(R,P)[0]
    return R
def cert(k,P):
    R=P; st=[]
    for b in bin(k)[3:]:
        R,l=dbl(R); st.append((False,l)); assert l
        if b=='1':
            R,l=padd(R,P); st.append((True,l)); assert l
    assert R==(P[0],sub((0,0),P[1]))
    return st
G=((10857046999023057135944570762232829481370756359578518086990519993285655852781,11559732032986387107991004021392285783925812861821192530917403151452391805634),
   (8495653923123431417604973247489272438418190587263600148770280649306958101930,4082367875863433681332203403145435568316851327593401208105741076214120093531))
def oncurve(P): return mul(P[1],P[1])==add(mul(P[0],mul(P[0],P[0])),B)
assert oncurve(G) and smul(r,G) is None
c=2*q-r
assert c%10069==0
def fsqrt(a):
    s=pow(a,(q+1)//4,q); return s if s*s%q==a%q else None
def sqrt2(a):
    # complex method
    n=fsqrt((a[0]*a[0]+a[1]*a[1])%q)
    if n is None: return None
    for d in ((a[0]+n),(a[0]-n)):
        t=fsqrt(d*pow(2,-1,q)%q)
        if t:
            s=(t,a[1]*pow(2*t,-1,q)%q)
            if mul(s,s)==a: return s
    return None
i=1
while True:
    x=(i,0); y=sqrt2(add(mul(x,mul(x,x)),B)); i+=1
    if y is None: continue
    P=(x,y); assert oncurve(P)
    assert smul(r*c,P) is None
    Q=smul(r*c//10069,P)
    if Q is not None: break
assert smul(10069,Q) is None
def fmt(st): return ",\n   ".join("(%s, (%d, %d))"%("true" if b else "false",l[0],l[1]) for b,l in st)
def pt(P): return "((%d, %d), (%d, %d))"%(P[0]+P[1])
out="""/-!
# Certificates: the slopes met when computing multiples of two points of the twist of BN254 by doubling and adding

Generated by tools/g2_order.py, checked in `Proofs/G2Order`. `(false, s)`: double, tangent of slope `s`; `(true, s)`: add the point, secant of slope `s`.
-/

namespace Zkenc

/-- The generator of `ark_bn254::G2`: `(x, y)`, each as `(c0, c1)`. -/
def g2GenCoords : (Nat × Nat) × (Nat × Nat) := %s

/-- The steps to `r - 1` times it. -/
def g2Steps : List (Bool × (Nat × Nat)) :=
  [%s]

/-- A point of the twist of order 10069. -/
def strayCoords : (Nat × Nat) × (Nat × Nat) := %s

/-- The steps to `10068` times it. -/
def straySteps : List (Bool × (Nat × Nat)) :=
  [%s]

end Zkenc
"""%(pt(G),fmt(cert(r-1,G)),pt(Q),fmt(cert(10068,Q)))
open(os.path.join(os.path.dirname(os.path.abspath(__file__)),"../lean/Verif/Proofs/G2Cert.lean"),"w").write(out)
