# Writes lean/Verif/Proofs/G1Cert.lean: slopes for computing (r-1)·(1,2) on y^2 = x^3 + 3 by doubling and adding.
import os
q=21888242871839275222246405745257275088696311157297823662689037894645226208583
r=21888242871839275222246405745257275088548364400416034343698204186575808495617
inv=lambda a:pow(a,-1,q)
x,y,n=1,2,1
steps=[]
for b in bin(r-1)[3:]:
    l=3*x*x*inv(2*y)%q
    x2=(l*l-2*x)%q; y=(l*(x-x2)-y)%q; x=x2; n*=2
    steps.append((False,l))
    if b=='1':
        l=(y-2)*inv(x-1)%q
        x2=(l*l-x-1)%q; y=(l*(x-x2)-y)%q; x=x2; n+=1
        steps.append((True,l))
assert (x,y,n)==(1,q-2,r-1)
out="""/-!
# Certificate: the slopes met when computing `(r - 1) · (1, 2)` on `y² = x³ + 3` by doubling and adding

Generated by tools/g1_order.py, checked in `Proofs/G1Order`. `(false, s)`: double, tangent of slope `s`; `(true, s)`: add `(1, 2)`, secant of slope `s`.
-/

namespace Zkenc

/-- The steps. -/
def g1Steps : List (Bool × Nat) :=
  [%s]

end Zkenc
"""%(",\n   ".join("(%s, %d)"%("true" if b else "false",l) for b,l in steps))
open(os.path.join(os.path.dirname(__file__),"../lean/Verif/Proofs/G1Cert.lean"),"w").write(out)
print(len(steps))
# checks used in the proofs
print(pow(-3,(q-1)//3,q)!=1, (q-1)%3)
