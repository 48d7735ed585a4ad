# Writes lean/Verif/Basic/FqPrime.lean: Pratt certificate of the BN254 base field modulus.
import os,sys,re
src=open(os.path.join(os.path.dirname(__file__),"pratt.py")).read().replace(
 "p=21888242871839275222246405745257275088548364400416034343698204186575808495617",
 "p=21888242871839275222246405745257275088696311157297823662689037894645226208583")
exec(src)
have=set(int(x) for x in re.findall(r"theorem prime_(\d+)",open(os.path.join(os.path.dirname(__file__),"../lean/Verif/Basic/FrPrime.lean")).read()))
out=["""import Verif.Basic.FrPrime
/-!
# The BN254 base field is a prime field (Pratt certificate, checked by the kernel; generated by tools/pratt_fq.py)

`ark_bn254::Fq`: coordinates of the points in a ciphertext (packages/zkenc-core/src/data_structures.rs 17-39 with `E = Bn254`).
-/

namespace Zkenc

/-- Modulus of `ark_bn254::Fq`. -/
def fqModulus : Nat :=
  %d

namespace Pratt
"""%p]
small=set()
for n in done:
    for q in done[n][1]:
        if q not in done and q not in have: small.add(q)
for q in sorted(small): out.append("theorem prime_%d : Nat.Prime %d := by norm_num"%(q,q))
out.append("")
for n in done:
    if n in have: continue
    a,qs,fs=done[n]
    nm="prime_%d"%n if n!=p else "prime_fq"
    k=n.bit_length()
    out.append("theorem %s : Nat.Prime %s := by\n  refine cert %s %d %d %s ?_ (by decide +kernel) (by decide +kernel) (by decide +kernel) (by decide +kernel)\n    (by decide +kernel)"%(nm,n if n!=p else "fqModulus",n if n!=p else "fqModulus",a,k,fs))
    out.append("  intro q hq\n  simp only [List.mem_cons, List.not_mem_nil, or_false] at hq")
    out.append("  rcases hq with "+" | ".join(["rfl"]*len(fs)))
    for q in fs: out.append("  · exact prime_%d"%q)
    out.append("")
out.append("end Pratt\n\ntheorem fqModulus_prime : fqModulus.Prime := Pratt.prime_fq\n\nend Zkenc")
open(os.path.join(os.path.dirname(__file__),"../lean/Verif/Basic/FqPrime.lean"),"w").write("\n".join(out)+"\n")
