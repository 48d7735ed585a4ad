exec(open(__import__("os").path.join(__import__("os").path.dirname(__import__("os").path.abspath(__file__)),"pratt.py")).read().replace("print(n,a,sorted(fs))","pass"))
out='''import Mathlib.NumberTheory.LucasPrimality
import Mathlib.Algebra.BigOperators.Associated
import Mathlib.Tactic.NormNum.Prime
/-!
# The BN254 scalar field is a prime field (Pratt certificate, checked by the kernel)

`ark_bn254::Fr` (used at packages/zkenc-cli/src/circuit.rs 9, packages/zkenc-js/src/lib.rs 9) is the integers modulo this number.
-/

namespace Zkenc

/-- Modulus of `ark_bn254::Fr`. -/
def frModulus : Nat :=
  %d

namespace Pratt

/-- `b ^ e %% m` by squaring, `e < 2 ^ fuel`. -/
def powMod (m : Nat) : Nat → Nat → Nat → Nat
  | 0, _, _ => 1 %% m
  | f + 1, b, e =>
    if e %% 2 = 1 then b * powMod m f (b * b %% m) (e / 2) %% m else powMod m f (b * b %% m) (e / 2)

theorem powMod_eq (m f b e : Nat) (h : e < 2 ^ f) : powMod m f b e = b ^ e %% m := by
  induction f generalizing b e with
  | zero =>
    have : e = 0 := by simpa using h
    simp [powMod, this]
  | succ f ih =>
    have h2 : e / 2 < 2 ^ f := by rw [pow_succ] at h; omega
    have hsq : (b * b %% m) ^ (e / 2) %% m = b ^ (2 * (e / 2)) %% m := by
      rw [← Nat.pow_mod, ← pow_two, ← pow_mul]
    simp only [powMod, ih _ _ h2, hsq]
    split
    · rename_i he
      rw [Nat.mul_mod, Nat.mod_mod, ← Nat.mul_mod, mul_comm, ← pow_succ]
      congr 2; omega
    · rename_i he
      congr 2; omega

theorem cert (n a fuel : Nat) (fs : List Nat) (hp : ∀ q ∈ fs, q.Prime) (h1 : 1 < n) (hprod : fs.prod = n - 1)
    (hfuel : n < 2 ^ fuel) (hpow : powMod n fuel a (n - 1) = 1)
    (hne : ∀ q ∈ fs, powMod n fuel a ((n - 1) / q) ≠ 1) : n.Prime := by
  have cast : ∀ e : Nat, ((a : ZMod n) ^ e = 1) ↔ a ^ e %% n = 1 := by
    intro e
    rw [← Nat.cast_pow, ← Nat.cast_one, ZMod.natCast_eq_natCast_iff, Nat.ModEq, Nat.mod_eq_of_lt h1]
  apply lucas_primality n (a : ZMod n)
  · rw [cast, ← powMod_eq _ fuel _ _ (by omega)]; exact hpow
  · intro q hq hd
    rw [Ne, cast, ← powMod_eq _ fuel _ _ (lt_of_le_of_lt (Nat.div_le_self _ _) (by omega))]
    apply hne
    rw [← hprod] at hd
    obtain ⟨x, hx, hqx⟩ := (Nat.Prime.prime hq).dvd_prod_iff.1 hd
    rw [(Nat.prime_dvd_prime_iff_eq hq (hp x hx)).1 hqx]
    exact hx

''' % p
def pn(n): return "prime_%d"%n
small=set()
for n,(a,fs,full) in done.items():
    for q in fs:
        if q<1000: small.add(q)
for q in sorted(small):
    out+="theorem %s : Nat.Prime %d := by norm_num\n"%(pn(q),q)
out+="\n"
for n,(a,fs,full) in done.items():
    fuel=n.bit_length()
    name = pn(n) if n!=p else "prime_fr"
    out+='''theorem %s : Nat.Prime %d := by
  refine cert %d %d %d [%s] ?_ (by decide) (by decide +kernel) (by decide +kernel) (by decide +kernel)
    (by decide +kernel)
  intro q hq
  simp only [List.mem_cons, List.not_mem_nil, or_false] at hq
  rcases hq with %s
'''%(name,n,n,a,fuel,", ".join(map(str,full)), " | ".join(["rfl"]*len(full)))
    for q in full: out+="  · exact %s\n"%pn(q)
    out+="\n"
out+='''end Pratt

theorem frModulus_prime : frModulus.Prime := Pratt.prime_fr

end Zkenc
'''
open('/verif/lean/Verif/Basic/FrPrime.lean','w').write(out)
