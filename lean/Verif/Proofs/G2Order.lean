import Verif.Proofs.G1Order
import Verif.Proofs.G2Cert
/-!
# Points of the twist of BN254

The generator of `ark_bn254::G2` has order `r`, so the second group is not trivial; and there is a point of the twist of order 10069, outside
the subgroup of order `r`.
-/

namespace Zkenc

open WeierstrassCurve.Affine

/-- Elements of `Fq2` as pairs of numbers. -/
abbrev N2 := Nat × Nat

namespace N2

def neg1 (a : Nat) : Nat := fqModulus - a % fqModulus

def mul (a b : N2) : N2 := ((a.1 * b.1 + neg1 (a.2 * b.2)) % fqModulus, (a.1 * b.2 + a.2 * b.1) % fqModulus)

def sub (a b : N2) : N2 := ((a.1 + neg1 b.1) % fqModulus, (a.2 + neg1 b.2) % fqModulus)

def dbl (a : N2) : N2 := (2 * a.1 % fqModulus, 2 * a.2 % fqModulus)

def tri (a : N2) : N2 := (3 * a.1 % fqModulus, 3 * a.2 % fqModulus)

def toFq2 (a : N2) : Fq2 := ⟨(a.1 : Fq), (a.2 : Fq)⟩

theorem cast_neg1 (a : Nat) : ((neg1 a : Nat) : Fq) = -(a : Fq) := by
  unfold neg1
  rw [cast_sub_q (Nat.mod_lt _ fqModulus_prime.pos).le, ZMod.natCast_mod]

theorem cast_mul (a b : N2) : toFq2 (mul a b) = toFq2 a * toFq2 b := by
  refine QuadraticAlgebra.ext ?_ ?_
  · simp only [toFq2, mul, ZMod.natCast_mod, QuadraticAlgebra.re_mul]
    rw [Nat.cast_add, cast_neg1]; push_cast; ring
  · simp only [toFq2, mul, ZMod.natCast_mod, QuadraticAlgebra.im_mul]
    push_cast; ring

theorem cast_sub (a b : N2) : toFq2 (sub a b) = toFq2 a - toFq2 b := by
  refine QuadraticAlgebra.ext ?_ ?_
  · simp only [toFq2, sub, ZMod.natCast_mod, QuadraticAlgebra.re_sub]
    rw [Nat.cast_add, cast_neg1]; ring
  · simp only [toFq2, sub, ZMod.natCast_mod, QuadraticAlgebra.im_sub]
    rw [Nat.cast_add, cast_neg1]; ring

theorem cast_dbl (a : N2) : toFq2 (dbl a) = toFq2 a + toFq2 a := by
  refine QuadraticAlgebra.ext ?_ ?_ <;> simp only [toFq2, dbl, ZMod.natCast_mod, QuadraticAlgebra.re_add, QuadraticAlgebra.im_add] <;> push_cast <;> ring

theorem cast_tri (a : N2) : toFq2 (tri a) = toFq2 a + toFq2 a + toFq2 a := by
  refine QuadraticAlgebra.ext ?_ ?_ <;> simp only [toFq2, tri, ZMod.natCast_mod, QuadraticAlgebra.re_add, QuadraticAlgebra.im_add] <;> push_cast <;> ring

/-- Not zero modulo `q`. -/
def Nz (a : N2) : Prop := ¬ (a.1 % fqModulus = 0 ∧ a.2 % fqModulus = 0)

instance (a : N2) : Decidable (Nz a) := inferInstanceAs (Decidable (¬ _))

theorem cast_nz {a : N2} (h : Nz a) : toFq2 a ≠ 0 := by
  intro hc
  apply h
  have h1 := congrArg QuadraticAlgebra.re hc
  have h2 := congrArg QuadraticAlgebra.im hc
  simp only [toFq2, QuadraticAlgebra.re_zero, QuadraticAlgebra.im_zero] at h1 h2
  constructor
  · have := (castNat_eq_iff a.1 0).1 (by rw [h1]; simp)
    simpa using this
  · have := (castNat_eq_iff a.2 0).1 (by rw [h2]; simp)
    simpa using this

end N2

open N2

/-- One step on numbers. -/
def g2Step (B : N2 × N2) (s : Bool × N2) (p : Nat × N2 × N2) : Option (Nat × N2 × N2) :=
  let (n, x, y) := p
  let l := s.2
  if s.1 then
    let dx := N2.sub x B.1
    if mul l dx = N2.sub y B.2 ∧ Nz dx then
      let x' := N2.sub (N2.sub (mul l l) x) B.1
      some (n + 1, x', N2.sub (mul l (N2.sub x x')) y)
    else none
  else
    if mul l (dbl y) = tri (mul x x) ∧ Nz (dbl y) then
      let x' := N2.sub (mul l l) (dbl x)
      some (2 * n, x', N2.sub (mul l (N2.sub x x')) y)
    else none

/-- All steps. -/
def g2Run (B : N2 × N2) : List (Bool × N2) → Nat × N2 × N2 → Option (Nat × N2 × N2)
  | [], p => some p
  | s :: rest, p => (g2Step B s p).bind (g2Run B rest)

theorem g2Run_cert : g2Run g2GenCoords g2Steps (1, g2GenCoords.1, g2GenCoords.2) =
    some (frModulus - 1, g2GenCoords.1, N2.sub (0, 0) g2GenCoords.2) := by decide +kernel

theorem strayRun_cert : g2Run strayCoords straySteps (1, strayCoords.1, strayCoords.2) =
    some (10068, strayCoords.1, N2.sub (0, 0) strayCoords.2) := by decide +kernel

/-- `n · P = (x, y)`. -/
def Rep2 (P : TwistPoint) (p : Nat × N2 × N2) : Prop := ∃ h, p.1 • P = .some (toFq2 p.2.1) (toFq2 p.2.2) h

theorem point_some_congr2 {x y x' y' : Fq2} (h : (swCurve g2CoeffB).Nonsingular x y) (hx : x = x') (hy : y = y') :
    ∃ h', (Point.some x y h : TwistPoint) = .some x' y' h' := by
  subst hx; subst hy; exact ⟨h, rfl⟩

theorem step_rep2 (B : N2 × N2) {hB : (swCurve g2CoeffB).Nonsingular (toFq2 B.1) (toFq2 B.2)} (s : Bool × N2) (p p' : Nat × N2 × N2)
    (hr : Rep2 (.some _ _ hB) p) (h : g2Step B s p = some p') : Rep2 (.some _ _ hB) p' := by
  obtain ⟨n, x, y⟩ := p
  obtain ⟨b, l⟩ := s
  obtain ⟨hns, hn⟩ := hr
  simp only at hns hn
  cases b with
  | false =>
    simp only [g2Step] at h
    rw [if_neg (by simp)] at h
    split at h
    · rename_i hc
      obtain ⟨h1, h2⟩ := hc
      simp only [Option.some.injEq] at h
      subst h
      have h1' := congrArg toFq2 h1
      rw [cast_mul, cast_dbl, cast_tri, cast_mul] at h1'
      have h2' := cast_nz h2
      rw [cast_dbl] at h2'
      have hneg : toFq2 y ≠ (swCurve g2CoeffB).negY (toFq2 x) (toFq2 y) := by
        simp only [negY, swCurve]
        intro hc
        exact h2' (by linear_combination hc)
      have hslope : (swCurve g2CoeffB).slope (toFq2 x) (toFq2 x) (toFq2 y) (toFq2 y) = toFq2 l := by
        rw [slope_of_Y_ne rfl hneg]
        rw [div_eq_iff (sub_ne_zero.2 hneg)]
        simp only [negY, swCurve]
        linear_combination -h1'
      simp only [Rep2]
      have e2n : 2 * n = n + n := by omega
      rw [e2n, add_smul, hn, Point.add_self_of_Y_ne hneg]
      have hx' : (swCurve g2CoeffB).addX (toFq2 x) (toFq2 x) ((swCurve g2CoeffB).slope (toFq2 x) (toFq2 x) (toFq2 y) (toFq2 y)) =
          toFq2 (N2.sub (mul l l) (dbl x)) := by
        rw [hslope, cast_sub, cast_mul, cast_dbl]
        simp only [addX, swCurve]
        ring
      refine point_some_congr2 _ hx' ?_
      rw [cast_sub, cast_mul, cast_sub, ← hx']
      simp only [addY, negAddY, negY]
      rw [hslope]
      simp only [swCurve]
      ring
    · cases h
  | true =>
    simp only [g2Step] at h
    rw [if_pos trivial] at h
    split at h
    · rename_i hc
      obtain ⟨h1, h2⟩ := hc
      simp only [Option.some.injEq] at h
      subst h
      have h1' := congrArg toFq2 h1
      rw [cast_mul, cast_sub, cast_sub] at h1'
      have h2' := cast_nz h2
      rw [cast_sub, sub_ne_zero] at h2'
      have hslope : (swCurve g2CoeffB).slope (toFq2 x) (toFq2 B.1) (toFq2 y) (toFq2 B.2) = toFq2 l := by
        rw [slope_of_X_ne h2']
        rw [div_eq_iff (sub_ne_zero.2 h2')]
        exact h1'.symm
      simp only [Rep2]
      rw [add_smul, one_smul, hn, Point.add_of_X_ne h2']
      have hx' : (swCurve g2CoeffB).addX (toFq2 x) (toFq2 B.1) ((swCurve g2CoeffB).slope (toFq2 x) (toFq2 B.1) (toFq2 y) (toFq2 B.2)) =
          toFq2 (N2.sub (N2.sub (mul l l) x) B.1) := by
        rw [hslope, cast_sub, cast_sub, cast_mul]
        simp only [addX, swCurve]
        ring
      refine point_some_congr2 _ hx' ?_
      rw [cast_sub, cast_mul, cast_sub, ← hx']
      simp only [addY, negAddY, negY]
      rw [hslope]
      simp only [swCurve]
      ring
    · cases h

theorem run_rep2 (B : N2 × N2) {hB : (swCurve g2CoeffB).Nonsingular (toFq2 B.1) (toFq2 B.2)} (l : List (Bool × N2)) (p p' : Nat × N2 × N2)
    (hr : Rep2 (.some _ _ hB) p) (h : g2Run B l p = some p') : Rep2 (.some _ _ hB) p' := by
  induction l generalizing p with
  | nil =>
    simp only [g2Run, Option.some.injEq] at h
    exact h ▸ hr
  | cons s l ih =>
    simp only [g2Run, Option.bind_eq_some_iff] at h
    obtain ⟨p1, h1, h2⟩ := h
    exact ih p1 (step_rep2 B s p p1 hr h1) h2

/-- A run from `P` to `-P` in `n` shows `(n + 1) · P = 0`. -/
theorem smul_of_run (B : N2 × N2) {hB : (swCurve g2CoeffB).Nonsingular (toFq2 B.1) (toFq2 B.2)} (l : List (Bool × N2)) (n : Nat)
    (h : g2Run B l (1, B.1, B.2) = some (n, B.1, N2.sub (0, 0) B.2)) : (n + 1) • (Point.some _ _ hB : TwistPoint) = 0 := by
  obtain ⟨hns, h⟩ := run_rep2 B (hB := hB) _ _ _ ⟨hB, by rw [one_smul]⟩ h
  simp only at h
  rw [add_smul, one_smul, h]
  refine Point.add_of_Y_eq rfl ?_
  rw [cast_sub]
  simp only [negY, swCurve]
  have : toFq2 (0, 0) = 0 := by simp [toFq2, QuadraticAlgebra.ext_iff]
  rw [this]
  ring

theorem fq2_two_ne : (2 : Fq2) ≠ 0 := by
  intro h
  have := congrArg QuadraticAlgebra.re h
  exact fq_two_ne this

theorem twist_nonsingular {x y : Fq2} (h : y ^ 2 = x ^ 3 + g2CoeffB) (hy : y ≠ 0) : (swCurve g2CoeffB).Nonsingular x y := by
  rw [nonsingular_iff]
  refine ⟨(swEquation_iff _ x y).2 h, .inr ?_⟩
  simp only [swCurve, zero_mul, sub_zero]
  intro hc
  have : 2 * y = 0 := by linear_combination hc
  rcases mul_eq_zero.1 this with h | h
  · exact fq2_two_ne h
  · exact hy h

/-- `y² - x³ - b = 0` on numbers. -/
def onTwist (P : N2 × N2) : Prop :=
  N2.sub (mul P.2 P.2) (mul P.1 (mul P.1 P.1)) =
    (19485874751759354771024239261021720505790618469301721065564631296452457478373,
     266929791119991161246907387137283842545076965332900288569378510910307636690) ∧ Nz P.2

instance (P : N2 × N2) : Decidable (onTwist P) := inferInstanceAs (Decidable (_ ∧ _))

theorem twist_of_num {P : N2 × N2} (h : onTwist P) : (swCurve g2CoeffB).Nonsingular (toFq2 P.1) (toFq2 P.2) := by
  refine twist_nonsingular ?_ (cast_nz h.2)
  have := congrArg toFq2 h.1
  rw [cast_sub, cast_mul, cast_mul, cast_mul] at this
  have hb : toFq2 (19485874751759354771024239261021720505790618469301721065564631296452457478373,
     266929791119991161246907387137283842545076965332900288569378510910307636690) = g2CoeffB := by
    simp only [toFq2, g2CoeffB]
    congr 1 <;> norm_num
  rw [hb] at this
  linear_combination this

theorem onTwist_gen : onTwist g2GenCoords := by decide +kernel
theorem onTwist_stray : onTwist strayCoords := by decide +kernel

/-- The generator of `ark_bn254::G2` as a point of the twist. -/
def g2GenPoint : TwistPoint := .some (toFq2 g2GenCoords.1) (toFq2 g2GenCoords.2) (twist_of_num onTwist_gen)

theorem g2Gen_smul : frModulus • g2GenPoint = 0 := by
  have h : (frModulus - 1 + 1) • g2GenPoint = 0 := smul_of_run g2GenCoords (hB := twist_of_num onTwist_gen) _ _ g2Run_cert
  rw [Nat.sub_add_cancel frModulus_prime.one_le] at h
  exact h

/-- The generator of `ark_bn254::G2`. -/
def g2Gen : G2Point := ⟨g2GenPoint, (mem_g2Subgroup _).2 g2Gen_smul⟩

theorem g2Gen_order : addOrderOf g2Gen = frModulus := by
  refine addOrderOf_eq_prime (Subtype.ext g2Gen_smul) fun h => ?_
  exact Point.some_ne_zero _ (congrArg Subtype.val h)

/-- A point of the twist of order 10069. -/
def strayPoint : TwistPoint := .some (toFq2 strayCoords.1) (toFq2 strayCoords.2) (twist_of_num onTwist_stray)

theorem stray_smul : frModulus • strayPoint ≠ 0 := by
  intro h1
  have h2 := smul_of_run strayCoords (hB := twist_of_num onTwist_stray) _ _ strayRun_cert
  have hg : Nat.gcd frModulus (10068 + 1) = 1 := by decide
  have h3 := Nat.dvd_gcd (addOrderOf_dvd_of_nsmul_eq_zero h1) (addOrderOf_dvd_of_nsmul_eq_zero h2)
  rw [hg, Nat.dvd_one, AddMonoid.addOrderOf_eq_one_iff] at h3
  exact Point.some_ne_zero _ h3

end Zkenc
