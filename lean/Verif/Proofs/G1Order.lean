import Mathlib.GroupTheory.Perm.Cycle.Type
import Mathlib.FieldTheory.Finite.Basic
import Verif.Proofs.Curve
import Verif.Proofs.G1Cert
/-!
# The curve `y² = x³ + 3` over `Fq` has exactly `r` points

`(1, 2)` has order `r` (by the certificate), there are at most `2q + 1 < 3r` points (one bit beside the `x`-coordinate distinguishes
them), and there is no point of order 2 because `-3` is not a cube.
-/

namespace Zkenc

open WeierstrassCurve.Affine

/-- One step of the certificate on numbers. -/
def g1Step (s : Bool × Nat) (p : Nat × Nat × Nat) : Option (Nat × Nat × Nat) :=
  let q := fqModulus
  let (n, x, y) := p
  let l := s.2
  if s.1 then
    if l * (x + (q - 1)) % q = (y + (q - 2)) % q ∧ (x + (q - 1)) % q ≠ 0 then
      let x' := (l * l + (2 * q - x - 1)) % q
      some (n + 1, x', (l * (x + (q - x')) + (q - y)) % q)
    else none
  else
    if l * (2 * y) % q = 3 * x * x % q ∧ 2 * y % q ≠ 0 then
      let x' := (l * l + 2 * (q - x)) % q
      some (2 * n, x', (l * (x + (q - x')) + (q - y)) % q)
    else none

/-- All steps. -/
def g1Run : List (Bool × Nat) → Nat × Nat × Nat → Option (Nat × Nat × Nat)
  | [], p => some p
  | s :: rest, p => (g1Step s p).bind (g1Run rest)

theorem g1Run_cert : g1Run g1Steps (1, 1, 2) = some (frModulus - 1, 1, fqModulus - 2) := by decide +kernel

theorem castNat_eq_iff (a b : Nat) : ((a : Fq) = (b : Fq)) ↔ a % fqModulus = b % fqModulus := by
  rw [ZMod.natCast_eq_natCast_iff]; rfl

theorem fq_two_ne : (2 : Fq) ≠ 0 := by
  have : ((2 : Nat) : Fq) ≠ ((0 : Nat) : Fq) := by rw [Ne, castNat_eq_iff]; decide
  exact_mod_cast this

theorem fq_three_ne : (3 : Fq) ≠ 0 := by
  have : ((3 : Nat) : Fq) ≠ ((0 : Nat) : Fq) := by rw [Ne, castNat_eq_iff]; decide
  exact_mod_cast this

theorem g1_nonsingular {x y : Fq} (h : y ^ 2 = x ^ 3 + 3) (hy : y ≠ 0) : (swCurve (3 : Fq)).Nonsingular x y := by
  rw [nonsingular_iff]
  refine ⟨(swEquation_iff 3 x y).2 h, .inr ?_⟩
  simp only [swCurve, zero_mul, sub_zero]
  intro hc
  have : 2 * y = 0 := by linear_combination hc
  rcases mul_eq_zero.1 this with h | h
  · exact fq_two_ne h
  · exact hy h

/-- The generator `(1, 2)` of `ark_bn254::G1`. -/
def g1Gen : G1Point := .some 1 2 (g1_nonsingular (by norm_num) fq_two_ne)

/-- `n · (1, 2) = (x, y)`. -/
def Rep (p : Nat × Nat × Nat) : Prop := p.2.1 < fqModulus ∧ p.2.2 < fqModulus ∧ ∃ h, p.1 • g1Gen = .some (p.2.1 : Fq) (p.2.2 : Fq) h

theorem point_some_congr {b : Fq} {x y x' y' : Fq} (h : (swCurve b).Nonsingular x y) (hx : x = x') (hy : y = y') :
    ∃ h', (Point.some x y h : (swCurve b).Point) = .some x' y' h' := by
  subst hx; subst hy; exact ⟨h, rfl⟩

theorem cast_sub_q {a : Nat} (h : a ≤ fqModulus) : ((fqModulus - a : Nat) : Fq) = -(a : Fq) := by
  rw [Nat.cast_sub h, ZMod.natCast_self, zero_sub]

theorem step_rep (s : Bool × Nat) (p p' : Nat × Nat × Nat) (hr : Rep p) (h : g1Step s p = some p') : Rep p' := by
  obtain ⟨n, x, y⟩ := p
  obtain ⟨b, l⟩ := s
  obtain ⟨hx, hy, hns, hn⟩ := hr
  simp only at hx hy hns hn
  have hq0 : 0 < fqModulus := fqModulus_prime.pos
  have hq2 : 2 < fqModulus := by decide
  cases b with
  | false =>
    simp only [g1Step] at h
    rw [if_neg (by simp)] at h
    split at h
    · rename_i hc
      obtain ⟨h1, h2⟩ := hc
      simp only [Option.some.injEq] at h
      subst h
      refine ⟨Nat.mod_lt _ hq0, Nat.mod_lt _ hq0, ?_⟩
      have h1' : (l : Fq) * (2 * y) = 3 * x * x := by
        have := (castNat_eq_iff (l * (2 * y)) (3 * x * x)).2 h1
        push_cast at this
        exact this
      have h2' : (2 : Fq) * y ≠ 0 := by
        have : ((2 * y : Nat) : Fq) ≠ ((0 : Nat) : Fq) := by rw [Ne, castNat_eq_iff]; simpa using h2
        push_cast at this
        exact this
      have hneg : (y : Fq) ≠ (swCurve (3 : Fq)).negY x y := by
        simp only [negY, swCurve]
        intro hc
        exact h2' (by linear_combination hc)
      have hslope : (swCurve (3 : Fq)).slope x x y y = (l : Fq) := by
        rw [slope_of_Y_ne rfl hneg]
        rw [div_eq_iff (sub_ne_zero.2 hneg)]
        simp only [negY, swCurve]
        linear_combination -h1'
      simp only
      have e2n : 2 * n = n + n := by omega
      rw [e2n, add_smul, hn, Point.add_self_of_Y_ne hneg]
      have hx' : (swCurve (3 : Fq)).addX (x : Fq) (x : Fq) ((swCurve (3 : Fq)).slope x x y y) =
          (((l * l + 2 * (fqModulus - x)) % fqModulus : Nat) : Fq) := by
        rw [hslope, ZMod.natCast_mod]
        push_cast
        rw [cast_sub_q hx.le]
        simp only [addX, swCurve]
        ring
      refine point_some_congr _ hx' ?_
      rw [ZMod.natCast_mod]
      rw [Nat.cast_add, Nat.cast_mul, Nat.cast_add, cast_sub_q hy.le, cast_sub_q (Nat.mod_lt _ hq0).le, ← hx']
      simp only [addY, negAddY, negY]
      rw [hslope]
      simp only [swCurve]
      ring
    · cases h
  | true =>
    simp only [g1Step] at h
    rw [if_pos trivial] at h
    split at h
    · rename_i hc
      obtain ⟨h1, h2⟩ := hc
      simp only [Option.some.injEq] at h
      subst h
      refine ⟨Nat.mod_lt _ hq0, Nat.mod_lt _ hq0, ?_⟩
      have h1' : (l : Fq) * (x - 1) = y - 2 := by
        have := (castNat_eq_iff _ _).2 h1
        rw [Nat.cast_mul, Nat.cast_add, Nat.cast_add, cast_sub_q (by omega), cast_sub_q (by omega)] at this
        push_cast at this
        linear_combination this
      have h2' : (x : Fq) ≠ 1 := by
        have : ((x + (fqModulus - 1) : Nat) : Fq) ≠ ((0 : Nat) : Fq) := by rw [Ne, castNat_eq_iff]; simpa using h2
        rw [Nat.cast_add, cast_sub_q (by omega)] at this
        push_cast at this
        intro hc
        exact this (by rw [hc]; ring)
      have hslope : (swCurve (3 : Fq)).slope x 1 y 2 = (l : Fq) := by
        rw [slope_of_X_ne h2']
        rw [div_eq_iff (sub_ne_zero.2 h2')]
        exact h1'.symm
      simp only
      rw [add_smul, one_smul, hn, g1Gen, Point.add_of_X_ne h2']
      have hx' : (swCurve (3 : Fq)).addX (x : Fq) 1 ((swCurve (3 : Fq)).slope x 1 y 2) =
          (((l * l + (2 * fqModulus - x - 1)) % fqModulus : Nat) : Fq) := by
        have e : 2 * fqModulus - x - 1 = (fqModulus - x) + (fqModulus - 1) := by omega
        rw [hslope, ZMod.natCast_mod, e, Nat.cast_add, Nat.cast_add, cast_sub_q hx.le, cast_sub_q (by omega)]
        push_cast
        simp only [addX, swCurve]
        ring
      refine point_some_congr _ hx' ?_
      rw [ZMod.natCast_mod]
      rw [Nat.cast_add, Nat.cast_mul, Nat.cast_add, cast_sub_q hy.le, cast_sub_q (Nat.mod_lt _ hq0).le, ← hx']
      simp only [addY, negAddY, negY]
      rw [hslope]
      simp only [swCurve]
      ring
    · cases h

theorem run_rep (l : List (Bool × Nat)) (p p' : Nat × Nat × Nat) (hr : Rep p) (h : g1Run l p = some p') : Rep p' := by
  induction l generalizing p with
  | nil =>
    simp only [g1Run, Option.some.injEq] at h
    exact h ▸ hr
  | cons s l ih =>
    simp only [g1Run, Option.bind_eq_some_iff] at h
    obtain ⟨p1, h1, h2⟩ := h
    exact ih p1 (step_rep s p p1 hr h1) h2

theorem g1Gen_smul : frModulus • g1Gen = 0 := by
  have h1 : Rep (1, 1, 2) := by
    refine ⟨by decide, by decide, ?_⟩
    simp only [one_smul]
    have e1 : ((1 : Nat) : Fq) = 1 := by norm_num
    have e2 : ((2 : Nat) : Fq) = 2 := by norm_num
    exact point_some_congr _ e1.symm e2.symm
  obtain ⟨-, -, hns, h⟩ := run_rep _ _ _ h1 g1Run_cert
  simp only at h
  have hr : frModulus = (frModulus - 1) + 1 := by decide
  rw [hr, add_smul, one_smul, h, g1Gen]
  refine Point.add_of_Y_eq (by norm_num) ?_
  rw [cast_sub_q (by decide)]
  simp only [negY, swCurve]
  push_cast
  ring

theorem g1Gen_order : addOrderOf g1Gen = frModulus :=
  addOrderOf_eq_prime g1Gen_smul (Point.some_ne_zero _)

/-- `-3` is not a cube. -/
theorem fq_no_cube (x : Fq) : x ^ 3 + 3 ≠ 0 := by
  intro h
  have hx3 : x ^ 3 = -3 := by linear_combination h
  have hx0 : x ≠ 0 := by
    rintro rfl
    apply fq_three_ne
    linear_combination h
  have h1 : x ^ (fqModulus - 1) = 1 := ZMod.pow_card_sub_one_eq_one hx0
  have e : fqModulus - 1 = 3 * ((fqModulus - 1) / 3) := by decide +kernel
  rw [e, pow_mul, hx3] at h1
  have h3 : (-3 : Fq) = ((fqModulus - 3 : Nat) : Fq) := by rw [cast_sub_q (by decide)]; norm_num
  have one : (1 : Fq) = ((1 : Nat) : Fq) := by norm_num
  rw [h3, ← Nat.cast_pow, one, castNat_eq_iff, ← Pratt.powMod_eq _ 254 _ _ (by decide +kernel)] at h1
  revert h1
  decide +kernel

theorem g1_no_two_torsion (P : G1Point) (h : 2 • P = 0) : P = 0 := by
  cases P with
  | zero => rfl
  | some x y hns =>
    exfalso
    rw [two_smul, add_eq_zero_iff_eq_neg, Point.neg_some, Point.some.injEq] at h
    have hy : y = -y := by simpa [negY, swCurve] using h.2
    have hy0 : y = 0 := by
      have : 2 * y = 0 := by linear_combination hy
      exact (mul_eq_zero.1 this).resolve_left fq_two_ne
    have := (swEquation_iff 3 x y).1 hns.1
    rw [hy0] at this
    exact fq_no_cube x (by rw [← this]; ring)

/-- One bit and the `x`-coordinate determine a finite point. -/
def g1Key : G1Point → Option (Fq × Bool)
  | .zero => none
  | .some x y _ => some (x, decide (yFlag fqCoord y = .yPos))

theorem g1Key_injective : Function.Injective g1Key := by
  intro P Q h
  apply swEnc_injective fqCoord_lawful
  cases P <;> cases Q <;> simp only [g1Key, reduceCtorEq, Option.some.injEq, Prod.mk.injEq, decide_eq_decide] at h
  · rfl
  · rename_i x y _ x' y' _
    obtain ⟨rfl, h2⟩ := h
    simp only [swEnc]
    have : yFlag fqCoord y = yFlag fqCoord y' := by
      unfold yFlag at h2 ⊢
      split at h2 <;> split at h2 <;> simp_all
    rw [this]

instance : Finite G1Point := Finite.of_injective g1Key g1Key_injective

theorem g1_card : Nat.card G1Point = frModulus := by
  have hle : Nat.card G1Point ≤ 2 * fqModulus + 1 := by
    have := Nat.card_le_card_of_injective g1Key g1Key_injective
    rw [Finite.card_option, Nat.card_prod, Nat.card_zmod, Nat.card_eq_fintype_card (α := Bool), Fintype.card_bool] at this
    omega
  have hd : frModulus ∣ Nat.card G1Point := g1Gen_order ▸ addOrderOf_dvd_natCard g1Gen
  have hpos : 0 < Nat.card G1Point := Nat.card_pos
  obtain ⟨k, hk⟩ := hd
  have h3 : 2 * fqModulus + 1 < frModulus * 3 := by decide
  have hk3 : k < 3 := by
    by_contra hc
    have : frModulus * 3 ≤ frModulus * k := Nat.mul_le_mul_left _ (by omega)
    omega
  have hk0 : k ≠ 0 := by rintro rfl; omega
  have hk2 : k ≠ 2 := by
    rintro rfl
    have h2 : 2 ∣ Nat.card G1Point := by
      rw [hk]
      exact Nat.dvd_mul_left 2 frModulus
    obtain ⟨P, hP⟩ := exists_prime_addOrderOf_dvd_card' (G := G1Point) 2 h2
    have h0 := g1_no_two_torsion P (by rw [← hP]; exact addOrderOf_nsmul_eq_zero P)
    rw [h0, addOrderOf_zero] at hP
    omega
  have : k = 1 := by omega
  rw [hk, this, mul_one]

theorem g1_torsion (P : G1Point) : frModulus • P = 0 := by
  rw [← g1_card]
  exact card_nsmul_eq_zero'

end Zkenc
