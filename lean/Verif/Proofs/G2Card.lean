import Mathlib.LinearAlgebra.FiniteDimensional.Basic
import Mathlib.FieldTheory.Finiteness
import Verif.Model.CurveCodec
import Verif.Proofs.G2Order
/-!
# The second group has exactly `r` elements

Its order is a power `r^k` of `r` dividing the number of points of the twist, which is also divisible by 10069 and at most `2q² + 1`.
-/

namespace Zkenc

open WeierstrassCurve.Affine

/-- One bit and the `x`-coordinate determine a finite point. -/
def twistKey : TwistPoint → Option ((Fq × Fq) × Bool)
  | .zero => none
  | .some x y _ => some ((x.re, x.im), decide (yFlag fq2Coord y = .yPos))

theorem twistKey_injective : Function.Injective twistKey := by
  intro P Q h
  apply swEnc_injective fq2Coord_lawful
  cases P <;> cases Q <;> simp only [twistKey, reduceCtorEq, Option.some.injEq, Prod.mk.injEq, decide_eq_decide] at h
  · rfl
  · rename_i x y _ x' y' _
    obtain ⟨⟨h0, h1⟩, h2⟩ := h
    have hx : x = x' := QuadraticAlgebra.ext h0 h1
    subst hx
    simp only [swEnc]
    have : yFlag fq2Coord y = yFlag fq2Coord y' := by
      unfold yFlag at h2 ⊢
      split at h2 <;> split at h2 <;> simp_all
    rw [this]

instance : Finite TwistPoint := Finite.of_injective twistKey twistKey_injective

theorem twist_card_le : Nat.card TwistPoint ≤ 2 * (fqModulus * fqModulus) + 1 := by
  have := Nat.card_le_card_of_injective twistKey twistKey_injective
  rw [Finite.card_option, Nat.card_prod, Nat.card_prod, Nat.card_zmod, Nat.card_eq_fintype_card (α := Bool), Fintype.card_bool] at this
  omega

theorem stray_order : addOrderOf strayPoint = 10069 := by
  haveI : Fact (Nat.Prime 10069) := ⟨by norm_num⟩
  exact addOrderOf_eq_prime (smul_of_run strayCoords (hB := twist_of_num onTwist_stray) _ _ strayRun_cert) (Point.some_ne_zero _)

theorem g2_card : Nat.card G2Point = frModulus := by
  have hpow : Nat.card G2Point = Nat.card Fr ^ Module.finrank Fr G2Point := Module.natCard_eq_pow_finrank
  rw [Nat.card_zmod] at hpow
  have h1 : Nat.card G2Point ∣ Nat.card TwistPoint := AddSubgroup.card_addSubgroup_dvd_card g2Subgroup
  have h2 : 10069 ∣ Nat.card TwistPoint := stray_order ▸ addOrderOf_dvd_natCard strayPoint
  have hr : frModulus ∣ Nat.card G2Point := g2Gen_order ▸ addOrderOf_dvd_natCard g2Gen
  have hco : Nat.Coprime frModulus 10069 := by decide
  rw [hpow] at h1 hr ⊢
  have h3 := Nat.le_of_dvd Nat.card_pos ((Nat.Coprime.pow_left (Module.finrank Fr G2Point) hco).mul_dvd_of_dvd_of_dvd h1 h2)
  have h4 := twist_card_le
  have h5 : 2 * (fqModulus * fqModulus) + 1 < frModulus ^ 2 * 10069 := by decide +kernel
  generalize Module.finrank Fr G2Point = k at *
  have hk2 : k < 2 := by
    by_contra hc
    have : frModulus ^ 2 ≤ frModulus ^ k := Nat.pow_le_pow_right frModulus_prime.pos (by omega)
    have := Nat.mul_le_mul_right 10069 this
    omega
  have hk0 : k ≠ 0 := by
    rintro rfl
    rw [pow_zero, Nat.dvd_one] at hr
    exact frModulus_prime.ne_one hr
  have : k = 1 := by omega
  rw [this, pow_one]

end Zkenc
