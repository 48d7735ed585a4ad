import Mathlib.FieldTheory.Finite.Extension
import Mathlib.Tactic.LinearCombination
import Verif.Spec.Gcm
import Verif.Model.Crypto
/-!
# The multiplication of GHASH is that of GF(2^128)
-/

namespace Zkenc

open Polynomial GcmSpec

/-- The generator. -/
local notation "α" => AdjoinRoot.root gcmPoly

theorem gf_two : (2 : GF128) = 0 := by
  have h : ((2 : ZMod 2)) = 0 := by decide
  have := congrArg (algebraMap (ZMod 2) GF128) h
  rwa [map_ofNat, map_zero] at this

theorem gf_add_self (x : GF128) : x + x = 0 := by
  rw [← two_mul, gf_two, zero_mul]

theorem gf_neg (x : GF128) : -x = x := by
  rw [neg_eq_iff_add_eq_zero, gf_add_self]

theorem gcmPoly_eq : gcmPoly = X ^ 128 + X ^ 7 + X ^ 2 + X + 1 := by delta gcmPoly; rfl

theorem gf_root : α ^ 128 = α ^ 7 + α ^ 2 + α + 1 := by
  have h : AdjoinRoot.mk gcmPoly gcmPoly = 0 := AdjoinRoot.mk_self
  have e := congrArg (AdjoinRoot.mk gcmPoly) gcmPoly_eq
  rw [e, map_add, map_add, map_add, map_add, map_pow, map_pow, map_pow, map_one, AdjoinRoot.mk_X] at h
  have h2 := gf_add_self (α ^ 7 + α ^ 2 + α + 1)
  generalize α ^ 128 = u at *
  linear_combination h - h2

/-- The element of a number: bit 127 is the constant coefficient. -/
noncomputable def toGF (n : Nat) : GF128 := ∑ i ∈ Finset.range 128, if n.testBit (127 - i) then α ^ i else 0

theorem toGF_zero : toGF 0 = 0 := by simp [toGF]

theorem toGF_xor (a b : Nat) : toGF (a ^^^ b) = toGF a + toGF b := by
  unfold toGF
  rw [← Finset.sum_add_distrib]
  refine Finset.sum_congr rfl fun i _ => ?_
  rw [Nat.testBit_xor]
  cases a.testBit (127 - i) <;> cases b.testBit (127 - i) <;> simp [gf_add_self]

theorem toGF_R : toGF 0xE1000000000000000000000000000000 = α ^ 128 := by
  rw [gf_root]
  have h : ∀ i ∈ Finset.range 128, Nat.testBit 0xE1000000000000000000000000000000 (127 - i) = (decide (i = 0 ∨ i = 1 ∨ i = 2 ∨ i = 7)) := by
    decide +kernel
  unfold toGF
  rw [Finset.sum_congr rfl fun i hi => by rw [h i hi]]
  have : ∀ i, (if decide (i = 0 ∨ i = 1 ∨ i = 2 ∨ i = 7) = true then α ^ i else 0) =
      (if i = 0 then α ^ i else 0) + (if i = 1 then α ^ i else 0) + (if i = 2 then α ^ i else 0) + (if i = 7 then α ^ i else 0) := by
    intro i
    by_cases h0 : i = 0
    · subst h0; simp
    by_cases h1 : i = 1
    · subst h1; simp
    by_cases h2 : i = 2
    · subst h2; simp
    by_cases h7 : i = 7
    · subst h7; simp
    simp [h0, h1, h2, h7]
  simp only [this, Finset.sum_add_distrib, Finset.sum_ite_eq', Finset.mem_range]
  norm_num
  ring

/-- A step of the other factor: multiplication by the generator. -/
def gfShift (v : Nat) : Nat := if v % 2 = 1 then v / 2 ^^^ 0xE1000000000000000000000000000000 else v / 2

theorem gfShift_lt {v : Nat} (h : v < 2 ^ 128) : gfShift v < 2 ^ 128 := by
  unfold gfShift
  split
  · exact Nat.xor_lt_two_pow (by omega) (by norm_num)
  · omega

theorem toGF_half {v : Nat} (h : v < 2 ^ 128) : toGF (v / 2) = α * (toGF v - if v.testBit 0 then α ^ 127 else 0) := by
  unfold toGF
  rw [Finset.sum_range_succ', Finset.sum_range_succ _ 127]
  have h0 : (v / 2).testBit (127 - 0) = false := by
    rw [Nat.testBit_div_two]
    exact Nat.testBit_lt_two_pow (by simpa using h)
  rw [h0]
  simp only [Bool.false_eq_true, if_false, add_zero, Nat.sub_self]
  rw [add_sub_cancel_right, Finset.mul_sum]
  refine Finset.sum_congr rfl fun i hi => ?_
  have hi' := Finset.mem_range.1 hi
  rw [Nat.testBit_div_two, show 127 - (i + 1) + 1 = 127 - i by omega, pow_succ']
  split <;> simp

theorem toGF_shift {v : Nat} (h : v < 2 ^ 128) : toGF (gfShift v) = α * toGF v := by
  have hh := toGF_half h
  rw [Nat.testBit_zero] at hh
  unfold gfShift
  by_cases hv : v % 2 = 1
  · rw [if_pos hv, toGF_xor, toGF_R, hh]
    simp only [hv, decide_true, if_true]
    ring
  · rw [if_neg hv, hh]
    simp [hv]

theorem gfStep_eq (s : Nat × Nat) (b : Bool) : gfStep s b = (if b then s.1 ^^^ s.2 else s.1, gfShift s.2) := rfl

theorem foldl_gf (x : Nat) (m : Nat) : ∀ (l : List Nat), l = List.range m → ∀ y, y < 2 ^ 128 → ∀ s, s = (l.map fun i => x.testBit (127 - i)).foldl gfStep (0, y) →
    s.2 < 2 ^ 128 ∧ toGF s.2 = α ^ m * toGF y ∧ s.1 < 2 ^ 128 ∧
    toGF s.1 = (∑ i ∈ Finset.range m, if x.testBit (127 - i) then α ^ i else 0) * toGF y := by
  induction m with
  | zero =>
    rintro l rfl y hy s rfl
    simp only [List.range_zero, List.map_nil, List.foldl_nil, pow_zero, one_mul, Finset.range_zero, Finset.sum_empty, zero_mul, toGF_zero]
    exact ⟨hy, trivial, by norm_num, trivial⟩
  | succ m ih =>
    rintro l rfl y hy s rfl
    obtain ⟨h1, h2, h3, h4⟩ := ih _ rfl y hy _ rfl
    rw [List.range_succ, List.map_append, List.foldl_append]
    generalize ((List.range m).map fun i => x.testBit (127 - i)).foldl gfStep (0, y) = s at *
    simp only [List.map_cons, List.map_nil, List.foldl_cons, List.foldl_nil, gfStep_eq]
    refine ⟨gfShift_lt h1, by rw [toGF_shift h1, h2, pow_succ']; ring, ?_, ?_⟩
    · split
      · exact Nat.xor_lt_two_pow h3 h1
      · exact h3
    · rw [Finset.sum_range_succ]
      split
      · rw [toGF_xor, h4, h2]; ring
      · rw [h4, add_zero]

theorem gfMul_lt (x : Nat) {y : Nat} (hy : y < 2 ^ 128) : gfMul x y < 2 ^ 128 := (foldl_gf x 128 _ rfl y hy _ rfl).2.2.1

theorem toGF_mul (x : Nat) {y : Nat} (hy : y < 2 ^ 128) : toGF (gfMul x y) = toGF x * toGF y := (foldl_gf x 128 _ rfl y hy _ rfl).2.2.2

end Zkenc
