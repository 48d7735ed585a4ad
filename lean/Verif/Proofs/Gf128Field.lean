import Verif.Proofs.Gf128
import Mathlib.RingTheory.PowerBasis
import Mathlib.Data.List.GetD
/-!
# GF(2^128) is a field, and blocks are its elements
-/

namespace Zkenc

open Polynomial GcmSpec

local notation "α" => AdjoinRoot.root gcmPoly

theorem toGF_single {k : Nat} (hk : k < 128) : toGF (2 ^ (127 - k)) = α ^ k := by
  unfold toGF
  rw [Finset.sum_eq_single k]
  · rw [Nat.testBit_two_pow_self, if_pos rfl]
  · intro i hi hne
    have hi' := Finset.mem_range.1 hi
    rw [Nat.testBit_two_pow_of_ne (by omega)]
    rfl
  · intro h
    exact absurd (Finset.mem_range.2 hk) h

/-- Repeated squaring. -/
def sqIter : Nat → Nat → Nat
  | 0, z => z
  | n + 1, z => sqIter n (gfMul z z)

theorem sqIter_spec (n : Nat) : ∀ z, z < 2 ^ 128 → sqIter n z < 2 ^ 128 ∧ toGF (sqIter n z) = toGF z ^ 2 ^ n := by
  induction n with
  | zero => intro z hz; exact ⟨hz, by rw [sqIter, pow_zero, pow_one]⟩
  | succ n ih =>
    intro z hz
    obtain ⟨h1, h2⟩ := ih _ (gfMul_lt z hz)
    refine ⟨h1, ?_⟩
    rw [sqIter, h2, toGF_mul z hz, ← pow_two, ← pow_mul, pow_succ']

/-- Certificate: `α^(2^64)`. -/
def gfZ64 : Nat := 0x6f9945a9e519a7229d4c1ad657f8a686

theorem gf_cert1 : sqIter 64 (2 ^ (127 - 1)) = gfZ64 := by decide +kernel
theorem gf_cert2 : sqIter 64 gfZ64 = 2 ^ (127 - 1) := by decide +kernel
theorem gf_cert3 : gfMul 0x180da934bf53158251c13dbb149f5279 (gfZ64 ^^^ 2 ^ (127 - 1)) = 2 ^ (127 - 0) := by decide +kernel

theorem gf_pow64 : toGF gfZ64 = α ^ 2 ^ 64 := by
  have h := (sqIter_spec 64 (2 ^ (127 - 1)) (by norm_num)).2
  rwa [gf_cert1, toGF_single (by norm_num), pow_one] at h

theorem gf_pow128 : α ^ 2 ^ 128 = α := by
  have h := (sqIter_spec 64 gfZ64 (by norm_num [gfZ64])).2
  rw [gf_cert2, toGF_single (by norm_num), pow_one, gf_pow64, ← pow_mul, ← pow_add] at h
  exact h.symm

theorem gf_unit64 : ∃ u, u * (α ^ 2 ^ 64 - α) = 1 := by
  refine ⟨toGF 0x180da934bf53158251c13dbb149f5279, ?_⟩
  have h := toGF_mul 0x180da934bf53158251c13dbb149f5279 (y := gfZ64 ^^^ 2 ^ (127 - 1)) (by decide +kernel)
  rw [gf_cert3, toGF_xor, toGF_single (by norm_num), toGF_single (by norm_num), gf_pow64, pow_zero, pow_one] at h
  rw [h, sub_eq_add_neg, gf_neg]

theorem gcmPoly_natDegree : gcmPoly.natDegree = 128 := by
  rw [gcmPoly_eq]
  compute_degree!

theorem gcmPoly_ne : gcmPoly ≠ 0 := by
  intro h
  have := gcmPoly_natDegree
  rw [h] at this
  simp at this

theorem factor_degree {q : Nat} (hq : q = 2) (a b : Nat) (h1 : α ^ q ^ a = α) (h2 : ∃ u, u * (α ^ q ^ b - α) = 1) (g : (ZMod 2)[X]) (hg : Irreducible g)
    (hdvd : g ∣ gcmPoly) : g.natDegree ∣ a ∧ ¬ g.natDegree ∣ b := by
  have hcard : Nat.card (ZMod 2) = q := by simp [hq]
  have mkX : ∀ n : Nat, AdjoinRoot.mk gcmPoly (X ^ n - X) = α ^ n - α := by
    intro n
    rw [map_sub, map_pow, AdjoinRoot.mk_X]
  constructor
  · refine hg.natDegree_dvd_of_dvd_X_pow_card_pow_sub_X ?_
    rw [hcard]
    refine hdvd.trans ?_
    rw [← AdjoinRoot.mk_eq_zero, mkX, h1, sub_self]
  · intro h
    have hd := hg.natDegree_dvd_iff_dvd_X_pow_card_pow_sub_X.1 h
    rw [hcard] at hd
    obtain ⟨u, hu⟩ := h2
    obtain ⟨v, rfl⟩ := AdjoinRoot.mk_surjective u
    rw [← mkX, ← map_mul, ← sub_eq_zero, ← map_one (AdjoinRoot.mk gcmPoly), ← map_sub, AdjoinRoot.mk_eq_zero] at hu
    have h1 : g ∣ 1 := by
      have := dvd_sub (hd.mul_left v) (hdvd.trans hu)
      rwa [sub_sub_cancel] at this
    exact hg.not_isUnit (isUnit_of_dvd_one h1)

theorem gcmPoly_irreducible : Irreducible gcmPoly := by
  have hnu : ¬ IsUnit gcmPoly := by
    intro h
    have := natDegree_eq_zero_of_isUnit h
    rw [gcmPoly_natDegree] at this
    cases this
  obtain ⟨g, hg, hdvd⟩ := WfDvdMonoid.exists_irreducible_factor hnu gcmPoly_ne
  obtain ⟨d128, n64⟩ := factor_degree rfl 128 64 gf_pow128 gf_unit64 g hg hdvd
  have hdeg : g.natDegree = 128 := by
    obtain ⟨k, hk, he⟩ := (Nat.dvd_prime_pow Nat.prime_two (m := 7)).1 d128
    rcases Nat.lt_or_ge k 7 with h | h
    · refine absurd ?_ n64
      rw [he]
      exact pow_dvd_pow 2 (show k ≤ 6 by omega)
    · rw [he, show k = 7 by omega]; norm_num
  exact (associated_of_dvd_of_natDegree_le hdvd gcmPoly_ne (by rw [gcmPoly_natDegree, hdeg])).irreducible hg

instance : Fact (Irreducible gcmPoly) := ⟨gcmPoly_irreducible⟩

/-- The polynomial of a number. -/
noncomputable def toPoly (n : Nat) : (ZMod 2)[X] := ∑ i ∈ Finset.range 128, if n.testBit (127 - i) then X ^ i else 0

theorem toPoly_coeff (n : Nat) {k : Nat} (hk : k < 128) : (toPoly n).coeff k = if n.testBit (127 - k) then 1 else 0 := by
  unfold toPoly
  rw [finsetSum_coeff, Finset.sum_eq_single k]
  · split <;> simp
  · intro i _ hne
    split
    · rw [coeff_X_pow, if_neg (Ne.symm hne)]
    · simp
  · intro h
    exact absurd (Finset.mem_range.2 hk) h

theorem toPoly_coeff_high (n : Nat) {k : Nat} (hk : 128 ≤ k) : (toPoly n).coeff k = 0 := by
  unfold toPoly
  rw [finsetSum_coeff]
  refine Finset.sum_eq_zero fun i hi => ?_
  have hi' := Finset.mem_range.1 hi
  split
  · rw [coeff_X_pow, if_neg (by omega)]
  · simp

theorem mk_toPoly (n : Nat) : AdjoinRoot.mk gcmPoly (toPoly n) = toGF n := by
  unfold toPoly toGF
  rw [map_sum]
  refine Finset.sum_congr rfl fun i _ => ?_
  split
  · rw [map_pow, AdjoinRoot.mk_X]
  · rw [map_zero]

theorem degree_toPoly_sub (a b : Nat) : (toPoly a - toPoly b).degree < gcmPoly.degree := by
  rw [degree_eq_natDegree gcmPoly_ne, degree_lt_iff_coeff_zero]
  intro k hk
  rw [gcmPoly_natDegree] at hk
  rw [coeff_sub, toPoly_coeff_high a hk, toPoly_coeff_high b hk, sub_zero]

theorem toPoly_inj {a b : Nat} (h : toGF a = toGF b) : toPoly a = toPoly b := by
  rw [← mk_toPoly, ← mk_toPoly, AdjoinRoot.mk_eq_mk] at h
  exact sub_eq_zero.1 (eq_zero_of_dvd_of_degree_lt h (degree_toPoly_sub a b))

theorem toGF_inj {a b : Nat} (ha : a < 2 ^ 128) (hb : b < 2 ^ 128) (h : toGF a = toGF b) : a = b := by
  have he := toPoly_inj h
  refine Nat.eq_of_testBit_eq fun i => ?_
  by_cases hi : i < 128
  · have : (toPoly a).coeff (127 - i) = (toPoly b).coeff (127 - i) := by rw [he]
    rw [toPoly_coeff a (by omega), toPoly_coeff b (by omega), show 127 - (127 - i) = i by omega] at this
    cases h1 : a.testBit i <;> cases h2 : b.testBit i <;> rw [h1, h2] at this <;> simp at this ⊢
  · rw [Nat.testBit_lt_two_pow (lt_of_lt_of_le ha (Nat.pow_le_pow_right (by norm_num) (by omega))),
      Nat.testBit_lt_two_pow (lt_of_lt_of_le hb (Nat.pow_le_pow_right (by norm_num) (by omega)))]

theorem gf_card : Nat.card GF128 = 2 ^ 128 := by
  have h := finrank_quotient_span_eq_natDegree (f := gcmPoly)
  rw [gcmPoly_natDegree] at h
  have hf : Module.Finite (ZMod 2) GF128 := (AdjoinRoot.powerBasis gcmPoly_ne).finite
  have := Module.natCard_eq_pow_finrank (K := ZMod 2) (V := GF128)
  rw [this, Nat.card_zmod]
  exact congrArg (2 ^ ·) h

/-! ## Blocks -/

theorem testBit_leNat (bs : Bytes) : ∀ n, (leNat bs).testBit n = (bs.getD (n / 8) 0).toNat.testBit (n % 8) := by
  induction bs with
  | nil => intro n; simp [leNat]
  | cons b bs ih =>
    intro n
    have hb : b.toNat < 2 ^ 8 := b.toNat_lt
    rw [leNat, Nat.add_comm, show (256 : Nat) = 2 ^ 8 by norm_num, Nat.testBit_two_pow_mul_add _ hb]
    split
    · rename_i h
      rw [Nat.div_eq_of_lt h, Nat.mod_eq_of_lt h]
      rfl
    · rename_i h
      rw [ih, show n / 8 = (n - 8) / 8 + 1 by omega, show n % 8 = (n - 8) % 8 by omega, List.getD_cons_succ]

theorem testBit_beNat (b : Bytes) (h : b.length = 16) {n : Nat} (hn : n < 128) :
    (beNat b).testBit (127 - n) = (b.getD (n / 8) 0).toNat.testBit (7 - n % 8) := by
  rw [beNat, testBit_leNat, show (127 - n) / 8 = 15 - n / 8 by omega, show (127 - n) % 8 = 7 - n % 8 by omega]
  congr 2
  rw [List.getD_eq_getElem _ _ (by simp; omega), List.getD_eq_getElem _ _ (by omega), List.getElem_reverse]
  congr 1
  omega

theorem elem_eq (b : Bytes) (h : b.length = 16) : elem b = toGF (beNat b) := by
  unfold elem toGF
  refine Finset.sum_congr rfl fun n hn => ?_
  rw [testBit_beNat b h (Finset.mem_range.1 hn)]

theorem elem_pad (b : Bytes) (k : Nat) : elem (b ++ List.replicate k 0) = elem b := by
  unfold elem
  refine Finset.sum_congr rfl fun n _ => ?_
  have : (b ++ List.replicate k 0).getD (n / 8) 0 = b.getD (n / 8) 0 := by
    rcases Nat.lt_or_ge (n / 8) b.length with h | h
    · rw [List.getD_append _ _ _ _ h]
    · rw [List.getD_append_right _ _ _ _ h, List.getD_eq_default _ _ h]
      rcases Nat.lt_or_ge (n / 8 - b.length) k with h' | h'
      · rw [List.getD_replicate _ h']
      · rw [List.getD_eq_default _ _ (by simpa using h')]
  rw [this]

theorem beNat_lt16 {b : Bytes} (h : b.length = 16) : beNat b < 2 ^ 128 := by
  have := beNat_lt b
  rw [h] at this
  exact lt_of_lt_of_eq this (by norm_num)

theorem beNat_inj {a b : Bytes} (hl : a.length = b.length) (h : beNat a = beNat b) : a = b := by
  have := leNat_inj (by simpa using hl) h
  exact List.reverse_injective this

theorem elem_inj {a b : Bytes} (ha : a.length = 16) (hb : b.length = 16) (h : elem a = elem b) : a = b := by
  rw [elem_eq a ha, elem_eq b hb] at h
  exact beNat_inj (ha.trans hb.symm) (toGF_inj (beNat_lt16 ha) (beNat_lt16 hb) h)

end Zkenc
