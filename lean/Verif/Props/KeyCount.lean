import Verif.Props.Core
import Mathlib.Data.Fintype.Prod
import Mathlib.Algebra.BigOperators.Ring.Finset
import Mathlib.Data.Fintype.BigOperators
/-!
# C91: how the keys of encapsulation are distributed
-/

namespace Zkenc

section
variable {F : Type} [Field F] [Fintype F] [DecidableEq F]

/-- Pairs with a given product, counted. -/
theorem card_mul_eq (c : F) :
    (Finset.univ.filter fun p : F × F => p.1 * p.2 = c).card = if c = 0 then 2 * Fintype.card F - 1 else Fintype.card F - 1 := by
  have h1 : (Finset.univ.filter fun p : F × F => p.1 * p.2 = c).card = ∑ a : F, (Finset.univ.filter fun b : F => a * b = c).card := by
    rw [Finset.card_filter, Fintype.sum_prod_type]
    exact Finset.sum_congr rfl fun a _ => (Finset.card_filter _ _).symm
  have h2 : ∀ a : F, a ≠ 0 → (Finset.univ.filter fun b : F => a * b = c).card = 1 := by
    intro a ha
    rw [Finset.card_eq_one]
    refine ⟨a⁻¹ * c, ?_⟩
    ext b
    simp only [Finset.mem_filter, Finset.mem_univ, true_and, Finset.mem_singleton]
    constructor
    · rintro rfl; field_simp
    · rintro rfl; field_simp
  have h3 : (Finset.univ.filter fun b : F => (0 : F) * b = c).card = if c = 0 then Fintype.card F else 0 := by
    split
    · subst c; simp
    · rename_i h
      rw [Finset.card_eq_zero, Finset.filter_eq_empty_iff]
      intro b _ hb
      rw [zero_mul] at hb
      exact h hb.symm
  rw [h1, ← Finset.add_sum_erase _ _ (Finset.mem_univ (0 : F)), h3,
    Finset.sum_congr rfl (fun a ha => h2 a (Finset.ne_of_mem_erase ha)), Finset.sum_const, Finset.card_erase_of_mem (Finset.mem_univ _), Finset.card_univ]
  have : 0 < Fintype.card F := Fintype.card_pos
  split <;> simp only [smul_eq_mul, mul_one] <;> omega

end

namespace Props

open Zkenc Zkenc.Spec

variable {F G1 G2 GT : Type} [Field F] [Fintype F] [DecidableEq F] [AddCommGroup G1] [Module F G1] [AddCommGroup G2] [Module F G2] [AddCommGroup GT]
  [Module F GT]

/-- Which choices of `α, β` lead to the key `K`, the other randomness being fixed. -/
noncomputable def choices (P : Pairing F G1 G2 GT) (dom : Domains F) (c : Circuit F) (δ r x : F) (K : Key) : Finset (F × F) :=
  open Classical in Finset.univ.filter fun p => ∃ ct, encap P dom c ⟨p.1, p.2, δ, r, x⟩ = .ok (ct, K)

/-- **C91** (key distribution) — in the documented workflow (a wire is missing at encap), for an injective KDF and a non-degenerate pairing, whatever the other
randomness: with `q` the size of the field, the key of the identity is the result of `2q - 1` of the `q²` choices of `(α, β)`, the key of every other multiple of the generator
is the result of exactly `q - 1`, and no other key is possible. -/
theorem C91_key_distribution (P : Pairing F G1 G2 GT) (hkdf : Function.Injective P.kdf) (hnd : P.e P.g1 P.g2 ≠ 0) (dom : Domains F) (t : Tool)
    (rf : R1csFile) (hf : PublicFits rf) (w : Nat → Option F) (hm : SomeWireMissing rf w) (δ r x : F) (hδ : δ ≠ 0) (K : Key) :
    (choices P dom (t.circuit rf w) δ r x K).card =
      open Classical in
      if K = P.kdf 0 then 2 * Fintype.card F - 1 else if ∃ c : F, K = P.kdf (c • P.e P.g1 P.g2) then Fintype.card F - 1 else 0 := by
  classical
  have key : ∀ p : F × F, (∃ ct, encap P dom (t.circuit rf w) ⟨p.1, p.2, δ, r, x⟩ = .ok (ct, K)) ↔ K = P.kdf ((p.1 * p.2) • P.e P.g1 P.g2) := by
    intro p
    obtain ⟨ct, k, h⟩ := C07_encap_ok P dom (t.circuit rf w) ⟨p.1, p.2, δ, r, x⟩ hδ
    have hk := (encap_missing P dom t rf w hf hm _ ct k h).2.1
    constructor
    · rintro ⟨ct', h'⟩
      rw [h] at h'
      cases h'
      exact hk
    · intro hK
      exact ⟨ct, by rw [h, hk, hK]⟩
  have hinj : ∀ a b : F, P.kdf (a • P.e P.g1 P.g2) = P.kdf (b • P.e P.g1 P.g2) ↔ a = b := by
    intro a b
    refine ⟨fun h => ?_, fun h => by rw [h]⟩
    have := hkdf h
    rw [← sub_eq_zero, ← sub_smul] at this
    rcases smul_eq_zero.1 this with h | h
    · exact sub_eq_zero.1 h
    · exact absurd h hnd
  have hset : choices P dom (t.circuit rf w) δ r x K = Finset.univ.filter fun p : F × F => K = P.kdf ((p.1 * p.2) • P.e P.g1 P.g2) := by
    unfold choices
    ext p
    simp only [Finset.mem_filter, Finset.mem_univ, true_and, key]
  rw [hset]
  by_cases hc : ∃ c : F, K = P.kdf (c • P.e P.g1 P.g2)
  · obtain ⟨c, rfl⟩ := hc
    have h0 : P.kdf (c • P.e P.g1 P.g2) = P.kdf 0 ↔ c = 0 := by
      have := hinj c 0
      rwa [zero_smul] at this
    have : (Finset.univ.filter fun p : F × F => P.kdf (c • P.e P.g1 P.g2) = P.kdf ((p.1 * p.2) • P.e P.g1 P.g2)) =
        Finset.univ.filter fun p : F × F => p.1 * p.2 = c := by
      ext p
      simp only [Finset.mem_filter, Finset.mem_univ, true_and, hinj]
      exact eq_comm
    rw [this, card_mul_eq]
    simp only [h0]
    split
    · rfl
    · rw [if_pos ⟨c, rfl⟩]
  · have hK0 : K ≠ P.kdf 0 := fun h => hc ⟨0, by rw [zero_smul]; exact h⟩
    rw [if_neg hK0, if_neg hc, Finset.card_eq_zero, Finset.filter_eq_empty_iff]
    intro p _ hp
    exact hc ⟨_, hp⟩

/-- **C91** (no key is likely) — consequently every key, whatever it is, is the result of at most `2q - 1` of the `q²` choices of `(α, β)`. -/
theorem C91_no_likely_key (P : Pairing F G1 G2 GT) (hkdf : Function.Injective P.kdf) (hnd : P.e P.g1 P.g2 ≠ 0) (dom : Domains F) (t : Tool)
    (rf : R1csFile) (hf : PublicFits rf) (w : Nat → Option F) (hm : SomeWireMissing rf w) (δ r x : F) (hδ : δ ≠ 0) (K : Key) :
    (choices P dom (t.circuit rf w) δ r x K).card ≤ 2 * Fintype.card F - 1 := by
  rw [C91_key_distribution P hkdf hnd dom t rf hf w hm δ r x hδ K]
  have : 0 < Fintype.card F := Fintype.card_pos
  split
  · exact le_rfl
  · split <;> omega

/-- C91 is not vacuous: in the example circuit, for every pairing setting with a finite field. -/
example (P : Pairing F G1 G2 GT) (hkdf : Function.Injective P.kdf) (hnd : P.e P.g1 P.g2 ≠ 0) (dom : Domains F) (r x : F) :
    (choices P dom (Tool.cli.circuit sq sqPub) 1 r x (P.kdf (P.e P.g1 P.g2))).card = Fintype.card F - 1 := by
  classical
  rw [C91_key_distribution P hkdf hnd dom .cli sq sq_fits sqPub sq_missing 1 r x one_ne_zero]
  rw [if_neg (fun h => hnd (hkdf h)), if_pos ⟨1, by rw [one_smul]⟩]

end Props

end Zkenc
