import Verif.Proofs.Bn254
import Verif.Props.Qap
/-!
# Property theorems C61: the evaluation domain that is really used (BN254)

The theorems of `Props/Qap.lean` take the domain constructor as a parameter; here they are discharged for the
constructor of `ark-poly` over the BN254 scalar field, so no assumption about it is left.
-/

namespace Zkenc.Props

open Zkenc Spec Polynomial

/-- **C61 (existence).** A domain for `n` points exists exactly up to `n = 2^28 · 9 = 2 415 919 104`. -/
theorem C61_domain_exists (n : Nat) : (∃ ds, bn254Domains n = some ds) ↔ n ≤ 2415919104 := by
  obtain ⟨h1, h2⟩ := generalDomain_spec n
  have e : 2 ^ 28 * 3 ^ 2 = 2415919104 := by norm_num
  rw [e] at h1 h2
  unfold bn254Domains
  constructor
  · rintro ⟨ds, h⟩
    by_contra hc
    rw [h2 (by omega)] at h
    simp at h
  · intro h
    obtain ⟨N, w, hg, -⟩ := h1 h
    exact ⟨_, by rw [hg]; rfl⟩

theorem bn254_points (n : Nat) (ds : List Fr) (h : bn254Domains n = some ds) :
    ∃ w : Fr, 0 < orderOf w ∧ ds = powers (orderOf w) w ∧ generalDomain n = some (orderOf w, w) ∧
      IsDomainSize n (orderOf w) := by
  unfold bn254Domains at h
  obtain ⟨⟨N, w⟩, hg, rfl⟩ := Option.map_eq_some_iff.1 h
  obtain ⟨rfl, hs⟩ := generalDomain_order n N w hg
  exact ⟨w, (domainSize_pos hs).1, rfl, hg, hs⟩

/-- **C61 (points).** The domain for `n` points has the documented size `N`, starts with `1`, and lists every
`N`-th root of unity of the field exactly once, in geometric progression. -/
theorem C61_domain_points (n : Nat) (ds : List Fr) (h : bn254Domains n = some ds) :
    IsDomainSize n ds.length ∧ ds.Nodup ∧ (∀ x, x ∈ ds ↔ x ^ ds.length = 1) ∧ ds[0]? = some 1 ∧
    ∀ i (hi : i < ds.length), ds[i] = (ds.getD 1 1) ^ i := by
  obtain ⟨w, hw, rfl, -, hs⟩ := bn254_points n ds h
  have hlen : (powers (orderOf w) w).length = orderOf w := by simp [powers]
  refine ⟨by rw [hlen]; exact hs, powers_nodup w, by rw [hlen]; exact mem_powers w hw, by simp [powers, hw], ?_⟩
  intro i hi
  rw [hlen] at hi
  simp only [powers, List.getElem_map, List.getElem_range]
  by_cases h1 : 1 < orderOf w
  · simp [List.getD_eq_getElem?_getD, h1]
  · have : i = 0 := by omega
    simp [this]

/-- **C61 (no assumption left).** The real constructor satisfies everything the QAP theorems assume of it. -/
theorem C61_lawful : Domains.Lawful bn254Domains := by
  intro n ds h
  obtain ⟨w, hw, rfl, -, hs⟩ := bn254_points n ds h
  exact ⟨powers_nodup w, by simpa [powers] using (domainSize_pos hs).2.1⟩

/-- **C61 (Lagrange coefficients).** The library's running-product computation of the Lagrange coefficients — with
its special branch when the point lies on the domain — gives the values of the Lagrange basis polynomials; hence
the code's evaluation vectors are those of the textbook formula. -/
theorem C61_lagrange (n : Nat) (N : Nat) (w x : Fr) (h : generalDomain n = some (N, w)) :
    arkLagrange N w x = (List.range N).map fun j =>
      (Lagrange.basis (Finset.range N) (fun i => w ^ i) j).eval x := by
  obtain ⟨rfl, hs⟩ := generalDomain_order n N w h
  have hw := (domainSize_pos hs).1
  have hlen : (powers (orderOf w) w).length = orderOf w := by simp [powers]
  rw [arkLagrange_eq w x hw]
  unfold lagrangeCoeffs
  rw [hlen]
  apply List.map_congr_left
  intro j hj
  have hj : j < orderOf w := by simpa using hj
  rw [lagrangeAt_eq, hlen]
  congr 1
  unfold Lagrange.basis
  apply Finset.prod_congr rfl
  intro k hk
  have hk : k < orderOf w := by simpa using (Finset.mem_erase.1 hk).2
  have e1 : node (powers (orderOf w) w) j = w ^ j := powers_getD _ _ _ hj
  have e2 : node (powers (orderOf w) w) k = w ^ k := powers_getD _ _ _ hk
  rw [e1, e2]

theorem arkEvaluateQap_eq (cs : CS Fr) (x : Fr) : arkEvaluateQap cs x = evaluateQap bn254Domains cs x := by
  unfold arkEvaluateQap evaluateQap bn254Domains
  cases h : generalDomain (cs.cons.length + cs.numInst) with
  | none => rfl
  | some d =>
    obtain ⟨N, w⟩ := d
    obtain ⟨rfl, hs⟩ := generalDomain_order _ _ _ h
    have e := arkLagrange_eq w x (domainSize_pos hs).1
    unfold powers at e
    simp only [Option.map_some, e]

/-- **C61 (QAP over BN254).** For every constraint system with at most 2 415 919 104 constraints and instance
variables together, the evaluation code — with the real domain and the real Lagrange computation — returns one
entry per variable, and entry `i` is the value at `x` of *the* polynomial of degree below the domain size `N` that
takes, at the `j`-th power of the `N`-th root of unity, the coefficient of variable `i` in constraint `j` (0 beyond
the last constraint). -/
theorem C61_qap_bn254 (cs : CS Fr) (x : Fr) (hsize : cs.cons.length + cs.numInst ≤ 2415919104) :
    ∃ ds, bn254Domains (cs.cons.length + cs.numInst) = some ds ∧
    ((arkEvaluateQap cs x).1.length = cs.numVars ∧ (arkEvaluateQap cs x).2.1.length = cs.numVars ∧
      (arkEvaluateQap cs x).2.2.length = cs.numVars) ∧
    (∀ sel i, ∃ p, IsQapPoly cs ds sel i p) ∧
    ∀ i (_ : i < cs.numVars) p,
      (IsQapPoly cs ds Cstr.a i p → (arkEvaluateQap cs x).1[i]? = some (p.eval x)) ∧
      (IsQapPoly cs ds Cstr.b i p → (arkEvaluateQap cs x).2.1[i]? = some (p.eval x)) ∧
      (IsQapPoly cs ds Cstr.c i p → (arkEvaluateQap cs x).2.2[i]? = some (p.eval x)) := by
  obtain ⟨ds, hds⟩ := (C61_domain_exists _).2 hsize
  refine ⟨ds, hds, ?_⟩
  rw [arkEvaluateQap_eq]
  exact C13_qap_evaluations bn254Domains C61_lawful cs x ds hds

/-- **C61 (beyond the largest domain).** Above that size the evaluations are silently all zero, while the public
helper that creates a domain panics. -/
theorem C61_too_large (cs : CS Fr) (x : Fr) (hsize : 2415919104 < cs.cons.length + cs.numInst) :
    arkEvaluateQap cs x = (List.replicate cs.numVars 0, List.replicate cs.numVars 0, List.replicate cs.numVars 0) ∧
    createDomain (cs.cons.length + cs.numInst) = .error .panic := by
  have e : 2 ^ 28 * 3 ^ 2 = 2415919104 := by norm_num
  have h := (generalDomain_spec (cs.cons.length + cs.numInst)).2 (by omega)
  constructor
  · unfold arkEvaluateQap; rw [h]
  · unfold createDomain; rw [h]; rfl

/-! ### Concrete sizes -/

/-- The domain for 3 points (one constraint, two instance variables) has four points. -/
example : ∃ ds, bn254Domains 3 = some ds ∧ ds.length = 4 := by
  obtain ⟨ds, h⟩ := (C61_domain_exists 3).2 (by norm_num)
  refine ⟨ds, h, ?_⟩
  rcases (C61_domain_points 3 ds h).1 with ⟨-, ⟨⟨a, ha⟩, h2⟩, h3⟩ | ⟨hc, -⟩
  · have := h3 (a := 4) ⟨⟨2, rfl⟩, by norm_num⟩
    rw [ha] at h2 this ⊢
    have h4 : a < 3 := by
      by_contra hc
      have := Nat.pow_le_pow_right (n := 2) (by omega) (Nat.le_of_not_lt hc)
      omega
    interval_cases a <;> simp_all
  · norm_num at hc

/-- Just above 2^28 the domain is not a power of two any more: 2^26·5 is impossible, 9·2^25 is the next. -/
example : ∃ ds, bn254Domains (2 ^ 28 + 1) = some ds ∧ ds.length = 9 * 2 ^ 25 := by
  obtain ⟨ds, h⟩ := (C61_domain_exists (2 ^ 28 + 1)).2 (by norm_num)
  refine ⟨ds, h, ?_⟩
  rcases (C61_domain_points _ ds h).1 with ⟨hc, -⟩ | ⟨-, ⟨⟨a, b, ha, hb, hN⟩, h2⟩, h3⟩
  · norm_num at hc
  · have := h3 (a := 9 * 2 ^ 25) ⟨⟨25, 2, by norm_num, by norm_num, by norm_num⟩, by norm_num⟩
    rw [hN] at h2 this ⊢
    interval_cases b <;> interval_cases a <;> simp_all

end Zkenc.Props

namespace Zkenc.Props

open Zkenc Spec Polynomial

section
variable {F G1 G2 GT : Type} [Field F] [AddCommGroup G1] [Module F G1]
  [AddCommGroup G2] [Module F G2] [AddCommGroup GT] [Module F GT] [DecidableEq F]

/-- On `trivialOne` encap and decap always succeed, and the keys agree exactly on a hypersurface of the randomness
(`L` is the first Lagrange basis polynomial at `x`). -/
theorem trivial_exact (P : Pairing F G1 G2 GT) (hkdf : Function.Injective P.kdf)
    (hnd : P.e P.g1 P.g2 ≠ 0) (dom : Domains F) (ds : List F) (hds : dom 3 = some ds) (hne : ds ≠ [])
    (t t' : Tool) (y : F) (ρ : Rand F) (hδ : ρ.delta ≠ 0) :
    ∃ ct k k', encap P dom (t.circuit trivialOne fun _ => some y) ρ = .ok (ct, k) ∧
      decap P (t'.circuit trivialOne fun _ => some y) ct = .ok k' ∧
      (k' = k ↔ ρ.r * lagrangeAt ds ρ.x 0 *
        (ρ.r * ρ.delta * (lagrangeAt ds ρ.x 0 - 1) - (ρ.alpha + ρ.beta + ρ.r)) = 0) := by
  generalize hL : lagrangeAt ds ρ.x 0 = L
  refine ⟨_, _, P.kdf ((ρ.alpha * ρ.beta + ρ.r * ρ.r * (L * L - L)) • P.e P.g1 P.g2),
    encap_eq _ _ _ _ (fun h => hδ h.2), ?_, ?_⟩
  · rw [decap_eq, trivial_synth, trivial_synth]
    simp only [trivial_sat, Bool.true_eq_false, if_false]
    rw [if_neg (by simp [encapCt, trivialCs]), if_neg (by simp [encapCt, trivialCs]),
      if_neg (by simp [encapCt, trivialCs, CS.numVars]), decap_scalar P dom _ ρ hδ,
      trivial_evals dom y ρ.x _ hds hne, hL]
    simp [trivialCs]
  · rw [trivial_synth, hkdf.eq_iff, encap_scalar, dotF_phiList, trivial_evals dom y ρ.x _ hds hne, hL]
    rw [← sub_eq_zero, ← sub_smul, smul_eq_zero, or_iff_left hnd]
    simp only [trivialCs, List.drop_succ_cons, List.drop_zero, dotF_cons, dotF_nil_left, mul_zero, one_mul,
      add_zero]
    have key : ρ.r * L * (ρ.r * ρ.delta * (L - 1) - (ρ.alpha + ρ.beta + ρ.r)) =
        ρ.delta * (ρ.alpha * ρ.beta + ρ.r * ρ.r * (L * L - L) -
          (ρ.alpha * ρ.beta + ρ.delta⁻¹ * (ρ.r * ρ.beta * L + ρ.r * ρ.alpha * L + ρ.r * ρ.r * L))) := by
      have : ρ.delta * ρ.delta⁻¹ = 1 := mul_inv_cancel₀ hδ
      linear_combination (ρ.r * ρ.beta * L + ρ.r * ρ.alpha * L + ρ.r * ρ.r * L) * this
    rw [key, mul_eq_zero, or_iff_right hδ]

end

/-- The domain for three points has the four fourth roots of unity. -/
theorem bn254_three (ds : List Fr) (h : bn254Domains 3 = some ds) :
    ∃ w : Fr, orderOf w = 4 ∧ ds = powers 4 w := by
  obtain ⟨w, hw, rfl, -, hs⟩ := bn254_points 3 ds h
  have h4 : orderOf w = 4 := by
    rcases hs with ⟨-, ⟨⟨a, ha⟩, h2⟩, h3⟩ | ⟨hc, -⟩
    · have := h3 (a := 4) ⟨⟨2, rfl⟩, by norm_num⟩
      rw [ha] at h2 this ⊢
      have h4 : a < 3 := by
        by_contra hc
        have := Nat.pow_le_pow_right (n := 2) (by omega) (Nat.le_of_not_lt hc)
        omega
      interval_cases a <;> simp_all
    · norm_num at hc
  exact ⟨w, h4, by rw [h4]⟩

theorem fr_four : (4 : Fr) ≠ 0 := by
  intro h
  have h4 : ((4 : Nat) : Fr) = 0 := by simpa using h
  rw [ZMod.natCast_eq_zero_iff] at h4
  exact absurd (Nat.le_of_dvd (by decide) h4) (by decide +kernel)

theorem bn254_L0 (w x : Fr) (hw : orderOf w = 4) : 4 * lagrangeAt (powers 4 w) x 0 = 1 + x + x ^ 2 + x ^ 3 := by
  by_cases hx : x ^ 4 = 1
  · have hmem := (mem_powers w (by omega) x).2 (by rw [hw]; exact hx)
    rw [hw] at hmem
    obtain ⟨i, hi, rfl⟩ := List.mem_map.1 hmem
    have hi : i < 4 := by simpa using hi
    have hnd := powers_nodup w
    rw [hw] at hnd
    have inj := node_injOn hnd
    have hv : node (powers 4 w) i = w ^ i := powers_getD _ _ _ hi
    have hl : (powers 4 w).length = 4 := by simp [powers]
    rw [hl] at inj
    rw [lagrangeAt_eq, ← hv, hl]
    by_cases h0 : 0 = i
    · subst h0
      rw [Lagrange.eval_basis_self inj (by simp), hv]
      norm_num
    · rw [Lagrange.eval_basis_of_ne h0 (by simpa using hi), hv]
      have hne : w ^ i - 1 ≠ 0 := by
        intro h
        have : w ^ i = w ^ 0 := by rw [sub_eq_zero.1 h, pow_zero]
        exact h0 (pow_injOn_Iio_orderOf (by simpa [hw] using hi) (by simp [hw]) this).symm
      apply mul_left_cancel₀ hne
      linear_combination -hx
  · have hx' : x - 1 ≠ 0 := by
      intro h
      apply hx
      rw [sub_eq_zero.1 h, one_pow]
    have hz : x ^ 4 - 1 ≠ 0 := sub_ne_zero.2 hx
    have := lagrange_off w x (by omega) (by rw [hw]; exact hx) 0 (by omega)
    rw [hw] at this
    rw [this]
    have h4 := fr_four
    simp only [pow_zero, mul_one, ← sub_eq_add_neg]
    push_cast
    field_simp
    ring

/-- **C02 (generic failure over BN254).** With the real evaluation domain, on the satisfiable circuit `trivialOne`
encap and decap always succeed with the same complete satisfying assignment, and the two keys agree **only** when the
sampled randomness happens to satisfy one polynomial equation.  (Non-degenerate pairing, injective KDF.) -/
theorem C02_bn254_generic_failure {G1 G2 GT : Type} [AddCommGroup G1] [Module Fr G1] [AddCommGroup G2] [Module Fr G2]
    [AddCommGroup GT] [Module Fr GT] (P : Pairing Fr G1 G2 GT) (hkdf : Function.Injective P.kdf)
    (hnd : P.e P.g1 P.g2 ≠ 0) (t t' : Tool) (y : Fr) (ρ : Rand Fr) (hδ : ρ.delta ≠ 0) :
    ∃ ct k k', encap P bn254Domains (t.circuit trivialOne fun _ => some y) ρ = .ok (ct, k) ∧
      decap P (t'.circuit trivialOne fun _ => some y) ct = .ok k' ∧
      (k' = k ↔ ρ.r * (1 + ρ.x + ρ.x ^ 2 + ρ.x ^ 3) *
        (ρ.r * ρ.delta * (ρ.x + ρ.x ^ 2 + ρ.x ^ 3 - 3) - 4 * (ρ.alpha + ρ.beta + ρ.r)) = 0) := by
  obtain ⟨ds, hds⟩ := (C61_domain_exists 3).2 (by norm_num)
  obtain ⟨w, hw, rfl⟩ := bn254_three ds hds
  obtain ⟨ct, k, k', he, hd, h⟩ := trivial_exact P hkdf hnd bn254Domains _ hds (by simp [powers]) t t' y ρ hδ
  refine ⟨ct, k, k', he, hd, h.trans ?_⟩
  have hL := bn254_L0 w ρ.x hw
  have e : ρ.r * (1 + ρ.x + ρ.x ^ 2 + ρ.x ^ 3) *
        (ρ.r * ρ.delta * (ρ.x + ρ.x ^ 2 + ρ.x ^ 3 - 3) - 4 * (ρ.alpha + ρ.beta + ρ.r)) =
      (4 * 4) * (ρ.r * lagrangeAt (powers 4 w) ρ.x 0 *
        (ρ.r * ρ.delta * (lagrangeAt (powers 4 w) ρ.x 0 - 1) - (ρ.alpha + ρ.beta + ρ.r))) := by
    generalize lagrangeAt (powers 4 w) ρ.x 0 = L at hL
    have h3 : ρ.x + ρ.x ^ 2 + ρ.x ^ 3 - 3 = 4 * (L - 1) := by linear_combination -hL
    rw [← hL, h3]
    ring
  rw [e, mul_eq_zero (a := 4 * 4), or_iff_right (mul_ne_zero fr_four fr_four)]

/-- **C02 (at most one `δ`).** Consequence: with `α, β, r, x` fixed and outside the exceptional set, at most one of
the `p - 1` admissible values of `δ` lets the decryptor recover the key. -/
theorem C02_bn254_at_most_one_delta {G1 G2 GT : Type} [AddCommGroup G1] [Module Fr G1] [AddCommGroup G2]
    [Module Fr G2] [AddCommGroup GT] [Module Fr GT] (P : Pairing Fr G1 G2 GT) (hkdf : Function.Injective P.kdf)
    (hnd : P.e P.g1 P.g2 ≠ 0) (t t' : Tool) (y : Fr) (ρ : Rand Fr) (δ₁ δ₂ : Fr) (h₁ : δ₁ ≠ 0) (h₂ : δ₂ ≠ 0)
    (hr : ρ.r ≠ 0) (hx : 1 + ρ.x + ρ.x ^ 2 + ρ.x ^ 3 ≠ 0) (hab : ρ.alpha + ρ.beta + ρ.r ≠ 0)
    (ok : ∀ δ, δ = δ₁ ∨ δ = δ₂ → ∃ ct k,
      encap P bn254Domains (t.circuit trivialOne fun _ => some y) { ρ with delta := δ } = .ok (ct, k) ∧
      decap P (t'.circuit trivialOne fun _ => some y) ct = .ok k) : δ₁ = δ₂ := by
  have red : ∀ δ, δ ≠ 0 → (∃ ct k,
      encap P bn254Domains (t.circuit trivialOne fun _ => some y) { ρ with delta := δ } = .ok (ct, k) ∧
      decap P (t'.circuit trivialOne fun _ => some y) ct = .ok k) →
      ρ.r * δ * (ρ.x + ρ.x ^ 2 + ρ.x ^ 3 - 3) = 4 * (ρ.alpha + ρ.beta + ρ.r) := by
    rintro δ hδ ⟨ct, k, he, hd⟩
    obtain ⟨ct', k1, k2, he', hd', hiff⟩ :=
      C02_bn254_generic_failure P hkdf hnd t t' y { ρ with delta := δ } hδ
    rw [he] at he'
    simp only [Except.ok.injEq, Prod.mk.injEq] at he'
    obtain ⟨rfl, rfl⟩ := he'
    rw [hd] at hd'
    have := hiff.1 (Except.ok.inj hd').symm
    rcases mul_eq_zero.1 this with h | h
    · exact absurd h (mul_ne_zero hr hx)
    · exact sub_eq_zero.1 h
  have e1 := red δ₁ h₁ (ok δ₁ (Or.inl rfl))
  have e2 := red δ₂ h₂ (ok δ₂ (Or.inr rfl))
  have hne : ρ.r * (ρ.x + ρ.x ^ 2 + ρ.x ^ 3 - 3) ≠ 0 := by
    intro h
    apply mul_ne_zero fr_four hab
    rw [← e1]
    linear_combination δ₁ * h
  apply mul_left_cancel₀ hne
  linear_combination e1 - e2

end Zkenc.Props
