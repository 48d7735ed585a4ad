import Verif.Props.Core
import Verif.Props.Qap
import Verif.Props.Bn254
import Verif.Spec.Toy
import Verif.Props.EndToEndExample
/-!
# The theorems about the core, applied

The theorems of `Props/Core.lean`, `Props/Qap.lean` and `Props/Bn254.lean` are applied, with all their hypotheses, to concrete circuits: `y = x²` (for every pairing
setting) and `1 · 1 = 1` (over BN254's scalar field and its real evaluation domains).
-/

namespace Zkenc.Props

open Zkenc Zkenc.Spec Polynomial

namespace Applied

section
variable {F G1 G2 GT : Type} [Field F] [AddCommGroup G1] [Module F G1]
  [AddCommGroup G2] [Module F G2] [AddCommGroup GT] [Module F GT] [DecidableEq F]

/-- Encapsulation for `y = x²`, `y = 9`: the ciphertext records `[9]`. -/
theorem sq_encap (P : Pairing F G1 G2 GT) (dom : Domains F) (α β r x : F) :
    ∃ ct k, encap P dom (Tool.cli.circuit sq sqPub) ⟨α, β, 1, r, x⟩ = .ok (ct, k) ∧ ct.publicInputs = [9] := by
  obtain ⟨ct, k, h⟩ := C07_encap_ok P dom (Tool.cli.circuit sq sqPub) ⟨α, β, 1, r, x⟩ one_ne_zero
  refine ⟨ct, k, h, ?_⟩
  rw [(encap_missing P dom .cli sq sqPub sq_fits sq_missing _ ct k h).2.2.1]
  rfl

theorem sq_match {ct : Ciphertext F G1 G2} (hp : ct.publicInputs = [9]) : PublicMatch ct (sqVal : Nat → F) := by
  intro i hi
  have : i = 0 := by rw [hp] at hi; simpa using hi
  subst this
  simp [hp, sqVal]

/-- A native circuit that has nothing to do with `y = x²`: one public and one private variable, no constraint. -/
def anyCircuit (a b : F) : Circuit F := fun cs => ({ cs with numInst := 2, inst := cs.inst ++ [a], numWit := 1, wit := [b] }, .ok ())

theorem anyCircuit_eq (a b : F) : anyCircuit a b (CS.new F) = (⟨2, 1, [1, a], [b], []⟩, .ok ()) := rfl

/-- C09, C10, C11, C03, C06, C04/C05, C08 for `y = x²`: the ciphertext for 9 is opened by the unrelated circuit with public value 9; with the public
input removed by every satisfied circuit. -/
example (P : Pairing F G1 G2 GT) (dom : Domains F) (α β r x a b : F) :
    ∃ ct k, encap P dom (Tool.cli.circuit sq sqPub) ⟨α, β, 1, r, x⟩ = .ok (ct, k) ∧
      decap P (anyCircuit 9 b) ct = .ok k ∧
      decap P (anyCircuit a b) { ct with publicInputs := [] } = .ok k ∧
      decap P (Tool.js.circuit emptyCircuit fun _ => none) { ct with publicInputs := [] } = .ok k ∧
      k = P.kdf ((α * β) • P.e P.g1 P.g2) ∧ recoverKey P ct = k ∧
      (∀ k', decap P (Tool.js.circuit sq fun i => some (sqVal i)) ct = .ok k' → k' = k) ∧
      (∃ val, Valuation sq val ∧ Assigns sq (fun i => some ((sqVal : Nat → F) i)) val ∧ Satisfies sq.constraints val ∧ PublicMatch ct val ∧
        ct.publicInputs.length + 1 ≤ sq.nAlloc) ∧
      ((∀ i (h : i < ct.publicInputs.length), sqPub (i + 1) = some ct.publicInputs[i]) ∧ ct.publicInputs.length ≤ sq.nPubOut + sq.nPubIn) := by
  obtain ⟨ct, k, h, hp⟩ := sq_encap P dom α β r x
  have hdec := C01_roundtrip P dom .cli .js sq sq_fits sqPub sq_missing _ ct k h sqVal sq_valuation sq_satisfies (sq_match hp) (fun i => some (sqVal i)) (fun i _ _ => rfl)
  have h8 := C08_bound_public_inputs P dom .cli sq sq_fits sqPub _ ct k h
  refine ⟨ct, k, h, ?_, ?_, C09_empty_circuit_opens P dom .cli .js sq sq_fits sqPub sq_missing _ ct k h,
    C11_key_formula P dom .cli sq sq_fits sqPub sq_missing _ ct k h, C03_key_recoverable P dom _ _ ct k h,
    fun k' hk' => (C10_unique_key P dom .cli sq sq_fits sqPub sq_missing _ ct k h _ _ k k' hdec hk').2,
    C04_C05_decap_sound P .js sq sq_fits _ ct k hdec, h8.1, h8.2.1⟩
  · refine C09_no_circuit_binding P dom .cli sq sq_fits sqPub sq_missing _ ct k h _ _ (anyCircuit_eq 9 b) (by simp [CS.isSatisfied]) [1, 9, b] rfl (by simp) ?_
    intro i hi
    have : i = 0 := by rw [hp] at hi; simpa using hi
    subst this
    simp [hp]
  · exact C09_strip_public P dom .cli sq sq_fits sqPub sq_missing _ ct k h _ _ (anyCircuit_eq a b) (by simp [CS.isSatisfied]) (by simp)

/-- C06: with the wrong public value the outcome is `InvalidPublicInputs` — the other four cases do not apply. -/
example (P : Pairing F G1 G2 GT) (dom : Domains F) (α β r x b : F) :
    ∃ ct k, encap P dom (Tool.cli.circuit sq sqPub) ⟨α, β, 1, r, x⟩ = .ok (ct, k) ∧ decap P (anyCircuit 8 b) ct = Res.fail "InvalidPublicInputs" := by
  obtain ⟨ct, k, h, hp⟩ := sq_encap P dom α β r x
  have h98 : (8 : F) ≠ 9 := by
    intro h
    have : (9 : F) = 8 + 1 := by norm_num
    rw [← h] at this
    exact one_ne_zero (left_eq_add.1 this)
  refine ⟨ct, k, h, ?_⟩
  have hno : ¬ (1 + ct.publicInputs.length ≤ [1, 8, b].length ∧ ∀ i (h : i < ct.publicInputs.length), [1, 8, b][i + 1]? = some ct.publicInputs[i]) := by
    rintro ⟨-, hm⟩
    have := hm 0 (by rw [hp]; simp)
    simp [hp] at this
    exact h98 this
  rcases C06_outcome P (anyCircuit 8 b) ct _ _ (anyCircuit_eq 8 b) [1, 8, b] rfl with ⟨⟨e, he⟩, -⟩ | ⟨-, hs, -⟩ | ⟨-, -, -, hr⟩ | ⟨-, -, hm, -⟩ | ⟨-, -, hm, -⟩
  · cases he
  · simp [CS.isSatisfied] at hs
  · exact hr
  · exact absurd hm hno
  · exact absurd hm hno

/-- C03 (unsatisfiable). -/
example (P : Pairing F G1 G2 GT) (dom : Domains F) (α β r x : F) :
    ∃ ct k, encap P dom (Tool.js.circuit impossible fun _ => none) ⟨α, β, 1, r, x⟩ = .ok (ct, k) ∧ recoverKey P ct = k ∧
      ∀ t' w k', decap P (Tool.circuit t' impossible w) ct ≠ .ok k' :=
  C03_even_unsatisfiable P dom .js ⟨α, β, 1, r, x⟩ one_ne_zero

/-- C08: an output (wire 1) without a value unbinds the public input (wire 2). -/
example (P : Pairing F G1 G2 GT) (dom : Domains F) (α β r x : F) :
    ∃ ct k, encap P dom (Tool.js.circuit { sq with nWires := 4, nPubOut := 1 } fun i => if i = 2 then some 9 else none) ⟨α, β, 1, r, x⟩ = .ok (ct, k) ∧
      ct.publicInputs = [] := by
  obtain ⟨ct, k, h⟩ := C07_encap_ok P dom (Tool.js.circuit { sq with nWires := 4, nPubOut := 1 } fun i => if i = 2 then some 9 else none) ⟨α, β, 1, r, x⟩ one_ne_zero
  refine ⟨ct, k, h, ?_⟩
  obtain ⟨h1, -, -⟩ := C08_bound_public_inputs P dom .js _ (by decide) _ _ ct k h
  by_contra hc
  have := h1 0 (List.length_pos_iff.2 hc)
  simp at this

end

/-! ### Over BN254's scalar field -/

theorem toy_inj : Function.Injective toyPairing.kdf := by
  intro a b h
  have := congrArg Key.bytes h
  have h2 : frEnc a = frEnc b := this
  have := congrArg frDec h2
  rw [frDec_frEnc, frDec_frEnc] at this
  exact Option.some.inj this

theorem toy_nd : toyPairing.e toyPairing.g1 toyPairing.g2 ≠ 0 := by
  change (1 : Fr) * 1 ≠ 0
  rw [one_mul]
  exact one_ne_zero

/-- C11: the keys of two encapsulations, made by different tools for different public values, agree iff `α·β` does. -/
example : ∃ ct k ct' k', encap toyPairing bn254Domains (Tool.cli.circuit sq sqPub) ⟨2, 6, 1, 5, 7⟩ = .ok (ct, k) ∧
    encap toyPairing bn254Domains (Tool.js.circuit sq fun i => if i = 1 then some 16 else none) ⟨3, 4, 1, 8, 9⟩ = .ok (ct', k') ∧ k = k' := by
  obtain ⟨ct, k, h, -⟩ := sq_encap toyPairing bn254Domains 2 6 5 7
  obtain ⟨ct', k', h'⟩ := C07_encap_ok toyPairing bn254Domains (Tool.js.circuit sq fun i => if i = 1 then some 16 else none) ⟨3, 4, 1, 8, 9⟩ one_ne_zero
  refine ⟨ct, k, ct', k', h, h', ?_⟩
  refine (C11_keys_equal_iff toyPairing toy_inj toy_nd bn254Domains bn254Domains .cli .js sq sq sq_fits sq_fits sqPub _ sq_missing
    ⟨2, by decide, by decide, rfl⟩ _ _ ct ct' k k' h h').2 ?_
  change (2 : Fr) * 6 = 3 * 4
  norm_num

theorem trivial_complete {F : Type} [Field F] (y : F) : Complete (trivialCs y) := by
  refine ⟨rfl, rfl, rfl, ?_⟩
  intro k hk t ht
  simp only [trivialCs, List.mem_singleton] at hk
  subst hk
  simp at ht
  subst ht
  trivial

/-- The QAP polynomials of a system over a lawful domain. -/
theorem polys {F : Type} [Field F] (dom : Domains F) (hdom : dom.Lawful) (cs : CS F) (ds : List F) (hds : dom (cs.cons.length + cs.numInst) = some ds)
    (sel : Cstr F → LC F) : ∃ u : Nat → F[X], ∀ i, IsQapPoly cs ds sel i (u i) := by
  obtain ⟨-, h, -⟩ := C13_qap_evaluations dom hdom cs 0 ds hds
  exact ⟨fun i => (h sel i).choose, fun i => (h sel i).choose_spec⟩

/-- C13, C14 for `1 · 1 = 1` over a four-point domain of ℚ. -/
example : (evaluateQap toyDomains (trivialCs (7 : ℚ)) 5).1.length = 2 ∧
    ∃ u v w : Nat → ℚ[X], vanishing ([1, 2, 3, 4] : List ℚ) ∣ Spec.combine [1, 7] u * Spec.combine [1, 7] v - Spec.combine [1, 7] w ∧
      (evaluateQap toyDomains (trivialCs (7 : ℚ)) 5).1[0]? = some ((u 0).eval 5) := by
  have hds : toyDomains ((trivialCs (7 : ℚ)).cons.length + (trivialCs (7 : ℚ)).numInst) = some [1, 2, 3, 4] := rfl
  obtain ⟨u, hu⟩ := polys toyDomains toyDomains_lawful _ _ hds Cstr.a
  obtain ⟨v, hv⟩ := polys toyDomains toyDomains_lawful _ _ hds Cstr.b
  obtain ⟨w, hw⟩ := polys toyDomains toyDomains_lawful _ _ hds Cstr.c
  obtain ⟨h1, -, h3⟩ := C13_qap_evaluations toyDomains toyDomains_lawful (trivialCs (7 : ℚ)) 5 _ hds
  refine ⟨h1.1, u, v, w, ?_, (h3 0 (by decide) (u 0)).1 (hu 0)⟩
  exact (C14_r1cs_iff_divisible (trivialCs (7 : ℚ)) (trivial_complete 7) [1, 2, 3, 4] (toyDomains_lawful 3 _ rfl).1 (by simp [trivialCs]) u v w (fun i _ => hu i) (fun i _ => hv i)
    (fun i _ => hw i)).1 (trivial_sat 7)

/-- C14 the other way: for `1 · 1 = 0` the vanishing polynomial does not divide. -/
example : ∃ cs : CS ℚ, Complete cs ∧ ∀ u v w : Nat → ℚ[X], (∀ i, IsQapPoly cs [1, 2, 3, 4] Cstr.a i (u i)) → (∀ i, IsQapPoly cs [1, 2, 3, 4] Cstr.b i (v i)) →
    (∀ i, IsQapPoly cs [1, 2, 3, 4] Cstr.c i (w i)) → ¬ vanishing ([1, 2, 3, 4] : List ℚ) ∣ Spec.combine cs.inst u * Spec.combine cs.inst v - Spec.combine cs.inst w := by
  refine ⟨⟨1, 0, [1], [], [⟨[(1, .one)], [(1, .one)], []⟩]⟩, ⟨rfl, rfl, rfl, ?_⟩, ?_⟩
  · intro k hk t ht
    simp only [List.mem_singleton] at hk
    subst hk
    simp at ht
    subst ht
    trivial
  · intro u v w hu hv hw hd
    have := (C14_r1cs_iff_divisible _ ⟨rfl, rfl, rfl, by
      intro k hk t ht
      simp only [List.mem_singleton] at hk
      subst hk
      simp at ht
      subst ht
      trivial⟩ [1, 2, 3, 4] (toyDomains_lawful 3 _ rfl).1 (by simp [trivialCs]) u v w (fun i _ => hu i) (fun i _ => hv i) (fun i _ => hw i)).2 (by simpa using hd)
    simp [CS.isSatisfied, CS.cstrOk, CS.lcVal, CS.varVal] at this

/-- C13: no domain, zero vectors. -/
example : evaluateQap toyDomains (⟨5, 0, [1, 2, 3, 4, 5], [], []⟩ : CS ℚ) 3 = ([0, 0, 0, 0, 0], [0, 0, 0, 0, 0], [0, 0, 0, 0, 0]) :=
  C13_no_domain toyDomains (⟨5, 0, [1, 2, 3, 4, 5], [], []⟩ : CS ℚ) 3 rfl

/-- C02, C14: `1 · 1 = 1` with the real domains, `α = β = r = 1`, `x = 0`, and any `δ ≠ 0`: encap and decap succeed; the keys agree iff the condition of
the theorem holds. -/
example (δ : Fr) (hδ : δ ≠ 0) : ∃ ct k k' ds, encap toyPairing bn254Domains (Tool.cli.circuit trivialOne fun _ => some 7) ⟨1, 1, δ, 1, 0⟩ = .ok (ct, k) ∧
    decap toyPairing (Tool.js.circuit trivialOne fun _ => some 7) ct = .ok k' ∧ bn254Domains 3 = some ds ∧
    ∃ u v w : Nat → Fr[X], ∃ s s' : Fr, k = toyPairing.kdf s ∧ k' = toyPairing.kdf s' ∧ (s' = s ↔
      (1 : Fr) ^ 2 * (Spec.combine [1, 7] u * Spec.combine [1, 7] v - Spec.combine [1, 7] w).eval 0 =
          δ⁻¹ * (Spec.combine (1 :: ct.publicInputs)
            (fun i => C (1 * 1 : Fr) * u i + C (1 * 1 : Fr) * v i + C ((1 : Fr) ^ 2) * w i)).eval 0) := by
  obtain ⟨ct, k, k', h1, h2, -⟩ := C02_bn254_generic_failure toyPairing toy_inj toy_nd .cli .js 7 ⟨1, 1, δ, 1, 0⟩ hδ
  obtain ⟨ds, hds⟩ := (C61_domain_exists 3).2 (by norm_num)
  obtain ⟨u, hu⟩ := polys bn254Domains C61_lawful (trivialCs 7) ds hds Cstr.a
  obtain ⟨v, hv⟩ := polys bn254Domains C61_lawful (trivialCs 7) ds hds Cstr.b
  obtain ⟨w, hw⟩ := polys bn254Domains C61_lawful (trivialCs 7) ds hds Cstr.c
  refine ⟨ct, k, k', ds, h1, h2, hds, u, v, w, ?_⟩
  exact C02_exact_condition toyPairing toy_nd bn254Domains C61_lawful _ _ ⟨1, 1, δ, 1, 0⟩ hδ ct k k' (trivialCs 7) (trivialCs 7)
    (by rw [trivial_synth]) (trivial_complete 7) (trivial_synth .js 7) [1, 7] rfl rfl h1 h2 ds hds u v w (fun i _ => hu i) (fun i _ => hv i)
    (fun i _ => hw i)

/-- C02: with `α = β = r = 1`, `x = 0` the key is recovered for `δ = -4` … -/
theorem opens_at : ∃ ct k, encap toyPairing bn254Domains (Tool.cli.circuit trivialOne fun _ => some 7) ⟨1, 1, -4, 1, 0⟩ = .ok (ct, k) ∧
    decap toyPairing (Tool.js.circuit trivialOne fun _ => some 7) ct = .ok k := by
  obtain ⟨ct, k, k', h1, h2, h3⟩ := C02_bn254_generic_failure toyPairing toy_inj toy_nd .cli .js 7 ⟨1, 1, -4, 1, 0⟩ (neg_ne_zero.2 fr_four)
  have : k' = k := h3.2 (by norm_num)
  subst this
  exact ⟨ct, k', h1, h2⟩

/-- … and by `C02_bn254_at_most_one_delta` for no other `δ`. -/
example (δ : Fr) (h0 : δ ≠ 0) (hδ : δ ≠ -4) : ¬ ∃ ct k, encap toyPairing bn254Domains (Tool.cli.circuit trivialOne fun _ => some 7) ⟨1, 1, δ, 1, 0⟩ = .ok (ct, k) ∧
    decap toyPairing (Tool.js.circuit trivialOne fun _ => some 7) ct = .ok k := by
  intro h
  refine hδ (C02_bn254_at_most_one_delta toyPairing toy_inj toy_nd .cli .js 7 ⟨1, 1, δ, 1, 0⟩ δ (-4) h0 (neg_ne_zero.2 fr_four) one_ne_zero (by norm_num) ?_ ?_)
  · intro hc
    apply Ex.fr_ne 3 (by decide) (by decide)
    push_cast
    linear_combination hc
  · rintro d (rfl | rfl)
    · exact h
    · exact opens_at

/-- The same from the general `C02_at_most_one_delta`. -/
example (δ : Fr) (h0 : δ ≠ 0) (hδ : δ ≠ -4) : ¬ ∃ ct k, encap toyPairing bn254Domains (Tool.cli.circuit trivialOne fun _ => some 7) ⟨1, 1, δ, 1, 0⟩ = .ok (ct, k) ∧
    decap toyPairing (Tool.js.circuit trivialOne fun _ => some 7) ct = .ok k := by
  intro h
  obtain ⟨ds, hds⟩ := (C61_domain_exists 3).2 (by norm_num)
  obtain ⟨u, hu⟩ := polys bn254Domains C61_lawful (trivialCs 7) ds hds Cstr.a
  obtain ⟨v, hv⟩ := polys bn254Domains C61_lawful (trivialCs 7) ds hds Cstr.b
  obtain ⟨w, hw⟩ := polys bn254Domains C61_lawful (trivialCs 7) ds hds Cstr.c
  refine hδ (C02_at_most_one_delta toyPairing toy_inj toy_nd bn254Domains C61_lawful (Tool.cli.circuit trivialOne fun _ => some 7)
    (Tool.js.circuit trivialOne fun _ => some 7) ⟨1, 1, δ, 1, 0⟩ (trivialCs 7) (trivialCs 7)
    (by rw [trivial_synth]) (trivial_complete 7) (trivial_synth .js 7) rfl ds hds u v w (fun i _ => hu i) (fun i _ => hv i)
    (fun i _ => hw i) ?_ δ (-4) h0 (neg_ne_zero.2 fr_four) ?_)
  · have h13 := (C13_qap_evaluations bn254Domains C61_lawful (trivialCs 7) 0 ds hds).2.2
    have hne : ds ≠ [] := by
      intro h
      have := (C61_lawful 3 ds hds).2
      rw [h] at this
      simp at this
    obtain ⟨wr, hord, rfl⟩ := bn254_three ds hds
    have hev := trivial_evals bn254Domains (7 : Fr) 0 _ hds hne
    have hL := bn254_L0 wr 0 hord
    have e0 := h13 0 (by decide)
    have e1 := h13 1 (by decide)
    rw [hev] at e0 e1
    have u0 := (e0 (u 0)).1 (hu 0)
    have v0 := (e0 (v 0)).2.1 (hv 0)
    have w0 := (e0 (w 0)).2.2 (hw 0)
    have u1 := (e1 (u 1)).1 (hu 1)
    have v1 := (e1 (v 1)).2.1 (hv 1)
    have w1 := (e1 (w 1)).2.2 (hw 1)
    simp only [List.getElem?_cons_zero, List.getElem?_cons_succ, Option.some.injEq] at u0 v0 w0 u1 v1 w1
    intro hc
    have hsum : (Spec.combine (trivialCs (7 : Fr)).inst fun i => C (1 * 1 : Fr) * u i + C (1 * 1 : Fr) * v i + C ((1 : Fr) ^ 2) * w i) =
        C 1 * (C (1 * 1 : Fr) * u 0 + C (1 * 1 : Fr) * v 0 + C ((1 : Fr) ^ 2) * w 0) +
          (C 7 * (C (1 * 1 : Fr) * u 1 + C (1 * 1 : Fr) * v 1 + C ((1 : Fr) ^ 2) * w 1) + 0) := rfl
    have hc' : (Spec.combine (trivialCs (7 : Fr)).inst fun i => C (1 * 1 : Fr) * u i + C (1 * 1 : Fr) * v i + C ((1 : Fr) ^ 2) * w i).eval 0 = 0 := hc
    rw [hsum] at hc'
    simp only [eval_add, eval_mul, eval_C, eval_zero, ← u0, ← v0, ← w0, ← u1, ← v1, ← w1] at hc'
    apply Ex.fr_ne 3 (by decide) (by decide)
    push_cast
    linear_combination 4 * hc' - 3 * hL
  · rintro d (rfl | rfl)
    · exact h
    · exact opens_at

/-- C14: `x` on the domain. -/
example (δ : Fr) (hδ : δ ≠ 0) : ∃ ct k, encap toyPairing bn254Domains (Tool.cli.circuit trivialOne fun _ => some 7) ⟨2, 3, δ, 1, 1⟩ = .ok (ct, k) ∧
    decap toyPairing (Tool.cli.circuit trivialOne fun _ => some 7) ct = .ok (toyPairing.kdf 6) := by
  obtain ⟨ct, k, k', h1, h2, -⟩ := C02_bn254_generic_failure toyPairing toy_inj toy_nd .cli .cli 7 ⟨2, 3, δ, 1, 1⟩ hδ
  obtain ⟨ds, hds⟩ := (C61_domain_exists 3).2 (by norm_num)
  obtain ⟨wr, hord, rfl⟩ := bn254_three ds hds
  have := C14_decap_on_domain toyPairing bn254Domains C61_lawful _ ⟨2, 3, δ, 1, 1⟩ ct k k' (trivialCs 7) (trivial_synth .cli 7) (trivial_complete 7) h1 h2 _ hds
    (by simp only [powers, List.mem_map, List.mem_range]; exact ⟨0, by norm_num, pow_zero _⟩)
  refine ⟨ct, k, h1, ?_⟩
  rw [h2, this]
  change Except.ok (toyPairing.kdf ((2 * 3 : Fr) * ((1 : Fr) * 1))) = _
  norm_num

/-- C61: the domain for three, and the evaluation there. -/
example (x : Fr) : (∃ w, arkLagrange 4 w x = (List.range 4).map fun j => (Lagrange.basis (Finset.range 4) (fun i => w ^ i) j).eval x) ∧
    (arkEvaluateQap (trivialCs (7 : Fr)) x).1.length = 2 := by
  constructor
  · obtain ⟨ds, h⟩ := (C61_domain_exists 3).2 (by norm_num)
    obtain ⟨w, -, h2⟩ := bn254_three ds h
    obtain ⟨⟨N, w'⟩, hg, -⟩ : ∃ p, generalDomain 3 = some p ∧ True := by
      rcases hg : generalDomain 3 with _ | p
      · unfold bn254Domains at h
        rw [hg] at h
        cases h
      · exact ⟨p, rfl, trivial⟩
    have hN : N = 4 := by
      have := (C61_domain_points 3 ds h).1
      unfold bn254Domains at h
      rw [hg] at h
      simp at h
      have hl : ds.length = N := by rw [← h]; simp [powers]
      have h4 : ds.length = 4 := by rw [h2]; simp [powers]
      omega
    subst hN
    exact ⟨w', C61_lagrange 3 4 w' x hg⟩
  · obtain ⟨ds, -, h, -⟩ := C61_qap_bn254 (trivialCs (7 : Fr)) x (by decide)
    exact h.1

end Applied

end Zkenc.Props
