import Verif.Props.Core
import Verif.Basic.FrPrime
/-!
# Property theorems C13, C14 (QAP) and C02 (round trip with complete synthesis)
-/

namespace Zkenc.Props

open Zkenc Spec Polynomial

section
variable {F : Type} [Field F]

/-- **C13.** Every vector returned by the evaluation code has one entry per variable; entry `i` is the value at `x` of
*the* polynomial of degree below the domain size with the prescribed values on the domain — such a polynomial
exists, and every such polynomial gives that entry. -/
theorem C13_qap_evaluations (dom : Domains F) (hdom : dom.Lawful) (cs : CS F) (x : F) (ds : List F)
    (hds : dom (cs.cons.length + cs.numInst) = some ds) :
    ((evaluateQap dom cs x).1.length = cs.numVars ∧ (evaluateQap dom cs x).2.1.length = cs.numVars ∧
      (evaluateQap dom cs x).2.2.length = cs.numVars) ∧
    (∀ sel i, ∃ p, IsQapPoly cs ds sel i p) ∧
    ∀ i (_ : i < cs.numVars) p,
      (IsQapPoly cs ds Cstr.a i p → (evaluateQap dom cs x).1[i]? = some (p.eval x)) ∧
      (IsQapPoly cs ds Cstr.b i p → (evaluateQap dom cs x).2.1[i]? = some (p.eval x)) ∧
      (IsQapPoly cs ds Cstr.c i p → (evaluateQap dom cs x).2.2[i]? = some (p.eval x)) := by
  obtain ⟨hn, hl⟩ := hdom _ _ hds
  have hle : cs.cons.length ≤ ds.length := by omega
  obtain ⟨l1, l2, l3⟩ := evaluateQap_length dom cs x
  have get : ∀ (l : List F) i v, i < l.length → l.getD i 0 = v → l[i]? = some v := by
    intro l i v hi h
    rw [List.getElem?_eq_getElem hi]
    simpa [hi] using h
  refine ⟨⟨l1, l2, l3⟩, ?_, ?_⟩
  · intro sel i
    obtain ⟨p, h1, h2⟩ := exists_interp hn (columnValue cs sel i)
    exact ⟨p, h1, h2⟩
  · intro i hi p
    refine ⟨fun hp => get _ _ _ (by omega) ?_, fun hp => get _ _ _ (by omega) ?_, fun hp => get _ _ _ (by omega) ?_⟩
    · simp only [evaluateQap, hds]; exact accumMatrix_spec hn cs x _ i hi hle p hp
    · simp only [evaluateQap, hds]; exact accumMatrix_spec hn cs x _ i hi hle p hp
    · simp only [evaluateQap, hds]; exact accumMatrix_spec hn cs x _ i hi hle p hp

/-- **C13 (no domain).** If no evaluation domain exists all entries are zero. -/
theorem C13_no_domain (dom : Domains F) (cs : CS F) (x : F) (h : dom (cs.cons.length + cs.numInst) = none) :
    evaluateQap dom cs x =
      (List.replicate cs.numVars 0, List.replicate cs.numVars 0, List.replicate cs.numVars 0) := by
  simp [evaluateQap, h]

/-- **C14.** A complete constraint system is satisfied by its assignment iff the vanishing polynomial of the domain
divides `U·V − W`, where `U, V, W` are the assignment-weighted sums of the QAP polynomials. -/
theorem C14_r1cs_iff_divisible [DecidableEq F] (cs : CS F) (hcs : Complete cs) (ds : List F) (hn : ds.Nodup)
    (hl : cs.cons.length ≤ ds.length) (u v w : Nat → F[X])
    (hu : ∀ i, i < cs.numVars → IsQapPoly cs ds Cstr.a i (u i))
    (hv : ∀ i, i < cs.numVars → IsQapPoly cs ds Cstr.b i (v i))
    (hw : ∀ i, i < cs.numVars → IsQapPoly cs ds Cstr.c i (w i)) :
    cs.isSatisfied = true ↔
      vanishing ds ∣ combine (cs.inst ++ cs.wit) u * combine (cs.inst ++ cs.wit) v
        - combine (cs.inst ++ cs.wit) w := by
  have hlen : (cs.inst ++ cs.wit).length = cs.numVars := by
    rw [List.length_append, hcs.instLen, hcs.witLen]; rfl
  rw [vanishing_dvd_iff hn, isSatisfied_iff cs hcs]
  have hU := combine_node cs ds Cstr.a (cs.inst ++ cs.wit) u (fun i hi => hu i (by omega))
  have hV := combine_node cs ds Cstr.b (cs.inst ++ cs.wit) v (fun i hi => hv i (by omega))
  have hW := combine_node cs ds Cstr.c (cs.inst ++ cs.wit) w (fun i hi => hw i (by omega))
  constructor
  · intro h d hd
    obtain ⟨j, hj, rfl⟩ := List.getElem_of_mem hd
    rw [eval_sub, eval_mul, hU j hj, hV j hj, hW j hj]
    cases hk : cs.cons[j]? with
    | none => simp
    | some k => simp [h k (List.mem_of_getElem? hk)]
  · intro h k hk
    obtain ⟨j, hj, rfl⟩ := List.getElem_of_mem hk
    have hj' : j < ds.length := by omega
    have := h ds[j] (by simp)
    rw [eval_sub, eval_mul, hU j hj', hV j hj', hW j hj', List.getElem?_eq_getElem hj] at this
    simpa [sub_eq_zero] using this

end

section
variable {F G1 G2 GT : Type} [Field F] [AddCommGroup G1] [Module F G1]
  [AddCommGroup G2] [Module F G2] [AddCommGroup GT] [Module F GT] [DecidableEq F]

omit [DecidableEq F] in
theorem dotF_evals (dom : Domains F) (hdom : dom.Lawful) (cs : CS F) (x : F) (ds : List F)
    (hds : dom (cs.cons.length + cs.numInst) = some ds) (a : List F) (ha : a.length ≤ cs.numVars)
    (p : Nat → F[X]) :
    ((∀ i, i < cs.numVars → IsQapPoly cs ds Cstr.a i (p i)) →
      dotF a (evaluateQap dom cs x).1 = (combine a p).eval x) ∧
    ((∀ i, i < cs.numVars → IsQapPoly cs ds Cstr.b i (p i)) →
      dotF a (evaluateQap dom cs x).2.1 = (combine a p).eval x) ∧
    ((∀ i, i < cs.numVars → IsQapPoly cs ds Cstr.c i (p i)) →
      dotF a (evaluateQap dom cs x).2.2 = (combine a p).eval x) := by
  obtain ⟨-, -, h⟩ := C13_qap_evaluations dom hdom cs x ds hds
  refine ⟨fun hp => ?_, fun hp => ?_, fun hp => ?_⟩ <;>
  · rw [dotF_eq_sum, combine_eval]
    congr 1
    apply List.map_congr_left
    intro i hi
    have hi : i < cs.numVars := by have : i < a.length := by simpa using hi
                                   omega
    simp [(h i hi (p i)).1, (h i hi (p i)).2.1, (h i hi (p i)).2.2, hp i hi]

/-- **C02 (exact condition).** Let encap have synthesized the complete system `csE` (every public input has a value),
with QAP polynomials `u, v, w`, and let decap succeed with the assignment `full` for the same variables.  Both keys
are KDF images of target-group elements `s`, `s'` with `s' = s` iff
`r²·(U·V − W)(x) = δ⁻¹·Σ_{instance} aᵢ·φᵢ(x)`, `φᵢ = r·β·uᵢ + r·α·vᵢ + r²·wᵢ`.
(The unconditional round trip does not hold: `C02_roundtrip_refuted`.) -/
theorem C02_exact_condition (P : Pairing F G1 G2 GT) (hnd : P.e P.g1 P.g2 ≠ 0) (dom : Domains F)
    (hdom : dom.Lawful) (cE cD : Circuit F) (ρ : Rand F) (hδ : ρ.delta ≠ 0) (ct : Ciphertext F G1 G2) (k k' : Key)
    (csE csD : CS F) (hcE : (cE (CS.new F)).1 = csE) (hcomp : Complete csE)
    (hcD : cD (CS.new F) = (csD, .ok ())) (full : List F) (hfull : full = csD.inst ++ csD.wit)
    (hvars : full.length = csE.numVars)
    (henc : encap P dom cE ρ = .ok (ct, k)) (hdec : decap P cD ct = .ok k')
    (ds : List F) (hds : dom (csE.cons.length + csE.numInst) = some ds) (u v w : Nat → F[X])
    (hu : ∀ i, i < csE.numVars → IsQapPoly csE ds Cstr.a i (u i))
    (hv : ∀ i, i < csE.numVars → IsQapPoly csE ds Cstr.b i (v i))
    (hw : ∀ i, i < csE.numVars → IsQapPoly csE ds Cstr.c i (w i)) :
    ∃ s s' : GT, k = P.kdf s ∧ k' = P.kdf s' ∧
      (s' = s ↔
        ρ.r ^ 2 * (combine full u * combine full v - combine full w).eval ρ.x =
          ρ.delta⁻¹ * (combine (1 :: ct.publicInputs)
            (fun i => C (ρ.r * ρ.beta) * u i + C (ρ.r * ρ.alpha) * v i + C (ρ.r ^ 2) * w i)).eval ρ.x) := by
  subst hfull
  rw [encap_eq _ _ _ _ (fun h => hδ h.2), hcE] at henc
  simp only [Except.ok.injEq, Prod.mk.injEq] at henc
  obtain ⟨hct, hk⟩ := henc
  have hdec' : k' = P.kdf (P.e (ct.encapKey.alphaG1 + dotG (csD.inst ++ csD.wit) ct.encapKey.rU)
              (ct.encapKey.betaG2 + dotG (csD.inst ++ csD.wit) ct.encapKey.rV)
            - P.e (dotG (csD.inst ++ csD.wit) ct.encapKey.phiDelta) ct.encapKey.deltaG2) := by
    rcases C06_outcome P cD ct csD _ hcD _ rfl with ⟨-, h'⟩ | ⟨-, -, h'⟩ | ⟨-, -, -, h'⟩ |
      ⟨-, -, -, -, h'⟩ | ⟨-, -, -, -, h'⟩
    · rw [hdec] at h'; simp [Res.fail] at h'
    · rw [hdec] at h'; simp [Res.fail] at h'
    · rw [hdec] at h'; simp [Res.fail] at h'
    · rw [hdec] at h'; simp [Res.fail] at h'
    · rw [hdec] at h'; exact Except.ok.inj h'
  refine ⟨_, _, hk.symm, hdec', ?_⟩
  rw [← hct, encap_scalar, decap_scalar P dom csE ρ hδ]
  have hpub : (encapCt P dom csE ρ).publicInputs = csE.inst.drop 1 := rfl
  rw [hpub]
  have hlp : (1 :: csE.inst.drop 1).length ≤ csE.numVars := by
    have h1 := hcomp.instLen
    have h2 := hcomp.one
    have : 0 < csE.inst.length := by
      cases hi : csE.inst with
      | nil => simp [hi] at h2
      | cons => simp
    simp only [List.length_cons, List.length_drop, CS.numVars]
    omega
  obtain ⟨fU, -, -⟩ := dotF_evals dom hdom csE ρ.x ds hds (csD.inst ++ csD.wit) (by omega) u
  obtain ⟨-, fV, -⟩ := dotF_evals dom hdom csE ρ.x ds hds (csD.inst ++ csD.wit) (by omega) v
  obtain ⟨-, -, fW⟩ := dotF_evals dom hdom csE ρ.x ds hds (csD.inst ++ csD.wit) (by omega) w
  obtain ⟨gU, -, -⟩ := dotF_evals dom hdom csE ρ.x ds hds (1 :: csE.inst.drop 1) hlp u
  obtain ⟨-, gV, -⟩ := dotF_evals dom hdom csE ρ.x ds hds (1 :: csE.inst.drop 1) hlp v
  obtain ⟨-, -, gW⟩ := dotF_evals dom hdom csE ρ.x ds hds (1 :: csE.inst.drop 1) hlp w
  rw [dotF_phiList, fU hu, fV hv, fW hw, gU hu, gV hv, gW hw]
  have hphi : (combine (1 :: csE.inst.drop 1)
        (fun i => C (ρ.r * ρ.beta) * u i + C (ρ.r * ρ.alpha) * v i + C (ρ.r ^ 2) * w i)).eval ρ.x =
      ρ.r * ρ.beta * (combine (1 :: csE.inst.drop 1) u).eval ρ.x
      + ρ.r * ρ.alpha * (combine (1 :: csE.inst.drop 1) v).eval ρ.x
      + ρ.r * ρ.r * (combine (1 :: csE.inst.drop 1) w).eval ρ.x := by
    simp only [combine_eval]
    rw [← List.sum_map_mul_left, ← List.sum_map_mul_left, ← List.sum_map_mul_left, ← List.sum_map_add,
      ← List.sum_map_add]
    congr 1
    apply List.map_congr_left
    intro i _
    simp only [eval_add, eval_mul, eval_C]
    ring
  rw [hphi, eval_sub, eval_mul]
  generalize (combine (csD.inst ++ csD.wit) u).eval ρ.x = U
  generalize (combine (csD.inst ++ csD.wit) v).eval ρ.x = V
  generalize (combine (csD.inst ++ csD.wit) w).eval ρ.x = W
  generalize ρ.r * ρ.beta * (combine (1 :: csE.inst.drop 1) u).eval ρ.x
      + ρ.r * ρ.alpha * (combine (1 :: csE.inst.drop 1) v).eval ρ.x
      + ρ.r * ρ.r * (combine (1 :: csE.inst.drop 1) w).eval ρ.x = Φ
  rw [pow_two]
  constructor
  · intro h
    have : (ρ.r * ρ.r * (U * V - W) - ρ.delta⁻¹ * Φ) • P.e P.g1 P.g2 = 0 := by
      have h' := sub_eq_zero.2 h
      rw [← sub_smul] at h'
      rw [← h']
      congr 1
      ring
    rcases smul_eq_zero.1 this with h | h
    · exact sub_eq_zero.1 h
    · exact absurd h hnd
  · intro h; rw [h]

/-- **C02 (at most one `δ`, every circuit).** Let encap synthesize a complete system, with an injective KDF. For fixed `α, β, r, x` for which the
public part does not vanish at `x`, at most one value of `δ` lets decap, with whatever complete assignment of the same
variables, return the key of encap. -/
theorem C02_at_most_one_delta (P : Pairing F G1 G2 GT) (hkdf : Function.Injective P.kdf) (hnd : P.e P.g1 P.g2 ≠ 0) (dom : Domains F)
    (hdom : dom.Lawful) (cE cD : Circuit F) (ρ : Rand F) (csE csD : CS F) (hcE : (cE (CS.new F)).1 = csE) (hcomp : Complete csE)
    (hcD : cD (CS.new F) = (csD, .ok ())) (hvars : csD.inst.length + csD.wit.length = csE.numVars)
    (ds : List F) (hds : dom (csE.cons.length + csE.numInst) = some ds) (u v w : Nat → F[X])
    (hu : ∀ i, i < csE.numVars → IsQapPoly csE ds Cstr.a i (u i))
    (hv : ∀ i, i < csE.numVars → IsQapPoly csE ds Cstr.b i (v i))
    (hw : ∀ i, i < csE.numVars → IsQapPoly csE ds Cstr.c i (w i))
    (hpub : (combine csE.inst
      (fun i => C (ρ.r * ρ.beta) * u i + C (ρ.r * ρ.alpha) * v i + C (ρ.r ^ 2) * w i)).eval ρ.x ≠ 0)
    (δ₁ δ₂ : F) (h₁ : δ₁ ≠ 0) (h₂ : δ₂ ≠ 0)
    (ok : ∀ δ, δ = δ₁ ∨ δ = δ₂ → ∃ ct k, encap P dom cE { ρ with delta := δ } = .ok (ct, k) ∧ decap P cD ct = .ok k) :
    δ₁ = δ₂ := by
  have red : ∀ δ, δ ≠ 0 → (∃ ct k, encap P dom cE { ρ with delta := δ } = .ok (ct, k) ∧ decap P cD ct = .ok k) →
      ρ.r ^ 2 * (combine (csD.inst ++ csD.wit) u * combine (csD.inst ++ csD.wit) v - combine (csD.inst ++ csD.wit) w).eval ρ.x =
        δ⁻¹ * (combine csE.inst
          (fun i => C (ρ.r * ρ.beta) * u i + C (ρ.r * ρ.alpha) * v i + C (ρ.r ^ 2) * w i)).eval ρ.x := by
    rintro δ hδ ⟨ct, k, he, hd⟩
    obtain ⟨s, s', h1, h2, h3⟩ := C02_exact_condition P hnd dom hdom cE cD { ρ with delta := δ } hδ ct k k csE csD hcE hcomp hcD _ rfl
      (by rw [List.length_append]; exact hvars) he hd ds hds u v w hu hv hw
    have hp : 1 :: ct.publicInputs = csE.inst := by
      rw [encap_eq _ _ _ _ (fun h => hδ h.2), hcE] at he
      simp only [Except.ok.injEq, Prod.mk.injEq] at he
      rw [← he.1]
      have hone := hcomp.one
      show 1 :: csE.inst.drop 1 = csE.inst
      cases hi : csE.inst with
      | nil => rw [hi] at hone; simp at hone
      | cons y ys => rw [hi] at hone; simp at hone; rw [hone]; rfl
    rw [hp] at h3
    exact h3.1 (hkdf (h2.symm.trans h1))
  have e := (red δ₁ h₁ (ok δ₁ (Or.inl rfl))).symm.trans (red δ₂ h₂ (ok δ₂ (Or.inr rfl)))
  exact inv_injective (mul_right_cancel₀ hpub e)

/-- **C14 (consequence).** If the sampled `x` is a domain point and the assignment satisfies the circuit, the
decapsulated key is the KDF of `(α·β)·e(g₁,g₂)`. -/
theorem C14_decap_on_domain (P : Pairing F G1 G2 GT) (dom : Domains F) (hdom : dom.Lawful) (c : Circuit F)
    (ρ : Rand F) (ct : Ciphertext F G1 G2) (k k' : Key) (cs : CS F) (hc : c (CS.new F) = (cs, .ok ()))
    (hcomp : Complete cs) (henc : encap P dom c ρ = .ok (ct, k)) (hdec : decap P c ct = .ok k')
    (ds : List F) (hds : dom (cs.cons.length + cs.numInst) = some ds) (hx : ρ.x ∈ ds) :
    k' = P.kdf ((ρ.alpha * ρ.beta) • P.e P.g1 P.g2) := by
  have hnv : cs.numVars ≠ 0 := by
    have h2 := hcomp.one
    have h1 := hcomp.instLen
    intro h0
    unfold CS.numVars at h0
    have : cs.inst = [] := List.length_eq_zero_iff.1 (by omega)
    simp [this] at h2
  have hδ : ρ.delta ≠ 0 := by
    intro h
    rw [encap_panic] at henc
    · simp at henc
    · rw [hc]; exact ⟨hnv, h⟩
  rw [encap_eq _ _ _ _ (fun h => hδ h.2), hc] at henc
  simp only [Except.ok.injEq, Prod.mk.injEq] at henc
  obtain ⟨hct, hk⟩ := henc
  obtain ⟨hn, hl⟩ := hdom _ _ hds
  obtain ⟨-, hex, -⟩ := C13_qap_evaluations dom hdom cs ρ.x ds hds
  choose p hp using hex
  have hfull : (cs.inst ++ cs.wit).length ≤ cs.numVars := by
    rw [List.length_append, hcomp.instLen, hcomp.witLen]; exact Nat.le_refl _
  rcases C06_outcome P c ct cs _ hc _ rfl with ⟨-, h'⟩ | ⟨-, -, h'⟩ | ⟨-, -, -, h'⟩ |
      ⟨-, -, -, -, h'⟩ | ⟨-, hs, -, -, h'⟩
  · rw [hdec] at h'; simp [Res.fail] at h'
  · rw [hdec] at h'; simp [Res.fail] at h'
  · rw [hdec] at h'; simp [Res.fail] at h'
  · rw [hdec] at h'; simp [Res.fail] at h'
  · rw [hdec, ← hct] at h'
    have hdvd := (C14_r1cs_iff_divisible cs hcomp ds hn (by omega) _ _ _ (fun i _ => hp Cstr.a i)
      (fun i _ => hp Cstr.b i) (fun i _ => hp Cstr.c i)).1 hs
    have hz := (vanishing_dvd_iff hn _).1 hdvd _ hx
    have e := decap_scalar P dom cs ρ hδ (cs.inst ++ cs.wit)
    unfold dotG at e
    rw [e] at h'
    rw [(dotF_evals dom hdom cs ρ.x ds hds _ hfull (p Cstr.a)).1 (fun i _ => hp Cstr.a i),
      (dotF_evals dom hdom cs ρ.x ds hds _ hfull (p Cstr.b)).2.1 (fun i _ => hp Cstr.b i),
      (dotF_evals dom hdom cs ρ.x ds hds _ hfull (p Cstr.c)).2.2 (fun i _ => hp Cstr.c i)] at h'
    rw [eval_sub, eval_mul] at hz
    rw [hz] at h'
    simpa using h'

/-! ### The refuting family -/

/-- `1 * 1 = 1` over one public wire: satisfied by every assignment, no private wire. -/
def trivialOne : R1csFile :=
  { fieldSize := 32, prime := leBytes 32 frModulus, nWires := 2, nPubOut := 0, nPubIn := 1, nPrvIn := 0, nLabels := 2,
    nConstraints := 1, constraints := [⟨[(0, leBytes 32 1)], [(0, leBytes 32 1)], [(0, leBytes 32 1)]⟩], wire2label := [0, 1] }

theorem coeff_leBytes_one (F : Type) [Field F] : (Spec.coeff (leBytes 32 1) : F) = 1 := by
  unfold Spec.coeff
  rw [List.take_of_length_le (by simp), leNat_leBytes_of_lt (by decide)]
  simp

/-- The system both encap and decap synthesize for `trivialOne`. -/
def trivialCs (y : F) : CS F :=
  { numInst := 2, numWit := 0, inst := [1, y], wit := [],
    cons := [⟨[(1, .one)], [(1, .one)], [(1, .one)]⟩] }

omit [DecidableEq F] in
theorem trivial_synth (t : Tool) (y : F) :
    t.circuit trivialOne (fun _ => some y) (CS.new F) = (trivialCs y, .ok ()) := by
  rw [Tool.circuit_eq]
  have h1 : trivialOne.nPublicInputs = 1 := rfl
  have hb : (bytesToFr (leBytes 32 1) : F) = 1 := by
    rw [bytesToFr_eq_coeff, coeff_leBytes_one]
  simp only [cliCircuit, h1, wiresIncl, wiresExcl]
  simp [List.range', allocInputs, allocWitnesses, CS.newInput, CS.new, trivialOne, cliLc, cliLcStep,
    VarMap.insert, VarMap.init, lcAdd, hb, CS.enforce, trivialCs]

theorem trivial_sat (y : F) : (trivialCs y).isSatisfied = true := by
  simp [CS.isSatisfied, trivialCs, CS.cstrOk, CS.lcVal, CS.varVal]

omit [DecidableEq F] in
theorem trivial_evals (dom : Domains F) (y x : F) (ds : List F) (hds : dom 3 = some ds) (hne : ds ≠ []) :
    evaluateQap dom (trivialCs y) x =
      ([lagrangeAt ds x 0, 0], [lagrangeAt ds x 0, 0], [lagrangeAt ds x 0, 0]) := by
  cases ds with
  | nil => exact absurd rfl hne
  | cons d ds =>
    simp [evaluateQap, trivialCs, hds, lagrangeCoeffs, List.range_succ_eq_map, accumMatrix, accumRow,
      CS.row, CS.numVars, CS.col, List.replicate, List.modify]

/-- **C02 (refutation of the unconditional round trip).** For every field, every pairing that is non-degenerate, every
injective KDF and every lawful domain: on the satisfiable circuit `trivialOne` and for *all* randomness with `x` the first
domain point, `r ≠ 0` and `α + β + r ≠ 0`, encap and decap both succeed with the same (complete, satisfying)
assignment and return different keys. -/
theorem C02_roundtrip_refuted (P : Pairing F G1 G2 GT) (hkdf : Function.Injective P.kdf)
    (hnd : P.e P.g1 P.g2 ≠ 0) (dom : Domains F) (hdom : dom.Lawful) (d : F) (ds : List F)
    (hds : dom 3 = some (d :: ds)) (t t' : Tool) (y : F) (ρ : Rand F) (hδ : ρ.delta ≠ 0) (hx : ρ.x = d)
    (hr : ρ.r ≠ 0) (hab : ρ.alpha + ρ.beta + ρ.r ≠ 0) :
    ∃ ct k k', encap P dom (t.circuit trivialOne fun _ => some y) ρ = .ok (ct, k) ∧
      decap P (t'.circuit trivialOne fun _ => some y) ct = .ok k' ∧ k' ≠ k := by
  have hL : lagrangeAt (d :: ds) ρ.x 0 = 1 := by
    rw [lagrangeAt_eq]
    have hn := (hdom _ _ hds).1
    have := Lagrange.eval_basis_self (node_injOn hn) (i := 0) (by simp)
    simpa [node, hx] using this
  refine ⟨_, _, P.kdf ((ρ.alpha * ρ.beta) • P.e P.g1 P.g2), encap_eq _ _ _ _ (fun h => hδ h.2), ?_, ?_⟩
  · rw [decap_eq, trivial_synth, trivial_synth]
    simp only [trivial_sat, Bool.true_eq_false, if_false]
    rw [if_neg (by simp [encapCt, trivialCs]), if_neg (by simp [encapCt, trivialCs]),
      if_neg (by simp [encapCt, trivialCs, CS.numVars]), decap_scalar P dom _ ρ hδ,
      trivial_evals dom y ρ.x _ hds (by simp), hL]
    simp [trivialCs]
  · rw [trivial_synth]
    intro h
    have h := hkdf h
    rw [encap_scalar, dotF_phiList, trivial_evals dom y ρ.x _ hds (by simp), hL] at h
    have h' := sub_eq_zero.2 h
    rw [← sub_smul] at h'
    rcases smul_eq_zero.1 h' with h'' | h''
    · have : ρ.r * (ρ.alpha + ρ.beta + ρ.r) = 0 := by
        simp [trivialCs] at h''
        rcases h'' with h'' | h''
        · exact absurd h'' hδ
        · linear_combination h''
      rcases mul_eq_zero.1 this with h3 | h3
      · exact hr h3
      · exact hab h3
    · exact hnd h''

end

/-! ### Non-vacuity -/

/-- A domain constructor with four points, for the examples. -/
def toyDomains : Domains ℚ := fun n => if n ≤ 4 then some [1, 2, 3, 4] else none

theorem toyDomains_lawful : toyDomains.Lawful := by
  intro n ds h
  unfold toyDomains at h
  split at h
  · simp only [Option.some.injEq] at h
    subst h
    refine ⟨by decide, by simpa using by assumption⟩
  · simp at h

/-- The hypotheses of C02/C14 are met by the complete system of `trivialOne`. -/
example : Complete (trivialCs (7 : ℚ)) ∧ (trivialCs (7 : ℚ)).isSatisfied = true := by
  refine ⟨⟨rfl, rfl, rfl, ?_⟩, trivial_sat _⟩
  intro k hk t ht
  simp only [trivialCs, List.mem_singleton] at hk
  subst hk
  simp at ht
  subst ht
  trivial

end Zkenc.Props
