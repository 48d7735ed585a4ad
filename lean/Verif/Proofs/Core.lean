import Verif.Proofs.WkemAlg
import Verif.Proofs.CircomSynth
import Verif.Proofs.Qap
import Verif.Model.Prog
import Verif.Spec.Tool
/-! Helper lemmas for the core property theorems. -/

namespace Zkenc

open Polynomial

variable {F G1 G2 GT : Type} [Field F] [AddCommGroup G1] [Module F G1]
  [AddCommGroup G2] [Module F G2] [AddCommGroup GT] [Module F GT]

theorem Tool.circuit_eq (t : Tool) (r : R1csFile) (w : Nat → Option F) :
    t.circuit r w = cliCircuit r w := by
  cases t with
  | cli => rfl
  | js => exact jsCircuit_eq_cli r w

theorem nPublicInputs_eq {r : R1csFile} (h : Spec.PublicFits r) : r.nPublicInputs = r.nPubOut + r.nPubIn := by
  unfold Spec.PublicFits at h
  unfold R1csFile.nPublicInputs
  exact Nat.mod_eq_of_lt (by omega)

theorem fits {r : R1csFile} (h : Spec.PublicFits r) : r.nPublicInputs + 1 < 2 ^ 32 := by
  rw [nPublicInputs_eq h]; exact h

theorem lcSum_keepBelow (N : Nat) (val val' : Nat → F) (h1 : ∀ i, i < N → val i = val' i)
    (h2 : ∀ i, N ≤ i → val' i = 0) (fs : Factors) :
    Spec.lcSum val (Spec.keepBelow N fs) = Spec.lcSum val' fs := by
  induction fs with
  | nil => rfl
  | cons t fs ih =>
    simp only [Spec.lcSum, Spec.keepBelow, List.filter_cons] at ih ⊢
    by_cases h : t.1 < N
    · simp [h, ih, h1 _ h]
    · simp [h, ih, h2 _ (Nat.le_of_not_lt h)]

theorem satisfies_keepBelow (N : Nat) (val val' : Nat → F) (h1 : ∀ i, i < N → val i = val' i)
    (h2 : ∀ i, N ≤ i → val' i = 0) (ks : List FileCstr) :
    Spec.Satisfies (ks.map (Spec.FileCstr.keepBelow N)) val ↔ Spec.Satisfies ks val' := by
  simp only [Spec.Satisfies, List.forall_mem_map, Spec.FileCstr.keepBelow,
    lcSum_keepBelow N val val' h1 h2]

theorem satisfies_congr (N : Nat) (val val' : Nat → F) (ks : List FileCstr) (hb : Spec.WiresBelow N ks)
    (h1 : ∀ i, i < N → val i = val' i) : Spec.Satisfies ks val ↔ Spec.Satisfies ks val' := by
  have key : ∀ fs : Factors, (∀ t ∈ fs, t.1 < N) → Spec.lcSum val fs = Spec.lcSum val' fs := by
    intro fs hfs
    unfold Spec.lcSum
    congr 1
    apply List.map_congr_left
    intro t ht
    rw [h1 _ (hfs t ht)]
  unfold Spec.Satisfies
  refine forall₂_congr fun k hk => ?_
  obtain ⟨ha, hb', hc⟩ := hb k hk
  rw [key _ ha, key _ hb', key _ hc]

/-- Synthesis with every wire assigned. -/
theorem circuit_full [DecidableEq F] (t : Tool) (r : R1csFile) (w : Nat → Option F) (val : Nat → F)
    (hf : Spec.PublicFits r) (hv : Spec.Valuation r val) (hw : Spec.Assigns r w val) :
    ∃ cs, t.circuit r w (CS.new F) = (cs, .ok ()) ∧
      cs.inst = (List.range (r.nPublicInputs + 1)).map val ∧
      cs.inst ++ cs.wit = (List.range r.nAlloc).map val ∧
      cs.numInst = r.nPublicInputs + 1 ∧ cs.numVars = r.nAlloc ∧
      (cs.isSatisfied = true ↔ Spec.Satisfies r.constraints val) := by
  obtain ⟨cs, h1, h2, h3, h4, h5, h6⟩ := cliCircuit_full r w val (fits hf) hv.one hw
  refine ⟨cs, by rw [Tool.circuit_eq]; exact h1, h2, h3, h4, h5, ?_⟩
  rw [h6]
  exact satisfies_keepBelow _ _ _ (fun _ _ => rfl) hv.beyond _

/-- Synthesis fails iff a wire is missing. -/
theorem circuit_ok_iff [DecidableEq F] (t : Tool) (r : R1csFile) (w : Nat → Option F) (hf : Spec.PublicFits r) :
    (t.circuit r w (CS.new F)).2 = .ok () ↔ ∃ val, Spec.Valuation r val ∧ Spec.Assigns r w val := by
  constructor
  · intro h
    by_cases hm : ∃ i, 1 ≤ i ∧ i < r.nAlloc ∧ w i = none
    · have := (cliCircuit_missing r w (fits hf) hm).1
      rw [Tool.circuit_eq] at h
      rw [h] at this
      simp at this
    · refine ⟨fun i => if i = 0 then 1 else if i < r.nAlloc then (w i).getD 0 else 0, ⟨by simp, ?_⟩, ?_⟩
      · intro i hi
        have : i ≠ 0 := by
          unfold R1csFile.nAlloc at hi; omega
        simp [this, Nat.not_lt.2 hi]
      · intro i h1 h2
        have : i ≠ 0 := by omega
        simp only [this, if_false, h2, if_true]
        cases hw : w i with
        | none => exact absurd ⟨i, h1, h2, hw⟩ hm
        | some x => rfl
  · rintro ⟨val, hv, hw⟩
    obtain ⟨cs, h1, -⟩ := circuit_full t r w val hf hv hw
    rw [h1]

variable [DecidableEq F]

/-- Ciphertext and key of the documented workflow. -/
theorem encap_missing (P : Pairing F G1 G2 GT) (dom : Domains F) (t : Tool) (r : R1csFile) (w : Nat → Option F)
    (hf : Spec.PublicFits r) (hm : Spec.SomeWireMissing r w) (ρ : Rand F) (ct : Ciphertext F G1 G2) (k : Key)
    (h : encap P dom (t.circuit r w) ρ = .ok (ct, k)) :
    ρ.delta ≠ 0 ∧ k = P.kdf ((ρ.alpha * ρ.beta) • P.e P.g1 P.g2) ∧
    ct.publicInputs = Spec.assignedPrefix w (List.range' 1 r.nPublicInputs) ∧
    ∃ cs : CS F, ct = encapCt P dom cs ρ ∧ cs.cons = [] ∧ 1 ≤ cs.numInst ∧ cs = (t.circuit r w (CS.new F)).1 := by
  rw [Tool.circuit_eq] at h ⊢
  obtain ⟨h1, h2, h3, h4⟩ := cliCircuit_missing r w (fits hf) hm
  have hδ : ρ.delta ≠ 0 := by
    intro hd
    rw [encap_panic] at h
    · simp at h
    · exact ⟨by unfold CS.numVars; omega, hd⟩
  rw [encap_eq _ _ _ _ (fun hc => hδ hc.2)] at h
  simp only [Except.ok.injEq, Prod.mk.injEq] at h
  obtain ⟨hct, hk⟩ := h
  refine ⟨hδ, ?_, ?_, _, hct.symm, h2, h4, rfl⟩
  · rw [← hk, encap_scalar]
    congr 2
    rw [dotF_phiList, evaluateQap_no_cons _ _ _ h2]
    have : ∀ (a : List F) n, dotF a (List.replicate n 0) = 0 := by
      intro a n
      induction n generalizing a with
      | zero => simp
      | succ n ih => cases a with
        | nil => simp
        | cons x a => simp [List.replicate_succ, ih]
    simp [this]
  · rw [← hct]
    simp [encapCt, h3]

omit [DecidableEq F] in
theorem dotF_replicate_zero (a : List F) (n : Nat) : dotF a (List.replicate n 0) = 0 := by
  induction n generalizing a with
  | zero => simp
  | succ n ih => cases a with
    | nil => simp
    | cons x a => simp [List.replicate_succ, ih]

omit [Field F] [DecidableEq F] in
theorem take_drop_eq_iff (full pub : List F) :
    (full.drop 1).take pub.length = pub ↔ ∀ i (h : i < pub.length), full[i + 1]? = some pub[i] := by
  constructor
  · intro h i hi
    have : ((full.drop 1).take pub.length)[i]? = pub[i]? := by rw [h]
    rw [List.getElem?_take_of_lt hi, List.getElem?_drop, List.getElem?_eq_getElem hi, Nat.add_comm] at this
    exact this
  · intro h
    apply List.ext_getElem?
    intro i
    by_cases hi : i < pub.length
    · rw [List.getElem?_take_of_lt hi, List.getElem?_drop, List.getElem?_eq_getElem hi, Nat.add_comm]
      exact h i hi
    · rw [List.getElem?_eq_none (by simpa using by omega), List.getElem?_eq_none (by omega)]

/-- Decapsulating a ciphertext of the documented workflow with any circuit that passes the checks. -/
theorem decap_foreign (P : Pairing F G1 G2 GT) (dom : Domains F) (csE : CS F) (ρ : Rand F) (hδ : ρ.delta ≠ 0)
    (hc : csE.cons = []) (hn : 1 ≤ csE.numInst) (c : Circuit F) (cs : CS F) (hcs : c (CS.new F) = (cs, .ok ()))
    (hs : cs.isSatisfied = true) (hne : cs.inst ++ cs.wit ≠ []) (pub : List F)
    (hp : ∀ i (h : i < pub.length), (cs.inst ++ cs.wit)[i + 1]? = some pub[i]) :
    decap P c { encapCt P dom csE ρ with publicInputs := pub } =
      .ok (P.kdf ((ρ.alpha * ρ.beta) • P.e P.g1 P.g2)) := by
  rw [decap_eq, hcs]
  simp only
  have hlen : 1 + pub.length ≤ (cs.inst ++ cs.wit).length := by
    by_cases h0 : pub.length = 0
    · have : 0 < (cs.inst ++ cs.wit).length := List.length_pos_iff.2 hne
      omega
    · have := hp (pub.length - 1) (by omega)
      have h2 := (List.getElem?_eq_some_iff.1 this).1
      omega
  rw [if_neg (by simp [hs]), if_neg (by omega), if_neg (by rw [not_not]; exact (take_drop_eq_iff _ _).2 hp)]
  have hq : csE.numVars ≠ 0 := by unfold CS.numVars; omega
  rw [if_neg]
  · rw [decap_scalar P dom csE ρ hδ, evaluateQap_no_cons _ _ _ hc]
    simp [dotF_replicate_zero]
  · simp [encapCt, hq]

end Zkenc
