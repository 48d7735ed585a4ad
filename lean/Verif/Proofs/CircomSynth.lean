import Verif.Proofs.Circom
/-! Outcome of Circom synthesis: complete assignment / missing wire. -/

namespace Zkenc

variable {F : Type} [Field F]

theorem sat_all_iff [DecidableEq F] (cs : CS F) (ks : List FileCstr) (vm : VarMap) (V : Var → F)
    (hcons : cs.cons = ks.map fun k => ⟨cliLc k.a vm, cliLc k.b vm, cliLc k.c vm⟩)
    (h : ∀ i v, vm i = some v → cs.varVal v = some (V v)) :
    cs.isSatisfied = true ↔
      ∀ k ∈ ks, knownSum V vm k.a * knownSum V vm k.b = knownSum V vm k.c := by
  simp only [CS.isSatisfied, hcons, List.all_map, List.all_eq_true, Function.comp_apply, CS.cstrOk,
    lcVal_cliLc cs V _ vm h, decide_eq_true_eq]

theorem knownSum_eq (V : Var → F) (vm : VarMap) (val : Nat → F) (N : Nat) (fs : Factors)
    (h1 : ∀ i, i < N → ∃ v, vm i = some v ∧ V v = val i) (h2 : ∀ i, N ≤ i → vm i = none) :
    knownSum V vm fs = Spec.lcSum val (Spec.keepBelow N fs) := by
  induction fs with
  | nil => simp [knownSum, Spec.lcSum, Spec.keepBelow]
  | cons t fs ih =>
    simp only [knownSum, Spec.lcSum, Spec.keepBelow, List.map_cons, List.sum_cons, List.filter_cons] at ih ⊢
    by_cases h : t.1 < N
    · obtain ⟨v, hv, hV⟩ := h1 _ h
      simp only [hv, h, decide_true, if_true, List.map_cons, List.sum_cons, hV]
      rw [ih, bytesToFr_eq_coeff]
    · simp only [h2 _ (Nat.le_of_not_lt h), h, decide_false, Bool.false_eq_true, if_false, zero_add]
      exact ih

theorem cliCircuit_full [DecidableEq F] (r : R1csFile) (w : Nat → Option F) (val : Nat → F)
    (hnp : r.nPublicInputs + 1 < 2 ^ 32) (h0 : val 0 = 1)
    (hw : ∀ i, 1 ≤ i → i < r.nAlloc → w i = some (val i)) :
    ∃ cs, cliCircuit r w (CS.new F) = (cs, .ok ()) ∧
      cs.inst = (List.range (r.nPublicInputs + 1)).map val ∧
      cs.inst ++ cs.wit = (List.range r.nAlloc).map val ∧
      cs.numInst = r.nPublicInputs + 1 ∧ cs.numVars = r.nAlloc ∧
      (cs.isSatisfied = true ↔
        Spec.Satisfies (r.constraints.map (Spec.FileCstr.keepBelow r.nAlloc)) val) := by
  unfold R1csFile.nAlloc at *
  generalize hN : r.nPublicInputs = n at *
  have hin := allocInputs_ok w val 1 n (CS.new F) VarMap.init rfl (fun i h1 h2 => hw i h1 (by omega))
  have hmod : (n + 1) % 2 ^ 32 = n + 1 := Nat.mod_eq_of_lt hnp
  have hwit := fun (cs : CS F) (vm : VarMap) (hc : cs.numWit = 0) =>
    allocWitnesses_ok w val (n + 1) (n + 1) (r.nWires - (n + 1)) cs vm (by simp [hc])
      (fun i h1 h2 => hw i (by omega) (by omega))
  simp only [cliCircuit, hN, wiresIncl, hin, wiresExcl, hmod]
  rw [hwit _ _ rfl]
  refine ⟨_, rfl, ?_⟩
  rw [foldl_enforce]
  have hrange : ∀ k, (List.range (1 + k)).map val = val 0 :: (List.range' 1 k).map val := by
    intro k; rw [Nat.add_comm, List.range_eq_range', List.range'_succ]; simp
  have hinst : ([1] : List F) ++ (List.range' 1 n).map val = (List.range (n + 1)).map val := by
    rw [Nat.add_comm n 1, hrange, h0]; rfl
  have hfull : (List.range (n + 1)).map val ++ (List.range' (n + 1) (r.nWires - (n + 1))).map val
      = (List.range (max (n + 1) r.nWires)).map val := by
    rw [← List.map_append, List.range_eq_range', List.range_eq_range']
    have := List.range'_append (s := 0) (m := n + 1) (n := r.nWires - (n + 1)) (step := 1)
    simp only [Nat.one_mul, Nat.zero_add] at this
    rw [this]
    congr 2; omega
  refine ⟨hinst, ?_, ?_, ?_, ?_⟩
  · simp only [CS.new, List.nil_append]
    rw [hinst, hfull]
  · simp [Nat.add_comm]
  · simp only [CS.numVars, CS.new]; omega
  · -- satisfaction
    let V : Var → F := fun v => match v with
      | .one => 1
      | .inst i => val i
      | .wit i => val (n + 1 + i)
    rw [sat_all_iff _ r.constraints _ V rfl ?_]
    · unfold Spec.Satisfies
      simp only [List.mem_map, forall_exists_index, and_imp, forall_apply_eq_imp_iff₂,
        Spec.FileCstr.keepBelow]
      apply forall_congr'; intro k
      apply imp_congr_right; intro _
      rw [knownSum_eq V _ val (max (n + 1) r.nWires) k.a,
        knownSum_eq V _ val (max (n + 1) r.nWires) k.b,
        knownSum_eq V _ val (max (n + 1) r.nWires) k.c]
      all_goals
        intro i hi
        by_cases c1 : n + 1 ≤ i ∧ i < n + 1 + (r.nWires - (n + 1))
        · first
          | (exfalso; omega)
          | (refine ⟨.wit (i - (n + 1)), by rw [if_pos c1], ?_⟩
             show val (n + 1 + (i - (n + 1))) = val i
             congr 1; omega)
        · rw [if_neg c1]
          by_cases c2 : 1 ≤ i ∧ i < 1 + n
          · first
            | (exfalso; omega)
            | exact ⟨.inst i, by rw [if_pos c2], rfl⟩
          · rw [if_neg c2]
            first
              | (have : i = 0 := by omega
                 subst this
                 exact ⟨.one, rfl, h0.symm⟩)
              | (have : i ≠ 0 := by omega
                 simp [VarMap.init, this])
    · intro i v hv
      split at hv
      · rename_i h
        cases hv
        simp only [CS.varVal, CS.new, List.nil_append, List.getElem?_map]
        rw [List.getElem?_range' (by omega)]
        simp [V]
      · split at hv
        · rename_i h
          cases hv
          simp only [CS.varVal, CS.new]
          rw [hinst, List.getElem?_map, List.getElem?_range (by omega)]
          simp [V]
        · simp only [VarMap.init] at hv
          split at hv
          · cases hv; rfl
          · exact absurd hv (by simp)

/-- Whatever happens, the instance assignment is the constant followed by the longest assigned public prefix. -/
theorem cliCircuit_inst (r : R1csFile) (w : Nat → Option F) :
    (cliCircuit r w (CS.new F)).1.inst = 1 :: Spec.assignedPrefix w (List.range' 1 r.nPublicInputs) ∧
    1 ≤ (cliCircuit r w (CS.new F)).1.numInst := by
  have hi := allocInputs_inst w (wiresIncl r.nPublicInputs) (CS.new F) VarMap.init
  have hn := allocInputs_numInst_le w (wiresIncl r.nPublicInputs) (CS.new F) VarMap.init
  simp only [cliCircuit]
  rcases hA : allocInputs w (wiresIncl r.nPublicInputs) (CS.new F) VarMap.init with ⟨cs1, e | vm⟩
  · rw [hA] at hi hn
    exact ⟨hi, hn⟩
  · rw [hA] at hi hn
    simp only at hi hn ⊢
    have hwi := allocWitnesses_inst w (wiresExcl ((r.nPublicInputs + 1) % 2 ^ 32) r.nWires) cs1 vm
    rcases hB : allocWitnesses w (wiresExcl ((r.nPublicInputs + 1) % 2 ^ 32) r.nWires) cs1 vm with ⟨cs2, e | vm2⟩
    · rw [hB] at hwi
      simp only at hwi ⊢
      exact ⟨by rw [hwi.1, hi]; rfl, by rw [hwi.2]; exact hn⟩
    · rw [hB] at hwi
      simp only at hwi ⊢
      rw [foldl_enforce]
      exact ⟨by simp only [hwi.1, hi]; rfl, by simp only [hwi.2]; exact hn⟩

/-- Synthesis with a missing wire: error, no constraints at all, public inputs = longest assigned prefix. -/
theorem cliCircuit_missing (r : R1csFile) (w : Nat → Option F) (hnp : r.nPublicInputs + 1 < 2 ^ 32)
    (hmiss : ∃ i, 1 ≤ i ∧ i < r.nAlloc ∧ w i = none) :
    (cliCircuit r w (CS.new F)).2 = .error .assignmentMissing ∧
    (cliCircuit r w (CS.new F)).1.cons = [] ∧
    (cliCircuit r w (CS.new F)).1.inst = 1 :: Spec.assignedPrefix w (List.range' 1 r.nPublicInputs) ∧
    1 ≤ (cliCircuit r w (CS.new F)).1.numInst := by
  have hmod : (r.nPublicInputs + 1) % 2 ^ 32 = r.nPublicInputs + 1 := Nat.mod_eq_of_lt hnp
  have hc := allocInputs_cons w (wiresIncl r.nPublicInputs) (CS.new F) VarMap.init
  have hi := allocInputs_inst w (wiresIncl r.nPublicInputs) (CS.new F) VarMap.init
  have hn := allocInputs_numInst_le w (wiresIncl r.nPublicInputs) (CS.new F) VarMap.init
  have he := allocInputs_error w (wiresIncl r.nPublicInputs) (CS.new F) VarMap.init
  simp only [cliCircuit]
  rcases hA : allocInputs w (wiresIncl r.nPublicInputs) (CS.new F) VarMap.init with ⟨cs1, e | vm⟩
  · rw [hA] at hc hi hn he
    refine ⟨?_, hc, hi, hn⟩
    simp only
    -- an error of the first loop is always AssignmentMissing
    have : ∀ (ws : List Nat) (cs : CS F) (vm : VarMap) (e : SynthErr),
        (allocInputs w ws cs vm).2 = .error e → e = .assignmentMissing := by
      intro ws
      induction ws with
      | nil => intro cs vm e h; simp [allocInputs] at h
      | cons i is ih =>
        intro cs vm e h
        simp only [allocInputs, CS.newInput] at h
        cases hw : w i with
        | none => rw [hw] at h; simpa using h.symm
        | some x => rw [hw] at h; exact ih _ _ _ h
    have := this (wiresIncl r.nPublicInputs) (CS.new F) VarMap.init e (by rw [hA])
    rw [this]
  · rw [hA] at hc hi hn he
    simp only [hmod]
    -- the missing wire is not public
    obtain ⟨i, h1, h2, h3⟩ := hmiss
    have hpriv : r.nPublicInputs < i := by
      by_contra hle
      have hmem : i ∈ wiresIncl r.nPublicInputs := by
        simp [wiresIncl, List.mem_range'_1]; omega
      have := he ⟨i, hmem, h3⟩
      simp at this
    have hmem : i ∈ wiresExcl (r.nPublicInputs + 1) r.nWires := by
      unfold R1csFile.nAlloc at h2
      simp [wiresExcl, List.mem_range'_1]; omega
    have hwc := allocWitnesses_cons w (wiresExcl (r.nPublicInputs + 1) r.nWires) cs1 vm
    have hwi := allocWitnesses_inst w (wiresExcl (r.nPublicInputs + 1) r.nWires) cs1 vm
    have hwe := allocWitnesses_error w (wiresExcl (r.nPublicInputs + 1) r.nWires) cs1 vm ⟨i, hmem, h3⟩
    rcases hB : allocWitnesses w (wiresExcl (r.nPublicInputs + 1) r.nWires) cs1 vm with ⟨cs2, e | vm2⟩
    · rw [hB] at hwc hwi hwe
      simp only at hwc hwi hwe hc hi hn
      simp only [Except.error.injEq] at hwe
      refine ⟨by rw [hwe], by rw [hwc, hc]; rfl, by rw [hwi.1, hi]; rfl, by rw [hwi.2]; exact hn⟩
    · rw [hB] at hwe; simp at hwe

end Zkenc
