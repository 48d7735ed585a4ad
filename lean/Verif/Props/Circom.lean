import Verif.Props.Core
/-!
# Property theorems C32–C34: Circom synthesis
-/

namespace Zkenc.Props

open Zkenc Spec

variable {F : Type} [Field F]

/-- **C32.** With every wire assigned, synthesis succeeds and the constraint system is satisfied iff the assignment
satisfies every constraint of the file, read as plain weighted sums (repeated wires included; coefficients are
little-endian integers of their first 32 bytes in the field). -/
theorem C32_synthesis_faithful [DecidableEq F] (t : Tool) (r : R1csFile) (hf : PublicFits r) (w : Nat → Option F)
    (val : Nat → F) (hv : Valuation r val) (hw : Assigns r w val) :
    (t.circuit r w (CS.new F)).2 = .ok () ∧
    ((t.circuit r w (CS.new F)).1.isSatisfied = true ↔ Satisfies r.constraints val) := by
  obtain ⟨cs, h1, -, -, -, -, h6⟩ := circuit_full t r w val hf hv hw
  rw [h1]
  exact ⟨rfl, h6⟩

/-- **C32 (partial assignments).** Synthesis succeeds iff every wire of the circuit is assigned. -/
theorem C32_synthesis_ok_iff [DecidableEq F] (t : Tool) (r : R1csFile) (hf : PublicFits r) (w : Nat → Option F) :
    (t.circuit r w (CS.new F)).2 = .ok () ↔ ∀ i, 1 ≤ i → i < r.nAlloc → (w i).isSome := by
  rw [circuit_ok_iff t r w hf]
  constructor
  · rintro ⟨val, -, hw⟩ i h1 h2
    rw [hw i h1 h2]; rfl
  · intro h
    refine ⟨fun i => if i = 0 then 1 else if i < r.nAlloc then (w i).getD 0 else 0, ⟨by simp, ?_⟩, ?_⟩
    · intro i hi
      have : i ≠ 0 := by unfold R1csFile.nAlloc at hi; omega
      simp [this, Nat.not_lt.2 hi]
    · intro i h1 h2
      have : i ≠ 0 := by omega
      simp only [this, if_false, h2, if_true]
      have := h i h1 h2
      cases hw : w i with
      | none => simp [hw] at this
      | some x => rfl

/-- Non-vacuity of C32: both verdicts occur on the example circuit (`3·3 = 9`, `3·3 ≠ 8`). -/
example : Satisfies sq.constraints (sqVal : Nat → ℚ) ∧
    ¬ Satisfies sq.constraints (fun i => if i = 1 then (8 : ℚ) else if i = 2 then 3 else if i = 0 then 1 else 0) := by
  refine ⟨sq_satisfies, fun h => ?_⟩
  have := h ⟨[(2, [1])], [(2, [1])], [(1, [1])]⟩ (by simp [sq])
  simp [lcSum, coeff, leNat] at this
  norm_num at this

/-- **C33.** The two tools synthesize the same constraint system with the same result from any starting system. -/
theorem C33_tools_agree (r : R1csFile) (w : Nat → Option F) (cs : CS F) :
    cliCircuit r w cs = jsCircuit r.toJs w cs := by
  rw [jsCircuit_eq_cli]

omit [Field F] in
theorem allocInputs_none (w : Nat → Option F) (ws : List Nat) (cs cs' : CS F) (vm vm' : VarMap)
    (h : allocInputs w ws cs vm = (cs', .ok vm')) (i : Nat) (hi : i ∉ ws) (hv : vm i = none) : vm' i = none := by
  induction ws generalizing cs vm with
  | nil =>
    simp only [allocInputs, Prod.mk.injEq, Except.ok.injEq] at h
    rw [← h.2]; exact hv
  | cons j js ih =>
    simp only [allocInputs, CS.newInput] at h
    cases hw : w j with
    | none => rw [hw] at h; simp at h
    | some x =>
      rw [hw] at h
      refine ih _ _ h (fun hc => hi (by simp [hc])) ?_
      have : i ≠ j := fun hc => hi (by simp [hc])
      simp [VarMap.insert, this, hv]

omit [Field F] in
theorem allocWitnesses_none (w : Nat → Option F) (ws : List Nat) (cs cs' : CS F) (vm vm' : VarMap)
    (h : allocWitnesses w ws cs vm = (cs', .ok vm')) (i : Nat) (hi : i ∉ ws) (hv : vm i = none) : vm' i = none := by
  induction ws generalizing cs vm with
  | nil =>
    simp only [allocWitnesses, Prod.mk.injEq, Except.ok.injEq] at h
    rw [← h.2]; exact hv
  | cons j js ih =>
    simp only [allocWitnesses, CS.newWitness] at h
    cases hw : w j with
    | none => rw [hw] at h; simp at h
    | some x =>
      rw [hw] at h
      refine ih _ _ h (fun hc => hi (by simp [hc])) ?_
      have : i ≠ j := fun hc => hi (by simp [hc])
      simp [VarMap.insert, this, hv]

theorem cliLc_keepBelow (vm : VarMap) (N : Nat) (h : ∀ i, N ≤ i → vm i = none) (fs : Factors) :
    (cliLc (Spec.keepBelow N fs) vm : LC F) = cliLc fs vm := by
  unfold cliLc
  generalize ([] : LC F) = acc
  induction fs generalizing acc with
  | nil => rfl
  | cons t fs ih =>
    simp only [Spec.keepBelow, List.filter_cons] at ih ⊢
    by_cases ht : t.1 < N
    · simp only [ht, decide_true, if_true, List.foldl_cons]
      exact ih _
    · simp only [ht, decide_false, Bool.false_eq_true, if_false, List.foldl_cons]
      rw [ih]
      congr 1
      simp [cliLcStep, h _ (Nat.le_of_not_lt ht)]

/-- **C34.** Terms on wires the circuit does not have are dropped without an error: the circuit behaves (same constraint
system, same result) like the circuit with these terms removed. -/
theorem C34_out_of_range_dropped (t : Tool) (r : R1csFile) (hf : PublicFits r) (w : Nat → Option F) :
    t.circuit r w (CS.new F) =
      t.circuit { r with constraints := r.constraints.map (Spec.FileCstr.keepBelow r.nAlloc) } w (CS.new F) := by
  rw [Tool.circuit_eq, Tool.circuit_eq]
  have hmod : (r.nPublicInputs + 1) % 2 ^ 32 = r.nPublicInputs + 1 := Nat.mod_eq_of_lt (fits hf)
  have hnp : R1csFile.nPublicInputs { r with constraints := r.constraints.map (Spec.FileCstr.keepBelow r.nAlloc) }
      = r.nPublicInputs := rfl
  simp only [cliCircuit, hnp, hmod]
  rcases hA : allocInputs w (wiresIncl r.nPublicInputs) (CS.new F) VarMap.init with ⟨cs1, e | vm⟩
  · rfl
  · simp only
    rcases hB : allocWitnesses w (wiresExcl (r.nPublicInputs + 1) r.nWires) cs1 vm with ⟨cs2, e | vm2⟩
    · rfl
    · simp only
      have hnone : ∀ i, r.nAlloc ≤ i → vm2 i = none := by
        intro i hi
        unfold R1csFile.nAlloc at hi
        refine allocWitnesses_none w _ _ _ _ _ hB i ?_ (allocInputs_none w _ _ _ _ _ hA i ?_ ?_)
        · simp [wiresExcl, List.mem_range'_1]; omega
        · simp [wiresIncl, List.mem_range'_1]; omega
        · have : i ≠ 0 := by omega
          simp [VarMap.init, this]
      rw [List.foldl_map]
      simp only [Spec.FileCstr.keepBelow, cliLc_keepBelow vm2 _ hnone]

/-- Non-vacuity of C34: a term on wire 7 of a 3-wire circuit is really removed. -/
example : Spec.FileCstr.keepBelow 3 ⟨[(2, [1]), (7, [5])], [(2, [1])], [(1, [1])]⟩ =
    ⟨[(2, [1])], [(2, [1])], [(1, [1])]⟩ := by decide

end Zkenc.Props
