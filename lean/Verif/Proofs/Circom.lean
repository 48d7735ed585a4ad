import Verif.Model.Circom
import Verif.Spec.R1cs
import Mathlib.Tactic.Ring
/-! Helper lemmas about Circom synthesis. -/

namespace Zkenc

variable {F : Type}

theorem allocInputs_cons (w : Nat → Option F) (ws : List Nat) (cs : CS F) (vm : VarMap) :
    (allocInputs w ws cs vm).1.cons = cs.cons := by
  induction ws generalizing cs vm with
  | nil => rfl
  | cons i is ih =>
    simp only [allocInputs, CS.newInput]
    cases w i with
    | none => rfl
    | some x => simpa using ih _ _

theorem allocWitnesses_cons (w : Nat → Option F) (ws : List Nat) (cs : CS F) (vm : VarMap) :
    (allocWitnesses w ws cs vm).1.cons = cs.cons := by
  induction ws generalizing cs vm with
  | nil => rfl
  | cons i is ih =>
    simp only [allocWitnesses, CS.newWitness]
    cases w i with
    | none => rfl
    | some x => simpa using ih _ _

theorem allocWitnesses_inst (w : Nat → Option F) (ws : List Nat) (cs : CS F) (vm : VarMap) :
    (allocWitnesses w ws cs vm).1.inst = cs.inst ∧ (allocWitnesses w ws cs vm).1.numInst = cs.numInst := by
  induction ws generalizing cs vm with
  | nil => exact ⟨rfl, rfl⟩
  | cons i is ih =>
    simp only [allocWitnesses, CS.newWitness]
    cases w i with
    | none => exact ⟨rfl, rfl⟩
    | some x => simpa using ih _ _

theorem allocInputs_wit (w : Nat → Option F) (ws : List Nat) (cs : CS F) (vm : VarMap) :
    (allocInputs w ws cs vm).1.wit = cs.wit ∧ (allocInputs w ws cs vm).1.numWit = cs.numWit := by
  induction ws generalizing cs vm with
  | nil => exact ⟨rfl, rfl⟩
  | cons i is ih =>
    simp only [allocInputs, CS.newInput]
    cases w i with
    | none => exact ⟨rfl, rfl⟩
    | some x => simpa using ih _ _

theorem allocInputs_error (w : Nat → Option F) (ws : List Nat) (cs : CS F) (vm : VarMap)
    (h : ∃ i ∈ ws, w i = none) : (allocInputs w ws cs vm).2 = .error .assignmentMissing := by
  induction ws generalizing cs vm with
  | nil => simp at h
  | cons i is ih =>
    simp only [allocInputs, CS.newInput]
    cases hw : w i with
    | none => rfl
    | some x =>
      obtain ⟨j, hj, hn⟩ := h
      have hj' : j ∈ is := by
        rcases List.mem_cons.1 hj with rfl | h'
        · simp [hw] at hn
        · exact h'
      simpa using ih _ _ ⟨j, hj', hn⟩

theorem allocWitnesses_error (w : Nat → Option F) (ws : List Nat) (cs : CS F) (vm : VarMap)
    (h : ∃ i ∈ ws, w i = none) : (allocWitnesses w ws cs vm).2 = .error .assignmentMissing := by
  induction ws generalizing cs vm with
  | nil => simp at h
  | cons i is ih =>
    simp only [allocWitnesses, CS.newWitness]
    cases hw : w i with
    | none => rfl
    | some x =>
      obtain ⟨j, hj, hn⟩ := h
      have hj' : j ∈ is := by
        rcases List.mem_cons.1 hj with rfl | h'
        · simp [hw] at hn
        · exact h'
      simpa using ih _ _ ⟨j, hj', hn⟩

/-- Instance values after the input loop: the longest assigned prefix is appended. -/
theorem allocInputs_inst [Field F] (w : Nat → Option F) (ws : List Nat) (cs : CS F) (vm : VarMap) :
    (allocInputs w ws cs vm).1.inst = cs.inst ++ Spec.assignedPrefix w ws := by
  induction ws generalizing cs vm with
  | nil => simp [allocInputs, Spec.assignedPrefix]
  | cons i is ih =>
    simp only [allocInputs, CS.newInput, Spec.assignedPrefix]
    cases w i with
    | none => simp
    | some x => simp [ih]

/-- Counter after the input loop. -/
theorem allocInputs_numInst_le (w : Nat → Option F) (ws : List Nat) (cs : CS F) (vm : VarMap) :
    cs.numInst ≤ (allocInputs w ws cs vm).1.numInst := by
  induction ws generalizing cs vm with
  | nil => exact Nat.le_refl _
  | cons i is ih =>
    simp only [allocInputs, CS.newInput]
    cases w i with
    | none => simp
    | some x => simp only; exact Nat.le_trans (Nat.le_succ _) (ih ⟨cs.numInst + 1, _, _, _, _⟩ _)

/-- Input loop with everything assigned. -/
theorem allocInputs_ok (w : Nat → Option F) (val : Nat → F) (s n : Nat) (cs : CS F) (vm : VarMap)
    (hs : cs.numInst = s) (hw : ∀ i, s ≤ i → i < s + n → w i = some (val i)) :
    allocInputs w (List.range' s n) cs vm =
      ({ cs with numInst := s + n, inst := cs.inst ++ (List.range' s n).map val },
        .ok (fun i => if s ≤ i ∧ i < s + n then some (.inst i) else vm i)) := by
  induction n generalizing s cs vm with
  | zero =>
    simp only [List.range'_zero, allocInputs, Nat.add_zero, List.map_nil, List.append_nil]
    refine Prod.ext ?_ ?_
    · simp [← hs]
    · simp only
      congr 1
      funext i
      rw [if_neg]; omega
  | succ n ih =>
    simp only [List.range'_succ, allocInputs, CS.newInput, hw s (Nat.le_refl _) (by omega)]
    rw [ih (s + 1) _ _ (by simp [hs]) (fun i h1 h2 => hw i (by omega) (by omega))]
    refine Prod.ext ?_ ?_
    · simp [Nat.add_assoc, Nat.add_comm 1 n]
    · simp only
      congr 1
      funext i
      simp only [VarMap.insert]
      by_cases h : i = s
      · subst h; simp [hs]
      · by_cases h2 : s + 1 ≤ i ∧ i < s + 1 + n
        · rw [if_pos h2, if_pos (by omega)]
        · rw [if_neg h2, if_neg h, if_neg (by omega)]

/-- Witness loop with everything assigned; `base` is the first wire of the witness part. -/
theorem allocWitnesses_ok (w : Nat → Option F) (val : Nat → F) (base s n : Nat) (cs : CS F) (vm : VarMap)
    (hs : base + cs.numWit = s) (hw : ∀ i, s ≤ i → i < s + n → w i = some (val i)) :
    allocWitnesses w (List.range' s n) cs vm =
      ({ cs with numWit := cs.numWit + n, wit := cs.wit ++ (List.range' s n).map val },
        .ok (fun i => if s ≤ i ∧ i < s + n then some (.wit (i - base)) else vm i)) := by
  induction n generalizing s cs vm with
  | zero =>
    simp only [List.range'_zero, allocWitnesses, Nat.add_zero, List.map_nil, List.append_nil]
    refine Prod.ext ?_ ?_
    · simp
    · simp only
      congr 1
      funext i
      rw [if_neg]; omega
  | succ n ih =>
    simp only [List.range'_succ, allocWitnesses, CS.newWitness, hw s (Nat.le_refl _) (by omega)]
    rw [ih (s + 1) _ _ (by simp; omega) (fun i h1 h2 => hw i (by omega) (by omega))]
    refine Prod.ext ?_ ?_
    · simp [Nat.add_assoc, Nat.add_comm 1 n]
    · simp only
      congr 1
      funext i
      simp only [VarMap.insert]
      by_cases h : i = s
      · subst h
        have : i - base = cs.numWit := by omega
        simp [this]
      · by_cases h2 : s + 1 ≤ i ∧ i < s + 1 + n
        · rw [if_pos h2, if_pos (by omega)]
        · rw [if_neg h2, if_neg h, if_neg (by omega)]

/-- `Σ c · V(v)` of a linear combination. -/
def lcTotal [Field F] (V : Var → F) (lc : LC F) : F := (lc.map fun t => t.1 * V t.2).sum

theorem lcTotal_lcAdd [Field F] (V : Var → F) (lc : LC F) (t : F × Var) :
    lcTotal V (lcAdd lc t) = lcTotal V lc + t.1 * V t.2 := by
  induction lc with
  | nil => simp [lcAdd, lcTotal]
  | cons h rest ih =>
    obtain ⟨c, v⟩ := h
    simp only [lcAdd]
    split
    · rename_i hv; subst hv; simp [lcTotal]; ring
    · simp only [lcTotal, List.map_cons, List.sum_cons] at ih ⊢
      rw [ih]; ring

theorem mem_lcAdd [Add F] {lc : LC F} {t s : F × Var} (h : s ∈ lcAdd lc t) :
    s.2 = t.2 ∨ ∃ s' ∈ lc, s'.2 = s.2 := by
  induction lc with
  | nil => simp [lcAdd] at h; exact .inl (by rw [h])
  | cons a rest ih =>
    obtain ⟨c, v⟩ := a
    simp only [lcAdd] at h
    split at h
    · rename_i hv
      rcases List.mem_cons.1 h with rfl | h'
      · exact .inl hv
      · exact .inr ⟨s, List.mem_cons_of_mem _ h', rfl⟩
    · rcases List.mem_cons.1 h with rfl | h'
      · exact .inr ⟨(c, v), by simp, rfl⟩
      · rcases ih h' with h'' | ⟨s', hs', he⟩
        · exact .inl h''
        · exact .inr ⟨s', List.mem_cons_of_mem _ hs', he⟩

theorem lcVal_eq [Field F] (cs : CS F) (V : Var → F) (lc : LC F)
    (h : ∀ t ∈ lc, cs.varVal t.2 = some (V t.2)) : cs.lcVal lc = some (lcTotal V lc) := by
  induction lc with
  | nil => simp [CS.lcVal, lcTotal]
  | cons t rest ih =>
    obtain ⟨c, v⟩ := t
    have h1 := h (c, v) (by simp)
    have h2 := ih (fun t ht => h t (List.mem_cons_of_mem _ ht))
    simp only at h1
    simp [CS.lcVal, h1, h2, lcTotal]

/-- Value of the terms whose wire is known. -/
def knownSum [Field F] (V : Var → F) (vm : VarMap) (fs : Factors) : F :=
  (fs.map fun t => match vm t.1 with
    | some v => bytesToFr t.2 * V v
    | none => 0).sum

theorem jsBuildLc_eq_foldl [Add F] [NatCast F] (fs : Factors) (vm : VarMap) (lc : LC F) :
    jsBuildLc fs vm lc = fs.foldl (cliLcStep vm) lc := by
  induction fs generalizing lc with
  | nil => rfl
  | cons t fs ih =>
    obtain ⟨i, b⟩ := t
    simp only [jsBuildLc, List.foldl_cons]
    cases h : vm i <;> simp [ih, cliLcStep, h]

theorem lcTotal_foldl [Field F] (V : Var → F) (fs : Factors) (vm : VarMap) (lc : LC F) :
    lcTotal V (fs.foldl (cliLcStep vm) lc) = lcTotal V lc + knownSum V vm fs := by
  induction fs generalizing lc with
  | nil => simp [knownSum]
  | cons t fs ih =>
    simp only [List.foldl_cons]
    rw [ih]
    simp only [knownSum, List.map_cons, List.sum_cons]
    cases h : vm t.1 with
    | none => simp [cliLcStep, h]
    | some v => simp only [cliLcStep, h, lcTotal_lcAdd]; ring

theorem lcTotal_cliLc [Field F] (V : Var → F) (fs : Factors) (vm : VarMap) :
    lcTotal V (cliLc fs vm) = knownSum V vm fs := by
  rw [cliLc, lcTotal_foldl]; simp [lcTotal]

theorem mem_foldl_lc [Field F] (fs : Factors) (vm : VarMap) (lc : LC F) (s : F × Var)
    (h : s ∈ fs.foldl (cliLcStep vm) lc) :
    (∃ i, vm i = some s.2) ∨ ∃ s' ∈ lc, s'.2 = s.2 := by
  induction fs generalizing lc with
  | nil => exact .inr ⟨s, h, rfl⟩
  | cons t fs ih =>
    simp only [List.foldl_cons] at h
    rcases ih _ h with h' | ⟨s', hs', he⟩
    · exact .inl h'
    · cases hv : vm t.1 with
      | none => simp only [cliLcStep, hv] at hs'; exact .inr ⟨s', hs', he⟩
      | some v =>
        simp only [cliLcStep, hv] at hs'
        rcases mem_lcAdd hs' with h'' | ⟨s'', h1, h2⟩
        · exact .inl ⟨t.1, by rw [hv, ← he, h'']⟩
        · exact .inr ⟨s'', h1, h2.trans he⟩

theorem lcVal_cliLc [Field F] (cs : CS F) (V : Var → F) (fs : Factors) (vm : VarMap)
    (h : ∀ i v, vm i = some v → cs.varVal v = some (V v)) :
    cs.lcVal (cliLc fs vm) = some (knownSum V vm fs) := by
  rw [lcVal_eq cs V, lcTotal_cliLc]
  intro t ht
  rcases mem_foldl_lc fs vm [] t ht with ⟨i, hi⟩ | ⟨s', hs', _⟩
  · exact h i _ hi
  · simp at hs'

theorem jsCircuit_eq_cli [Add F] [NatCast F] (r : R1csFile) (w : Nat → Option F) :
    jsCircuit r.toJs w = cliCircuit r w := by
  have enf : ∀ (vm : VarMap) (ks : List FileCstr) (cs : CS F),
      jsEnforceAll vm ks cs =
        ks.foldl (fun cs k => cs.enforce ⟨cliLc k.a vm, cliLc k.b vm, cliLc k.c vm⟩) cs := by
    intro vm ks
    induction ks with
    | nil => intro cs; rfl
    | cons k ks ih =>
      intro cs
      simp only [jsEnforceAll, List.foldl_cons, ih, jsBuildLc_eq_foldl]
      try rfl
  funext cs
  simp only [jsCircuit, cliCircuit, R1csFile.toJs, JsR1cs.nPublicInputs, R1csFile.nPublicInputs, enf]

theorem foldl_enforce (ks : List FileCstr) (f : FileCstr → Cstr F) (cs : CS F) :
    ks.foldl (fun cs k => cs.enforce (f k)) cs = { cs with cons := cs.cons ++ ks.map f } := by
  induction ks generalizing cs with
  | nil => simp
  | cons k ks ih => rw [List.foldl_cons, ih]; simp [CS.enforce]

theorem bytesToFr_eq_coeff [Field F] (b : Bytes) : (bytesToFr b : F) = Spec.coeff b := by
  unfold bytesToFr Spec.coeff
  simp only
  congr 1
  rw [leNat_append, leNat_replicate_zero]
  have : b.take (min b.length 32) = b.take 32 := by
    rcases Nat.le_total b.length 32 with h | h
    · rw [Nat.min_eq_left h, List.take_length, List.take_of_length_le h]
    · rw [Nat.min_eq_right h]
  rw [this]; simp

end Zkenc
