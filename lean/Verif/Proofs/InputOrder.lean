import Verif.Spec.InputOrder
import Verif.Props.Inputs
/-!
# Lemmas for C101: the last value for a wire counts
-/

namespace Zkenc

open Zkenc.Spec Zkenc.InputSpec Zkenc.Props

theorem jsElems_eq (l : List JsVal) (n : Nat) (full : Str) :
    jsElems l n full = (l.zipIdx n).map fun e => (signalName full [e.2], e.1) := by
  induction l generalizing n with
  | nil => rfl
  | cons x xs ih =>
    rw [jsElems, List.zipIdx_cons, List.map_cons, ih]
    rfl

mutual
theorem jsLeaves_eq : ∀ (v : JsVal) (full : Str), jsLeaves v full = valuesUnder v full
  | .arr l, full => by rw [jsLeaves, valuesUnder]; exact jsElems_eq l 0 full
  | .obj l, full => by rw [jsLeaves, valuesUnder]; exact jsFields_eq l full
  | .null, full => by rw [jsLeaves, valuesUnder]
  | .undef, full => by rw [jsLeaves, valuesUnder]
  | .bool b, full => by rw [jsLeaves, valuesUnder]
  | .num z, full => by rw [jsLeaves, valuesUnder]
  | .numText s, full => by rw [jsLeaves, valuesUnder]
  | .bigint z, full => by rw [jsLeaves, valuesUnder]
  | .str s, full => by rw [jsLeaves, valuesUnder]
theorem jsFields_eq : ∀ (l : List (Str × JsVal)) (pre : Str), jsFields l pre = valuesOf l pre
  | [], pre => by rw [jsFields, valuesOf]
  | (k, v) :: rest, pre => by
    rw [jsFields, valuesOf, jsFields_eq rest pre, jsLeaves_eq v (dotKey pre k)]
    rfl
end

/-- The successful runs: the last value for a wire counts. -/
theorem setAll_last (sig : AMap Nat) (l : List (Str × JsVal)) (m m' : NMap) (h : setAll sig l m = .ok m') (i : Nat) (s : Str) :
    m'.get i = some s ↔ (∃ l₁ k v l₂, l = l₁ ++ (k, v) :: l₂ ∧ sig.get k = some i ∧ v.toStr = .ok s ∧ ∀ e ∈ l₂, sig.get e.1 ≠ some i) ∨
      ((∀ e ∈ l, sig.get e.1 ≠ some i) ∧ m.get i = some s) := by
  induction l generalizing m with
  | nil => cases h; simp
  | cons e l ih =>
    obtain ⟨k, v⟩ := e
    rw [setAll, Res.bind_eq_ok] at h
    obtain ⟨m1, h1, h2⟩ := h
    rw [ih m1 h2]
    have hsplit : (∃ l₁ k' v' l₂, (k, v) :: l = l₁ ++ (k', v') :: l₂ ∧ sig.get k' = some i ∧ v'.toStr = .ok s ∧ ∀ e ∈ l₂, sig.get e.1 ≠ some i) ↔
        (sig.get k = some i ∧ v.toStr = .ok s ∧ ∀ e ∈ l, sig.get e.1 ≠ some i) ∨
        (∃ l₁ k' v' l₂, l = l₁ ++ (k', v') :: l₂ ∧ sig.get k' = some i ∧ v'.toStr = .ok s ∧ ∀ e ∈ l₂, sig.get e.1 ≠ some i) := by
      constructor
      · rintro ⟨l₁, k', v', l₂, he, g⟩
        cases l₁ with
        | nil => cases he; exact .inl g
        | cons a l₁ => cases he; exact .inr ⟨l₁, k', v', l₂, rfl, g⟩
      · rintro (g | ⟨l₁, k', v', l₂, rfl, g⟩)
        · exact ⟨[], k, v, l, rfl, g⟩
        · exact ⟨(k, v) :: l₁, k', v', l₂, rfl, g⟩
    rw [hsplit, List.forall_mem_cons, or_assoc, or_left_comm]
    refine or_congr Iff.rfl ?_
    unfold setWire at h1
    cases hk : sig.get k with
    | none =>
      rw [hk] at h1
      cases h1
      simp
    | some j =>
      rw [hk] at h1
      obtain ⟨t, ht, h1⟩ := Res.bind_eq_ok.1 h1
      cases h1
      rw [NMap.get_set, ht]
      by_cases hji : j = i
      · subst hji
        simp
        tauto
      · simp [hji]

/-! ## CLI -/

mutual
theorem leaves_eq : ∀ (j : Json) (key : Str), leaves j key = cliValuesUnder j key
  | .arr l, key => by rw [leaves, cliValuesUnder]; exact leavesArr_eq l 0 key
  | .null, key => by rw [leaves, cliValuesUnder]
  | .bool b, key => by rw [leaves, cliValuesUnder]
  | .int z, key => by rw [leaves, cliValuesUnder]
  | .float, key => by rw [leaves, cliValuesUnder]
  | .str s, key => by rw [leaves, cliValuesUnder]
  | .obj l, key => by rw [leaves, cliValuesUnder]
theorem leavesArr_eq : ∀ (l : List Json) (i : Nat) (key : Str), leavesArr l i key = cliItems l i key
  | [], i, key => by rw [leavesArr, cliItems]
  | x :: xs, i, key => by
    rw [leavesArr, cliItems, leaves_eq x (idxKey key i), leavesArr_eq xs (i + 1) key]
    rfl
end

theorem allLeaves_eq (entries : List (Str × Json)) : allLeaves entries = cliValuesInOrder entries := by
  unfold allLeaves cliValuesInOrder
  congr 1
  funext e
  exact leaves_eq e.2 e.1

/-- The last entry with a key is what a map holds. -/
theorem get_foldl_insert_last {V : Type} (l : List (Str × V)) (k : Str) (x : V) :
    (l.foldl (fun m e => AMap.insert m e.1 e.2) ([] : AMap V)).get k = some x ↔
      ∃ l₁ l₂, l = l₁ ++ (k, x) :: l₂ ∧ ∀ e ∈ l₂, e.1 ≠ k := by
  rw [AMap.get_foldl_insert]
  constructor
  · intro h
    cases hf : l.reverse.find? (fun e => e.1 = k) with
    | none =>
      rw [hf] at h
      simp [AMap.get] at h
    | some e =>
      rw [hf] at h
      obtain ⟨h1, l₁, l₂, h2, h3⟩ := List.find?_eq_some_iff_append.1 hf
      simp only [decide_eq_true_eq, Bool.not_eq_true', decide_eq_false_iff_not] at h1 h3
      simp only [Option.some.injEq] at h
      refine ⟨l₂.reverse, l₁.reverse, ?_, fun a ha => h3 a (List.mem_reverse.1 ha)⟩
      have := congrArg List.reverse h2
      rw [List.reverse_reverse] at this
      rw [this, ← h1, ← h]
      simp
  · rintro ⟨l₁, l₂, rfl, h⟩
    have : (l₁ ++ (k, x) :: l₂).reverse.find? (fun e => e.1 = k) = some (k, x) := by
      rw [List.find?_eq_some_iff_append]
      refine ⟨by simp, l₂.reverse, l₁.reverse, by simp, fun a ha => ?_⟩
      simpa using h a (List.mem_reverse.1 ha)
    rw [this]

theorem filterMap_split {α β : Type} (f : α → Option β) : ∀ (l : List α) (b : β) (m₁ m₂ : List β), l.filterMap f = m₁ ++ b :: m₂ →
    ∃ l₁ a l₂, l = l₁ ++ a :: l₂ ∧ f a = some b ∧ l₂.filterMap f = m₂ := by
  intro l
  induction l with
  | nil => intro b m₁ m₂ h; simp at h
  | cons x l ih =>
    intro b m₁ m₂ h
    rw [List.filterMap_cons] at h
    cases hx : f x with
    | none =>
      rw [hx] at h
      obtain ⟨l₁, a, l₂, rfl, g⟩ := ih b m₁ m₂ h
      exact ⟨x :: l₁, a, l₂, rfl, g⟩
    | some y =>
      rw [hx] at h
      cases m₁ with
      | nil => cases h; exact ⟨[], x, l, rfl, hx, rfl⟩
      | cons z m₁ =>
        simp only [List.cons_append, List.cons.injEq] at h
        obtain ⟨l₁, a, l₂, rfl, g⟩ := ih b m₁ m₂ h.2
        exact ⟨x :: l₁, a, l₂, rfl, g⟩

/-- The map of the CLI: for each name the value that counts. -/
theorem cliInputs_get {entries : List (Str × Json)} {m : AMap Fr} (h : cliInputs (.obj entries) = .ok m) (name : Str) (x : Fr) :
    m.get name = some x ↔ CliCounts entries name x := by
  obtain ⟨hall, rfl⟩ := (cliInputs_ok_iff entries m).1 h
  rw [allDenote_iff] at hall
  rw [get_foldl_insert_last]
  unfold CliCounts
  rw [← allLeaves_eq]
  constructor
  · rintro ⟨m₁, m₂, h1, h2⟩
    obtain ⟨l₁, ⟨n, y⟩, l₂, g1, g2, rfl⟩ := filterMap_split _ _ _ _ _ h1
    simp only [Option.map_eq_some_iff] at g2
    obtain ⟨v, g2, g3⟩ := g2
    cases g3
    refine ⟨l₁, y, l₂, g1, (cliScalar_iff _ _).1 g2, fun e he hk => ?_⟩
    obtain ⟨v, hv⟩ := Option.isSome_iff_exists.1 (hall e (by rw [g1]; simp [he]))
    refine h2 (e.1, v) ?_ hk
    rw [List.mem_filterMap]
    exact ⟨e, he, by rw [hv]; rfl⟩
  · rintro ⟨l₁, y, l₂, h1, h2, h3⟩
    refine ⟨l₁.filterMap fun e => (cliScalar e.2).map fun v => (e.1, v), l₂.filterMap fun e => (cliScalar e.2).map fun v => (e.1, v), by
      rw [h1, List.filterMap_append, List.filterMap_cons]
      simp only [(cliScalar_iff _ _).2 h2, Option.map_some], fun e he => ?_⟩
    rw [List.mem_filterMap] at he
    obtain ⟨a, ha, he⟩ := he
    simp only [Option.map_eq_some_iff] at he
    obtain ⟨v, -, rfl⟩ := he
    exact h3 a ha

/-- The wire loop: the last entry for a wire counts. -/
theorem cliWires_last (sig : AMap Nat) (inputs : List (Str × Fr)) (i : Nat) (v : Fr) : cliWires sig inputs i = some v ↔
    (∃ l₁ k l₂, inputs = l₁ ++ (k, v) :: l₂ ∧ sig.get k = some i ∧ ∀ e ∈ l₂, sig.get e.1 ≠ some i) ∨
      ((∀ e ∈ inputs, sig.get e.1 ≠ some i) ∧ i = 0 ∧ v = 1) := by
  have gen : ∀ (l : List (Str × Fr)) (w : WireMap), l.foldl (wireStep sig) w i = some v ↔
      (∃ l₁ k l₂, l = l₁ ++ (k, v) :: l₂ ∧ sig.get k = some i ∧ ∀ e ∈ l₂, sig.get e.1 ≠ some i) ∨
        ((∀ e ∈ l, sig.get e.1 ≠ some i) ∧ w i = some v) := by
    intro l
    induction l with
    | nil => intro w; simp
    | cons e l ih =>
      intro w
      obtain ⟨k, x⟩ := e
      rw [List.foldl_cons, ih]
      have hsplit : (∃ l₁ k' l₂, (k, x) :: l = l₁ ++ (k', v) :: l₂ ∧ sig.get k' = some i ∧ ∀ e ∈ l₂, sig.get e.1 ≠ some i) ↔
          (sig.get k = some i ∧ x = v ∧ ∀ e ∈ l, sig.get e.1 ≠ some i) ∨
          (∃ l₁ k' l₂, l = l₁ ++ (k', v) :: l₂ ∧ sig.get k' = some i ∧ ∀ e ∈ l₂, sig.get e.1 ≠ some i) := by
        constructor
        · rintro ⟨l₁, k', l₂, he, g⟩
          cases l₁ with
          | nil => cases he; exact .inl ⟨g.1, rfl, g.2⟩
          | cons a l₁ => cases he; exact .inr ⟨l₁, k', l₂, rfl, g⟩
        · rintro (⟨g1, rfl, g2⟩ | ⟨l₁, k', l₂, rfl, g⟩)
          · exact ⟨[], k, l, rfl, g1, g2⟩
          · exact ⟨(k, x) :: l₁, k', l₂, rfl, g⟩
      rw [hsplit, List.forall_mem_cons, or_assoc, or_left_comm]
      refine or_congr Iff.rfl ?_
      unfold wireStep
      cases hk : sig.get k with
      | none => simp
      | some j =>
        simp only [WireMap.insert]
        by_cases hij : i = j
        · subst hij; simp; tauto
        · simp [hij, Ne.symm hij]
  unfold cliWires
  rw [gen]
  simp only [WireMap.insert]
  by_cases h0 : i = 0
  · simp [h0, eq_comm]
  · simp [h0]

/-- A hash order in which some keys come last. -/
def HashOrder.keysLast (p : Str → Bool) : HashOrder :=
  ⟨fun m => m.filter (fun e => ! p e.1) ++ m.filter (fun e => p e.1), fun m =>
    List.perm_append_comm.trans (List.filter_append_perm (fun e => p e.1) m)⟩

end Zkenc
