import Verif.Props.SerializableLayout
/-!
# C62: field order, unknown, missing and repeated fields, for all three kinds of document
-/

namespace Zkenc.Props

open Zkenc

theorem structFields_extra {names opt : List Str} {es extra : List (Str × JTree)} (hx : ∀ e ∈ extra, e.1 ∉ names) :
    structFields names opt (.obj (es ++ extra)) = structFields names opt (.obj es) := by
  simp only [structFields]
  refine allSome_congr fun n hn => ?_
  have : extra.filter (fun e => decide (e.1 = n)) = [] := by
    rw [List.filter_eq_nil_iff]
    intro e he
    simp only [decide_eq_true_eq]
    rintro rfl
    exact hx e he hn
  rw [List.filter_append, this, List.append_nil]

theorem structFields_bad {names opt : List Str} {es : List (Str × JTree)} {n : Str} (hn : n ∈ names)
    (hc : ((∀ e ∈ es, e.1 ≠ n) ∧ n ∉ opt) ∨ 2 ≤ (es.filter fun e => decide (e.1 = n)).length) :
    structFields names opt (.obj es) = none := by
  simp only [structFields]
  refine allSome_none hn ?_
  rcases hc with ⟨h1, h2⟩ | h1
  · have : es.filter (fun e => decide (e.1 = n)) = [] := by
      rw [List.filter_eq_nil_iff]
      intro e he
      simpa using h1 e he
    simp only [this]
    rw [if_neg h2]
  · match hf : es.filter (fun e => decide (e.1 = n)) with
    | [] => rw [hf] at h1; simp at h1
    | [_] => rw [hf] at h1; simp at h1
    | _ :: _ :: _ => simp only [hf]

theorem structFields_null {names opt : List Str} {es : List (Str × JTree)} {n : Str} (ho : n ∈ opt) (hm : ∀ e ∈ es, e.1 ≠ n) :
    structFields names opt (.obj es) = structFields names opt (.obj (es ++ [(n, .null)])) := by
  simp only [structFields]
  refine allSome_congr fun n' _ => ?_
  rw [List.filter_append]
  by_cases hn : n' = n
  · subst hn
    have : es.filter (fun e => decide (e.1 = n')) = [] := by
      rw [List.filter_eq_nil_iff]
      intro e he
      simpa using hm e he
    rw [this]
    simp [ho]
  · have : ([(n, JTree.null)].filter fun e => decide (e.1 = n')) = [] := by
      simp [Ne.symm hn]
    rw [this, List.append_nil]

theorem allSome_get {α β : Type} {f : α → Option β} : ∀ {l : List α} {l' : List β}, allSome f l = some l' → ∀ (i : Nat) (a : α),
    l[i]? = some a → l'[i]? = f a
  | [], _, _, i, a, ha => by simp at ha
  | x :: xs, l', h, i, a, ha => by
    simp only [allSome, Option.bind_eq_bind, Option.bind_eq_some_iff, Option.some.injEq] at h
    obtain ⟨b, hb, bs, hbs, rfl⟩ := h
    cases i with
    | zero => simp only [List.getElem?_cons_zero, Option.some.injEq] at ha ⊢; rw [← ha, hb]
    | succ i => simpa using allSome_get hbs i a (by simpa using ha)

theorem structFields_last {names opt : List Str} {es : List (Str × JTree)} {ts : List JTree}
    (hf : structFields names opt (.obj es) = some ts) (i : Nat) {n : Str} (hi : names[i]? = some n) (ho : n ∈ opt)
    (hm : ∀ e ∈ es, e.1 ≠ n) : ts[i]? = some .null := by
  simp only [structFields] at hf
  rw [allSome_get hf i n hi]
  have : es.filter (fun e => decide (e.1 = n)) = [] := by
    rw [List.filter_eq_nil_iff]
    intro e he
    simpa using hm e he
  simp only [this, if_pos ho]

/-- **C62** (witnesses and test cases) — the order of the fields does not matter. -/
theorem C62_field_order_others (s s' : Str) (es es' : List (Str × JTree)) (h : pText s = some (.obj es)) (h' : pText s' = some (.obj es'))
    (hp : es.Perm es') : witnessFromJson s = witnessFromJson s' ∧ testCaseFromJson s = testCaseFromJson s' := by
  constructor
  · simp only [witnessFromJson, h, h', Option.bind_some, treeWitness, structFields_perm hp]
  · simp only [testCaseFromJson, h, h', Option.bind_some, treeTestCase, structFields_perm hp]

/-- **C62** (witnesses and test cases) — unknown fields are ignored. -/
theorem C62_unknown_ignored_others (s s' : Str) (es extra : List (Str × JTree)) (h : pText s = some (.obj es))
    (h' : pText s' = some (.obj (es ++ extra))) :
    ((∀ e ∈ extra, e.1 ≠ "assignments".toList) → witnessFromJson s' = witnessFromJson s) ∧
    ((∀ e ∈ extra, e.1 ∉ ["circuit".toList, "witness".toList, "name".toList, "description".toList]) →
      testCaseFromJson s' = testCaseFromJson s) := by
  constructor
  · intro hx
    have : ∀ e ∈ extra, e.1 ∉ witnessNames := fun e he hm => hx e he (List.mem_singleton.1 hm)
    simp only [witnessFromJson, h, h', Option.bind_some, treeWitness, structFields_extra this]
  · intro hx
    have : ∀ e ∈ extra, e.1 ∉ testCaseNames := hx
    simp only [testCaseFromJson, h, h', Option.bind_some, treeTestCase, structFields_extra this]

/-- **C62** (witnesses and test cases) — a text in which a field other than the description of a test case is missing, or any field occurs
twice, is rejected. -/
theorem C62_missing_or_repeated_others (s : Str) (es : List (Str × JTree)) (h : pText s = some (.obj es)) (n : Str) :
    (n = "assignments".toList → ((∀ e ∈ es, e.1 ≠ n) ∨ 2 ≤ (es.filter fun e => decide (e.1 = n)).length) → witnessFromJson s = none) ∧
    (n ∈ ["circuit".toList, "witness".toList, "name".toList, "description".toList] →
      ((∀ e ∈ es, e.1 ≠ n) ∧ n ≠ "description".toList ∨ 2 ≤ (es.filter fun e => decide (e.1 = n)).length) →
      testCaseFromJson s = none) := by
  constructor
  · intro hn hc
    have : structFields witnessNames [] (.obj es) = none :=
      structFields_bad (n := n) (List.mem_singleton.2 hn) (hc.imp (fun h => ⟨h, List.not_mem_nil⟩) id)
    simp only [witnessFromJson, h, Option.bind_some, treeWitness, this]
  · intro hn hc
    have : structFields testCaseNames ["description".toList] (.obj es) = none :=
      structFields_bad (n := n) hn (hc.imp (fun h => ⟨h.1, fun hm => h.2 (List.mem_singleton.1 hm)⟩) id)
    simp only [testCaseFromJson, h, Option.bind_some, treeTestCase, this]

/-- **C62** (the optional fields) — a circuit without `wire_labels` and a test case without `description` are read as if the field were there
with the value null, that is: no labels, no description. -/
theorem C62_optional_missing (s s' : Str) (es : List (Str × JTree)) (h : pText s = some (.obj es)) :
    ((∀ e ∈ es, e.1 ≠ "wire_labels".toList) → pText s' = some (.obj (es ++ [("wire_labels".toList, .null)])) →
      circuitFromJson s = circuitFromJson s' ∧ ∀ c, circuitFromJson s = some c → c.wireLabels = none) ∧
    ((∀ e ∈ es, e.1 ≠ "description".toList) → pText s' = some (.obj (es ++ [("description".toList, .null)])) →
      testCaseFromJson s = testCaseFromJson s' ∧ ∀ t, testCaseFromJson s = some t → t.description = none) := by
  constructor
  · intro hm h'
    have e : circuitFromJson s = circuitFromJson s' := by
      simp only [circuitFromJson, h, h', Option.bind_some, treeCircuit]
      rw [structFields_null (List.mem_singleton.2 rfl) hm]
    refine ⟨e, fun c hc => ?_⟩
    simp only [circuitFromJson, h, Option.bind_some, treeCircuit] at hc
    split at hc
    · rename_i t1 t2 t3 t4 t5 t6 t7 t8 t9 hf
      have ht : t9 = .null := by simpa using structFields_last hf 8 rfl (List.mem_singleton.2 rfl) hm
      subst ht
      simp only [treeOpt, Option.bind_eq_bind, Option.bind_eq_some_iff, Option.some.injEq] at hc
      obtain ⟨_, -, _, -, _, -, _, -, _, -, _, -, _, -, _, -, _, h9, rfl⟩ := hc
      exact h9.symm
    · cases hc
  · intro hm h'
    have e : testCaseFromJson s = testCaseFromJson s' := by
      simp only [testCaseFromJson, h, h', Option.bind_some, treeTestCase]
      rw [structFields_null (List.mem_singleton.2 rfl) hm]
    refine ⟨e, fun t ht => ?_⟩
    simp only [testCaseFromJson, h, Option.bind_some, treeTestCase] at ht
    split at ht
    · rename_i t1 t2 t3 t4 hf
      have ht4 : t4 = .null := by simpa using structFields_last hf 3 rfl (List.mem_singleton.2 rfl) hm
      subst ht4
      simp only [treeOpt, Option.bind_eq_bind, Option.bind_eq_some_iff, Option.some.injEq] at ht
      obtain ⟨_, -, _, -, _, -, _, h9, rfl⟩ := ht
      exact h9.symm
    · cases ht

namespace Ex

/-- A test case without a description, with the fields in another order and one that is unknown. -/
def tcText : Str := "{\"name\":\"t\",\"x\":1,\"witness\":{\"assignments\":{\"1\":[7]}},\"circuit\":{\"field_size\":1,\"prime_bytes\":[5],\"n_wires\":2,\"n_pub_out\":0,\"n_pub_in\":1,\"n_prv_in\":0,\"n_constraints\":0,\"constraints\":[]}}".toList

/-- It is read, with all the values in their places; a proper case of `C62_optional_missing`. -/
theorem tc_read : testCaseFromJson tcText = some ⟨⟨1, [5], 2, 0, 1, 0, 0, [], none⟩, ⟨[(1, [7])]⟩, "t", none⟩ := by
  decide +kernel

/-- The entries of the object that a text is (proof helper). -/
def entriesOf (s : Str) : List (Str × JTree) := match pText s with | some (.obj es) => es | _ => []
/-- The text is an object (proof helper). -/
def isObj (s : Str) : Bool := match pText s with | some (.obj _) => true | _ => false

theorem entries_eq {s : Str} (h : isObj s = true) : pText s = some (.obj (entriesOf s)) := by
  unfold isObj entriesOf at *
  split at h <;> simp_all

example : ∃ es, pText tcText = some (.obj es) ∧ (∀ e ∈ es, e.1 ≠ "description".toList) ∧
    ∃ t, testCaseFromJson tcText = some t ∧ t.description = none :=
  ⟨_, entries_eq (by decide +kernel), by decide +kernel, _, tc_read, rfl⟩

/-- A witness without its only field, and one with the field twice, are rejected. -/
example : witnessFromJson "{\"x\":1}".toList = none ∧
    witnessFromJson "{\"assignments\":{},\"assignments\":{}}".toList = none := by
  refine ⟨(C62_missing_or_repeated_others _ _ (entries_eq ?_) "assignments".toList).1 rfl (.inl ?_),
    (C62_missing_or_repeated_others _ _ (entries_eq ?_) "assignments".toList).1 rfl (.inr ?_)⟩ <;> decide +kernel

end Ex

end Zkenc.Props
