import Verif.Spec.SerializableLayout
import Verif.Props.SerializableJson
/-!
# C62: which JSON documents are written and read
-/

namespace Zkenc.Props

open Zkenc

/-- **C62** (what is written) — the text of a circuit, a witness or a test case is JSON, with one field per Rust field under its Rust name. -/
theorem C62_documents_written (c : SCircuit) (w : SWitness) (t : STestCase) :
    pText (circuitToJson c) = some (LayoutSpec.circuit c) ∧ pText (witnessToJson w) = some (LayoutSpec.witness w) ∧
    pText (testCaseToJson t) = some (LayoutSpec.testCase t) :=
  ⟨pText_pretty _ (lits_circuitTree c), pText_pretty _ (lits_witnessTree w), pText_pretty _ (lits_testCaseTree t)⟩

/-- **C62** (what is read) — every text, in any layout, with the document of a circuit, a witness or a test case is read as it. -/
theorem C62_documents_read (s : Str) :
    (∀ c, CircuitInRange c → pText s = some (LayoutSpec.circuit c) → circuitFromJson s = some c) ∧
    (∀ w, WitnessInRange w → pText s = some (LayoutSpec.witness w) → witnessFromJson s = some w) ∧
    (∀ t, TestCaseInRange t → pText s = some (LayoutSpec.testCase t) → testCaseFromJson s = some t) := by
  refine ⟨fun c h hs => ?_, fun w h hs => ?_, fun t h hs => ?_⟩
  · rw [circuitFromJson, hs]; exact treeCircuit_tree c h
  · rw [witnessFromJson, hs]; exact treeWitness_tree w h
  · rw [testCaseFromJson, hs]; exact treeTestCase_tree t h

/-! ### Examples -/

theorem litsFields_mem : ∀ {l : List (Str × JTree)}, litsFields l → ∀ t ∈ l, t.2.Lits
  | [], _, t, ht => by cases ht
  | e :: l, h, t, ht => by
    rw [litsFields] at h
    rcases List.mem_cons.1 ht with rfl | ht
    · exact h.1
    · exact litsFields_mem h.2 t ht

namespace Ex

theorem numLit_three : JsonSpec.NumLit ['3'] := by
  have := numLit_natDec 3
  rwa [show natDec 3 = ['3'] by simp [natDec, digChar]] at this

/-- The test case of the examples. -/
def exTest : STestCase := ⟨exCircuit, ⟨[(2, [7]), (1, [49])]⟩, "square", none⟩

theorem exTest_inRange : TestCaseInRange exTest := ⟨exCircuit_inRange, ⟨by decide, by decide⟩⟩

/-- A witness in a layout that `to_json` does not produce. -/
def oddText : Str := ['{', '"', 'a', 's', 's', 'i', 'g', 'n', 'm', 'e', 'n', 't', 's', '"', ':', '{', '"', '2', '"', ' ', ':', ' ', '[', '7', ' ', ']', '}', '}']

theorem oddText_doc : pText oddText = some (LayoutSpec.witness ⟨[(2, [7])]⟩) := by
  have h : LayoutSpec.witness ⟨[(2, [7])]⟩ = .obj [(['a', 's', 's', 'i', 'g', 'n', 'm', 'e', 'n', 't', 's'], .obj [(['2'], .arr [.num ['7']])])] := by
    have h2 : natDec 2 = ['2'] := by simp [natDec, digChar]
    have h7 : natDec (UInt8.toNat 7) = ['7'] := by rw [show UInt8.toNat 7 = 7 from rfl]; simp [natDec, digChar]
    simp only [LayoutSpec.witness, LayoutSpec.byteArray, LayoutSpec.number, List.map_cons, List.map_nil, h2, h7]
    rfl
  rw [h]
  rfl

example : witnessFromJson oddText = some ⟨[(2, [7])]⟩ := (C62_documents_read oddText).2.1 _ ⟨by decide, by decide⟩ oddText_doc

/-- It is accepted, so it is written and read again. -/
example : witnessFromJson (witnessToJson ⟨[(2, [7])]⟩) = some ⟨[(2, [7])]⟩ :=
  (C62_witness_accepted oddText _ ((C62_documents_read oddText).2.1 _ ⟨by decide, by decide⟩ oddText_doc)).2

example : circuitFromJson (circuitToJson exCircuit) = some exCircuit ∧ witnessFromJson (witnessToJson exTest.witness) = some exTest.witness ∧
    testCaseFromJson (testCaseToJson exTest) = some exTest :=
  ⟨C62_circuit_roundtrip _ exCircuit_inRange, C62_witness_roundtrip _ exTest_inRange.2, C62_test_case_roundtrip _ exTest_inRange⟩

example : CircuitInRange exCircuit ∧ TestCaseInRange exTest :=
  ⟨(C62_circuit_accepted _ _ (C62_circuit_roundtrip _ exCircuit_inRange)).1, (C62_test_case_accepted _ _ (C62_test_case_roundtrip _ exTest_inRange)).1⟩

theorem exCircuit_typed : SCircuit.Typed exCircuit := by
  refine ⟨by decide, by decide, by decide, by decide, ?_⟩
  intro l hl
  simp only [exCircuit, Option.some.injEq] at hl
  subst hl
  exact ⟨by decide, by decide, by decide⟩

example : circuitFromJson (circuitToJson exCircuit) = fromBincode (toBincode exCircuit) := C62_json_bincode_agree _ exCircuit_typed

/-- The document of the example. -/
theorem exCircuit_doc : ∃ es, LayoutSpec.circuit exCircuit = .obj es ∧ es.length = 9 := ⟨_, rfl, rfl⟩

/-- The fields in reverse order, with another one added, without one, and with one twice. -/
example : ∃ es : List (Str × JTree), LayoutSpec.circuit exCircuit = .obj es ∧
    circuitFromJson ((JTree.obj es.reverse).pretty 0) = some exCircuit ∧
    circuitFromJson ((JTree.obj (es ++ [(['x'], .null)])).pretty 0) = some exCircuit ∧
    circuitFromJson ((JTree.obj es.tail).pretty 0) = none ∧
    circuitFromJson ((JTree.obj (es ++ [("n_wires".toList, .num ['3'])])).pretty 0) = none := by
  have hl : (LayoutSpec.circuit exCircuit).Lits := lits_circuitTree exCircuit
  obtain ⟨es, he, -⟩ := exCircuit_doc
  rw [he] at hl
  have hl' : ∀ t ∈ es, t.2.Lits := by
    rw [JTree.Lits] at hl
    exact litsFields_mem hl
  have hp : ∀ es' : List (Str × JTree), (∀ t ∈ es', t.2.Lits) → pText ((JTree.obj es').pretty 0) = some (.obj es') := fun es' h =>
    pText_pretty _ (by rw [JTree.Lits]; exact litsFields_of h)
  have h0 := hp es hl'
  have hgood : circuitFromJson ((JTree.obj es).pretty 0) = some exCircuit := (C62_documents_read _).1 _ exCircuit_inRange (he ▸ h0)
  refine ⟨es, he, ?_, ?_, ?_, ?_⟩
  · rw [← hgood]
    exact C62_field_order _ _ es.reverse es (hp _ fun t ht => hl' t (List.mem_reverse.1 ht)) h0 (List.reverse_perm es)
  · rw [← hgood]
    refine C62_unknown_ignored _ _ es [(['x'], .null)] h0 (hp _ fun t ht => ?_) (by decide +kernel)
    rcases List.mem_append.1 ht with h | h
    · exact hl' t h
    · rw [List.mem_singleton] at h; subst h; exact lits_null
  · refine C62_missing_or_repeated _ es.tail (hp _ fun t ht => hl' t (List.mem_of_mem_tail ht)) "field_size".toList (by decide +kernel) (.inl ⟨?_, by decide +kernel⟩)
    have : es = _ := (JTree.obj.inj he).symm
    subst this
    decide +kernel
  · refine C62_missing_or_repeated _ _ (hp _ fun t ht => ?_) "n_wires".toList (by decide +kernel) (.inr ?_)
    · rcases List.mem_append.1 ht with h | h
      · exact hl' t h
      · rw [List.mem_singleton] at h; subst h; rw [JTree.Lits]; exact numLit_three
    · have : es = _ := (JTree.obj.inj he).symm
      subst this
      decide +kernel

/-- Cut texts. -/
example : circuitFromJson ((circuitToJson exCircuit).take 1) = none ∧ witnessFromJson ((witnessToJson exTest.witness).take 1) = none ∧
    testCaseFromJson ((testCaseToJson exTest).take 1) = none := by
  refine ⟨C62_circuit_truncated _ 1 ?_, C62_witness_truncated _ 1 ?_, C62_test_case_truncated _ 1 ?_⟩ <;> decide +kernel

/-- Saving. -/
example (p : Path) : SaveOutcome (saveCircuitJson exCircuit p) loadCircuitJson p exCircuit ∧
    SaveOutcome (saveCircuitBincode exCircuit p) loadCircuitBincode p exCircuit ∧
    SaveOutcome (saveWitnessJson exTest.witness p) loadWitnessJson p exTest.witness ∧
    SaveOutcome (saveTestCaseJson exTest p) loadTestCaseJson p exTest :=
  ⟨C62_save_circuit_json _ exCircuit_inRange p, C62_save_circuit_bincode _ exCircuit_typed p, C62_save_witness_json _ exTest_inRange.2 p,
    C62_save_test_case_json _ exTest_inRange p⟩

end Ex

end Zkenc.Props
