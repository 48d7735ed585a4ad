import Verif.Proofs.SerializableTree
import Verif.Model.SerializableFiles
import Verif.Props.Commands
/-!
# C62: the JSON form of serializable circuits, witnesses and test cases, and their files under crashes
-/

namespace Zkenc.Props

open Zkenc

/-- The values fit the Rust types (`u32`), and the label map has distinct keys. -/
structure CircuitInRange (c : SCircuit) : Prop where
  header : c.fieldSize < 2 ^ 32 ∧ c.nWires < 2 ^ 32 ∧ c.nPubOut < 2 ^ 32 ∧ c.nPubIn < 2 ^ 32 ∧ c.nPrvIn < 2 ^ 32 ∧ c.nConstraints < 2 ^ 32
  cons : ∀ k ∈ c.constraints, ∀ fs ∈ [k.a, k.b, k.c], ∀ f ∈ fs, f.wireId < 2 ^ 32
  labels : ∀ l, c.wireLabels = some l → (l.map (·.1)).Nodup ∧ ∀ e ∈ l, e.1 < 2 ^ 32

/-- The same for a witness. -/
structure WitnessInRange (w : SWitness) : Prop where
  distinct : (w.assignments.map (·.1)).Nodup
  keys : ∀ e ∈ w.assignments, e.1 < 2 ^ 32

/-- The same for a test case. -/
structure TestCaseInRange (t : STestCase) : Prop where
  circuit : CircuitInRange t.circuit
  witness : WitnessInRange t.witness

theorem treeCircuit_tree (c : SCircuit) (h : CircuitInRange c) : treeCircuit (circuitTree c) = some c := by
  obtain ⟨⟨h1, h2, h3, h4, h5, h6⟩, hc, hl⟩ := h
  rw [treeCircuit, circuitTree, structFields_structTree (by decide) rfl]
  have hcons : treeSeq treeConstraint (.arr (c.constraints.map constraintTree)) = some c.constraints :=
    allSome_map_id _ _ _ fun k hk => treeConstraint_tree k (hc k hk)
  simp only [treeNat_natTree h1, treeNat_natTree h2, treeNat_natTree h3, treeNat_natTree h4, treeNat_natTree h5, treeNat_natTree h6,
    treeBytes_bytesTree, hcons, Option.bind_some, Option.bind_eq_bind]
  cases hw : c.wireLabels with
  | none => cases c; simp_all [treeOpt]
  | some l =>
    have hm := treeMap_mapTree treeStr strTree l (hl l hw).1 (hl l hw).2 fun e _ => treeStr_strTree e.2
    have ho : treeOpt (treeMap treeStr) (mapTree strTree l) = some (some l) := by
      rw [show treeOpt (treeMap treeStr) (mapTree strTree l) = (treeMap treeStr (mapTree strTree l)).map some from rfl, hm]
      rfl
    simp only [ho]
    cases c
    simp_all

theorem treeWitness_tree (w : SWitness) (h : WitnessInRange w) : treeWitness (witnessTree w) = some w := by
  rw [treeWitness, witnessTree, structFields_structTree (by decide) rfl]
  simp only [treeMap_mapTree treeBytes bytesTree w.assignments h.1 h.2 fun e _ => treeBytes_bytesTree e.2]
  rfl

theorem treeTestCase_tree (t : STestCase) (h : TestCaseInRange t) : treeTestCase (testCaseTree t) = some t := by
  rw [treeTestCase, testCaseTree, structFields_structTree (by decide) rfl]
  simp only [treeCircuit_tree _ h.1, treeWitness_tree _ h.2, treeStr_strTree, Option.bind_some, Option.bind_eq_bind]
  cases hd : t.description with
  | none => cases t; simp_all [treeOpt]
  | some s =>
    have : treeOpt treeStr (strTree s) = some (some s) := by
      rw [show treeOpt treeStr (strTree s) = (treeStr (strTree s)).map some from rfl, treeStr_strTree]
      rfl
    cases t
    simp_all

/-! ### Round trip -/

/-- **C62** — every circuit survives JSON, whatever its names and coefficients, for every iteration order of its label map. -/
theorem C62_circuit_roundtrip (c : SCircuit) (h : CircuitInRange c) : circuitFromJson (circuitToJson c) = some c := by
  rw [circuitFromJson, circuitToJson, pText_pretty _ (lits_circuitTree c)]
  exact treeCircuit_tree c h

/-- **C62** — every witness survives JSON. -/
theorem C62_witness_roundtrip (w : SWitness) (h : WitnessInRange w) : witnessFromJson (witnessToJson w) = some w := by
  rw [witnessFromJson, witnessToJson, pText_pretty _ (lits_witnessTree w)]
  exact treeWitness_tree w h

/-- **C62** — every test case survives JSON. -/
theorem C62_test_case_roundtrip (t : STestCase) (h : TestCaseInRange t) : testCaseFromJson (testCaseToJson t) = some t := by
  rw [testCaseFromJson, testCaseToJson, pText_pretty _ (lits_testCaseTree t)]
  exact treeTestCase_tree t h

/-- **C62** — the JSON and the bincode form of a circuit load to the same value. -/
theorem C62_json_bincode_agree (c : SCircuit) (h : SCircuit.Typed c) :
    circuitFromJson (circuitToJson c) = fromBincode (toBincode c) := by
  rw [C62_circuit_roundtrip c ⟨h.header, fun k hk fs hfs f hf => ((h.cons k hk fs hfs).2 f hf).1,
    fun l hl => ⟨(h.labels l hl).2.1, fun e he => ((h.labels l hl).2.2 e he).1⟩⟩]
  have := C19_bincode_roundtrip c h []
  rw [List.append_nil] at this
  exact this.symm

/-! ### Whatever is accepted is in range -/

theorem treeFactor_range {t : JTree} {f : SFactor} (h : treeFactor t = some f) : f.wireId < 2 ^ 32 := by
  unfold treeFactor at h
  split at h
  · obtain ⟨w, h1, h⟩ := Option.bind_eq_some_iff.1 h
    obtain ⟨c, -, h⟩ := Option.bind_eq_some_iff.1 h
    cases h
    exact treeNat_lt h1
  · cases h

theorem treeLc_range {t : JTree} {fs : List SFactor} (h : treeLc t = some fs) : ∀ f ∈ fs, f.wireId < 2 ^ 32 := by
  unfold treeLc at h
  split at h
  · intro f hf
    unfold treeSeq at h
    split at h
    · obtain ⟨a, -, h⟩ := allSome_mem h f hf
      exact treeFactor_range h
    · cases h
  · cases h

theorem treeConstraint_range {t : JTree} {k : SConstraint} (h : treeConstraint t = some k) :
    ∀ fs ∈ [k.a, k.b, k.c], ∀ f ∈ fs, f.wireId < 2 ^ 32 := by
  unfold treeConstraint at h
  split at h
  · obtain ⟨a, h1, h⟩ := Option.bind_eq_some_iff.1 h
    obtain ⟨b, h2, h⟩ := Option.bind_eq_some_iff.1 h
    obtain ⟨c, h3, h⟩ := Option.bind_eq_some_iff.1 h
    cases h
    intro fs hfs
    simp only [List.mem_cons, List.not_mem_nil, or_false] at hfs
    rcases hfs with rfl | rfl | rfl
    · exact treeLc_range h1
    · exact treeLc_range h2
    · exact treeLc_range h3
  · cases h

theorem treeCircuit_range {t : JTree} {c : SCircuit} (h : treeCircuit t = some c) : CircuitInRange c := by
  unfold treeCircuit at h
  split at h
  · obtain ⟨x1, h1, h⟩ := Option.bind_eq_some_iff.1 h
    obtain ⟨x2, h2, h⟩ := Option.bind_eq_some_iff.1 h
    obtain ⟨x3, h3, h⟩ := Option.bind_eq_some_iff.1 h
    obtain ⟨x4, h4, h⟩ := Option.bind_eq_some_iff.1 h
    obtain ⟨x5, h5, h⟩ := Option.bind_eq_some_iff.1 h
    obtain ⟨x6, h6, h⟩ := Option.bind_eq_some_iff.1 h
    obtain ⟨x7, h7, h⟩ := Option.bind_eq_some_iff.1 h
    obtain ⟨x8, h8, h⟩ := Option.bind_eq_some_iff.1 h
    obtain ⟨x9, h9, h⟩ := Option.bind_eq_some_iff.1 h
    cases h
    refine ⟨⟨treeNat_lt h1, treeNat_lt h3, treeNat_lt h4, treeNat_lt h5, treeNat_lt h6, treeNat_lt h7⟩, ?_, ?_⟩
    · intro k hk
      simp only at hk
      unfold treeSeq at h8
      split at h8
      · obtain ⟨a, -, h⟩ := allSome_mem h8 k hk
        exact treeConstraint_range h
      · cases h8
    · intro l hl
      simp only at hl
      subst hl
      unfold treeOpt at h9
      split at h9
      · cases h9
      · obtain ⟨l', h10, h11⟩ := Option.map_eq_some_iff.1 h9
        cases h11
        exact treeMap_spec h10
  · cases h

theorem treeWitness_range {t : JTree} {w : SWitness} (h : treeWitness t = some w) : WitnessInRange w := by
  unfold treeWitness at h
  split at h
  · obtain ⟨m, h1, rfl⟩ := Option.map_eq_some_iff.1 h
    exact ⟨(treeMap_spec h1).1, (treeMap_spec h1).2⟩
  · cases h

theorem treeTestCase_range {t : JTree} {c : STestCase} (h : treeTestCase t = some c) : TestCaseInRange c := by
  unfold treeTestCase at h
  split at h
  · obtain ⟨x1, h1, h⟩ := Option.bind_eq_some_iff.1 h
    obtain ⟨x2, h2, h⟩ := Option.bind_eq_some_iff.1 h
    obtain ⟨x3, h3, h⟩ := Option.bind_eq_some_iff.1 h
    obtain ⟨x4, h4, h⟩ := Option.bind_eq_some_iff.1 h
    cases h
    exact ⟨treeCircuit_range h1, treeWitness_range h2⟩
  · cases h

/-- **C62** — whatever text `from_json` accepts, in any layout, with unknown or reordered fields: all numbers are in range, the keys of the
label map are distinct, and writing the value again and reading it gives the same value. -/
theorem C62_circuit_accepted (s : Str) (c : SCircuit) (h : circuitFromJson s = some c) :
    CircuitInRange c ∧ circuitFromJson (circuitToJson c) = some c := by
  obtain ⟨t, -, h1⟩ := Option.bind_eq_some_iff.1 h
  have := treeCircuit_range h1
  exact ⟨this, C62_circuit_roundtrip c this⟩

/-- **C62** — the same for witnesses. -/
theorem C62_witness_accepted (s : Str) (w : SWitness) (h : witnessFromJson s = some w) :
    WitnessInRange w ∧ witnessFromJson (witnessToJson w) = some w := by
  obtain ⟨t, -, h1⟩ := Option.bind_eq_some_iff.1 h
  have := treeWitness_range h1
  exact ⟨this, C62_witness_roundtrip w this⟩

/-- **C62** — the same for test cases. -/
theorem C62_test_case_accepted (s : Str) (t : STestCase) (h : testCaseFromJson s = some t) :
    TestCaseInRange t ∧ testCaseFromJson (testCaseToJson t) = some t := by
  obtain ⟨u, -, h1⟩ := Option.bind_eq_some_iff.1 h
  have := treeTestCase_range h1
  exact ⟨this, C62_test_case_roundtrip t this⟩

/-! ### Layout of accepted texts -/

theorem allSome_congr {α β : Type} {f g : α → Option β} : ∀ {l : List α}, (∀ a ∈ l, f a = g a) → allSome f l = allSome g l
  | [], _ => rfl
  | a :: l, h => by rw [allSome, allSome, h a (by simp), allSome_congr fun x hx => h x (by simp [hx])]

theorem allSome_none {α β : Type} {f : α → Option β} : ∀ {l : List α} {a : α}, a ∈ l → f a = none → allSome f l = none
  | b :: l, a, h, hf => by
    rw [allSome]
    rcases List.mem_cons.1 h with rfl | h
    · rw [hf]; rfl
    · rw [allSome_none h hf]
      cases f b <;> rfl

theorem structFields_perm {names opt : List Str} {es es' : List (Str × JTree)} (h : es.Perm es') :
    structFields names opt (.obj es) = structFields names opt (.obj es') := by
  simp only [structFields]
  refine allSome_congr fun n _ => ?_
  have hp := h.filter (fun e => decide (e.1 = n))
  match h1 : es.filter (fun e => decide (e.1 = n)), h2 : es'.filter (fun e => decide (e.1 = n)) with
  | [], l => rw [h1, h2] at hp; have := List.nil_perm.1 hp; subst this; simp only [h1, h2]
  | [e], l => rw [h1, h2] at hp; have := List.singleton_perm.1 hp; subst this; simp only [h1, h2]
  | a :: b :: r, l =>
    rw [h1, h2] at hp
    match l, hp.length_eq with
    | c :: d :: r', _ => simp only [h1, h2]

/-- **C62** — the order of the fields of a circuit object does not matter. -/
theorem C62_field_order (s s' : Str) (es es' : List (Str × JTree)) (h : pText s = some (.obj es)) (h' : pText s' = some (.obj es'))
    (hp : es.Perm es') : circuitFromJson s = circuitFromJson s' := by
  simp only [circuitFromJson, h, h', Option.bind_some, treeCircuit, structFields_perm hp]

/-- **C62** — unknown fields are ignored: entries with a name that no field has can be added without changing the result. -/
theorem C62_unknown_ignored (s s' : Str) (es extra : List (Str × JTree)) (h : pText s = some (.obj es))
    (h' : pText s' = some (.obj (es ++ extra))) (hx : ∀ e ∈ extra, e.1 ∉ circuitNames) : circuitFromJson s' = circuitFromJson s := by
  have : ∀ opt, structFields circuitNames opt (.obj (es ++ extra)) = structFields circuitNames opt (.obj es) := by
    intro opt
    simp only [structFields]
    refine allSome_congr fun n hn => ?_
    have : extra.filter (fun e => decide (e.1 = n)) = [] := by
      rw [List.filter_eq_nil_iff]
      intro e he
      simp only [decide_eq_true_eq]
      rintro rfl
      exact hx e he hn
    rw [List.filter_append, this, List.append_nil]
  simp only [circuitFromJson, h, h', Option.bind_some, treeCircuit, this]

/-- **C62** — a text in which a field other than `wire_labels` is missing, or any field occurs twice, is rejected. -/
theorem C62_missing_or_repeated (s : Str) (es : List (Str × JTree)) (h : pText s = some (.obj es)) (n : Str) (hn : n ∈ circuitNames)
    (hc : ((∀ e ∈ es, e.1 ≠ n) ∧ n ≠ "wire_labels".toList) ∨ 2 ≤ (es.filter fun e => decide (e.1 = n)).length) :
    circuitFromJson s = none := by
  have : structFields circuitNames ["wire_labels".toList] (.obj es) = none := by
    simp only [structFields]
    refine allSome_none hn ?_
    rcases hc with ⟨h1, h2⟩ | h1
    · have : es.filter (fun e => decide (e.1 = n)) = [] := by
        rw [List.filter_eq_nil_iff]
        intro e he
        simpa using h1 e he
      simp only [this]
      rw [if_neg]
      simpa using h2
    · match hf : es.filter (fun e => decide (e.1 = n)) with
      | [] => rw [hf] at h1; simp at h1
      | [_] => rw [hf] at h1; simp at h1
      | _ :: _ :: _ => simp only [hf]
  simp only [circuitFromJson, h, Option.bind_some, treeCircuit, this]

/-! ### Cut texts and files -/

/-- No proper prefix of a written text is read as anything but a number. -/
theorem pretty_prefix {t : JTree} (ht : t.Lits) {s e : Str} (hs : t.pretty 0 = s ++ e) {u : JTree} (hu : pText s = some u)
    (hn : ∀ lit, u ≠ .num lit) : e = [] := by
  refine pText_prefix (s := s) (e := e) (fun f hf => ⟨t, ?_⟩) hu hn
  have := pValue_pretty t ht 0 f [] (by rw [hs]; omega) stops_nil
  rwa [List.append_nil, hs] at this

theorem treeCircuit_num (lit : Str) : treeCircuit (.num lit) = none := rfl
theorem treeWitness_num (lit : Str) : treeWitness (.num lit) = none := rfl
theorem treeTestCase_num (lit : Str) : treeTestCase (.num lit) = none := rfl

/-- Reading a prefix of a written text succeeds only on the whole text. -/
theorem read_prefix {α : Type} {rd : JTree → Option α} (hnum : ∀ lit, rd (.num lit) = none) {t : JTree} (ht : t.Lits) {s e : Str}
    (hs : t.pretty 0 = s ++ e) {a : α} (ha : (pText s).bind rd = some a) : e = [] := by
  obtain ⟨u, h1, h2⟩ := Option.bind_eq_some_iff.1 ha
  refine pretty_prefix ht hs h1 fun lit hl => ?_
  rw [hl, hnum] at h2
  cases h2

/-- **C62** — no proper prefix of the JSON text of a circuit is accepted. -/
theorem C62_circuit_truncated (c : SCircuit) (n : Nat) (h : n < (circuitToJson c).length) :
    circuitFromJson ((circuitToJson c).take n) = none := by
  by_contra hne
  obtain ⟨x, hx⟩ := Option.ne_none_iff_exists'.1 hne
  have := read_prefix treeCircuit_num (lits_circuitTree c) (List.take_append_drop n (circuitToJson c)).symm hx
  rw [List.drop_eq_nil_iff] at this
  omega

/-- **C62** — no proper prefix of the JSON text of a witness is accepted. -/
theorem C62_witness_truncated (w : SWitness) (n : Nat) (h : n < (witnessToJson w).length) :
    witnessFromJson ((witnessToJson w).take n) = none := by
  by_contra hne
  obtain ⟨x, hx⟩ := Option.ne_none_iff_exists'.1 hne
  have := read_prefix treeWitness_num (lits_witnessTree w) (List.take_append_drop n (witnessToJson w)).symm hx
  rw [List.drop_eq_nil_iff] at this
  omega

/-- **C62** — no proper prefix of the JSON text of a test case is accepted. -/
theorem C62_test_case_truncated (t : STestCase) (n : Nat) (h : n < (testCaseToJson t).length) :
    testCaseFromJson ((testCaseToJson t).take n) = none := by
  by_contra hne
  obtain ⟨x, hx⟩ := Option.ne_none_iff_exists'.1 hne
  have := read_prefix treeTestCase_num (lits_testCaseTree t) (List.take_append_drop n (testCaseToJson t)).symm hx
  rw [List.drop_eq_nil_iff] at this
  omega

/-- The claim on saving a value `v` to the path `p` and loading it from the files left behind: however the save ends (error or crash at any
point), no other file changes, and loading gives what it gave before, or an error, or `v` — never a third value; if the save reports
success, loading gives `v`, and if it would be reported although the old value is still there, it is not. -/
def SaveOutcome {α : Type} (save : Cmd) (load : FS → Path → Option α) (p : Path) (v : α) : Prop :=
  ∀ fs fs' o, Run save fs fs' o →
    (∀ q, q ≠ p → fs' q = fs q) ∧
    (load fs' p = some v ∨ (o ≠ some (.ok ()) ∧ (load fs' p = none ∨ fs' = fs)))

theorem run_writeFile {p : Path} {b : Bytes} {msg : String} {fs fs' : FS} {o : Option (Res Unit)}
    (h : Run (Cmd.writeFile p b msg (.done (.ok ()))) fs fs' o) :
    (fs' = fs ∧ o ≠ some (.ok ())) ∨ ∃ n, fs' = fs.set p (b.take n) ∧ (o = some (.ok ()) → b.length ≤ n) := by
  unfold Cmd.writeFile at h
  cases h with
  | crash => exact Or.inl ⟨rfl, by simp⟩
  | write h =>
    refine Or.inr ⟨b.length, ?_, fun _ => le_refl _⟩
    rw [List.take_length]
    simp only [if_true] at h
    cases h <;> rfl
  | writeError h =>
    simp only [Bool.false_eq_true, if_false] at h
    cases h with
    | done => exact Or.inl ⟨rfl, by simp [Res.fail]⟩
    | crash => exact Or.inl ⟨rfl, by simp⟩
  | writePartial n h =>
    simp only [Bool.false_eq_true, if_false] at h
    cases h with
    | done => exact Or.inr ⟨n, rfl, by simp [Res.fail]⟩
    | crash => exact Or.inr ⟨n, rfl, by simp⟩
  | writeCrash n => exact Or.inr ⟨n, rfl, by simp⟩

theorem saves_of {α : Type} {p : Path} {b : Bytes} {load : FS → Path → Option α} {v : α} {rd : Bytes → Option α}
    (hl : ∀ fs, load fs p = (fs p).bind rd) (hfull : rd b = some v) (hcut : ∀ n, rd (b.take n) = none ∨ b.take n = b) :
    SaveOutcome (Cmd.writeFile p b "write" (.done (.ok ()))) load p v := by
  intro fs fs' o h
  rcases run_writeFile h with ⟨rfl, ho⟩ | ⟨n, rfl, ho⟩
  · exact ⟨fun _ _ => rfl, Or.inr ⟨ho, Or.inr rfl⟩⟩
  · refine ⟨fun q hq => FS.set_other _ hq _, ?_⟩
    have hset : (fs.set p (b.take n)) p = some (b.take n) := by simp [FS.set]
    rw [hl, hset, Option.bind_some]
    by_cases hn : b.length ≤ n
    · exact Or.inl (by rw [List.take_of_length_le hn]; exact hfull)
    · rcases hcut n with hc | hc
      · exact Or.inr ⟨fun h => hn (ho h), Or.inl hc⟩
      · exact Or.inl (by rw [hc]; exact hfull)

theorem saves_json {α : Type} {p : Path} {t : JTree} (ht : t.Lits) {rd : JTree → Option α} (hnum : ∀ lit, rd (.num lit) = none) {v : α}
    (hv : rd t = some v) :
    SaveOutcome (Cmd.writeFile p (utf8Enc (t.pretty 0)) "write" (.done (.ok ())))
      (fun fs p => (loadText fs p).bind fun s => (pText s).bind rd) p v := by
  refine saves_of (rd := fun b => (utf8Dec b).bind fun s => (pText s.toList).bind rd) ?_ ?_ ?_
  · intro fs
    unfold loadText
    cases fs p with
    | none => rfl
    | some b => cases h : utf8Dec b <;> simp [h]
  · simp only [utf8Enc, utf8Dec_enc, Option.bind_some, String.toList_ofList, pText_pretty t ht]
    exact hv
  · intro n
    cases hd : utf8Dec ((utf8Enc (t.pretty 0)).take n) with
    | none => exact Or.inl (by simp)
    | some s' =>
      obtain ⟨e, he⟩ := utf8Dec_take hd
      simp only [Option.bind_some]
      cases hx : (pText s'.toList).bind rd with
      | none => exact Or.inl rfl
      | some a =>
        have := read_prefix hnum ht he hx
        subst this
        right
        rw [utf8Dec_eq hd, he, List.append_nil]

/-- **C62** (files) — saving a circuit as JSON. -/
theorem C62_save_circuit_json (c : SCircuit) (h : CircuitInRange c) (p : Path) : SaveOutcome (saveCircuitJson c p) loadCircuitJson p c :=
  saves_json (lits_circuitTree c) treeCircuit_num (treeCircuit_tree c h)

/-- **C62** (files) — saving a circuit as bincode. -/
theorem C62_save_circuit_bincode (c : SCircuit) (h : SCircuit.Typed c) (p : Path) :
    SaveOutcome (saveCircuitBincode c p) loadCircuitBincode p c := by
  refine saves_of (rd := fromBincode) (fun fs => rfl) ?_ ?_
  · have := C19_bincode_roundtrip c h []
    rwa [List.append_nil] at this
  · intro n
    by_cases hn : n < (toBincode c).length
    · exact Or.inl (C19_truncation_rejected c h n hn)
    · exact Or.inr (List.take_of_length_le (by omega))

/-- **C62** (files) — saving a witness. -/
theorem C62_save_witness_json (w : SWitness) (h : WitnessInRange w) (p : Path) : SaveOutcome (saveWitnessJson w p) loadWitnessJson p w :=
  saves_json (lits_witnessTree w) treeWitness_num (treeWitness_tree w h)

/-- **C62** (files) — saving a test case. -/
theorem C62_save_test_case_json (t : STestCase) (h : TestCaseInRange t) (p : Path) :
    SaveOutcome (saveTestCaseJson t p) loadTestCaseJson p t :=
  saves_json (lits_testCaseTree t) treeTestCase_num (treeTestCase_tree t h)

/-- **C62** (the danger) — saving is not atomic: whenever something loadable is at the path, there is a run of the save that is stopped and
leaves a file that does not load: the old value is lost. -/
theorem C62_save_can_lose_old (c : SCircuit) (p : Path) (fs : FS) :
    ∃ fs', Run (saveCircuitJson c p) fs fs' none ∧ loadCircuitJson fs' p = none := by
  refine ⟨fs.set p ((utf8Enc (circuitToJson c)).take 0), .writeCrash 0, ?_⟩
  unfold loadCircuitJson loadText
  rw [List.take_zero, show (fs.set p []) p = some [] by simp [FS.set], Option.bind_some]
  rw [show utf8Dec [] = some "" from by simpa using utf8Dec_enc ""]
  rfl

/-! ### Examples -/

/-- A circuit with a constraint and two labels, one with a quote, a line break and a letter outside ASCII. -/
def exCircuit : SCircuit :=
  ⟨32, [1, 255], 3, 0, 1, 1, 1, [⟨[⟨2, [1]⟩], [⟨2, [1]⟩], [⟨1, [1]⟩]⟩], some [(1, "main.y"), (0, "\"é\n")]⟩

theorem exCircuit_inRange : CircuitInRange exCircuit := by
  refine ⟨by decide, by decide, ?_⟩
  intro l hl
  simp only [exCircuit, Option.some.injEq] at hl
  subst hl
  exact ⟨by decide, by decide⟩

example : TestCaseInRange ⟨exCircuit, ⟨[(2, [7]), (1, [49])]⟩, "square", none⟩ :=
  ⟨exCircuit_inRange, ⟨by decide, by decide⟩⟩

/-- The text of a small witness. -/
example : witnessToJson ⟨[]⟩ = "{\n  \"assignments\": {}\n}".toList := by decide

end Zkenc.Props
