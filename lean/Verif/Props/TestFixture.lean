import Verif.Model.TestFixture
import Verif.Props.Serializable
import Verif.Props.SudokuEndToEnd
import Verif.Spec.R1csFormat
/-!
# C90: circuits and witnesses exported from the command line tool to the library

`exportTestCase` is what `export_test_data.rs` writes, `fromFixture` and `fixtureCircuit` are what `circom_circuit.rs` reads and synthesizes.
-/

namespace Zkenc

open Spec Reader

theorem rdAssignment_reads (e : Nat × Bytes) (h : e.1 < 2 ^ 32 ∧ e.2.length < 2 ^ 64) : Reads rdAssignment (bincAssignment e) e :=
  Reads.bind (Props.rdU32_reads h.1) (Reads.map (Props.rdBytes_reads _ h.2) _)

theorem rdOptString_reads (o : Option String) (h : ∀ s, o = some s → s.toByteArray.data.toList.length < 2 ^ 64) :
    Reads rdOptString (bincOptString o) o := by
  cases o with
  | none => exact Reads.bind (e' := []) (Reads.take [0] rfl) (by simpa using Reads.pure _)
  | some s =>
    refine Reads.bind (e := [1]) (e' := bincString s) (Reads.take [1] rfl) ?_
    simp only [List.cons.injEq, one_ne_zero, and_true, if_false, if_true]
    exact Reads.map (Props.rdString_reads s (h s rfl)) _

/-- A test case whose numbers and lengths fit their fields. -/
structure STestCase.Typed (t : STestCase) : Prop where
  circuit : Props.SCircuit.Typed t.circuit
  size : t.witness.assignments.length < 2 ^ 64
  distinct : (t.witness.assignments.map (·.1)).Nodup
  entries : ∀ e ∈ t.witness.assignments, e.1 < 2 ^ 32 ∧ e.2.length < 2 ^ 64
  name : t.name.toByteArray.data.toList.length < 2 ^ 64
  description : ∀ s, t.description = some s → s.toByteArray.data.toList.length < 2 ^ 64

theorem rdTestCase_reads (t : STestCase) (h : t.Typed) : Reads rdTestCase (testCaseToBincode t) t := by
  refine Reads.bind (Props.rdCircuit_reads _ h.circuit) ?_
  refine Reads.bind (Props.rdSeq_reads (enc := bincAssignment) _ h.size fun e he => rdAssignment_reads e (h.entries e he)) ?_
  refine Reads.bind (Props.rdString_reads _ h.name) ?_
  rw [Props.foldl_insertKV [] _ (by simpa using h.distinct), List.nil_append]
  exact Reads.map (rdOptString_reads _ h.description) _

theorem rdAssignment_mono : Mono rdAssignment := Mono.bind Props.rdU32_mono fun _ => Mono.bind Props.rdBytes_mono fun _ => Mono.pure _

theorem rdOptString_mono : Mono rdOptString := by
  refine Mono.bind (Mono.take _) fun t => ?_
  split
  · exact Mono.pure _
  split
  · exact Mono.bind Props.rdString_mono fun _ => Mono.pure _
  · exact Mono.fail

theorem rdTestCase_mono : Mono rdTestCase :=
  Mono.bind Props.rdCircuit_mono fun _ => Mono.bind (Props.rdSeq_mono rdAssignment_mono) fun _ => Mono.bind Props.rdString_mono fun _ =>
    Mono.bind rdOptString_mono fun _ => Mono.pure _

theorem fixtureLc_eq {F : Type} [Add F] [NatCast F] (vm : VarMap) (fs : Factors) : (fixtureLc vm (toSFactors fs) : LC F) = cliLc fs vm := by
  unfold fixtureLc cliLc toSFactors
  rw [List.foldl_map]
  rfl

/-- A parsed file that fits the format exports to a typed circuit. -/
theorem typed_of_fits (r : R1csFile) (h : R1csFormat.Fits r) : Props.SCircuit.Typed r.toSerializable := by
  have key : ∀ fs, R1csFormat.LcOk r.fieldSize fs → (toSFactors fs).length < 2 ^ 64 ∧
      ∀ f ∈ toSFactors fs, f.wireId < 2 ^ 32 ∧ f.coefficientBytes.length < 2 ^ 64 := by
    intro fs hfs
    refine ⟨by simp only [toSFactors, List.length_map]; have := hfs.1; omega, fun f hf => ?_⟩
    simp only [toSFactors, List.mem_map] at hf
    obtain ⟨x, hx, rfl⟩ := hf
    have h1 := hfs.2 x hx
    have := h.fieldSize
    exact ⟨h1.1, by simp only; omega⟩
  refine ⟨⟨h.fieldSize, h.nWires, h.nPubOut, h.nPubIn, h.nPrvIn, h.nConstraints⟩, ?_, ?_, ?_, ?_⟩
  · have := h.prime; have := h.fieldSize; simp only [R1csFile.toSerializable]; omega
  · have := h.constraints; have := h.nConstraints; simp only [R1csFile.toSerializable, List.length_map]; omega
  · intro k hk fs hfs
    simp only [R1csFile.toSerializable, List.mem_map] at hk
    obtain ⟨c, hc, rfl⟩ := hk
    obtain ⟨ha, hb, hc'⟩ := h.lcs c hc
    simp only [List.mem_cons, List.not_mem_nil, or_false] at hfs
    rcases hfs with rfl | rfl | rfl
    · exact key _ ha
    · exact key _ hb
    · exact key _ hc'
  · intro l hl
    cases hl

theorem foldl_wires (l : List (Nat × Bytes)) (hd : (l.map (·.1)).Nodup) (m : Nat → Option Fr) (i : Nat) (b : Bytes) (h : (i, b) ∈ l) :
    l.foldl (fun m e i => if i = e.1 then some (bytesToFr e.2) else m i) m i = some (bytesToFr b) := by
  induction l generalizing m with
  | nil => simp at h
  | cons e l ih =>
    rw [List.map_cons, List.nodup_cons] at hd
    rw [List.foldl_cons]
    rcases List.mem_cons.1 h with rfl | h
    · have : ∀ (l : List (Nat × Bytes)) (m : Nat → Option Fr), i ∉ l.map (·.1) →
          l.foldl (fun m e i => if i = e.1 then some (bytesToFr e.2) else m i) m i = m i := by
        intro l
        induction l with
        | nil => intro m _; rfl
        | cons e l ih =>
          intro m hm
          rw [List.map_cons, List.mem_cons, not_or] at hm
          rw [List.foldl_cons, ih _ hm.2, if_neg hm.1]
      rw [this l _ hd.1]
      simp
    · exact ih hd.2 _ h

theorem foldl_wires_none (l : List (Nat × Bytes)) (m : Nat → Option Fr) (i : Nat) (h : i ∉ l.map (·.1)) :
    l.foldl (fun m e i => if i = e.1 then some (bytesToFr e.2) else m i) m i = m i := by
  induction l generalizing m with
  | nil => rfl
  | cons e l ih =>
    rw [List.map_cons, List.mem_cons, not_or] at h
    rw [List.foldl_cons, ih _ h.2, if_neg h.1]

/-- The wires of a fixture whose hash map is that of a witness file. -/
theorem fixtureWires_export (values : List Bytes) (order : List (Nat × Bytes)) (ho : order.Perm ((List.range values.length).zip values)) :
    fixtureWires ⟨order⟩ = fun i => values[i]?.map bytesToFr := by
  have hz : ((List.range values.length).zip values).map (·.1) = List.range values.length := by
    rw [List.map_fst_zip (by simp)]
  have hd : (order.map (·.1)).Nodup := by
    have := (ho.map (·.1)).nodup_iff
    rw [this, hz]
    exact List.nodup_range
  funext i
  unfold fixtureWires
  simp only
  by_cases hi : i < values.length
  · rw [List.getElem?_eq_getElem hi, Option.map_some]
    refine foldl_wires order hd _ i _ (ho.mem_iff.2 ?_)
    rw [List.mem_iff_getElem]
    exact ⟨i, by simpa using hi, by simp⟩
  · rw [List.getElem?_eq_none (by omega), Option.map_none]
    refine foldl_wires_none order _ i ?_
    rw [(ho.map (·.1)).mem_iff, hz]
    simpa using hi

namespace Props

variable {G1 G2 GT : Type} [AddCommGroup G1] [Module Fr G1] [AddCommGroup G2] [Module Fr G2] [AddCommGroup GT] [Module Fr GT]

/-- **C90** (bincode of test cases) — every test case survives bincode, for every iteration order of its maps, with any trailing bytes; no strict prefix is
accepted. -/
theorem C90_bincode (t : STestCase) (h : t.Typed) :
    (∀ trailing, testCaseFromBincode (testCaseToBincode t ++ trailing) = some t) ∧
    ∀ n, n < (testCaseToBincode t).length → testCaseFromBincode ((testCaseToBincode t).take n) = none := by
  refine ⟨fun trailing => by simp [testCaseFromBincode, rdTestCase_reads t h trailing], fun n hn => ?_⟩
  have := (rdTestCase_reads t h).strict_prefix rdTestCase_mono ((testCaseToBincode t).take n) ((testCaseToBincode t).drop n)
    (List.take_append_drop _ _) (by rw [Ne, List.drop_eq_nil_iff]; omega)
  simp [testCaseFromBincode, this]

/-- **C90** (same circuit) — the library synthesizes an exported circuit exactly as the command line tool synthesizes the parsed file, with every partial
assignment: the same variables, values, constraints and errors. -/
theorem C90_same_synthesis {F : Type} [Add F] [NatCast F] (r : R1csFile) (w : Nat → Option F) : fixtureCircuit r.toSerializable w = cliCircuit r w := by
  funext cs
  unfold fixtureCircuit cliCircuit
  have h1 : r.toSerializable.nPublicInputs = r.nPublicInputs := rfl
  have h2 : r.toSerializable.nWires = r.nWires := rfl
  rw [h1, h2]
  simp only [R1csFile.toSerializable, List.foldl_map, fixtureLc_eq]
  rfl

/-- **C90** (export and import) — the file that `export_test_data` writes for a parsed circuit and a parsed witness file, in whatever order it iterates over
the hash map of the witness, is read back as the same circuit, and wire `i` has the `i`-th value of the witness file, reduced modulo the prime. -/
theorem C90_export_import (r : R1csFile) (hr : R1csFormat.Fits r) (wf : WitnessFile) (hn : wf.assignments.length < 2 ^ 32)
    (hb : ∀ b ∈ wf.assignments, b.length < 2 ^ 64) (order : List (Nat × Bytes))
    (ho : order.Perm ((List.range wf.assignments.length).zip wf.assignments)) (name : String) (description : Option String)
    (hname : name.toByteArray.data.toList.length < 2 ^ 64) (hdesc : ∀ s, description = some s → s.toByteArray.data.toList.length < 2 ^ 64) :
    fromFixture (testCaseToBincode (exportTestCase r order name description)) =
      some ⟨r.toSerializable, fun i => wf.assignments[i]?.map fun b => ((leNat (b.take 32) : Nat) : Fr)⟩ := by
  have hz : ((List.range wf.assignments.length).zip wf.assignments).map (·.1) = List.range wf.assignments.length := by
    rw [List.map_fst_zip (by simp)]
  have ht : (exportTestCase r order name description).Typed := by
    refine ⟨typed_of_fits r hr, ?_, ?_, ?_, hname, hdesc⟩
    · have := ho.length_eq
      simp only [List.length_zip, List.length_range, Nat.min_self] at this
      simp only [exportTestCase]
      omega
    · simp only [exportTestCase]
      rw [(ho.map (·.1)).nodup_iff, hz]
      exact List.nodup_range
    · intro e he
      have he := ho.mem_iff.1 he
      have h1 := (List.of_mem_zip he).1
      have h2 := (List.of_mem_zip he).2
      rw [List.mem_range] at h1
      exact ⟨by omega, hb _ h2⟩
  have := (C90_bincode _ ht).1 []
  rw [List.append_nil] at this
  unfold fromFixture
  rw [this, Option.map_some]
  simp only [exportTestCase]
  rw [fixtureWires_export wf.assignments order ho]
  rw [show (bytesToFr : Bytes → Fr) = fun b => ((leNat (b.take 32) : Nat) : Fr) from funext bytesToFr_eq_coeff]

/-- **C90** (same result) — if the command line tool accepts the witness file, then decap with the exported and imported fixture is decap with the original
circuit and witness, for every ciphertext. -/
theorem C90_same_decap (P : Pairing Fr G1 G2 GT) (r : R1csFile) (hr : R1csFormat.Fits r) (wf : WitnessFile) (vals : List Fr)
    (hv : wf.toFieldElements = .ok vals) (hn : wf.assignments.length < 2 ^ 32) (hb : ∀ b ∈ wf.assignments, b.length < 2 ^ 64)
    (order : List (Nat × Bytes)) (ho : order.Perm ((List.range wf.assignments.length).zip wf.assignments)) (name : String)
    (description : Option String) (hname : name.toByteArray.data.toList.length < 2 ^ 64)
    (hdesc : ∀ s, description = some s → s.toByteArray.data.toList.length < 2 ^ 64) :
    ∃ t, fromFixture (testCaseToBincode (exportTestCase r order name description)) = some t ∧
      (∀ ct : Ciphertext Fr G1 G2, decap P (fixtureCircuit t.circuit t.witness) ct = decap P (cliCircuit r (fullWires vals)) ct) ∧
      t.witness = fullWires vals := by
  refine ⟨_, C90_export_import r hr wf hn hb order ho name description hname hdesc, ?_⟩
  obtain ⟨hl, hz⟩ := (C26_to_field_elements wf vals).1 hv
  have hw : (fun i => wf.assignments[i]?.map fun b => ((leNat (b.take 32) : Nat) : Fr)) = fullWires vals := by
    funext i
    unfold fullWires
    by_cases hi : i < wf.assignments.length
    · rw [List.getElem?_eq_getElem hi, List.getElem?_eq_getElem (by omega), Option.map_some]
      have : (wf.assignments[i], vals[i]'(by omega)) ∈ wf.assignments.zip vals := by
        rw [List.mem_iff_getElem]
        exact ⟨i, by simp; omega, by simp⟩
      rw [(hz _ this).2]
      simp
    · rw [List.getElem?_eq_none (by omega), List.getElem?_eq_none (by omega)]
      rfl
  refine ⟨fun ct => ?_, hw⟩
  simp only [hw, C90_same_synthesis]

/-- **C90** (round trip of the tests) — encap with the public values of a fixture and decap with all of them: if the values satisfy the circuit, whatever the
circuit (with at least one private wire), the key is recovered. -/
theorem C90_roundtrip (P : Pairing Fr G1 G2 GT) (dom : Domains Fr) (r : R1csFile) (hf : PublicFits r) (hpriv : r.nPubOut + r.nPubIn + 1 < r.nWires)
    (vals : List Fr) (hv : Witness r vals) (ρ : Rand Fr) (ct : Ciphertext Fr G1 G2) (k : Key)
    (henc : encap P dom (fixtureCircuit r.toSerializable (publicPart ⟨r.toSerializable, fullWires vals⟩)) ρ = .ok (ct, k)) :
    decap P (fixtureCircuit r.toSerializable (fullWires vals)) ct = .ok k ∧ ct.publicInputs = (vals.drop 1).take (r.nPubOut + r.nPubIn) := by
  rw [C90_same_synthesis] at henc ⊢
  have hnp : r.nPublicInputs = r.nPubOut + r.nPubIn := Nat.mod_eq_of_lt (by unfold PublicFits at hf; omega)
  have hnp' : r.toSerializable.nPublicInputs = r.nPubOut + r.nPubIn := hnp
  have hna : r.nAlloc = r.nWires := by unfold R1csFile.nAlloc; omega
  have hlen := hv.len
  have hw : ∀ i, 1 ≤ i → i ≤ r.nPubOut + r.nPubIn → publicPart ⟨r.toSerializable, fullWires vals⟩ i = some (vals.getD i 0) := by
    intro i h1 h2
    have h0 : i ≠ 0 := by omega
    have h3 : i < vals.length := by omega
    simp [publicPart, h0, hnp', h2, fullWires, List.getD, h3]
  have hbound := C08_bound_public_inputs P dom .cli r hf _ ρ ct k henc
  have hpl : ct.publicInputs.length = r.nPubOut + r.nPubIn := by
    by_contra hne
    have hlt : ct.publicInputs.length < r.nPubOut + r.nPubIn := by have := hbound.2.1; omega
    have := hbound.2.2 hlt
    rw [hw _ (by omega) (by omega)] at this
    cases this
  have hval : ∀ i (h : i < ct.publicInputs.length), ct.publicInputs[i] = vals.getD (i + 1) 0 := by
    intro i hi
    have := hbound.1 i hi
    rw [hw (i + 1) (by omega) (by omega)] at this
    exact (Option.some.inj this).symm
  refine ⟨?_, ?_⟩
  · refine C01_roundtrip P dom .cli .cli r hf _ ⟨r.nPubOut + r.nPubIn + 1, by omega, by omega, ?_⟩ ρ ct k henc (fun i => vals.getD i 0) ⟨?_, ?_⟩ hv.sat hval
      _ ?_
    · simp [publicPart, hnp']
    · have := hv.one
      simp only [List.getD, this, Option.getD_some]
    · intro i hi
      simp only [List.getD, List.getElem?_eq_none (by omega : vals.length ≤ i), Option.getD_none]
    · intro i h1 h2
      have h3 : i < vals.length := by omega
      simp [fullWires, List.getD, h3]
  · apply List.ext_getElem
    · simp; omega
    · intro i h1 h2
      rw [hval i h1]
      have h3 : i + 1 < vals.length := by omega
      simp [List.getD, h3]

theorem leNat_cons_zeros (n : Nat) : leNat ((UInt8.ofNat (n % 256) :: List.replicate 31 (0 : UInt8)).take 32) = n % 256 := by
  have h : ∀ k, leNat (List.replicate k (0 : UInt8)) = 0 := by
    intro k
    induction k with
    | zero => rfl
    | succ k ih => simp [List.replicate_succ, leNat, ih]
  rw [List.take_of_length_le (by simp), leNat, h]
  simp

/-- **C90** (the signature fixture) — the file that `export_signature_circuit` writes for a circuit with private wires is read back with `i mod 256` on wire
`i` for `1 ≤ i ≤ n_pub_in` and no value on the later wires. decap with it never gets past synthesis, whatever the ciphertext; encap with it binds these
numbers and nothing else. -/
theorem C90_dummy_witness (P : Pairing Fr G1 G2 GT) (dom : Domains Fr) (r : R1csFile) (hr : R1csFormat.Fits r) (hf : PublicFits r)
    (hpriv : r.nPubOut + r.nPubIn + 1 < r.nWires) (order : List (Nat × Bytes)) (ho : order.Perm (dummyAssignments r.nPubIn)) (name : String)
    (description : Option String) (hname : name.toByteArray.data.toList.length < 2 ^ 64)
    (hdesc : ∀ s, description = some s → s.toByteArray.data.toList.length < 2 ^ 64) :
    ∃ t, fromFixture (testCaseToBincode (exportTestCase r order name description)) = some t ∧ t.circuit = r.toSerializable ∧
      (∀ i, 1 ≤ i → i ≤ r.nPubIn → t.witness i = some ((i % 256 : Nat) : Fr)) ∧ (∀ i, r.nPubIn < i → t.witness i = none) ∧
      (∀ ct : Ciphertext Fr G1 G2, decap P (fixtureCircuit t.circuit t.witness) ct = Res.fail "SynthesisError") ∧
      ∀ ρ (ct : Ciphertext Fr G1 G2) k, encap P dom (fixtureCircuit t.circuit t.witness) ρ = .ok (ct, k) →
        ct.publicInputs = (List.range' 1 r.nPubIn).map fun i => ((i % 256 : Nat) : Fr) := by
  have hlt : r.nPubIn < 2 ^ 32 - 1 := by unfold PublicFits at hf; omega
  let bs : List Bytes := (1 :: List.replicate 31 0) :: (List.range' 1 r.nPubIn).map fun i => UInt8.ofNat (i % 256) :: List.replicate 31 0
  have hlen : bs.length = r.nPubIn + 1 := by simp [bs]
  have hz : dummyAssignments r.nPubIn = (List.range bs.length).zip bs := by
    apply List.ext_getElem
    · simp [dummyAssignments, hlen]
    · intro i h1 h2
      rw [List.getElem_zip, List.getElem_range]
      cases i with
      | zero => simp [dummyAssignments, bs]
      | succ i => simp [dummyAssignments, bs, Nat.add_comm 1 i]
  have hb : ∀ b ∈ bs, b.length < 2 ^ 64 := by
    intro b hb
    simp only [bs, List.mem_cons, List.mem_map] at hb
    rcases hb with rfl | ⟨i, -, rfl⟩ <;> simp
  rw [hz] at ho
  refine ⟨_, C90_export_import r hr ⟨[], 0, bs⟩ (by simp only [hlen]; omega) hb order ho name description hname hdesc, rfl, ?_, ?_, ?_, ?_⟩
  case refine_2 =>
    intro i hi
    have : bs[i]? = none := List.getElem?_eq_none (by omega)
    simp [this]
  case refine_3 =>
    intro ct
    have hnone : (fun i => bs[i]?.map fun b => ((leNat (b.take 32) : Nat) : Fr)) (r.nPubOut + r.nPubIn + 1) = none := by
      have : bs[r.nPubOut + r.nPubIn + 1]? = none := List.getElem?_eq_none (by omega)
      simp [this]
    rw [C90_same_synthesis, decap_eq]
    have hnp : r.nPublicInputs = r.nPubOut + r.nPubIn := nPublicInputs_eq hf
    have h1 := (cliCircuit_missing r (fun i => bs[i]?.map fun b => ((leNat (b.take 32) : Nat) : Fr))
      (by rw [hnp]; unfold PublicFits at hf; omega) ⟨_, by omega, by unfold R1csFile.nAlloc; omega, hnone⟩).1
    rcases hc : cliCircuit r (fun i => bs[i]?.map fun b => ((leNat (b.take 32) : Nat) : Fr)) (CS.new Fr) with ⟨cs, res⟩
    rw [hc] at h1
    simp only at h1 hc ⊢
    rw [hc, h1]
  all_goals
    have hval : ∀ i, 1 ≤ i → i ≤ r.nPubIn →
        (bs[i]?.map fun b => ((leNat (b.take 32) : Nat) : Fr)) = some ((i % 256 : Nat) : Fr) := by
      intro i h1 h2
      obtain ⟨j, rfl⟩ : ∃ j, i = j + 1 := ⟨i - 1, by omega⟩
      have hj : j < r.nPubIn := by omega
      have he : bs[j + 1]? = some (UInt8.ofNat ((j + 1) % 256) :: List.replicate 31 0) := by
        simp only [bs, List.getElem?_cons_succ, List.getElem?_map, List.getElem?_range' hj, Option.map_some, Nat.one_mul, Nat.add_comm 1 j]
      rw [he, Option.map_some, leNat_cons_zeros]
  case refine_1 => exact hval
  case refine_4 =>
    intro ρ ct k henc
    rw [C90_same_synthesis] at henc
    obtain ⟨h1, h2, h3⟩ := C08_bound_public_inputs P dom .cli r hf _ ρ ct k henc
    have hl : ct.publicInputs.length = r.nPubIn := by
      rcases Nat.lt_trichotomy ct.publicInputs.length r.nPubIn with h | h | h
      · have := h3 (by omega)
        simp only [hval _ (Nat.le_add_left 1 _) (by omega : ct.publicInputs.length + 1 ≤ r.nPubIn)] at this
        cases this
      · exact h
      · have := h1 r.nPubIn h
        have hn : bs[r.nPubIn + 1]? = none := List.getElem?_eq_none (by omega)
        simp [hn] at this
    apply List.ext_getElem
    · simp [hl]
    · intro i hi hi2
      have := (hval (i + 1) (by omega) (by omega)).symm.trans (h1 i hi)
      simp only [Option.some.injEq] at this
      rw [List.getElem_map, List.getElem_range', ← this, Nat.one_mul, Nat.add_comm 1 i]

/-- **C90** (the wrong solution of the tests) — for the Sudoku circuit and every puzzle, decap with zero on all private wires reports an invalid witness,
whatever the ciphertext. -/
theorem C90_zero_solution (P : Pairing Fr G1 G2 GT) (puzzle : Nat → Fr) (ct : Ciphertext Fr G1 G2) :
    decap P (fixtureCircuit sudokuR1cs.toSerializable (zeroSolution 202 81 puzzle)) ct = Res.fail "InvalidWitness" := by
  rw [C90_same_synthesis]
  let val : Nat → Fr := fun i => (zeroSolution 202 81 puzzle i).getD 0
  have hna : sudokuR1cs.nAlloc = 202 := by decide
  have hf : PublicFits sudokuR1cs := by decide
  have hv : Valuation sudokuR1cs val := by
    refine ⟨by simp [val, zeroSolution], fun i hi => ?_⟩
    rw [hna] at hi
    have h0 : i ≠ 0 := by omega
    have h1 : ¬ i ≤ 81 := by omega
    have h2 : ¬ i < 202 := by omega
    simp [val, zeroSolution, h0, h1, h2]
  have ha : Assigns sudokuR1cs (zeroSolution 202 81 puzzle) val := by
    intro i h1 h2
    rw [hna] at h2
    have h0 : i ≠ 0 := by omega
    simp only [val, zeroSolution, h0, if_false, h2, if_true]
    split <;> simp
  obtain ⟨cs, h1, -, -, -, -, h6⟩ := circuit_full .cli sudokuR1cs _ val hf hv ha
  have hns : ¬ Satisfies sudokuR1cs.constraints val := by
    intro hs
    have hw : Witness sudokuR1cs ((List.range 202).map val) := by
      refine ⟨by simp; rfl, ?_, ?_⟩
      · rw [List.getElem?_map, List.getElem?_range (by omega), Option.map_some, hv.one]
      · have : (fun i => ((List.range 202).map val).getD i 0) = val := by
          funext i
          by_cases hi : i < 202
          · simp [List.getD, hi]
          · rw [hv.beyond i (by rw [hna]; omega)]
            simp [List.getD, hi]
        rw [this]
        exact hs
    obtain ⟨p, g, hpg, hok⟩ := (C75_accepts_iff _).1 hw
    have hcell : ∀ c : Fin 8, g 0 c.castSucc = 0 := by
      intro c
      have h2 : ((List.range 202).map val).getD (82 + c) 0 = 0 := by
        have hc : 82 + (c : Nat) < 202 := by omega
        have h0 : 82 + (c : Nat) ≠ 0 := by omega
        have h3 : ¬ 82 + (c : Nat) ≤ 81 := by omega
        simp [List.getD, hc, val, zeroSolution, h3]
      rw [hpg, SudokuLc.witness_getD p g (by omega)] at h2
      have h3 : ∀ c : Fin 8, sudokuLabels.getD (82 + c) 0 = 82 + c := by decide
      rw [h3 c] at h2
      have h4 : ¬ 82 + (c : Nat) = 0 := by omega
      have h5 : ¬ 82 + (c : Nat) < 82 := by omega
      have h6 : 82 + (c : Nat) < 163 := by omega
      simp only [SudokuSpec.signalValue, h4, h5, h6, if_true, if_false, SudokuSpec.Grid.cell] at h2
      have e1 : (⟨(82 + (c : Nat) - 82) / 9 % 9, by omega⟩ : Fin 9) = 0 := by apply Fin.ext; simp; omega
      have e2 : (⟨(82 + (c : Nat) - 82) % 9, by omega⟩ : Fin 9) = c.castSucc := by apply Fin.ext; simp; omega
      rw [e1, e2] at h2
      exact h2
    obtain ⟨hs1, hs2⟩ := hok.row 0
    rw [Fin.sum_univ_castSucc] at hs1 hs2
    simp only [hcell, Finset.sum_const_zero, zero_add] at hs1
    simp only [hcell, ne_eq, OfNat.ofNat_ne_zero, not_false_eq_true, zero_pow, Finset.sum_const_zero, zero_add, hs1] at hs2
    exact absurd hs2 (by decide +kernel)
  rw [decap_eq]
  have h1 : cliCircuit sudokuR1cs (zeroSolution 202 81 puzzle) (CS.new Fr) = (cs, .ok ()) := h1
  rw [h1]
  have : cs.isSatisfied = false := by
    rw [Bool.eq_false_iff]
    exact fun h => hns (h6.1 h)
  simp [this]

open SudokuSpec in
/-- C90 is not vacuous: the Sudoku fixture of the repository. A circuit that fits the format, a witness file of 202 values of 32 bytes, exported in any order,
and both tests: the key is recovered. -/
example (P : Pairing Fr G1 G2 GT) (dom : Domains Fr) (ρ : Rand Fr) (hδ : ρ.delta ≠ 0) (order : List (Nat × Bytes))
    (ho : order.Perm ((List.range 202).zip ((sudokuWitness repoPuzzle.toFr repoSolution.toFr).map frEnc))) :
    ∃ t ct k, fromFixture (testCaseToBincode (exportTestCase sudokuR1cs order "sudoku_circuit" none)) = some t ∧
      encap P dom (fixtureCircuit t.circuit (publicPart t)) ρ = .ok (ct, k) ∧ decap P (fixtureCircuit t.circuit t.witness) ct = .ok k := by
  have hw : Witness sudokuR1cs (sudokuWitness repoPuzzle.toFr repoSolution.toFr) := C75_solutions_accepted _ _ repoSolution_solved.1 repoSolution_solved.2
  generalize sudokuWitness repoPuzzle.toFr repoSolution.toFr = vals at ho hw
  have hl : vals.length = 202 := hw.len
  have hv : (⟨[], 202, vals.map frEnc⟩ : WitnessFile).toFieldElements = .ok vals := by
    rw [C26_to_field_elements]
    refine ⟨by simp, fun p hp => ?_⟩
    rw [List.mem_iff_getElem] at hp
    obtain ⟨i, hi, rfl⟩ := hp
    simp only [List.getElem_zip, List.getElem_map]
    have hle : ∀ x : Fr, (frEnc x).length = 32 := fun x => leBytes_length _ _
    refine ⟨(hle _).ge, ?_⟩
    rw [List.take_of_length_le (hle _).le]
    exact leNat_leBytes_of_lt (lt_trans (ZMod.val_lt _) frModulus_lt)
  obtain ⟨t, h1, h2, h3⟩ := C90_same_decap P sudokuR1cs sudoku_fits ⟨[], 202, vals.map frEnc⟩ vals hv (by simp only [List.length_map]; omega)
    (by intro b hb; simp only [List.mem_map] at hb; obtain ⟨x, -, rfl⟩ := hb; rw [show (frEnc x).length = 32 from leBytes_length _ _]; decide) order
    (by simpa only [List.length_map, hl] using ho) "sudoku_circuit" none (by decide +kernel) (by intro s hs; cases hs)
  have hc : t.circuit = sudokuR1cs.toSerializable := by
    have := C90_export_import sudokuR1cs sudoku_fits ⟨[], 202, vals.map frEnc⟩ (by simp only [List.length_map]; omega)
      (by intro b hb; simp only [List.mem_map] at hb; obtain ⟨x, -, rfl⟩ := hb; rw [show (frEnc x).length = 32 from leBytes_length _ _]; decide) order
      (by simpa only [List.length_map, hl] using ho) "sudoku_circuit" none (by decide +kernel) (by intro s hs; cases hs)
    rw [h1] at this
    rw [Option.some.inj this]
  obtain ⟨c, w⟩ := t
  simp only at h3 hc
  subst h3 hc
  obtain ⟨ct, k, he⟩ := C07_encap_ok P dom (fixtureCircuit sudokuR1cs.toSerializable (publicPart ⟨sudokuR1cs.toSerializable, fullWires vals⟩)) ρ hδ
  exact ⟨_, ct, k, h1, he, (C90_roundtrip P dom sudokuR1cs (by decide) (by decide) vals hw ρ ct k he).1⟩

/-- The dummy witness for the Sudoku circuit: encap succeeds and binds the 81 numbers `1, 2, ...`, decap fails. -/
example (P : Pairing Fr G1 G2 GT) (dom : Domains Fr) (ρ : Rand Fr) (hδ : ρ.delta ≠ 0) :
    ∃ t ct k, fromFixture (testCaseToBincode (exportTestCase sudokuR1cs (dummyAssignments 81) "dummy" none)) = some t ∧
      encap P dom (fixtureCircuit t.circuit t.witness) ρ = .ok (ct, k) ∧ ct.publicInputs.length = 81 ∧
      decap P (fixtureCircuit t.circuit t.witness) ct = Res.fail "SynthesisError" := by
  obtain ⟨t, h1, -, -, -, h5, h6⟩ := C90_dummy_witness P dom sudokuR1cs sudoku_fits (by decide) (by decide) (dummyAssignments 81) (List.Perm.refl _)
    "dummy" none (by decide +kernel) (by intro s hs; cases hs)
  obtain ⟨ct, k, he⟩ := C07_encap_ok P dom (fixtureCircuit t.circuit t.witness) ρ hδ
  refine ⟨t, ct, k, h1, he, ?_, h5 ct⟩
  rw [h6 ρ ct k he, List.length_map, List.length_range']
  rfl

end Props

end Zkenc
