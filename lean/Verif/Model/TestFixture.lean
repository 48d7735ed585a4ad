import Verif.Model.Circom
import Verif.Model.SerializableJson
import Verif.Model.WtnsParse
import Verif.Model.Inputs
/-!
# Circuit fixtures: exported by the CLI package, read by the core package

`packages/zkenc-cli/tests/export_test_data.rs` writes a circuit file and a witness file as one bincode file, `packages/zkenc-core/tests/circom_circuit.rs` reads
it and synthesizes the circuit from it.
-/

namespace Zkenc

/-! ## bincode of a test case (derived `Serialize`/`Deserialize`, serializable.rs 61-77) -/

/-- One map entry `(u32, Vec<u8>)` (serializable.rs 64). -/
def bincAssignment (e : Nat × Bytes) : Bytes := u32le e.1 ++ bincBytes e.2

/-- `Option<String>` (serializable.rs 76). -/
def bincOptString : Option String → Bytes
  | none => [0]
  | some s => 1 :: bincString s

/-- `bincode::serialize(&test_case)` (export_test_data.rs 86, 165): the fields in order (serializable.rs 70-77). -/
def testCaseToBincode (t : STestCase) : Bytes :=
  toBincode t.circuit ++ (bincSeq bincAssignment t.witness.assignments ++ (bincString t.name ++ bincOptString t.description))

/-- One map entry. -/
def rdAssignment : Reader (Nat × Bytes) := Reader.bind rdU32 fun k => Reader.bind rdBytes fun b => Reader.pure (k, b)

/-- `Option<String>`: tag 0 or 1, anything else is an error. -/
def rdOptString : Reader (Option String) :=
  Reader.bind (Reader.take 1) fun t =>
    if t = [0] then Reader.pure none
    else if t = [1] then Reader.bind rdString fun s => Reader.pure (some s)
    else Reader.fail

/-- Sequential reader of a test case. -/
def rdTestCase : Reader STestCase :=
  Reader.bind rdCircuit fun c =>
  Reader.bind (rdSeq rdAssignment) fun w =>
  Reader.bind rdString fun n =>
  Reader.bind rdOptString fun d => Reader.pure ⟨c, ⟨w.foldl insertKV []⟩, n, d⟩

/-- `bincode::deserialize::<SerializableTestCase>` (circom_circuit.rs 31): trailing bytes are allowed. -/
def testCaseFromBincode (b : Bytes) : Option STestCase := (rdTestCase b).map (·.1)

/-! ## Export (export_test_data.rs 14-173) -/

/-- The `SerializableTestCase` of `export_sudoku_circuit` (export_test_data.rs 117-141) for a parsed circuit and a parsed witness file; `order` lists the
hash map of the witness file in its iteration order. -/
def exportTestCase (r : R1csFile) (order : List (Nat × Bytes)) (name : String) (description : Option String) : STestCase :=
  { circuit := r.toSerializable, witness := ⟨order⟩, name := name, description := description }

/-- The assignments of `export_signature_circuit` (export_test_data.rs 31-48): one on wire 0, and wire `i`, `1 <= i <= n_pub_in`, has the byte `i % 256`
followed by zeros. No other wire has a value. -/
def dummyAssignments (nPubIn : Nat) : List (Nat × Bytes) :=
  (0, 1 :: List.replicate 31 0) :: (List.range' 1 nPubIn).map fun i => (i, UInt8.ofNat (i % 256) :: List.replicate 31 0)

/-! ## Import (circom_circuit.rs) -/

/-- `TestCircuit` (circom_circuit.rs 18-21). -/
structure TestCircuit where
  circuit : SCircuit
  witness : Nat → Option Fr

/-- The loop `for (wire_id, bytes) in assignments { witness.insert(wire_id, bytes_to_fr(&bytes)?) }` (circom_circuit.rs 34-38). `bytes_to_fr`
(circom_circuit.rs 57-62) never fails and is the function of circuit.rs. -/
def fixtureWires (w : SWitness) : Nat → Option Fr :=
  w.assignments.foldl (fun m e i => if i = e.1 then some (bytesToFr e.2) else m i) fun _ => none

/-- `TestCircuit::from_fixture` on the contents of the file (circom_circuit.rs 25-44). -/
def fromFixture (b : Bytes) : Option TestCircuit :=
  (testCaseFromBincode b).map fun t => ⟨t.circuit, fixtureWires t.witness⟩

/-- `n_public_inputs` (circom_circuit.rs 65-67): a `u32` addition, wrapping in release builds. -/
def SCircuit.nPublicInputs (c : SCircuit) : Nat := (c.nPubOut + c.nPubIn) % 2 ^ 32

section
variable {F : Type} [Add F] [NatCast F]

/-- The three closures (circom_circuit.rs 103-137): terms on unknown wires are skipped. -/
def fixtureLc (vars : VarMap) (factors : List SFactor) : LC F :=
  factors.foldl (fun lc f => match vars f.wireId with
    | some var => lcAdd lc (bytesToFr f.coefficientBytes, var)
    | none => lc) []

/-- `TestCircuit::generate_constraints` (circom_circuit.rs 70-149). -/
def fixtureCircuit (c : SCircuit) (w : Nat → Option F) : Circuit F := fun cs =>
  match allocInputs w (wiresIncl c.nPublicInputs) cs VarMap.init with
  | (cs, .error e) => (cs, .error e)
  | (cs, .ok vm) =>
  match allocWitnesses w (wiresExcl ((c.nPublicInputs + 1) % 2 ^ 32) c.nWires) cs vm with
  | (cs, .error e) => (cs, .error e)
  | (cs, .ok vm) =>
    (c.constraints.foldl (fun cs k => cs.enforce ⟨fixtureLc vm k.a, fixtureLc vm k.b, fixtureLc vm k.c⟩) cs, .ok ())

end

/-- The assignment of `test_sudoku_encap_decap` (test_sudoku_encap_decap.rs 54-66): wire 0 is one and the public wires are those of the fixture. -/
def publicPart (t : TestCircuit) : Nat → Option Fr := fun i =>
  if i = 0 then some 1 else if i ≤ t.circuit.nPublicInputs then t.witness i else none

/-- The assignment of `test_sudoku_decap_with_wrong_solution` (test_sudoku_encap_decap.rs 155-169): a puzzle on the public wires, zero on all others. -/
def zeroSolution (nWires nPubIn : Nat) (puzzle : Nat → Fr) : Nat → Option Fr := fun i =>
  if i = 0 then some 1 else if i ≤ nPubIn then some (puzzle i) else if i < nWires then some 0 else none

end Zkenc
