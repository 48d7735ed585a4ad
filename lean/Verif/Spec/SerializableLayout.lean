import Verif.Model.SerializableJson
/-!
# The JSON documents of `serializable.rs`, as an independent description

Written from the type declarations of `packages/zkenc-core/src/serializable.rs` 8-77: one JSON field per Rust field, with the Rust name; `u32` as a number, bytes as
an array of numbers, a map with `u32` keys as an object whose names are the keys in decimal, `None` as `null`.
-/

namespace Zkenc.LayoutSpec

open Zkenc

/-- A number. -/
def number (n : Nat) : JTree := .num (natDec n)
/-- Bytes. -/
def byteArray (b : Bytes) : JTree := .arr (b.map fun x => number x.toNat)
/-- A linear combination: `{"factors": [{"wire_id": …, "coefficient_bytes": […]}, …]}`. -/
def combination (l : List SFactor) : JTree :=
  .obj [("factors".toList, .arr (l.map fun f => .obj [("wire_id".toList, number f.wireId), ("coefficient_bytes".toList, byteArray f.coefficientBytes)]))]

/-- The document of a circuit. -/
def circuit (c : SCircuit) : JTree :=
  .obj [("field_size".toList, number c.fieldSize), ("prime_bytes".toList, byteArray c.primeBytes), ("n_wires".toList, number c.nWires),
    ("n_pub_out".toList, number c.nPubOut), ("n_pub_in".toList, number c.nPubIn), ("n_prv_in".toList, number c.nPrvIn),
    ("n_constraints".toList, number c.nConstraints),
    ("constraints".toList, .arr (c.constraints.map fun k =>
      .obj [("a".toList, combination k.a), ("b".toList, combination k.b), ("c".toList, combination k.c)])),
    ("wire_labels".toList, match c.wireLabels with
      | none => .null
      | some m => .obj (m.map fun e => (natDec e.1, .str e.2.toList)))]

/-- The document of a witness. -/
def witness (w : SWitness) : JTree := .obj [("assignments".toList, .obj (w.assignments.map fun e => (natDec e.1, byteArray e.2)))]

/-- The document of a test case. -/
def testCase (t : STestCase) : JTree :=
  .obj [("circuit".toList, circuit t.circuit), ("witness".toList, witness t.witness), ("name".toList, .str t.name.toList),
    ("description".toList, match t.description with
      | none => .null
      | some s => .str s.toList)]

end Zkenc.LayoutSpec
