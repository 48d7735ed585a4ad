import Verif.Model.JsonText
import Verif.Model.Serializable
/-!
# JSON form of serializable circuits, witnesses and test cases

`packages/zkenc-core/src/serializable.rs` 8-166 (identical copy in zkenc-cli): `to_json` is `serde_json::to_string_pretty`, `from_json` is
`serde_json::from_str` into the derived types.
-/

namespace Zkenc

/-! ## Pretty printer (`serde_json::to_string_pretty`, serializable.rs 81-83, 129-131, 155) -/

/-- New line and indentation: two blanks per level. -/
def newline (n : Nat) : Str := '\n' :: List.replicate (2 * n) ' '

mutual
/-- A value at indentation level `n`; empty arrays and objects stay on one line. -/
def JTree.pretty : Nat → JTree → Str
  | _, .null => ['n', 'u', 'l', 'l']
  | _, .bool b => boolText b
  | _, .num lit => lit
  | _, .str s => quote s
  | n, .arr l => if l.isEmpty then ['[', ']'] else '[' :: (prettyItems (n + 1) l ++ (newline n ++ [']']))
  | n, .obj l => if l.isEmpty then ['{', '}'] else '{' :: (prettyFields (n + 1) l ++ (newline n ++ ['}']))
/-- Items, each on its own line. -/
def prettyItems : Nat → List JTree → Str
  | _, [] => []
  | n, [t] => newline n ++ t.pretty n
  | n, t :: u :: ts => newline n ++ (t.pretty n ++ ',' :: prettyItems n (u :: ts))
/-- Fields, each on its own line. -/
def prettyFields : Nat → List (Str × JTree) → Str
  | _, [] => []
  | n, [(k, t)] => newline n ++ (quote k ++ ':' :: ' ' :: t.pretty n)
  | n, (k, t) :: u :: ts => newline n ++ (quote k ++ ':' :: ' ' :: (t.pretty n ++ ',' :: prettyFields n (u :: ts)))
end

/-! ## Types -/

/-- `SerializableWitness` (serializable.rs 61-66), the map in its iteration order. -/
structure SWitness where
  assignments : List (Nat × Bytes)
  deriving DecidableEq

/-- `SerializableTestCase` (serializable.rs 68-77). -/
structure STestCase where
  circuit : SCircuit
  witness : SWitness
  name : String
  description : Option String
  deriving DecidableEq

/-! ## Derived `Serialize` -/

/-- An unsigned integer. -/
def natTree (n : Nat) : JTree := .num (natDec n)
/-- `Vec<u8>`: an array of numbers. -/
def bytesTree (b : Bytes) : JTree := .arr (b.map fun x => natTree x.toNat)
/-- `String`. -/
def strTree (s : String) : JTree := .str s.toList
/-- A map with integer keys: the keys become strings. -/
def mapTree {α : Type} (f : α → JTree) (m : List (Nat × α)) : JTree := .obj (m.map fun e => (natDec e.1, f e.2))
/-- A struct: its fields by name, in declaration order. -/
def structTree (names : List Str) (ts : List JTree) : JTree := .obj (names.zip ts)

/-- Field names of `SerializableFactor` (serializable.rs 8-14). -/
def factorNames : List Str := ["wire_id".toList, "coefficient_bytes".toList]
/-- Field names of `SerializableLC` (serializable.rs 16-20). -/
def lcNames : List Str := ["factors".toList]
/-- Field names of `SerializableConstraint` (serializable.rs 22-28). -/
def constraintNames : List Str := ["a".toList, "b".toList, "c".toList]
/-- Field names of `SerializableCircuit` (serializable.rs 30-59). -/
def circuitNames : List Str :=
  ["field_size".toList, "prime_bytes".toList, "n_wires".toList, "n_pub_out".toList, "n_pub_in".toList, "n_prv_in".toList,
    "n_constraints".toList, "constraints".toList, "wire_labels".toList]
/-- Field names of `SerializableWitness` (serializable.rs 61-66). -/
def witnessNames : List Str := ["assignments".toList]
/-- Field names of `SerializableTestCase` (serializable.rs 68-77). -/
def testCaseNames : List Str := ["circuit".toList, "witness".toList, "name".toList, "description".toList]

/-- `Serialize for SerializableFactor` (serializable.rs 8). -/
def factorTree (f : SFactor) : JTree := structTree factorNames [natTree f.wireId, bytesTree f.coefficientBytes]
/-- `Serialize for SerializableLC` (serializable.rs 17). -/
def lcTree (fs : List SFactor) : JTree := structTree lcNames [.arr (fs.map factorTree)]
/-- `Serialize for SerializableConstraint` (serializable.rs 23). -/
def constraintTree (k : SConstraint) : JTree := structTree constraintNames [lcTree k.a, lcTree k.b, lcTree k.c]
/-- `Serialize for SerializableCircuit` (serializable.rs 31). -/
def circuitTree (c : SCircuit) : JTree :=
  structTree circuitNames [natTree c.fieldSize, bytesTree c.primeBytes, natTree c.nWires, natTree c.nPubOut, natTree c.nPubIn,
    natTree c.nPrvIn, natTree c.nConstraints, .arr (c.constraints.map constraintTree),
    match c.wireLabels with
    | none => .null
    | some m => mapTree strTree m]
/-- `Serialize for SerializableWitness` (serializable.rs 62). -/
def witnessTree (w : SWitness) : JTree := structTree witnessNames [mapTree bytesTree w.assignments]
/-- `Serialize for SerializableTestCase` (serializable.rs 69). -/
def testCaseTree (t : STestCase) : JTree :=
  structTree testCaseNames [circuitTree t.circuit, witnessTree t.witness, strTree t.name,
    match t.description with
    | none => .null
    | some s => strTree s]

/-- `SerializableCircuit::to_json` (serializable.rs 81-83). -/
def circuitToJson (c : SCircuit) : Str := (circuitTree c).pretty 0
/-- `SerializableWitness::to_json` (serializable.rs 129-131). -/
def witnessToJson (w : SWitness) : Str := (witnessTree w).pretty 0
/-- The text written by `SerializableTestCase::save_json` (serializable.rs 155). -/
def testCaseToJson (t : STestCase) : Str := (testCaseTree t).pretty 0

/-! ## Derived `Deserialize`

Simplifications: the text is parsed into a tree first (the derived code reads it in one pass); a nesting error inside a field that is
ignored, and escapes inside integer map keys, are not treated specially. -/

/-- An unsigned integer below the bound: only an integer literal without sign. -/
def treeNat (bound : Nat) : JTree → Option Nat
  | .num lit => if lit.all isDig ∧ decVal lit < bound then some (decVal lit) else none
  | _ => none
/-- `u8`. -/
def treeByte (t : JTree) : Option UInt8 := (treeNat 256 t).map UInt8.ofNat
/-- All items, in order; an error in one is an error. -/
def allSome {α β : Type} (f : α → Option β) : List α → Option (List β)
  | [] => some []
  | a :: as => f a >>= fun b => allSome f as >>= fun bs => some (b :: bs)
/-- A sequence. -/
def treeSeq {α : Type} (f : JTree → Option α) : JTree → Option (List α)
  | .arr l => allSome f l
  | _ => none
/-- `Vec<u8>`. -/
def treeBytes (t : JTree) : Option Bytes := treeSeq treeByte t
/-- `String`. -/
def treeStr : JTree → Option String
  | .str s => some (String.ofList s)
  | _ => none
/-- `Option<T>`: `null` is `None`. -/
def treeOpt {α : Type} (f : JTree → Option α) : JTree → Option (Option α)
  | .null => some none
  | t => (f t).map some
/-- A map key: an integer in JSON notation below 2^32. -/
def keyNat (k : Str) : Option Nat :=
  match pNum k with
  | some (lit, []) => treeNat (2 ^ 32) (.num lit)
  | _ => none
/-- `HashMap<u32, T>`: the last value of a repeated key wins. -/
def treeMap {α : Type} (f : JTree → Option α) : JTree → Option (List (Nat × α))
  | .obj es => (allSome (fun e => keyNat e.1 >>= fun k => f e.2 >>= fun v => some (k, v)) es).map fun l => l.foldl insertKV []
  | _ => none

/-- The fields of a struct in declaration order. From an object: unknown names are skipped, a repeated name is an error, a missing one is
an error unless the field is an `Option` (`opt`), which then is `null`. From an array: exactly one item per field. -/
def structFields (names : List Str) (opt : List Str) : JTree → Option (List JTree)
  | .obj es =>
    allSome (fun n =>
      match es.filter (fun e => e.1 = n) with
      | [] => if n ∈ opt then some .null else none
      | [e] => some e.2
      | _ => none) names
  | .arr l => if l.length = names.length then some l else none
  | _ => none

/-- `Deserialize for SerializableFactor` (serializable.rs 8). -/
def treeFactor (t : JTree) : Option SFactor :=
  match structFields factorNames [] t with
  | some [w, c] => treeNat (2 ^ 32) w >>= fun w => treeBytes c >>= fun c => some ⟨w, c⟩
  | _ => none
/-- `Deserialize for SerializableLC` (serializable.rs 17). -/
def treeLc (t : JTree) : Option (List SFactor) :=
  match structFields lcNames [] t with
  | some [fs] => treeSeq treeFactor fs
  | _ => none
/-- `Deserialize for SerializableConstraint` (serializable.rs 23). -/
def treeConstraint (t : JTree) : Option SConstraint :=
  match structFields constraintNames [] t with
  | some [a, b, c] => treeLc a >>= fun a => treeLc b >>= fun b => treeLc c >>= fun c => some ⟨a, b, c⟩
  | _ => none
/-- `Deserialize for SerializableCircuit` (serializable.rs 31). -/
def treeCircuit (t : JTree) : Option SCircuit :=
  match structFields circuitNames ["wire_labels".toList] t with
  | some [t1, t2, t3, t4, t5, t6, t7, t8, t9] =>
    treeNat (2 ^ 32) t1 >>= fun fieldSize => treeBytes t2 >>= fun primeBytes => treeNat (2 ^ 32) t3 >>= fun nWires =>
    treeNat (2 ^ 32) t4 >>= fun nPubOut => treeNat (2 ^ 32) t5 >>= fun nPubIn => treeNat (2 ^ 32) t6 >>= fun nPrvIn =>
    treeNat (2 ^ 32) t7 >>= fun nConstraints => treeSeq treeConstraint t8 >>= fun constraints =>
    treeOpt (treeMap treeStr) t9 >>= fun wireLabels =>
    some ⟨fieldSize, primeBytes, nWires, nPubOut, nPubIn, nPrvIn, nConstraints, constraints, wireLabels⟩
  | _ => none
/-- `Deserialize for SerializableWitness` (serializable.rs 62). -/
def treeWitness (t : JTree) : Option SWitness :=
  match structFields witnessNames [] t with
  | some [m] => (treeMap treeBytes m).map SWitness.mk
  | _ => none
/-- `Deserialize for SerializableTestCase` (serializable.rs 69). -/
def treeTestCase (t : JTree) : Option STestCase :=
  match structFields testCaseNames ["description".toList] t with
  | some [c, w, n, d] =>
    treeCircuit c >>= fun c => treeWitness w >>= fun w => treeStr n >>= fun n => treeOpt treeStr d >>= fun d => some ⟨c, w, n, d⟩
  | _ => none

/-- `SerializableCircuit::from_json` (serializable.rs 86-88). -/
def circuitFromJson (s : Str) : Option SCircuit := (pText s).bind treeCircuit
/-- `SerializableWitness::from_json` (serializable.rs 134-136). -/
def witnessFromJson (s : Str) : Option SWitness := (pText s).bind treeWitness
/-- What `SerializableTestCase::load_json` makes of the text (serializable.rs 163). -/
def testCaseFromJson (s : Str) : Option STestCase := (pText s).bind treeTestCase

end Zkenc
