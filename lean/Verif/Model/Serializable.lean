import Verif.Basic.Reader
import Verif.Model.R1csTypes
/-!
# Serializable circuits — `packages/zkenc-core/src/serializable.rs` (identical copy in zkenc-cli) and
`packages/zkenc-cli/src/r1cs.rs` 41-93
-/

namespace Zkenc

/-- `SerializableFactor` (serializable.rs 8-14). -/
structure SFactor where
  wireId : Nat
  coefficientBytes : Bytes
  deriving DecidableEq

/-- `SerializableConstraint` over `SerializableLC` (serializable.rs 16-28). -/
structure SConstraint where
  a : List SFactor
  b : List SFactor
  c : List SFactor
  deriving DecidableEq

/-- `SerializableCircuit` (serializable.rs 30-59).  The label map is given in its iteration order, with distinct keys. -/
structure SCircuit where
  fieldSize : Nat
  primeBytes : Bytes
  nWires : Nat
  nPubOut : Nat
  nPubIn : Nat
  nPrvIn : Nat
  nConstraints : Nat
  constraints : List SConstraint
  wireLabels : Option (List (Nat × String))
  deriving DecidableEq

/-- `.iter().map(|(wire_id, coef_bytes)| SerializableFactor {..}).collect()` (r1cs.rs 47-75). -/
def toSFactors (fs : Factors) : List SFactor := fs.map fun t => ⟨t.1, t.2⟩

/-- `R1csFile::to_serializable` (r1cs.rs 41-93). -/
def R1csFile.toSerializable (r : R1csFile) : SCircuit :=
  { fieldSize := r.fieldSize, primeBytes := r.prime, nWires := r.nWires, nPubOut := r.nPubOut, nPubIn := r.nPubIn,
    nPrvIn := r.nPrvIn, nConstraints := r.nConstraints,
    constraints := r.constraints.map fun k => ⟨toSFactors k.a, toSFactors k.b, toSFactors k.c⟩,
    wireLabels := none }

/-! ## bincode 1.3 (fixed-width little-endian integers, `u64` lengths), serializable.rs 103-111 -/

/-- `Vec<T>` / map: `u64` length then the elements. -/
def bincSeq {α : Type} (enc : α → Bytes) (l : List α) : Bytes := u64le l.length ++ (l.map enc).flatten

/-- `Vec<u8>`. -/
def bincBytes (b : Bytes) : Bytes := u64le b.length ++ b

/-- `String`: `u64` length and UTF-8 bytes. -/
def bincString (s : String) : Bytes := bincBytes s.toByteArray.data.toList

/-- One factor. -/
def bincFactor (f : SFactor) : Bytes := u32le f.wireId ++ bincBytes f.coefficientBytes

/-- One linear combination. -/
def bincLc (fs : List SFactor) : Bytes := bincSeq bincFactor fs

/-- One constraint. -/
def bincConstraint (k : SConstraint) : Bytes := bincLc k.a ++ (bincLc k.b ++ bincLc k.c)

/-- One map entry `(u32, String)`. -/
def bincEntry (e : Nat × String) : Bytes := u32le e.1 ++ bincString e.2

/-- `Option<HashMap<u32, String>>`: tag byte then the map. -/
def bincLabels : Option (List (Nat × String)) → Bytes
  | none => [0]
  | some l => 1 :: bincSeq bincEntry l

/-- `SerializableCircuit::to_bincode` (serializable.rs 104-106). -/
def toBincode (c : SCircuit) : Bytes :=
  u32le c.fieldSize ++ (bincBytes c.primeBytes ++ (u32le c.nWires ++ (u32le c.nPubOut ++ (u32le c.nPubIn ++
    (u32le c.nPrvIn ++ (u32le c.nConstraints ++ (bincSeq bincConstraint c.constraints ++ bincLabels c.wireLabels)))))))

/-- `u32`. -/
def rdU32 : Reader Nat := Reader.bind (Reader.take 4) fun b => Reader.pure (leNat b)
/-- `u64`. -/
def rdU64 : Reader Nat := Reader.bind (Reader.take 8) fun b => Reader.pure (leNat b)
/-- A sequence. -/
def rdSeq {α : Type} (r : Reader α) : Reader (List α) := Reader.bind rdU64 fun n => Reader.many r n
/-- `Vec<u8>`. -/
def rdBytes : Reader Bytes := Reader.bind rdU64 fun n => Reader.take n

/-- UTF-8 validation (`String::from_utf8`). -/
def utf8Dec (b : Bytes) : Option String := String.fromUTF8? ⟨b.toArray⟩

/-- `String`. -/
def rdString : Reader String := Reader.bind rdBytes fun b => Reader.lift (utf8Dec b)
/-- One factor. -/
def rdFactor : Reader SFactor :=
  Reader.bind rdU32 fun w => Reader.bind rdBytes fun c => Reader.pure ⟨w, c⟩
/-- One constraint. -/
def rdConstraint : Reader SConstraint :=
  Reader.bind (rdSeq rdFactor) fun a => Reader.bind (rdSeq rdFactor) fun b =>
  Reader.bind (rdSeq rdFactor) fun c => Reader.pure ⟨a, b, c⟩
/-- One map entry. -/
def rdEntry : Reader (Nat × String) :=
  Reader.bind rdU32 fun k => Reader.bind rdString fun s => Reader.pure (k, s)

/-- `HashMap::insert` on a listing: replace the value of an existing key, else append. -/
def insertKV {α : Type} (m : List (Nat × α)) (e : Nat × α) : List (Nat × α) :=
  if m.any (fun x => x.1 == e.1) then m.map (fun x => if x.1 = e.1 then e else x) else m ++ [e]

/-- `Option<HashMap<u32, String>>`: tag 0 or 1, anything else is an error. -/
def rdLabels : Reader (Option (List (Nat × String))) :=
  Reader.bind (Reader.take 1) fun t =>
    if t = [0] then Reader.pure none
    else if t = [1] then Reader.bind (rdSeq rdEntry) fun l => Reader.pure (some (l.foldl insertKV []))
    else Reader.fail

/-- Sequential reader of a circuit. -/
def rdCircuit : Reader SCircuit :=
  Reader.bind rdU32 fun fieldSize =>
  Reader.bind rdBytes fun primeBytes =>
  Reader.bind rdU32 fun nWires =>
  Reader.bind rdU32 fun nPubOut =>
  Reader.bind rdU32 fun nPubIn =>
  Reader.bind rdU32 fun nPrvIn =>
  Reader.bind rdU32 fun nConstraints =>
  Reader.bind (rdSeq rdConstraint) fun constraints =>
  Reader.bind rdLabels fun wireLabels =>
  Reader.pure ⟨fieldSize, primeBytes, nWires, nPubOut, nPubIn, nPrvIn, nConstraints, constraints, wireLabels⟩

/-- `SerializableCircuit::from_bincode` (serializable.rs 109-111): `bincode::deserialize` allows trailing bytes. -/
def fromBincode (b : Bytes) : Option SCircuit := (rdCircuit b).map (·.1)

end Zkenc
