import Verif.Basic.Pos
import Verif.Model.R1csParse
import Verif.Model.Serialize
/-!
# The two `.wtns` parsers

`packages/zkenc-cli/src/witness.rs` 32-135, 148-160 and `packages/zkenc-js/src/lib.rs` 234-297 (wasm32).

Simplifications: as for `.r1cs` (memory is unlimited except for Rust's own capacity check, which panics from `2^63` bytes on).
-/

namespace Zkenc

/-! ## CLI -/

/-- The local variables `prime`, `n_witness`, `witness_data` (witness.rs 52-54). -/
structure WtnsState where
  prime : Bytes
  nWitness : Nat
  data : Bytes

/-- `vec![0u8; n]` (witness.rs 78, 83): `capacity overflow` panic above `isize::MAX`. -/
def cliAlloc (n : Nat) : PP Unit := fun pos => if n < 2 ^ 63 then .ok ((), pos) else Res.panic

/-- Loop body (witness.rs 57-87). The header branch ignores `section_size`. -/
def cliWtnsSection (data : Bytes) (st : WtnsState) : PP WtnsState :=
  PP.bind (cliU32 data) fun ty =>
  PP.bind (cliU64 data) fun size =>
  if ty = 1 then
    PP.bind (cliU32 data) fun fs =>
    PP.bind (cliRead data fs) fun prime =>
    PP.bind (cliU32 data) fun n => PP.pure { st with prime := prime, nWitness := n }
  else if ty = 2 then
    PP.bind (cliAlloc size) fun _ => PP.bind (cliRead data size) fun d => PP.pure { st with data := d }
  else
    PP.bind (cliAlloc size) fun _ => PP.bind (cliRead data size) fun _ => PP.pure st

/-- The section loop (witness.rs 57-87). -/
def cliWtnsSections (data : Bytes) : Nat → WtnsState → PP WtnsState
  | 0, st => PP.pure st
  | n + 1, st => PP.bind (cliWtnsSection data st) fun st' => cliWtnsSections data n st'

/-- `WitnessFile` (witness.rs 20-28). `assignments` is a hash map with the keys `0..n_witness`; it is modelled as the list of its
values in key order. -/
structure WitnessFile where
  prime : Bytes
  nWitness : Nat
  assignments : List Bytes
  deriving DecidableEq, Repr

/-- `WitnessFile::from_file` on the file contents (witness.rs 32-120). -/
def cliParseWtns (data : Bytes) : Res WitnessFile := do
  let (magic, pos) ← cliRead data 4 0
  if magic ≠ [119, 116, 110, 115] then Res.fail "Invalid wtns magic bytes" else
  let (version, pos) ← cliU32 data pos
  if version ≠ 2 then Res.fail "Unsupported wtns version" else
  let (nSections, pos) ← cliU32 data pos
  let (st, _) ← cliWtnsSections data nSections ⟨[], 0, []⟩ pos
  if st.prime = [] then Res.fail "Missing header section in wtns file" else
  if st.data = [] then Res.fail "Missing witness data section in wtns file" else
  if st.data.length ≠ st.nWitness * st.prime.length then Res.fail "Witness data size mismatch" else
  pure ⟨st.prime, st.nWitness, (List.range st.nWitness).map fun i => slice st.data (i * st.prime.length) st.prime.length⟩

/-- `Fr::deserialize_uncompressed(&bytes[..])` (witness.rs 128): reads 32 bytes, ignores the rest. -/
def frRead (b : Bytes) : Option Fr := frDec (b.take 32)

/-- `mapM`-style conversion of all values; any failure fails the whole call. -/
def allFr : List Bytes → Option (List Fr)
  | [] => some []
  | b :: bs => match frRead b with
    | none => none
    | some x => match allFr bs with
      | none => none
      | some xs => some (x :: xs)

/-- `to_field_elements` (witness.rs 123-135). The source iterates over a hash map; the result map does not depend on the order,
and the failing wire named in the message is dropped. -/
def WitnessFile.toFieldElements (w : WitnessFile) : Res (List Fr) :=
  Res.ofOption (allFr w.assignments) "Failed to deserialize wire as field element"

/-! ## JS (wasm32) -/

/-- `u32::from_le_bytes([data[pos], .., data[pos + 3]])` (lib.rs 244, 251, 259-260, 279-280): panics out of bounds. -/
def jsAt32 (data : Bytes) (pos : Nat) : Res Nat :=
  if pos + 4 ≤ data.length then .ok (leNat (slice data pos 4)) else Res.panic

/-- `u64::from_le_bytes([data[pos], .., data[pos + 7]])` (lib.rs 263-272). -/
def jsAt64 (data : Bytes) (pos : Nat) : Res Nat :=
  if pos + 8 ≤ data.length then .ok (leNat (slice data pos 8)) else Res.panic

/-- `&data[pos..pos + n]` with a 32-bit end (lib.rs 288): panics if the end wraps below the start or exceeds the length. -/
def jsSliceAt (data : Bytes) (pos n : Nat) : Res Bytes :=
  if (pos + n) % 2 ^ 32 < pos ∨ data.length < (pos + n) % 2 ^ 32 then Res.panic else .ok (slice data pos n)

/-- The value loop (lib.rs 285-293): `while pos + n8 <= section_end`, positions wrap; `fuel` bounds the number of iterations and
running out of it is reported as `hang`. -/
def jsWtnsValues (data : Bytes) (n8 sectionEnd : Nat) : Nat → Nat → List Fr → Res (List Fr)
  | 0, _, _ => .error .hang
  | fuel + 1, pos, acc =>
    if (pos + n8) % 2 ^ 32 ≤ sectionEnd then do
      let b ← jsSliceAt data pos (min n8 32)
      jsWtnsValues data n8 sectionEnd fuel ((pos + n8) % 2 ^ 32) (acc ++ [((leNat b : Nat) : Fr)])
    else pure acc

/-- Section loop (lib.rs 258-295); `fuel` is that of the value loop. -/
def jsWtnsSections (fuel : Nat) (data : Bytes) : Nat → Nat → Nat → List Fr → Res (List Fr)
  | 0, _, _, acc => pure acc
  | n + 1, pos, n8, acc => do
    let ty ← jsAt32 data pos
    let len64 ← jsAt64 data (pos + 4)
    let start := pos + 12
    let sectionEnd := (start + len64 % 2 ^ 32) % 2 ^ 32
    if ty = 1 then do
      let n8' ← jsAt32 data start
      jsWtnsSections fuel data n sectionEnd n8' acc
    else if ty = 2 then do
      let acc' ← jsWtnsValues data n8 sectionEnd fuel start acc
      jsWtnsSections fuel data n sectionEnd n8 acc'
    else jsWtnsSections fuel data n sectionEnd n8 acc

/-- `parse_witness` (lib.rs 234-297) with at most `fuel` iterations of the value loop per section. -/
def jsParseWtnsFuel (fuel : Nat) (data : Bytes) : Res (List Fr) :=
  if 4 > data.length ∨ slice data 0 4 ≠ [119, 116, 110, 115] then Res.fail "Invalid witness file: wrong magic" else do
  let version ← jsAt32 data 4
  if version ≠ 2 then Res.fail "Unsupported witness version" else do
  let nSections ← jsAt32 data 8
  jsWtnsSections fuel data nSections 12 0 []

/-- `parse_witness` (lib.rs 234-297). The bound is never the reason for `hang` unless the loop is endless (see C28). -/
def jsParseWtns (data : Bytes) : Res (List Fr) := jsParseWtnsFuel (2 ^ 32 + 1) data

end Zkenc
