import Verif.Basic.Pos
import Verif.Model.R1csTypes
/-!
# The two `.r1cs` parsers

`packages/zkenc-cli/src/r1cs.rs` 96-237, 258-268 (a seekable file) and `packages/zkenc-js/src/lib.rs` 74-228
(a byte slice on wasm32, where `usize` is 32 bits wide and release builds wrap).

Simplifications: error messages of I/O errors are one string; running out of memory
(`Vec::with_capacity`, `vec![0; n]`) is not modelled; file contents do not change while they are read.
-/

namespace Zkenc

/-! ## CLI -/

/-- `reader.read_exact(&mut [0u8; n])` (r1cs.rs 103, 178, 225, 260, 266): with `n = 0` nothing is read, otherwise all bytes
must be there (the position may be beyond the end of the file after a seek). -/
def cliRead (data : Bytes) (n : Nat) : PP Bytes := fun pos =>
  if n = 0 ∨ pos + n ≤ data.length then .ok (slice data pos n, pos + n)
  else Res.fail "failed to fill whole buffer"

/-- `read_u32` (r1cs.rs 258-262) -/
def cliU32 (data : Bytes) : PP Nat := PP.bind (cliRead data 4) fun b => PP.pure (leNat b)
/-- `read_u64` (r1cs.rs 264-268) -/
def cliU64 (data : Bytes) : PP Nat := PP.bind (cliRead data 8) fun b => PP.pure (leNat b)

/-- `reader.seek_relative(section_size as i64)` (r1cs.rs 126): sizes from `2^63` on are negative offsets; a target before the
start of the file or above the operating system's limit `lim` is an error; a target beyond the end of the file is not. -/
def cliSeekRel (lim size : Nat) : PP Unit := fun pos =>
  let target : Int := (pos : Int) + (if size < 2 ^ 63 then (size : Int) else (size : Int) - 2 ^ 64)
  if target < 0 ∨ (lim : Int) < target then Res.fail "Invalid argument (os error 22)"
  else .ok ((), target.toNat)

/-- One step of the section pass (r1cs.rs 121-127): type, size and payload position. -/
def cliSection (lim : Nat) (data : Bytes) : PP (Nat × Nat × Nat) :=
  PP.bind (cliU32 data) fun t =>
  PP.bind (cliU64 data) fun size =>
  PP.bind PP.here fun start =>
  PP.bind (cliSeekRel lim size) fun _ => PP.pure (t, size, start)

/-- `sections.iter().find(|(t,_,_)| *t == ty)` (r1cs.rs 131-135, 142-146, 156; lib.rs 133-136, 165-168). -/
def findSection (ty : Nat) (secs : List (Nat × Nat × Nat)) : Option (Nat × Nat × Nat) :=
  secs.find? fun s => s.1 == ty

/-- `R1csHeader` of the CLI (r1cs.rs 245-255). -/
structure CliHeader where
  fieldSize : Nat
  prime : Bytes
  nWires : Nat
  nPubOut : Nat
  nPubIn : Nat
  nPrvIn : Nat
  nLabels : Nat
  nConstraints : Nat

/-- `parse_header` (r1cs.rs 175-197). -/
def cliHeader (data : Bytes) : PP CliHeader :=
  PP.bind (cliU32 data) fun fieldSize =>
  PP.bind (cliRead data fieldSize) fun prime =>
  PP.bind (cliU32 data) fun nWires =>
  PP.bind (cliU32 data) fun nPubOut =>
  PP.bind (cliU32 data) fun nPubIn =>
  PP.bind (cliU32 data) fun nPrvIn =>
  PP.bind (cliU64 data) fun nLabels =>
  PP.bind (cliU32 data) fun nConstraints =>
  PP.pure ⟨fieldSize, prime, nWires, nPubOut, nPubIn, nPrvIn, nLabels, nConstraints⟩

/-- One factor of `parse_lc` (r1cs.rs 222-226). -/
def cliFactor (data : Bytes) (fieldSize : Nat) : PP (Nat × Bytes) :=
  PP.bind (cliU32 data) fun w => PP.bind (cliRead data fieldSize) fun v => PP.pure (w, v)

/-- `parse_lc` (r1cs.rs 217-229). -/
def cliParseLc (data : Bytes) (fieldSize : Nat) : PP Factors :=
  PP.bind (cliU32 data) fun n => PP.many (cliFactor data fieldSize) n

/-- Loop body of `parse_constraints` (r1cs.rs 206-212). -/
def cliCstr (data : Bytes) (fieldSize : Nat) : PP FileCstr :=
  PP.bind (cliParseLc data fieldSize) fun a =>
  PP.bind (cliParseLc data fieldSize) fun b =>
  PP.bind (cliParseLc data fieldSize) fun c => PP.pure ⟨a, b, c⟩

/-- The optional wire-to-label section (r1cs.rs 154-162, `parse_wire2label` 231-237). -/
def cliLabels (data : Bytes) (secs : List (Nat × Nat × Nat)) (nWires : Nat) : Res (List Nat) :=
  match findSection 3 secs with
  | some ws => do
    let (l, _) ← PP.many (cliU64 data) nWires ws.2.2
    pure l
  | none => pure (List.range nWires)

/-- `R1csFile::from_file` on the file contents `data` (r1cs.rs 96-173); `lim` is the operating system's largest file offset. -/
def cliParseR1cs (lim : Nat) (data : Bytes) : Res R1csFile := do
  let (magic, pos) ← cliRead data 4 0
  if magic ≠ [114, 49, 99, 115] then Res.fail "Invalid R1CS file: wrong magic number" else
  let (version, pos) ← cliU32 data pos
  if version ≠ 1 then Res.fail "Unsupported R1CS version" else
  let (nSections, pos) ← cliU32 data pos
  let (secs, _) ← PP.many (cliSection lim data) nSections pos
  let hs ← Res.ofOption (findSection 1 secs) "Header section not found"
  let (h, _) ← cliHeader data hs.2.2
  let cs ← Res.ofOption (findSection 2 secs) "Constraints section not found"
  let (constraints, _) ← PP.many (cliCstr data h.fieldSize) h.nConstraints cs.2.2
  let wire2label ← cliLabels data secs h.nWires
  pure { fieldSize := h.fieldSize, prime := h.prime, nWires := h.nWires, nPubOut := h.nPubOut, nPubIn := h.nPubIn,
         nPrvIn := h.nPrvIn, nLabels := h.nLabels, nConstraints := h.nConstraints,
         constraints := constraints, wire2label := wire2label }

/-! ## JS (wasm32) -/

/-- A bounds check followed by an access to `n` bytes (lib.rs 78-85, 88-105, 201-206, 210-215, 219-223):
`*pos + n > data.len()` is computed in 32 bits, then the slice access itself panics when out of bounds. -/
def jsRead (data : Bytes) (n : Nat) : PP Bytes := fun pos =>
  if data.length < (pos + n) % 2 ^ 32 then Res.fail "Unexpected end of data"
  else if pos + n ≤ data.length then .ok (slice data pos n, pos + n)
  else Res.panic

/-- `read_u32` (lib.rs 78-85) -/
def jsU32 (data : Bytes) : PP Nat := PP.bind (jsRead data 4) fun b => PP.pure (leNat b)
/-- `read_u64` (lib.rs 88-105) -/
def jsU64 (data : Bytes) : PP Nat := PP.bind (jsRead data 8) fun b => PP.pure (leNat b)

/-- `pos = section_start + section_len` (lib.rs 128), wrapping. -/
def jsJump (len : Nat) : PP Unit := fun pos => .ok ((), (pos + len) % 2 ^ 32)

/-- One step of the section pass (lib.rs 123-129): `section_len` is cut to 32 bits and the next position wraps. -/
def jsSection (data : Bytes) : PP (Nat × Nat × Nat) :=
  PP.bind (jsU32 data) fun t =>
  PP.bind (jsU64 data) fun len64 =>
  PP.bind PP.here fun start =>
  PP.bind (jsJump (len64 % 2 ^ 32)) fun _ => PP.pure (t, len64 % 2 ^ 32, start)

/-- Skipping the prime (lib.rs 140-144): checked and moved in 32 bits, no access. -/
def jsSkip (data : Bytes) (n : Nat) : PP Unit := fun pos =>
  if data.length < (pos + n) % 2 ^ 32 then Res.fail "Invalid prime length" else .ok ((), (pos + n) % 2 ^ 32)

/-- `R1csHeader` of zkenc-js (lib.rs 54-60). -/
structure JsHeader where
  fieldSize : Nat
  nWires : Nat
  nPubOut : Nat
  nPubIn : Nat
  nConstraints : Nat

/-- Header block of `parse_r1cs` (lib.rs 138-160). -/
def jsHeader (data : Bytes) : PP JsHeader :=
  PP.bind (jsU32 data) fun fieldSize =>
  PP.bind (jsSkip data fieldSize) fun _ =>
  PP.bind (jsU32 data) fun nWires =>
  PP.bind (jsU32 data) fun nPubOut =>
  PP.bind (jsU32 data) fun nPubIn =>
  PP.bind (jsU32 data) fun _ =>
  PP.bind (jsU64 data) fun _ =>
  PP.bind (jsU32 data) fun nConstraints =>
  PP.pure ⟨fieldSize, nWires, nPubOut, nPubIn, nConstraints⟩

/-- One factor of `parse_linear_combination` (lib.rs 209-226). -/
def jsFactor (data : Bytes) (fieldSize : Nat) : PP (Nat × Bytes) :=
  PP.bind (jsU32 data) fun w => PP.bind (jsRead data fieldSize) fun v => PP.pure (w, v)

/-- `parse_linear_combination` (lib.rs 196-228). -/
def jsParseLc (data : Bytes) (fieldSize : Nat) : PP Factors :=
  PP.bind (jsU32 data) fun n => PP.many (jsFactor data fieldSize) n

/-- Loop body of the third pass (lib.rs 173-188). -/
def jsCstr (data : Bytes) (fieldSize : Nat) : PP FileCstr :=
  PP.bind (jsParseLc data fieldSize) fun a =>
  PP.bind (jsParseLc data fieldSize) fun b =>
  PP.bind (jsParseLc data fieldSize) fun c => PP.pure ⟨a, b, c⟩

/-- `parse_r1cs` (lib.rs 74-194). -/
def jsParseR1cs (data : Bytes) : Res JsR1cs := do
  if 4 > data.length ∨ slice data 0 4 ≠ [114, 49, 99, 115] then Res.fail "Invalid R1CS file: wrong magic" else
  let (version, pos) ← jsU32 data 4
  if version ≠ 1 then Res.fail "Unsupported R1CS version" else
  let (nSections, pos) ← jsU32 data pos
  let (secs, _) ← PP.many (jsSection data) nSections pos
  let hs ← Res.ofOption (findSection 1 secs) "Header section (type 1) not found"
  let (h, _) ← jsHeader data hs.2.2
  let cs ← Res.ofOption (findSection 2 secs) "Constraints section (type 2) not found"
  let (constraints, _) ← PP.many (jsCstr data h.fieldSize) h.nConstraints cs.2.2
  pure { fieldSize := h.fieldSize, nWires := h.nWires, nPubOut := h.nPubOut, nPubIn := h.nPubIn,
         nConstraints := h.nConstraints, constraints := constraints }

end Zkenc
