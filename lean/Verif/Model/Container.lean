import Verif.Basic.Bytes
import Verif.Basic.Res
import Verif.Basic.Pos
/-!
# The combined ciphertext — `commands.rs` 235-270, 293-355 and `zkenc.ts` 335-374, 410-446, 474-529
-/

namespace Zkenc

/-- The combined ciphertext: flag, length and bytes of the witness ciphertext, optional length and bytes of the public input,
encrypted message (commands.rs 238-268; zkenc.ts 343-374). `len as u32` and `setUint32` keep the low 32 bits. -/
def combine (includePublic : Bool) (witnessCt publicInput encrypted : Bytes) : Bytes :=
  (if includePublic then 1 else 0) :: (u32be witnessCt.length ++ (witnessCt ++
    ((if includePublic then u32be publicInput.length ++ publicInput else []) ++ encrypted)))

/-- What `decrypt` gets out of a combined ciphertext. -/
structure Parts where
  flag : UInt8
  witnessCt : Bytes
  publicInput : Option Bytes
  encrypted : Bytes
  deriving DecidableEq

/-- `combined[i]`: panics out of bounds (commands.rs 304-313, 335-340). -/
def idx (b : Bytes) (i : Nat) : Res UInt8 :=
  match b[i]? with
  | some x => .ok x
  | none => Res.panic

/-- `u32::from_be_bytes([combined[offset], .., combined[offset + 3]])` (commands.rs 308-313, 335-340). -/
def idxU32 (b : Bytes) (i : Nat) : Res Nat :=
  idx b i >>= fun b0 => idx b (i + 1) >>= fun b1 => idx b (i + 2) >>= fun b2 => idx b (i + 3) >>= fun b3 =>
  .ok (beNat [b0, b1, b2, b3])

/-- `&combined[i..j]`: panics unless `i <= j <= len` (commands.rs 321, 347, 355). -/
def idxRange (b : Bytes) (i j : Nat) : Res Bytes := if i ≤ j ∧ j ≤ b.length then .ok (slice b i (j - i)) else Res.panic

/-- The parsing part of `decrypt_command` (commands.rs 298-356). -/
def splitCli (b : Bytes) : Res Parts :=
  if b.length < 5 then Res.fail "Invalid ciphertext: too short" else
  idx b 0 >>= fun flag =>
  idxU32 b 1 >>= fun wLen =>
  if b.length < 5 + wLen then Res.fail "Invalid ciphertext: witness length mismatch" else
  idxRange b 5 (5 + wLen) >>= fun w =>
  if flag = 1 then
    if b.length < 5 + wLen + 4 then Res.fail "Invalid ciphertext: missing public input length" else
    idxU32 b (5 + wLen) >>= fun pLen =>
    if b.length < 5 + wLen + 4 + pLen then Res.fail "Invalid ciphertext: public input length mismatch" else
    idxRange b (5 + wLen + 4) (5 + wLen + 4 + pLen) >>= fun p =>
    idxRange b (5 + wLen + 4 + pLen) b.length >>= fun m =>
    .ok ⟨flag, w, some p, m⟩
  else
    idxRange b (5 + wLen) b.length >>= fun m =>
    .ok ⟨flag, w, none, m⟩

/-- `DataView.getUint8(i)`: throws `RangeError` outside the view. -/
def viewU8 (b : Bytes) (i : Nat) : Res UInt8 := Res.ofOption b[i]? "RangeError"

/-- `DataView.getUint32(i, false)`. Simplification: the view covers exactly the given array (zkenc.ts makes it from the start of the array
to the end of the underlying buffer); `C45` and `C44` show that no read lies outside the array. -/
def viewU32 (b : Bytes) (i : Nat) : Res Nat := if i + 4 ≤ b.length then .ok (beNat (slice b i 4)) else Res.fail "RangeError"

/-- `Uint8Array.slice(i, j)`: clamps. -/
def jsSlice (b : Bytes) (i j : Nat) : Bytes := (b.take j).drop i

/-- The parsing part of JS `decrypt` (zkenc.ts 410-446). The public input is skipped, not looked at. -/
def splitJs (b : Bytes) : Res Parts :=
  if b.length < 5 then Res.fail "Invalid ciphertext: too short" else
  viewU8 b 0 >>= fun flag =>
  viewU32 b 1 >>= fun wLen =>
  if b.length < 5 + wLen then Res.fail "Invalid ciphertext: length mismatch" else
  let w := jsSlice b 5 (5 + wLen)
  if flag = 1 then
    if b.length < 5 + wLen + 4 then Res.fail "Invalid ciphertext: missing public input length" else
    viewU32 b (5 + wLen) >>= fun pLen =>
    .ok ⟨flag, w, some (jsSlice b (5 + wLen + 4) (5 + wLen + 4 + pLen)), b.drop (5 + wLen + 4 + pLen)⟩
  else .ok ⟨flag, w, none, b.drop (5 + wLen)⟩

/-- `getPublicInput` up to the extraction of the bytes (zkenc.ts 474-519). -/
def publicInputBytes (b : Bytes) : Res Bytes :=
  if b.length < 5 then Res.fail "Invalid ciphertext: too short" else
  viewU8 b 0 >>= fun flag =>
  if flag ≠ 1 then Res.fail "Public inputs are not included in this ciphertext" else
  viewU32 b 1 >>= fun wLen =>
  if b.length < 5 + wLen then Res.fail "Invalid ciphertext: length mismatch" else
  if b.length < 5 + wLen + 4 then Res.fail "Invalid ciphertext: missing public input length" else
  viewU32 b (5 + wLen) >>= fun pLen =>
  if b.length < 5 + wLen + 4 + pLen then Res.fail "Invalid ciphertext: public input length mismatch" else
  .ok (jsSlice b (5 + wLen + 4) (5 + wLen + 4 + pLen))

/-- `getPublicInput` (zkenc.ts 474-529): `decode` is `TextDecoder.decode`, `parse` is `JSON.parse`. -/
def getPublicInput {α : Type} (decode : Bytes → List Char) (parse : List Char → Option α) (b : Bytes) : Res α :=
  publicInputBytes b >>= fun p => Res.ofOption (parse (decode p)) "Failed to parse public inputs"

end Zkenc
