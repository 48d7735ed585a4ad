import Verif.Basic.Pos
/-!
# Specification: the `.wtns` binary format, version 2

Magic `wtns`, version 2, number of sections, sections (`u32` type, `u64` length, payload). Type 1 is the header (field size in
bytes, prime, number of values), type 2 the values; other types are ignored.
-/

namespace Zkenc.WtnsFormat

open Zkenc

/-- Contents of a witness file. -/
structure Content where
  prime : Bytes
  values : List Bytes

/-- A section of the file. -/
inductive Sec where
  | header
  | data
  | other (ty : Nat) (payload : Bytes)
  deriving DecidableEq

/-- Type number of a section. -/
def Sec.ty : Sec → Nat
  | .header => 1
  | .data => 2
  | .other t _ => t

/-- Payload of a section. -/
def Sec.payload (c : Content) : Sec → Bytes
  | .header => u32le c.prime.length ++ (c.prime ++ u32le c.values.length)
  | .data => c.values.flatten
  | .other _ p => p

/-- A section as bytes. -/
def Sec.bytes (c : Content) (s : Sec) : Bytes := u32le s.ty ++ (u64le (s.payload c).length ++ s.payload c)

/-- The whole file. -/
def fileBytes (c : Content) (secs : List Sec) : Bytes :=
  [119, 116, 110, 115] ++ (u32le 2 ++ (u32le secs.length ++ (secs.map (Sec.bytes c)).flatten))

/-- The content fits the format: all values have the field size (at least one byte), counts fit. -/
structure Fits (c : Content) : Prop where
  fieldPos : 0 < c.prime.length
  field : c.prime.length < 2 ^ 32
  count : c.values.length < 2 ^ 32
  len : ∀ v ∈ c.values, v.length = c.prime.length

/-- The section list can be written down, and sections of other types really have other types. -/
structure SecsFit (c : Content) (secs : List Sec) : Prop where
  count : secs.length < 2 ^ 32
  other : ∀ t p, Sec.other t p ∈ secs → t < 2 ^ 32 ∧ t ≠ 1 ∧ t ≠ 2 ∧ p.length < 2 ^ 63
  dataLen : c.values.flatten.length < 2 ^ 63

/-- Type field of the section header at `pos`. -/
def typeAt (data : Bytes) (pos : Nat) : Nat := leNat (slice data pos 4)
/-- Length field of the section header at `pos`. -/
def sizeAt (data : Bytes) (pos : Nat) : Nat := leNat (slice data (pos + 4) 8)

/-- Offsets at which a sequential reader finds the `k`-th section header: after a header section it continues behind the number
of values, after any other section behind the announced length. -/
inductive SectionAt (data : Bytes) : Nat → Nat → Prop
  | first : SectionAt data 0 12
  | header {k pos : Nat} : SectionAt data k pos → typeAt data pos = 1 →
      pos + 12 + 4 + leNat (slice data (pos + 12) 4) + 4 ≤ data.length →
      SectionAt data (k + 1) (pos + 12 + 4 + leNat (slice data (pos + 12) 4) + 4)
  | other {k pos : Nat} : SectionAt data k pos → typeAt data pos ≠ 1 → pos + 12 + sizeAt data pos ≤ data.length →
      sizeAt data pos < 2 ^ 63 → SectionAt data (k + 1) (pos + 12 + sizeAt data pos)

/-- Where a reader with 32-bit positions that continues at the announced end of every section finds the `k`-th section header,
and the field size it knows then (0 before any header section). -/
inductive JsSectionAt (data : Bytes) : Nat → Nat → Nat → Prop
  | first : JsSectionAt data 0 12 0
  | header {k pos n8 : Nat} : JsSectionAt data k pos n8 → typeAt data pos = 1 → pos + 16 ≤ data.length →
      JsSectionAt data (k + 1) ((pos + 12 + sizeAt data pos) % 2 ^ 32) (leNat (slice data (pos + 12) 4))
  | other {k pos n8 : Nat} : JsSectionAt data k pos n8 → typeAt data pos ≠ 1 → pos + 12 ≤ data.length →
      JsSectionAt data (k + 1) ((pos + 12 + sizeAt data pos) % 2 ^ 32) n8

end Zkenc.WtnsFormat
