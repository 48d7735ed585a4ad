import Verif.Basic.Pos
import Verif.Model.R1csTypes
/-!
# Specification: the iden3 `.r1cs` binary format, version 1

A file is the magic `r1cs`, the version 1, the number of sections and the sections; a section is a `u32` type, a `u64` length and
that many bytes. Section type 1 is the header, 2 the constraints, 3 the wire-to-label table; other types are ignored. Where a type
occurs more than once the first one counts; payloads may carry extra bytes at the end.
-/

namespace Zkenc.R1csFormat

open Zkenc

/-- Linear combination: number of factors, then `(wire : u32, coefficient)` pairs. -/
def lcBytes (f : Factors) : Bytes := u32le f.length ++ (f.map fun x => u32le x.1 ++ x.2).flatten

/-- One constraint: A, B, C. -/
def cstrBytes (c : FileCstr) : Bytes := lcBytes c.a ++ (lcBytes c.b ++ lcBytes c.c)

/-- Payload of section 1. -/
def headerBytes (r : R1csFile) : Bytes :=
  u32le r.fieldSize ++ (r.prime ++ (u32le r.nWires ++ (u32le r.nPubOut ++ (u32le r.nPubIn ++ (u32le r.nPrvIn ++
    (u64le r.nLabels ++ u32le r.nConstraints))))))

/-- Payload of section 2. -/
def constraintsBytes (r : R1csFile) : Bytes := (r.constraints.map cstrBytes).flatten

/-- Payload of section 3. -/
def labelsBytes (r : R1csFile) : Bytes := (r.wire2label.map u64le).flatten

/-- One section. -/
def secBytes (s : Nat × Bytes) : Bytes := u32le s.1 ++ (u64le s.2.length ++ s.2)

/-- The whole file. -/
def fileBytes (secs : List (Nat × Bytes)) : Bytes :=
  [114, 49, 99, 115] ++ (u32le 1 ++ (u32le secs.length ++ (secs.map secBytes).flatten))

/-- A linear combination that the format can express with `fs`-byte coefficients. -/
def LcOk (fs : Nat) (f : Factors) : Prop := f.length < 2 ^ 32 ∧ ∀ x ∈ f, x.1 < 2 ^ 32 ∧ x.2.length = fs

/-- The numbers of `r` fit their fields and its tables have the lengths its header announces. -/
structure Fits (r : R1csFile) : Prop where
  fieldSize : r.fieldSize < 2 ^ 32
  prime : r.prime.length = r.fieldSize
  nWires : r.nWires < 2 ^ 32
  nPubOut : r.nPubOut < 2 ^ 32
  nPubIn : r.nPubIn < 2 ^ 32
  nPrvIn : r.nPrvIn < 2 ^ 32
  nLabels : r.nLabels < 2 ^ 64
  nConstraints : r.nConstraints < 2 ^ 32
  constraints : r.constraints.length = r.nConstraints
  lcs : ∀ c ∈ r.constraints, LcOk r.fieldSize c.a ∧ LcOk r.fieldSize c.b ∧ LcOk r.fieldSize c.c
  labels : r.wire2label.length = r.nWires
  label : ∀ l ∈ r.wire2label, l < 2 ^ 64

/-- The section list can be written down: types, lengths and number of sections fit. -/
structure SecsFit (secs : List (Nat × Bytes)) : Prop where
  count : secs.length < 2 ^ 32
  each : ∀ s ∈ secs, s.1 < 2 ^ 32 ∧ s.2.length < 2 ^ 63

/-- The sections describe `r`: the first section of each type starts with the right payload. -/
structure Describes (secs : List (Nat × Bytes)) (r : R1csFile) : Prop where
  header : ∃ extra, secs.lookup 1 = some (headerBytes r ++ extra)
  constraints : ∃ extra, secs.lookup 2 = some (constraintsBytes r ++ extra)
  labels : (∃ extra, secs.lookup 3 = some (labelsBytes r ++ extra)) ∨
    (secs.lookup 3 = none ∧ r.wire2label = List.range r.nWires)

/-- How many payload bytes of the first section of type `ty` describe `r`. -/
def needed (r : R1csFile) (ty : Nat) : Nat :=
  if ty = 1 then (headerBytes r).length else if ty = 2 then (constraintsBytes r).length
  else if ty = 3 then (labelsBytes r).length else 0

/-- The first `k` bytes of the file contain the preamble, every section's type and length, and the needed payloads. The section
`s` that follows the sections `pre` starts at offset `(fileBytes pre).length`. -/
def Enough (secs : List (Nat × Bytes)) (r : R1csFile) (k : Nat) : Prop :=
  12 ≤ k ∧ ∀ pre s post, secs = pre ++ s :: post →
    (fileBytes pre).length + 12 ≤ k ∧ (s.1 ∉ pre.map Prod.fst → (fileBytes pre).length + 12 + needed r s.1 ≤ k)

/-- Positions (modulo `2^32`) at which a reader with 32-bit positions looks for the `k`-th section header. -/
inductive SectionAt32 (data : Bytes) : Nat → Nat → Prop
  | first : SectionAt32 data 0 12
  | next {k pos : Nat} : SectionAt32 data k pos → pos + 12 ≤ data.length →
      SectionAt32 data (k + 1) ((pos + 12 + leNat (slice data (pos + 4) 8)) % 2 ^ 32)

end Zkenc.R1csFormat
