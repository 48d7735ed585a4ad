import Verif.Spec.R1csPanic
/-!
# Specification: circuit files which the CLI accepts, and what it takes from them
-/

namespace Zkenc.R1csFormat

open Zkenc

/-- Offsets at which the CLI finds the `k`-th section header: sizes are signed 64-bit offsets (so a reader may be sent backwards), and no offset may be negative or above the
operating system's limit. -/
inductive SectionAtSeek (lim : Nat) (data : Bytes) : Nat → Nat → Prop
  | first : SectionAtSeek lim data 0 12
  | forward {k pos : Nat} : SectionAtSeek lim data k pos → pos + 12 ≤ data.length → leNat (slice data (pos + 4) 8) < 2 ^ 63 →
      pos + 12 + leNat (slice data (pos + 4) 8) ≤ lim → SectionAtSeek lim data (k + 1) (pos + 12 + leNat (slice data (pos + 4) 8))
  | backward {k pos : Nat} : SectionAtSeek lim data k pos → pos + 12 ≤ data.length → 2 ^ 63 ≤ leNat (slice data (pos + 4) 8) →
      2 ^ 64 ≤ pos + 12 + leNat (slice data (pos + 4) 8) → pos + 12 + leNat (slice data (pos + 4) 8) - 2 ^ 64 ≤ lim →
      SectionAtSeek lim data (k + 1) (pos + 12 + leNat (slice data (pos + 4) 8) - 2 ^ 64)

/-- Of the sections announced, the first of a type begins at `q`. -/
def FirstBySeek (lim : Nat) (data : Bytes) (ty q : Nat) : Prop :=
  ∃ j < at32 data 8, SectionAtSeek lim data j q ∧ at32 data q = ty ∧ ∀ i < j, ∀ q', SectionAtSeek lim data i q' → at32 data q' ≠ ty

/-- The file describes `r`: behind the head of the first section of each type stand the bytes which the format prescribes for `r` (whatever size the section declares, and
whatever follows). -/
structure DescribesBySeek (lim : Nat) (data : Bytes) (r : R1csFile) : Prop where
  header : ∃ q, FirstBySeek lim data 1 q ∧ headerBytes r <+: data.drop (q + 12)
  constraints : ∃ q, FirstBySeek lim data 2 q ∧ constraintsBytes r <+: data.drop (q + 12)
  labels : (∃ q, FirstBySeek lim data 3 q ∧ labelsBytes r <+: data.drop (q + 12)) ∨
    ((∀ q, ¬ FirstBySeek lim data 3 q) ∧ r.wire2label = List.range r.nWires)

end Zkenc.R1csFormat
