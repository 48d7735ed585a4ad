import Verif.Spec.R1csFormat
/-!
# Specification: circuit files on which the reader of the JS library panics

In 32-bit arithmetic: section sizes are cut to 32 bits, positions wrap around.
-/

namespace Zkenc.R1csFormat

open Zkenc

/-- The 32-bit number at a position. -/
def at32 (data : Bytes) (q : Nat) : Nat := leNat (slice data q 4)

/-- The file begins with `r1cs`, version 1 and the number of its sections. -/
def Preamble (data : Bytes) : Prop := 12 ≤ data.length ∧ data.take 4 = [114, 49, 99, 115] ∧ at32 data 4 = 1

/-- A section, of those announced, is looked for in the last four bytes of the address space. -/
def WalksOff (data : Bytes) : Prop := ∃ j q, j < at32 data 8 ∧ SectionAt32 data j q ∧ 2 ^ 32 - 4 ≤ q

/-- All sections announced begin within the file. -/
def WalksThrough (data : Bytes) : Prop := ∀ j < at32 data 8, ∃ q, SectionAt32 data j q ∧ q + 12 ≤ data.length

/-- The first section of a type begins at `q`. -/
def FirstOfType (data : Bytes) (ty q : Nat) : Prop :=
  ∃ j < at32 data 8, SectionAt32 data j q ∧ at32 data q = ty ∧ ∀ i < j, ∀ q', SectionAt32 data i q' → at32 data q' ≠ ty

/-- The header section at `q` can be read and declares this field size and this number of constraints. -/
def Declares (data : Bytes) (q fieldSize nConstraints : Nat) : Prop :=
  q + 16 ≤ data.length ∧ at32 data (q + 12) = fieldSize ∧
  (q + 16 + fieldSize) % 2 ^ 32 + 28 ≤ data.length ∧ at32 data ((q + 16 + fieldSize) % 2 ^ 32 + 24) = nConstraints

/-- The first coefficient of the constraints section at `q` is in the file and its declared size reaches the end of the address space. Before it there are only linear
combinations without terms, of three for each constraint. -/
def CoefficientOff (data : Bytes) (q fieldSize nConstraints : Nat) : Prop :=
  ∃ k < 3 * nConstraints, (∀ i < k, at32 data (q + 12 + 4 * i) = 0) ∧ at32 data (q + 12 + 4 * k) ≠ 0 ∧
    q + 12 + 4 * k + 8 ≤ data.length ∧ 2 ^ 32 ≤ q + 12 + 4 * k + 8 + fieldSize

/-- The files on which the reader panics. -/
def JsPanics (data : Bytes) : Prop :=
  Preamble data ∧ (WalksOff data ∨ WalksThrough data ∧ ∃ q₁ q₂ fieldSize nConstraints, FirstOfType data 1 q₁ ∧
    Declares data q₁ fieldSize nConstraints ∧ FirstOfType data 2 q₂ ∧ CoefficientOff data q₂ fieldSize nConstraints)

end Zkenc.R1csFormat
