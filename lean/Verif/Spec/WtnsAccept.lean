import Verif.Spec.WtnsFormat
/-!
# Specification: witness files which the CLI accepts, and what it takes from them
-/

namespace Zkenc.WtnsFormat

open Zkenc

/-- Of the first `n` sections a sequential reader finds, the one at `pos` is the last of type `ty`. -/
def LastOfType (data : Bytes) (n ty pos : Nat) : Prop :=
  ∃ k < n, SectionAt data k pos ∧ typeAt data pos = ty ∧ ∀ i, k < i → i < n → ∀ q, SectionAt data i q → typeAt data q ≠ ty

/-- The file begins with `wtns`, version 2 and the number of its sections. -/
def Announces (data : Bytes) (n : Nat) : Prop :=
  12 ≤ data.length ∧ data.take 4 = [119, 116, 110, 115] ∧ leNat (slice data 4 4) = 2 ∧ leNat (slice data 8 4) = n

/-- The file is accepted with this field size and number of values, the header section at `h` and the data section at `d` being used: all sections announced are complete,
these are the last ones of their types, the field size is not 0, and the data section is not empty and holds exactly the announced number of values. -/
def Accepted (data : Bytes) (h d fieldSize count : Nat) : Prop :=
  ∃ n, Announces data n ∧ (∃ e, SectionAt data n e) ∧ LastOfType data n 1 h ∧ LastOfType data n 2 d ∧
    leNat (slice data (h + 12) 4) = fieldSize ∧ leNat (slice data (h + 16 + fieldSize) 4) = count ∧
    fieldSize ≠ 0 ∧ sizeAt data d ≠ 0 ∧ sizeAt data d = count * fieldSize

end Zkenc.WtnsFormat
