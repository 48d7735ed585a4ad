import Verif.Spec.WtnsFormat
import Verif.Model.Serialize
/-!
# Specification: witness files on which the reader of the JS library panics or does not end

In 32-bit arithmetic: section sizes are cut to 32 bits, positions wrap around.
-/

namespace Zkenc.WtnsFormat

open Zkenc

/-- The announced end of the section at `pos`. -/
def endAt (data : Bytes) (pos : Nat) : Nat := (pos + 12 + sizeAt data pos) % 2 ^ 32

/-- Where the `j`-th value begins. -/
def valueAt (start m j : Nat) : Nat := (start + j * m) % 2 ^ 32

/-- Values of size `m` from `start` to `sectionEnd`: one of them (of which at most 32 bytes are used) is not in the file, and all before it are. -/
def ValueMissing (data : Bytes) (m start sectionEnd : Nat) : Prop :=
  ∃ j, (∀ i < j, valueAt start m (i + 1) ≤ sectionEnd ∧ valueAt start m i + min m 32 ≤ data.length) ∧
    valueAt start m (j + 1) ≤ sectionEnd ∧ data.length < valueAt start m j + min m 32

/-- The section at `pos`, with field size `m`, is cut off: its 12-byte head, the field size of a header section, or a value of a data section. -/
def CutAt (data : Bytes) (pos m : Nat) : Prop :=
  data.length < pos + 12 ∨ (typeAt data pos = 1 ∧ data.length < pos + 16) ∨
    (typeAt data pos = 2 ∧ ValueMissing data m (pos + 12) (endAt data pos))

/-- The section at `pos` is a data section, values have size 0 and the section does not end before it begins. -/
def EndlessAt (data : Bytes) (pos m : Nat) : Prop :=
  pos + 12 ≤ data.length ∧ typeAt data pos = 2 ∧ m = 0 ∧ pos + 12 ≤ endAt data pos

/-- Section `k`, of those announced, is the first that is cut off or endless. -/
def FirstBad (data : Bytes) (k pos m : Nat) : Prop :=
  k < leNat (slice data 8 4) ∧ JsSectionAt data k pos m ∧ (CutAt data pos m ∨ EndlessAt data pos m) ∧
    ∀ j < k, ∀ p m', JsSectionAt data j p m' → ¬ CutAt data p m' ∧ ¬ EndlessAt data p m'

/-- The values the reader takes from the section at `pos`, with field size `m`: none unless it is a data section; there, as long as a value ends within the section, its first
32 bytes at most, little endian, in the scalar field. -/
def ValuesAt (data : Bytes) (pos m : Nat) (vs : List Fr) : Prop :=
  (typeAt data pos ≠ 2 ∧ vs = []) ∨
  (typeAt data pos = 2 ∧ ∃ n, (∀ i < n, valueAt (pos + 12) m (i + 1) ≤ endAt data pos) ∧ endAt data pos < valueAt (pos + 12) m (n + 1) ∧
    vs = (List.range n).map fun i => ((leNat (slice data (valueAt (pos + 12) m i) (min m 32)) : Nat) : Fr))

/-- The file begins with `wtns`. -/
def Magic (data : Bytes) : Prop := data.take 4 = [119, 116, 110, 115]

/-- The version is in the file and is not 2. -/
def OtherVersion (data : Bytes) : Prop := 8 ≤ data.length ∧ leNat (slice data 4 4) ≠ 2

end Zkenc.WtnsFormat
