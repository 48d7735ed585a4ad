import Verif.Basic.Str
/-!
# Specification: the table that the lines of any symbol file define

For texts whose lines need not be well-formed.
-/

namespace Zkenc.SymSpec

open Zkenc

/-- A line of four fields separated by commas, the second of which is read as the number `w` (not negative), the last of which, without surrounding white space, is `name`. -/
def LineNames (ws : Char → Bool) (field : Str → Int → Prop) (line name : Str) (w : Nat) : Prop :=
  ∃ a p b c, splitOn ',' line = [a, p, b, c] ∧ name = trim ws c ∧ field p (w : Int)

/-- The last line that names `name` gives it the wire `w`. -/
def LastNames (ws : Char → Bool) (field : Str → Int → Prop) (lines : List Str) (name : Str) (w : Nat) : Prop :=
  ∃ pre line post, lines = pre ++ line :: post ∧ LineNames ws field line name w ∧ ∀ l ∈ post, ∀ w', ¬ LineNames ws field l name w'

end Zkenc.SymSpec
