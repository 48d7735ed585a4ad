import Verif.Basic.Res
import Verif.Basic.Bytes
/-!
# Position parsers: a byte array read at a movable position (`BufReader<File>` with seeks, `&[u8]` with an index)
-/

namespace Zkenc

/-- `data[pos .. pos+n]` (meaningful when `pos + n ≤ data.length`). -/
def slice (data : Bytes) (pos n : Nat) : Bytes := (data.drop pos).take n

/-- A parser over a fixed byte array: from a position to a value and the next position. -/
abbrev PP (α : Type) := Nat → Res (α × Nat)

namespace PP

/-- Return a value, do not move. -/
def pure {α : Type} (a : α) : PP α := fun pos => .ok (a, pos)

/-- Sequencing. -/
def bind {α β : Type} (p : PP α) (f : α → PP β) : PP β := fun pos =>
  match p pos with
  | .error e => .error e
  | .ok (a, pos') => f a pos'

instance : Monad PP where
  pure := PP.pure
  bind := PP.bind

/-- Return an error. -/
def fail {α : Type} (m : String) : PP α := fun _ => Res.fail m

/-- The current position (`stream_position()`, `pos`). -/
def here : PP Nat := fun pos => .ok (pos, pos)

/-- `for _ in 0..n { v.push(p()?) }` -/
def many {α : Type} (p : PP α) : Nat → PP (List α)
  | 0 => PP.pure []
  | n + 1 => PP.bind p fun a => PP.bind (many p n) fun as => PP.pure (a :: as)

end PP

end Zkenc
