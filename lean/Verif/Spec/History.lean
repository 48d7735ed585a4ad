import Verif.Model.History
/-!
# Vocabulary for statements about histories
-/

namespace Zkenc.HistSpec

open Zkenc

/-- The event is something that process `i` does. -/
def By (i : Nat) : Event → Prop
  | .read j _ _ => j = i
  | .write j _ _ => j = i
  | _ => False

/-- The event may change the file `p`. -/
def Touches (p : Path) : Event → Prop
  | .write _ q _ => q = p
  | .other q _ => q = p
  | _ => False

/-- Something that process `i` did failed. -/
def FailedFor (i : Nat) : Event → Prop
  | .read j _ failed => j = i ∧ failed = true
  | .write j _ failed => j = i ∧ failed = true
  | _ => False

/-- While `es` happens, nobody but process `i` writes or deletes the files `ps`. -/
def LeftTo (i : Nat) (ps : List Path) (es : List Event) : Prop := ∀ e ∈ es, ¬ By i e → ∀ p ∈ ps, ¬ Touches p e

/-- While `es` happens, nobody writes or deletes the file `p`. -/
def Kept (p : Path) (es : List Event) : Prop := ∀ e ∈ es, ¬ Touches p e

end Zkenc.HistSpec
