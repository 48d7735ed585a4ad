import Verif.Model.Prog
import Mathlib.Algebra.Field.Basic
/-!
# Specification: synthesizers that allocate their variables first, and the MiMC hash
-/

namespace Zkenc.NativeSpec

/-- One variable allocation: public or private, with the value the synthesizer was given for it (if any). -/
structure Alloc (F : Type) where
  isPublic : Bool
  value : Option F

/-- The shape of a synthesizer that allocates variables in the given order, stops with the error of the first allocation that has no value (`?`), and
otherwise goes on in any way, with the variables it got. -/
def allocateThen {F : Type} : List (Alloc F) → (List Var → Prog F) → Prog F
  | [], k => k []
  | a :: as, k =>
    (if a.isPublic then Prog.input else Prog.witness) a.value fun
      | .ok v => allocateThen as fun vs => k (v :: vs)
      | .error e => .done (.error e)

/-- The values of the public allocations that come before the first allocation without a value. -/
def publicBeforeMissing {F : Type} : List (Alloc F) → List F
  | [] => []
  | ⟨_, none⟩ :: _ => []
  | ⟨true, some x⟩ :: as => x :: publicBeforeMissing as
  | ⟨false, some _⟩ :: as => publicBeforeMissing as

/-- One round of MiMC: `(xL, xR) ↦ (xR + (xL + C)³, xL)`. -/
def mimcRound {F : Type} [Field F] (s : F × F) (c : F) : F × F := (s.2 + (s.1 + c) ^ 3, s.1)

/-- The MiMC hash of `(xL, xR)`. -/
def mimc {F : Type} [Field F] (constants : List F) (xl xr : F) : F := (constants.foldl mimcRound (xl, xr)).1

end Zkenc.NativeSpec
