import Mathlib.Algebra.BigOperators.Group.List.Basic
import Verif.Model.R1csTypes
/-!
# Specification: what an R1CS file means

Independent of the synthesizers: plain weighted sums over the wires.
-/

namespace Zkenc

/-- Number of wires a circuit has (wire 0 included).  For well-formed files (`n_public + 1 ≤ n_wires`) it is
`n_wires`. -/
def R1csFile.nAlloc (r : R1csFile) : Nat := max (r.nPublicInputs + 1) r.nWires

end Zkenc

namespace Zkenc.Spec

variable {F : Type} [Field F]

/-- A coefficient: the little-endian value of its (first 32) bytes, in the field. -/
def coeff (bytes : Bytes) : F := ((leNat (bytes.take 32) : Nat) : F)

/-- `Σ coeff · wire value`. -/
def lcSum (w : Nat → F) (factors : Factors) : F :=
  (factors.map fun t => coeff t.2 * w t.1).sum

/-- The wire assignment `w` satisfies every constraint `A · B = C`. -/
def Satisfies (cons : List FileCstr) (w : Nat → F) : Prop :=
  ∀ k ∈ cons, lcSum w k.a * lcSum w k.b = lcSum w k.c

/-- Every wire mentioned by the constraints is below `n`. -/
def WiresBelow (n : Nat) (cons : List FileCstr) : Prop :=
  ∀ k ∈ cons, (∀ t ∈ k.a, t.1 < n) ∧ (∀ t ∈ k.b, t.1 < n) ∧ (∀ t ∈ k.c, t.1 < n)

/-- Remove the terms whose wire id is `n` or more. -/
def keepBelow (n : Nat) (factors : Factors) : Factors := factors.filter fun t => decide (t.1 < n)

/-- Remove out-of-range terms from a constraint. -/
def FileCstr.keepBelow (n : Nat) (k : FileCstr) : FileCstr :=
  ⟨Spec.keepBelow n k.a, Spec.keepBelow n k.b, Spec.keepBelow n k.c⟩

/-- The longest assigned prefix of a list of wires. -/
def assignedPrefix (w : Nat → Option F) : List Nat → List F
  | [] => []
  | i :: is => match w i with
    | some x => x :: assignedPrefix w is
    | none => []

end Zkenc.Spec
