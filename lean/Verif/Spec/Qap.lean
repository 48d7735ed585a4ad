import Mathlib.LinearAlgebra.Lagrange
import Verif.Model.CS
/-!
# Specification: quadratic arithmetic programs

Polynomials are Mathlib polynomials; nothing here refers to the evaluation code.
-/

namespace Zkenc.Spec

open Polynomial

variable {F : Type} [Field F]

/-- Number of a variable: the constant one is number 0 (it is the first instance variable), instance variables keep
their number, witness variables follow all instance variables. -/
def varNumber (cs : CS F) : Var → Nat
  | .one => 0
  | .inst i => i
  | .wit i => cs.numInst + i

/-- Coefficient of variable number `i` in a linear combination (repeated terms are summed). -/
def entry (cs : CS F) (lc : LC F) (i : Nat) : F :=
  (lc.map fun t => if varNumber cs t.2 = i then t.1 else 0).sum

/-- What the polynomial of variable `i` must be at the `j`-th domain point: the coefficient of `i` in
constraint `j` (`sel` picks A, B or C), and `0` beyond the last constraint. -/
def columnValue (cs : CS F) (sel : Cstr F → LC F) (i j : Nat) : F :=
  match cs.cons[j]? with
  | some k => entry cs (sel k) i
  | none => 0

/-- `p` is the QAP polynomial of variable `i` over the domain `ds`. -/
structure IsQapPoly (cs : CS F) (ds : List F) (sel : Cstr F → LC F) (i : Nat) (p : F[X]) : Prop where
  degree : p.degree < ds.length
  values : ∀ j (h : j < ds.length), p.eval ds[j] = columnValue cs sel i j

/-- `∏ (X - d)` over the domain. -/
noncomputable def vanishing (ds : List F) : F[X] := (ds.map fun d => X - C d).prod

/-- `Σᵢ aᵢ·pᵢ` for an assignment `a`. -/
noncomputable def combine (a : List F) (p : Nat → F[X]) : F[X] :=
  ((List.range a.length).map fun i => C (a.getD i 0) * p i).sum

end Zkenc.Spec

namespace Zkenc.Spec

variable {F : Type} [Field F]

/-- The variable exists in the system. -/
def VarIn (cs : CS F) : Var → Prop
  | .one => True
  | .inst i => i < cs.numInst
  | .wit i => i < cs.numWit

/-- Every variable has a value, the first instance variable is the constant one, and the constraints only use
existing variables. -/
structure Complete (cs : CS F) : Prop where
  instLen : cs.inst.length = cs.numInst
  witLen : cs.wit.length = cs.numWit
  one : cs.inst.head? = some 1
  vars : ∀ k ∈ cs.cons, ∀ t ∈ k.a ++ k.b ++ k.c, VarIn cs t.2

end Zkenc.Spec
