import Mathlib.Algebra.Field.Basic
import Verif.Basic.Res
/-!
# Constraint systems (the part of `ark-relations` `gr1cs` that zkenc uses)

`ark_relations` is a dependency, not part of `/repo`; the behaviour modelled here is recorded in the
trusted base of DESIGN.md.  Used by
`packages/zkenc-core/src/algorithm.rs` 57-90, 235-262, `packages/zkenc-core/src/r1cs_to_qap.rs` 12-29, 63-79,
`packages/zkenc-cli/src/circuit.rs` 71-150 and `packages/zkenc-js/src/lib.rs` 318-369.
-/

namespace Zkenc

/-- `ark_relations::gr1cs::Variable` (`Zero` and `SymbolicLc` are never used by zkenc circuits). -/
inductive Var where
  | one
  | inst (i : Nat)
  | wit (i : Nat)
  deriving DecidableEq, Repr

/-- `LinearCombination<F>`: a list of terms. -/
abbrev LC (F : Type) := List (F × Var)

/-- One R1CS constraint `A * B = C`. -/
structure Cstr (F : Type) where
  a : LC F
  b : LC F
  c : LC F

/-- `ConstraintSystem<F>` in its default (proving) mode.  `numInst` counts the constant one. -/
structure CS (F : Type) where
  numInst : Nat
  numWit : Nat
  inst : List F
  wit : List F
  cons : List (Cstr F)

/-- `ConstraintSystem::new_ref()` (algorithm.rs 57, 235): the instance assignment starts with the constant 1. -/
def CS.new (F : Type) [One F] : CS F :=
  { numInst := 1, numWit := 0, inst := [1], wit := [], cons := [] }

/-- `SynthesisError` (only `AssignmentMissing` is produced by zkenc's own circuits). -/
inductive SynthErr where
  | assignmentMissing
  | other
  deriving DecidableEq, Repr

variable {F : Type}

/-- `cs.new_input_variable(|| value.ok_or(AssignmentMissing))`: the counter is incremented *before* the
closure is evaluated; on error the value is not pushed and the error is returned
(used in circuit.rs 81, zkenc-js lib.rs 328). -/
def CS.newInput (cs : CS F) (v : Option F) : CS F × Except SynthErr Var :=
  let cs' := { cs with numInst := cs.numInst + 1 }
  match v with
  | some x => ({ cs' with inst := cs.inst ++ [x] }, .ok (.inst cs.numInst))
  | none => (cs', .error .assignmentMissing)

/-- `cs.new_witness_variable(..)`; same discipline (circuit.rs 88, zkenc-js lib.rs 335). -/
def CS.newWitness (cs : CS F) (v : Option F) : CS F × Except SynthErr Var :=
  let cs' := { cs with numWit := cs.numWit + 1 }
  match v with
  | some x => ({ cs' with wit := cs.wit ++ [x] }, .ok (.wit cs.numWit))
  | none => (cs', .error .assignmentMissing)

/-- `cs.enforce_constraint(R1CS_PREDICATE_LABEL, [a, b, c])` (circuit.rs 146, zkenc-js lib.rs 350). -/
def CS.enforce (cs : CS F) (k : Cstr F) : CS F := { cs with cons := cs.cons ++ [k] }

/-- `lc + (coeff, var)`: terms on the same variable are merged (circuit.rs 108, zkenc-js lib.rs 365).
Simplification: arkworks keeps the terms sorted by variable, here a new variable goes to the end. -/
def lcAdd [Add F] : LC F → F × Var → LC F
  | [], t => [t]
  | (c, v) :: rest, t => if v = t.2 then (c + t.1, v) :: rest else (c, v) :: lcAdd rest t

/-- Value of a variable under the current assignments. -/
def CS.varVal [One F] (cs : CS F) : Var → Option F
  | .one => some 1
  | .inst i => cs.inst[i]?
  | .wit i => cs.wit[i]?

/-- Value of a linear combination; `none` if a variable is unassigned. -/
def CS.lcVal [One F] [Zero F] [Add F] [Mul F] (cs : CS F) : LC F → Option F
  | [] => some 0
  | (c, v) :: rest => do
    let x ← cs.varVal v
    let y ← cs.lcVal rest
    pure (c * x + y)

/-- Is one constraint satisfied? -/
def CS.cstrOk [One F] [Zero F] [Add F] [Mul F] [DecidableEq F] (cs : CS F) (k : Cstr F) : Bool :=
  match cs.lcVal k.a, cs.lcVal k.b, cs.lcVal k.c with
  | some a, some b, some c => decide (a * b = c)
  | _, _, _ => false

/-- `cs.is_satisfied().unwrap_or(false)` (algorithm.rs 241). -/
def CS.isSatisfied [One F] [Zero F] [Add F] [Mul F] [DecidableEq F] (cs : CS F) : Bool :=
  cs.cons.all cs.cstrOk

/-- Column of a variable in the constraint matrices (`to_matrices`, r1cs_to_qap.rs 63). -/
def CS.col (cs : CS F) : Var → Nat
  | .one => 0
  | .inst i => i
  | .wit i => cs.numInst + i

/-- A matrix row: `(coefficient, column)` pairs (r1cs_to_qap.rs 102). -/
def CS.row (cs : CS F) (lc : LC F) : List (F × Nat) := lc.map fun t => (t.1, cs.col t.2)

/-- `num_variables` (r1cs_to_qap.rs 22-24). -/
def CS.numVars (cs : CS F) : Nat := cs.numInst + cs.numWit

/-- `ConstraintSynthesizer::generate_constraints`: an arbitrary function on constraint systems.  The state
is returned even when synthesis fails, because `encap` keeps using it (algorithm.rs 58-68). -/
abbrev Circuit (F : Type) := CS F → CS F × Except SynthErr Unit

end Zkenc
