import Mathlib.Algebra.BigOperators.Group.List.Basic
import Verif.Model.CS
/-!
# QAP evaluation — `packages/zkenc-core/src/r1cs_to_qap.rs`
-/

namespace Zkenc

variable {F : Type}

/-- `GeneralEvaluationDomain::new(n)` (r1cs_to_qap.rs 80): the points of the domain in order, or `None`.
A parameter of the model (the concrete BN254 domain is in `Verif/Model/Bn254.lean`). -/
abbrev Domains (F : Type) := Nat → Option (List F)

/-- What is assumed of `GeneralEvaluationDomain::new`: distinct points, at least `n` of them. -/
def Domains.Lawful (dom : Domains F) : Prop :=
  ∀ n ds, dom n = some ds → ds.Nodup ∧ n ≤ ds.length

/-- `L_j(x)`, the Lagrange basis polynomial of the `j`-th domain point at `x`
(one entry of `evaluate_all_lagrange_coefficients`, r1cs_to_qap.rs 90; also right when `x` is a domain point). -/
def lagrangeAt [Field F] (ds : List F) (x : F) (j : Nat) : F :=
  (((List.range ds.length).filter (fun k => k != j)).map
    (fun k => (x - ds.getD k 0) / (ds.getD j 0 - ds.getD k 0))).prod

/-- `domain.evaluate_all_lagrange_coefficients(x)` (r1cs_to_qap.rs 90). -/
def lagrangeCoeffs [Field F] (ds : List F) (x : F) : List F :=
  (List.range ds.length).map (lagrangeAt ds x)

/-- Inner loop `for (coeff, index) in row: if index < m { evals[index] += lagrange_j * coeff }`
(r1cs_to_qap.rs 102-106, 109-113, 116-120). -/
def accumRow [Field F] (m : Nat) (lj : F) (evals : List F) (row : List (F × Nat)) : List F :=
  row.foldl (fun ev t => if t.2 < m then ev.modify t.2 (· + lj * t.1) else ev) evals

/-- Outer loop over constraints for one matrix (r1cs_to_qap.rs 100-121; the three accumulators are
independent, so the single Rust loop is modelled as three). -/
def accumMatrix [Field F] (m : Nat) (coeffs : List F) (rows : List (List (F × Nat))) : List F :=
  (coeffs.zip rows).foldl (fun ev t => accumRow m t.1 ev t.2) (List.replicate m 0)

/-- `evaluate_qap_polynomials_at_x` (r1cs_to_qap.rs 54-124).  `to_matrices` never fails in proving mode and the
R1CS predicate always has three matrices, so those two early returns (63-75) are unreachable and omitted. -/
def evaluateQap [Field F] (dom : Domains F) (cs : CS F) (x : F) : List F × List F × List F :=
  let m := cs.numVars
  match dom (cs.cons.length + cs.numInst) with
  | none => (List.replicate m 0, List.replicate m 0, List.replicate m 0)
  | some ds =>
    let l := lagrangeCoeffs ds x
    (accumMatrix m l (cs.cons.map fun k => cs.row k.a),
     accumMatrix m l (cs.cons.map fun k => cs.row k.b),
     accumMatrix m l (cs.cons.map fun k => cs.row k.c))

end Zkenc
