import Mathlib.Data.Nat.Log
import Verif.Model.Serialize
import Verif.Model.Qap
/-!
# The evaluation domain of BN254 — `GeneralEvaluationDomain::<Fr>::new`

`r1cs_to_qap.rs` 36-38 and 80-81 call `D::new(num_constraints + num_instance_variables)` with
`D = GeneralEvaluationDomain<Fr>` (algorithm.rs 80), and 90 calls `evaluate_all_lagrange_coefficients`.  Both are
functions of the external crate `ark-poly` (with the constants of `ark-bn254`); they are written out here from that
crate's documented algorithm so that the theorems about the QAP need no assumption about them.  Simplification: numbers
are unbounded (the crate computes with `u64`/`usize`; every number below stays under 2^32).
-/

namespace Zkenc

/-- `FrConfig::GENERATOR` (ark-bn254): 5. -/
def frGenerator : Fr := 5

/-- `FrConfig::TWO_ADICITY` (ark-bn254): 2^28 divides `p - 1`, 2^29 does not. -/
def twoAdicity : Nat := 28

/-- `FrConfig::SMALL_SUBGROUP_BASE` (ark-bn254). -/
def smallBase : Nat := 3

/-- `FrConfig::SMALL_SUBGROUP_BASE_ADICITY` (ark-bn254). -/
def smallAdicity : Nat := 2

/-- `FrConfig::LARGE_SUBGROUP_ROOT_OF_UNITY` (ark-bn254): the generator to the power `(p - 1) / (2^28 · 3^2)`. -/
def largeRoot : Fr := frGenerator ^ ((frModulus - 1) / (2 ^ twoAdicity * smallBase ^ smallAdicity))

/-- `k_adicity(k, n)` (ark-ff `utils`): `while n > 1 { if n % k == 0 { r += 1; n /= k } else { return r } }`;
`fuel` bounds the number of rounds (`n` rounds are always enough). -/
def kAdicity (k : Nat) : Nat → Nat → Nat
  | 0, _ => 0
  | fuel + 1, n => if 1 < n then (if n % k = 0 then kAdicity k fuel (n / k) + 1 else 0) else 0

/-- `Fr::get_root_of_unity(n)` (ark-ff `FftField`): the large root, cubed and squared down to order `n`. -/
def getRootOfUnity (n : Nat) : Option Fr :=
  let q := kAdicity smallBase n n
  let t := kAdicity 2 n n
  if n ≠ 2 ^ t * smallBase ^ q ∨ twoAdicity < t ∨ smallAdicity < q then none
  else some ((fun w => w ^ 2)^[twoAdicity - t] ((fun w => w ^ smallBase)^[smallAdicity - q] largeRoot))

/-- `Radix2EvaluationDomain::new(n)`: size of the domain (the next power of two, 1 for 0) and its generator. -/
def radix2Domain (n : Nat) : Option (Nat × Fr) :=
  let size := 2 ^ Nat.clog 2 n
  if twoAdicity < Nat.clog 2 n then none else (getRootOfUnity size).map fun w => (size, w)

/-- `while r < min_size { r *= 2; two_adicity += 1 }` (ark-poly `best_mixed_domain_size`); `fuel` bounds the rounds. -/
def doubleUntil (n : Nat) : Nat → Nat → Nat → Nat × Nat
  | 0, r, k => (r, k)
  | fuel + 1, r, k => if r < n then doubleUntil n fuel (r * 2) (k + 1) else (r, k)

/-- `best_mixed_domain_size(n)` (ark-poly): `for b in 0..=small_subgroup_base_adicity`, starting with
`usize::MAX` of a 64-bit target. -/
def bestMixedSize (n : Nat) : Nat :=
  (List.range (smallAdicity + 1)).foldl (fun best b =>
    let rk := doubleUntil n n (smallBase ^ b) 0
    if rk.2 ≤ twoAdicity then min best rk.1 else best) (2 ^ 64 - 1)

/-- `MixedRadixEvaluationDomain::new(n)` (ark-poly). -/
def mixedDomain (n : Nat) : Option (Nat × Fr) :=
  let size := bestMixedSize n
  if size ≠ smallBase ^ kAdicity smallBase size size * 2 ^ kAdicity 2 size size then none
  else (getRootOfUnity size).map fun w => (size, w)

/-- `GeneralEvaluationDomain::new(n)` (ark-poly): radix 2 if possible, else mixed radix. -/
def generalDomain (n : Nat) : Option (Nat × Fr) :=
  match radix2Domain n with
  | some d => some d
  | none => mixedDomain n

/-- The points of the domain in order: `ω^0, ω^1, …, ω^(size-1)`
(what `D::new(..)` at r1cs_to_qap.rs 80-81 gives to the rest of the model). -/
def bn254Domains : Domains Fr := fun n =>
  (generalDomain n).map fun d => (List.range d.1).map fun i => d.2 ^ i

/-- `position of tau` branch of `evaluate_all_lagrange_coefficients` (ark-poly): all zero except the first `i` with
`ω^i = τ`. -/
def lagrangeOnDomain (size : Nat) (w tau : Fr) : List Fr :=
  let rec go : Nat → Fr → List Fr
    | 0, _ => []
    | n + 1, wi => if wi = tau then 1 :: List.replicate n 0 else 0 :: go n (wi * w)
  go size 1

/-- Generic branch: the running product `l_i *= group_gen_inv`, `negative_cur_elem *= group_gen`, then
`batch_inversion` (which inverts every non-zero entry). -/
def lagrangeOffDomain (size : Nat) (w tau : Fr) : List Fr :=
  let rec go : Nat → Fr → Fr → List Fr
    | 0, _, _ => []
    | n + 1, li, neg => (li * (tau + neg))⁻¹ :: go n (li * w⁻¹) (neg * w)
  go size ((tau ^ size - 1)⁻¹ * (size : Fr)) (-1)

/-- `domain.evaluate_all_lagrange_coefficients(tau)` (called at r1cs_to_qap.rs 90), offset 1. -/
def arkLagrange (size : Nat) (w tau : Fr) : List Fr :=
  if tau ^ size - 1 = 0 then lagrangeOnDomain size w tau else lagrangeOffDomain size w tau

/-- `create_domain(n)` (r1cs_to_qap.rs 36-38): `GeneralEvaluationDomain::new(n).expect(..)`. -/
def createDomain (n : Nat) : Res (Nat × Fr) :=
  match generalDomain n with
  | some d => .ok d
  | none => Res.panic

/-- `evaluate_qap_polynomials_at_x` (r1cs_to_qap.rs 54-124) for `F = Fr`, with the library's own Lagrange
coefficients instead of the textbook product used in `evaluateQap`. -/
def arkEvaluateQap (cs : CS Fr) (x : Fr) : List Fr × List Fr × List Fr :=
  let m := cs.numVars
  match generalDomain (cs.cons.length + cs.numInst) with
  | none => (List.replicate m 0, List.replicate m 0, List.replicate m 0)
  | some d =>
    let l := arkLagrange d.1 d.2 x
    (accumMatrix m l (cs.cons.map fun k => cs.row k.a),
     accumMatrix m l (cs.cons.map fun k => cs.row k.b),
     accumMatrix m l (cs.cons.map fun k => cs.row k.c))

end Zkenc
