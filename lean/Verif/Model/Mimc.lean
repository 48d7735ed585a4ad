import Verif.Model.Prog
/-!
# The native MiMC circuit — `packages/zkenc-core/tests/mimc_circuit.rs`

The circuit the library's own tests (`tests/encap_decap.rs`) and its README (lines 92-96, 131) use: a synthesizer written in Rust, not read from a file.
`FpVar` is part of `ark-r1cs-std`, a dependency: what is used of it here is part of the trusted base (DESIGN.md).
-/

namespace Zkenc

/-- `FpVar::Var(AllocatedFp { value, variable, .. })` (mimc_circuit.rs 64-76): its value and the linear combination its variable stands for
(simplification: arkworks keeps combinations as symbolic variables and inlines them when matrices are taken; the theorems compare values only). -/
structure FpV (F : Type) where
  lc : LC F
  val : F

section
variable {F : Type} [Field F]

/-- `&x + c` for a field constant (mimc_circuit.rs 81, 83). -/
def FpV.addConst (x : FpV F) (c : F) : FpV F := ⟨lcAdd x.lc (c, .one), x.val + c⟩

/-- `&x + y` (mimc_circuit.rs 83). -/
def FpV.add (x y : FpV F) : FpV F := ⟨y.lc.foldl lcAdd x.lc, x.val + y.val⟩

/-- `x - y` as a linear combination, in `enforce_equal` (mimc_circuit.rs 90). -/
def FpV.subLc (x y : FpV F) : LC F := (y.lc.map fun t => (-t.1, t.2)).foldl lcAdd x.lc

/-- `FpVar::new_witness(cs, || v.ok_or(AssignmentMissing))?` (mimc_circuit.rs 64-70). -/
def fpWitness (v : Option F) (k : FpV F → Prog F) : Prog F :=
  .witness v fun res => match res, v with
    | .ok var, some x => k ⟨[(1, var)], x⟩
    | .ok _, none => .done (.error .other)
    | .error e, _ => .done (.error e)

/-- `FpVar::new_input(cs, || v.ok_or(AssignmentMissing))?` (mimc_circuit.rs 73-75). -/
def fpInput (v : Option F) (k : FpV F → Prog F) : Prog F :=
  .input v fun res => match res, v with
    | .ok var, some x => k ⟨[(1, var)], x⟩
    | .ok _, none => .done (.error .other)
    | .error e, _ => .done (.error e)

/-- `x * y` (and `x.square()`, mimc_circuit.rs 81, 83): a new witness for the product and the constraint `x · y = product`. -/
def fpMul (x y : FpV F) (k : FpV F → Prog F) : Prog F :=
  fpWitness (some (x.val * y.val)) fun p => .enforce ⟨x.lc, y.lc, p.lc⟩ (k p)

/-- The loop over the rounds and the final `xl.enforce_equal(&output)?` (mimc_circuit.rs 79-92). The constants are the `constants[0..MIMC_ROUNDS]`; their
number, asserted to be 322 in lines 29, 40 and 61, is left open. -/
def mimcRounds (output : FpV F) : List F → FpV F → FpV F → Prog F
  | [], xl, _ => .enforce ⟨xl.subLc output, [(1, .one)], []⟩ (.done (.ok ()))
  | c :: cs, xl, xr =>
    fpMul (xl.addConst c) (xl.addConst c) fun tmp =>
    fpMul tmp (xl.addConst c) fun cube =>
    mimcRounds output cs (xr.add cube) xl

/-- `MiMCCircuit::generate_constraints` (mimc_circuit.rs 53-93): first the two private inputs, then the public output. -/
def mimcCircuit (xl xr output : Option F) (constants : List F) : Prog F :=
  fpWitness xl fun l =>
  fpWitness xr fun r =>
  fpInput output fun o =>
  mimcRounds o constants l r

/-- `MiMCCircuit::mimc_native` (mimc_circuit.rs 39-50). -/
def mimcNative (xl xr : F) : List F → F
  | [] => xl
  | c :: cs =>
    let tmp1 := xl + c
    let tmp2 := tmp1 * tmp1 * tmp1 + xr
    mimcNative tmp2 xl cs

end

end Zkenc
