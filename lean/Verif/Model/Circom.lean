import Verif.Model.CS
import Verif.Model.R1csTypes
/-!
# Circom circuits as constraint synthesizers —
`packages/zkenc-cli/src/circuit.rs` 17-151 and `packages/zkenc-js/src/lib.rs` 303-369

Generic over the field `F`; instantiated with the BN254 scalar field, where the cast `ℕ → F` is reduction mod p.
-/

namespace Zkenc

variable {F : Type}

/-- `HashMap<u32, Variable>` (circuit.rs 74, lib.rs 321). -/
abbrev VarMap := Nat → Option Var

/-- `variables.insert(k, v)`. -/
def VarMap.insert (m : VarMap) (k : Nat) (v : Var) : VarMap := fun i => if i = k then some v else m i

/-- `HashMap::new()` followed by `insert(0, Variable::One)` (circuit.rs 74-75, lib.rs 321-322). -/
def VarMap.init : VarMap := fun i => if i = 0 then some .one else none

/-- `bytes_to_fr`: the first 32 bytes, zero padded to 32, little-endian, mod p
(circuit.rs 56-67; the first `from_le_bytes_mod_order` there is discarded). -/
def bytesToFr [NatCast F] (bytes : Bytes) : F :=
  let len := min bytes.length 32
  ((leNat (bytes.take len ++ List.replicate (32 - len) 0) : Nat) : F)

/-- `for wire_id in 1..=n_public { new_input_variable(..)?; variables.insert(..) }`
(circuit.rs 79-83, lib.rs 326-330). -/
def allocInputs (w : Nat → Option F) : List Nat → CS F → VarMap → CS F × Except SynthErr VarMap
  | [], cs, vm => (cs, .ok vm)
  | i :: is, cs, vm =>
    match cs.newInput (w i) with
    | (cs', .error e) => (cs', .error e)
    | (cs', .ok v) => allocInputs w is cs' (vm.insert i v)

/-- `for wire_id in (n_public + 1)..n_wires { new_witness_variable(..)?; variables.insert(..) }`
(circuit.rs 86-90, lib.rs 333-337). -/
def allocWitnesses (w : Nat → Option F) : List Nat → CS F → VarMap → CS F × Except SynthErr VarMap
  | [], cs, vm => (cs, .ok vm)
  | i :: is, cs, vm =>
    match cs.newWitness (w i) with
    | (cs', .error e) => (cs', .error e)
    | (cs', .ok v) => allocWitnesses w is cs' (vm.insert i v)

/-- The wire ids of `1..=n`. -/
def wiresIncl (n : Nat) : List Nat := List.range' 1 n

/-- The wire ids of `lo..hi`. -/
def wiresExcl (lo hi : Nat) : List Nat := List.range' lo (hi - lo)

/-- One iteration of the loop in the CLI closures (circuit.rs 105-111). -/
def cliLcStep [Add F] [NatCast F] (vars : VarMap) (lc : LC F) (t : Nat × Bytes) : LC F :=
  match vars t.1 with
  | some var => lcAdd lc (bytesToFr t.2, var)
  | none => lc

/-- The CLI closure body for one linear combination (circuit.rs 103-113): terms on unknown wires are skipped. -/
def cliLc [Add F] [NatCast F] (factors : Factors) (vars : VarMap) : LC F :=
  factors.foldl (cliLcStep vars) []

/-- `CircomCircuit::generate_constraints` of zkenc-cli (circuit.rs 71-150) for parsed file `r` and witness map `w`.
`n_public + 1` is a `u32` addition (wraps in release builds). -/
def cliCircuit [Add F] [NatCast F] (r : R1csFile) (w : Nat → Option F) : Circuit F := fun cs =>
  let nPublic := r.nPublicInputs
  match allocInputs w (wiresIncl nPublic) cs VarMap.init with
  | (cs, .error e) => (cs, .error e)
  | (cs, .ok vm) =>
  match allocWitnesses w (wiresExcl ((nPublic + 1) % 2 ^ 32) r.nWires) cs vm with
  | (cs, .error e) => (cs, .error e)
  | (cs, .ok vm) =>
    (r.constraints.foldl (fun cs k => cs.enforce ⟨cliLc k.a vm, cliLc k.b vm, cliLc k.c vm⟩) cs, .ok ())

/-- `build_lc` of zkenc-js (lib.rs 357-369). -/
def jsBuildLc [Add F] [NatCast F] : Factors → VarMap → LC F → LC F
  | [], _, lc => lc
  | (wireId, coeff) :: rest, vars, lc =>
    match vars wireId with
    | some var => jsBuildLc rest vars (lcAdd lc (bytesToFr coeff, var))
    | none => jsBuildLc rest vars lc

/-- The constraint loop of zkenc-js (lib.rs 340-351). -/
def jsEnforceAll [Add F] [NatCast F] (vm : VarMap) : List FileCstr → CS F → CS F
  | [], cs => cs
  | k :: ks, cs => jsEnforceAll vm ks (cs.enforce ⟨jsBuildLc k.a vm [], jsBuildLc k.b vm [], jsBuildLc k.c vm []⟩)

/-- `CircomCircuit::generate_constraints` of zkenc-js (lib.rs 318-355). -/
def jsCircuit [Add F] [NatCast F] (r : JsR1cs) (w : Nat → Option F) : Circuit F := fun cs =>
  let nPublic := r.nPublicInputs
  match allocInputs w (wiresIncl nPublic) cs VarMap.init with
  | (cs, .error e) => (cs, .error e)
  | (cs, .ok vm) =>
  match allocWitnesses w (wiresExcl ((nPublic + 1) % 2 ^ 32) r.nWires) cs vm with
  | (cs, .error e) => (cs, .error e)
  | (cs, .ok vm) => (jsEnforceAll vm r.constraints cs, .ok ())

end Zkenc
