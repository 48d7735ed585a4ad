import Verif.Model.Circom
import Verif.Model.Wkem
import Verif.Spec.R1cs
/-!
# Specification vocabulary shared by the property theorems
-/

namespace Zkenc

/-- The two front ends. -/
inductive Tool where
  | cli
  | js
  deriving DecidableEq, Repr

/-- The circuit object the tool builds from parsed R1CS data and a wire assignment. -/
def Tool.circuit {F : Type} [Add F] [NatCast F] (t : Tool) (r : R1csFile) (w : Nat → Option F) : Circuit F :=
  match t with
  | .cli => cliCircuit r w
  | .js => jsCircuit r.toJs w

end Zkenc

namespace Zkenc.Spec

variable {F : Type}

/-- The number of public wires is a `u32` and leaves room for the constant wire (`n_public + 1` does not overflow). -/
def PublicFits (r : R1csFile) : Prop := r.nPubOut + r.nPubIn + 1 < 2 ^ 32

instance (r : R1csFile) : Decidable (PublicFits r) := by unfold PublicFits; infer_instance

/-- The documented encapsulation workflow: at least one wire of the circuit is left unassigned. -/
def SomeWireMissing (r : R1csFile) (w : Nat → Option F) : Prop := ∃ i, 1 ≤ i ∧ i < r.nAlloc ∧ w i = none

/-- `w` assigns every wire of the circuit, with the values `val`. -/
def Assigns (r : R1csFile) (w : Nat → Option F) (val : Nat → F) : Prop :=
  ∀ i, 1 ≤ i → i < r.nAlloc → w i = some (val i)

/-- `val` is a wire valuation of the circuit: wire 0 is the constant one, wires the circuit does not have are 0. -/
structure Valuation [Field F] (r : R1csFile) (val : Nat → F) : Prop where
  one : val 0 = 1
  beyond : ∀ i, r.nAlloc ≤ i → val i = 0

/-- The public inputs recorded in a ciphertext agree with wires 1, 2, … of the valuation. -/
def PublicMatch {G1 G2 : Type} (ct : Ciphertext F G1 G2) (val : Nat → F) : Prop :=
  ∀ i (h : i < ct.publicInputs.length), ct.publicInputs[i] = val (i + 1)

section
variable {G1 G2 GT : Type} [Field F] [AddCommGroup G1] [Module F G1]
  [AddCommGroup G2] [Module F G2] [AddCommGroup GT] [Module F GT]

/-- The attack: a key computed from the ciphertext alone, with public group operations only. -/
def recoverKey (P : Pairing F G1 G2 GT) (ct : Ciphertext F G1 G2) : Key :=
  P.kdf (P.e ct.encapKey.alphaG1 ct.encapKey.betaG2
    + P.e (List.zipWith (fun s b => s • b) (1 :: ct.publicInputs) ct.encapKey.phiDelta).sum P.g2)

end

end Zkenc.Spec
