import Verif.Model.SignatureR1cs
import Verif.Spec.Inputs
/-!
# Specification: two of three signers

What the multi-signature circuit (signature.circom) promises about the signers, without reference to its constraints.
-/

namespace Zkenc.SignatureSpec

open Zkenc Zkenc.InputSpec

/-- `Q` is twice `P` on the curve `168700·x² + y² = 1 + 168696·x²·y²` (Baby Jubjub), denominators multiplied out. -/
def Twice (P Q : Fr × Fr) : Prop :=
  (1 + 168696 * P.1 ^ 2 * P.2 ^ 2) * Q.1 = 2 * P.1 * P.2 ∧ (1 - 168696 * P.1 ^ 2 * P.2 ^ 2) * Q.2 = P.2 ^ 2 - 168700 * P.1 ^ 2

/-- Four times the key has a non-zero first coordinate: on the curve, the key is not of small order. -/
def Usable (A : Fr × Fr) : Prop := ∃ P Q, Twice A P ∧ Twice P Q ∧ Q.1 ≠ 0

/-- `s` and `t` are two different numbers from 0 to 2, `A` and `B` are the keys of these numbers, and the keys are usable. -/
def TwoSigners (keys : Fin 3 → Fr × Fr) (s t : Fr) (A B : Fr × Fr) : Prop :=
  ∃ i j : Fin 3, i ≠ j ∧ s = ((i : Nat) : Fr) ∧ t = ((j : Nat) : Fr) ∧ A = keys i ∧ B = keys j ∧ Usable (keys i) ∧ Usable (keys j)

/-- What the checks of the circuit itself, without the verifiers, let through for one signer: index 0, 1 or 2 with the key of this number, or index `-1` with the
"key" `(0, 0)`. -/
def Selected (keys : Fin 3 → Fr × Fr) (s : Fr) (A : Fr × Fr) : Prop :=
  (∃ i : Fin 3, s = ((i : Nat) : Fr) ∧ A = keys i) ∨ (s = -1 ∧ A = (0, 0))

/-- What `signature.r1cs` is known to hold: 8449 wires, no public outputs, 7 public inputs, and the constraints of the model at their places. -/
structure IsSignature (r : R1csFile) : Prop where
  wires : r.nWires = 8449
  pubOut : r.nPubOut = 0
  pubIn : r.nPubIn = 7
  rules : ∀ p ∈ signatureRules, r.constraints[p.1]? = some p.2.toFile

/-- What `signature.sym` is known to say: the wires 1 to 7 belong to `message` and `publicKeys[0][0]` … `publicKeys[2][1]`, and to no other signal. -/
structure IsSignatureSym (symtab : AMap Nat) : Prop where
  message : symtab.get ("main.".toList ++ "message".toList) = some 1
  keys : ∀ i j, i < 3 → j < 2 → symtab.get ("main.".toList ++ signalName "publicKeys".toList [i, j]) = some (2 + 2 * i + j)
  only : ∀ name w, symtab.get ("main.".toList ++ name) = some w → 1 ≤ w → w ≤ 7 →
    name = "message".toList ∨ ∃ i j, i < 3 ∧ j < 2 ∧ name = signalName "publicKeys".toList [i, j]

end Zkenc.SignatureSpec
