import Verif.Basic.Bytes
/-!
# Parsed R1CS data — `packages/zkenc-cli/src/r1cs.rs` 13-37, 240-242 and `packages/zkenc-js/src/lib.rs` 54-72
-/

namespace Zkenc

/-- `factors: Vec<(u32, Vec<u8>)>`: wire id and little-endian coefficient bytes
(r1cs.rs 34-37 `LinearCombination`; lib.rs 68-72). -/
abbrev Factors := List (Nat × Bytes)

/-- One constraint of the file (r1cs.rs 27-32 `Constraint`; lib.rs 68-72 `R1csConstraint`). -/
structure FileCstr where
  a : Factors
  b : Factors
  c : Factors
  deriving DecidableEq, Repr

/-- `R1csFile` (r1cs.rs 13-25). -/
structure R1csFile where
  fieldSize : Nat
  prime : Bytes
  nWires : Nat
  nPubOut : Nat
  nPubIn : Nat
  nPrvIn : Nat
  nLabels : Nat
  nConstraints : Nat
  constraints : List FileCstr
  wire2label : List Nat
  deriving DecidableEq, Repr

/-- `R1csFile::n_public_inputs` (r1cs.rs 240-242): a `u32` addition, wrapping in release builds. -/
def R1csFile.nPublicInputs (r : R1csFile) : Nat := (r.nPubOut + r.nPubIn) % 2 ^ 32

/-- `R1csHeader` of zkenc-js (lib.rs 54-60) together with the constraints. -/
structure JsR1cs where
  fieldSize : Nat
  nWires : Nat
  nPubOut : Nat
  nPubIn : Nat
  nConstraints : Nat
  constraints : List FileCstr
  deriving DecidableEq, Repr

/-- `R1csHeader::n_public_inputs` (lib.rs 62-66), wrapping in release builds. -/
def JsR1cs.nPublicInputs (r : JsR1cs) : Nat := (r.nPubOut + r.nPubIn) % 2 ^ 32

/-- The data the JS parser keeps of what the CLI parser keeps (not a function of the code: used to state agreement). -/
def R1csFile.toJs (r : R1csFile) : JsR1cs :=
  { fieldSize := r.fieldSize, nWires := r.nWires, nPubOut := r.nPubOut, nPubIn := r.nPubIn,
    nConstraints := r.nConstraints, constraints := r.constraints }

end Zkenc
