import Verif.Model.Api
import Verif.Model.WitnessCalc
/-!
# The witness functions of zkenc-js and the API calls that use them

`packages/zkenc-js/src/witness.ts`, `packages/zkenc-js/src/witness_calculator.ts` 27-57, 108-245, `packages/zkenc-js/src/zkenc.ts`
248-265, 405-456.
-/

namespace Zkenc

/-- A freshly instantiated compiled circuit: what the constructor and the witness functions read from its exports
(witness_calculator.ts 35-53, 118-124, 184-214) besides what is in `CalcInst`. `witness t i j` is limb `j` of value `i` in the state `t`
after the inputs have been set; `start` is the state after instantiation.
Simplification: `getWitness` does not change what later calls of `getWitness` return. -/
structure CircuitWasm (σ : Type) extends CalcInst σ where
  version : Int
  witnessSize : Nat
  witness : σ → Nat → Nat → Int
  start : σ

/-- The exports seen by the writers, in a given state. -/
def CircuitWasm.exports {σ : Type} (x : CircuitWasm σ) (t : σ) : CalcExports := ⟨x.n32, x.primeLimb, x.witnessSize, x.witness t⟩

section
variable {σ : Type} (N : JsNums)

/-- `calculateWitness` (witness.ts 23-35): `wasm` is the outcome of compiling and instantiating the circuit's wasm
(witness_calculator.ts 226-312); a new instance is made in every call. -/
def calculateWitness (wasm : Res (CircuitWasm σ)) (inputs : List (Str × JsVal)) : Res Bytes :=
  wasm >>= fun x =>
  doCalculateWitness N x.toCalcInst false inputs x.start >>= fun t =>
  .ok (calcWtnsBin (x.exports t))

/-- `calculateWitnessArray` (witness.ts 44-50). -/
def calculateWitnessArray (wasm : Res (CircuitWasm σ)) (inputs : List (Str × JsVal)) : Res (List Nat) :=
  wasm >>= fun x =>
  doCalculateWitness N x.toCalcInst false inputs x.start >>= fun t =>
  .ok (calcWitness (x.exports t))

/-- The result of `getCircuitInfo`. -/
structure CircuitInfo where
  version : Int
  n32 : Nat
  prime : Nat
  witnessSize : Nat

/-- `getCircuitInfo` (witness.ts 58-72). -/
def getCircuitInfo (wasm : Res (CircuitWasm σ)) : Res CircuitInfo :=
  wasm >>= fun x => .ok ⟨x.version, x.n32, x.prime, x.witnessSize⟩

variable {G1 G2 GT : Type} [AddCommGroup G1] [Module Fr G1] [AddCommGroup G2] [Module Fr G2] [AddCommGroup GT] [Module Fr GT]
  (S : Sys G1 G2 GT)

/-- The exported function `decap(circuitFiles, ciphertext, inputs)` (zkenc.ts 248-265), after initialisation. -/
def jsDecapApi (r1cs : Bytes) (wasm : Res (CircuitWasm σ)) (ciphertext : Bytes) (inputs : List (Str × JsVal)) : Res Bytes :=
  jsDecap S r1cs (calculateWitness N wasm inputs) ciphertext

/-- The exported function `decrypt(circuitFiles, ciphertext, inputs)` (zkenc.ts 405-456), after initialisation. -/
def jsDecryptApi (r1cs : Bytes) (wasm : Res (CircuitWasm σ)) (ciphertext : Bytes) (inputs : List (Str × JsVal)) : Res Bytes :=
  jsDecrypt S r1cs (calculateWitness N wasm inputs) ciphertext

end

end Zkenc
