import Verif.Model.Witness
import Verif.Spec.EndToEnd
import Verif.Spec.WitnessCalc
/-!
# Specification: a correctly compiled circuit

What the circom compiler promises about the three files it writes for one circuit: constraints (`.r1cs`), names (`.sym`) and the witness
program (`.wasm`).
-/

namespace Zkenc.CalcSpec

open Zkenc Zkenc.Spec Zkenc.InputSpec

/-- The path is an index into an array of the given dimensions. -/
def InDims : List Nat → List Nat → Prop
  | [], [] => True
  | d :: ds, i :: is => i < d ∧ InDims ds is
  | _, _ => False

/-- Position of an element in row-major order. -/
def rowMajor : List Nat → List Nat → Nat
  | d :: ds, i :: is => i * ds.prod + rowMajor ds is
  | _, _ => 0

/-- Not an array. -/
def JsLeaf : JsVal → Prop
  | .arr _ => False
  | _ => True

/-- `y` is found in `v` by following the array indices `path`. -/
inductive JsAtPath : JsVal → List Nat → JsVal → Prop
  | here (v : JsVal) : JsAtPath v [] v
  | elem {l : List JsVal} {i : Nat} {x : JsVal} {path : List Nat} {y : JsVal} : l[i]? = some x → JsAtPath x path y →
      JsAtPath (.arr l) (i :: path) y

/-- A (nested) array of the given dimensions. -/
def HasShape : JsVal → List Nat → Prop
  | v, [] => JsLeaf v
  | v, d :: ds => ∃ l, v = .arr l ∧ l.length = d ∧ ∀ x ∈ l, HasShape x ds

/-- The witness values in a state of the compiled circuit. -/
def witnessOf {σ : Type} (x : CircuitWasm σ) (t : σ) : List Fr := (calcWitness (x.exports t)).map fun v => ((v : Nat) : Fr)

/-- The compiled circuit `x` belongs to the constraints `r` and the symbol table `symtab`, and has the input signals `declared` with their
dimensions. -/
structure Compiled {σ : Type} (x : CircuitWasm σ) (r : R1csFile) (symtab : AMap Nat) (declared : List (Str × List Nat)) : Prop where
  n32 : x.n32 = 8
  prime : x.prime = frModulus
  size : x.witnessSize = r.nWires
  /-- Only elements within the dimensions of a signal have names in the symbol table. -/
  names : ∀ k dims path w, (k, dims) ∈ declared → symtab.get ("main.".toList ++ signalName k path) = some w → InDims dims path
  /-- When all inputs have been set without an exception, the witness has canonical values, satisfies the constraints, and the wires named in
  the symbol table carry the values that were set. -/
  run : ∀ sanity s0 L t, x.init sanity x.start = .ok s0 → perform x.toCalcInst L s0 = .ok t → x.inputSize ≤ (L.length : Int) →
    (∀ v ∈ calcWitness (x.exports t), v < frModulus) ∧ Witness r (witnessOf x t) ∧
    ∀ k dims path w u, (k, dims) ∈ declared → symtab.get ("main.".toList ++ signalName k path) = some w → u ∈ L → u.hash = nameHash k →
      u.index = rowMajor dims path → (witnessOf x t)[w]? = some (u.value : Fr)

/-- A number that both `encap` (through its text) and the witness calculator (through `BigInt`) read as the same non-negative integer:
numbers up to `2^53`, `BigInt`s and integer texts below `2^256`. -/
inductive ExactNat : JsVal → Nat → Prop
  | num (n : Nat) : n ≤ 2 ^ 53 → ExactNat (.num n) n
  | bigint (n : Nat) : n < 2 ^ 256 → ExactNat (.bigint n) n
  | str (s : Str) (n : Nat) : jsBigInt s = some (n : Int) → n < 2 ^ 256 → ExactNat (.str s) n

/-- A single such number or an array of them. -/
def PublicValue (v : JsVal) : Prop := (∃ n, ExactNat v n) ∨ ∃ l, v = .arr l ∧ ∀ y ∈ l, ∃ n, ExactNat y n

/-- A JSON value (as the CLI reads it) and a JS value (as the witness calculator reads it) with the same non-negative integers in the same
arrangement. -/
inductive SameInts (N : JsNums) : Json → JsVal → Prop
  | int (n : Nat) (v : JsVal) : IsInt N v n → SameInts N (.int n) v
  | str (s : Str) (n : Nat) (v : JsVal) : DecText s n → IsInt N v n → SameInts N (.str s) v
  | arr {l : List Json} {l' : List JsVal} : l.length = l'.length → (∀ (i : Nat) x y, l[i]? = some x → l'[i]? = some y → SameInts N x y) →
      SameInts N (.arr l) (.arr l')

end Zkenc.CalcSpec
