import Verif.Model.WitnessCalc
/-!
# Specification: 64-bit FNV-1a, flattening, circom input signals
-/

namespace Zkenc.CalcSpec

open Zkenc

/-- 64-bit FNV-1a on machine words. -/
def fnv1a (units : List UInt64) : UInt64 := units.foldl (fun h u => (h ^^^ u) * 0x100000001b3) 0xcbf29ce484222325

/-- The hash of a signal name: FNV-1a over its UTF-16 code units. -/
def nameHash (s : Str) : UInt64 := fnv1a ((utf16 s).map UInt64.ofNat)

/-- The number written by hexadecimal digits `0-9a-f`. -/
def hexValue (s : Str) : Nat := s.foldl (fun a c => 16 * a + (if c ≤ '9' then c.toNat - 48 else c.toNat - 87)) 0

mutual
/-- The values of a nested array in row-major order. -/
def leaves : JsVal → List JsVal
  | .arr l => leavesList l
  | .null => [.null]
  | .undef => [.undef]
  | .bool b => [.bool b]
  | .num z => [.num z]
  | .numText s => [.numText s]
  | .bigint z => [.bigint z]
  | .str s => [.str s]
  | .obj l => [.obj l]
/-- Leaves of a list of values. -/
def leavesList : List JsVal → List JsVal
  | [] => []
  | x :: xs => leaves x ++ leavesList xs
end

/-- The integer a single value stands for. -/
inductive IsInt (N : JsNums) : JsVal → Int → Prop
  | bool (b : Bool) : IsInt N (.bool b) (if b then 1 else 0)
  | num (z : Int) : IsInt N (.num z) (N.big z)
  | numText (s : Str) (z : Int) : N.text s = some z → IsInt N (.numText s) z
  | bigint (z : Int) : IsInt N (.bigint z) z
  | str (s : Str) (z : Int) : jsBigInt s = some z → IsInt N (.str s) z

/-- One assignment of an input signal: hash of the name, index, integer. -/
structure Setting where
  hash : UInt64
  index : Nat
  value : Int

/-- The settings for one key. -/
def keySettings (k : Str) (zs : List Int) : List Setting := zs.zipIdx.map fun p => ⟨nameHash k, p.2, p.1⟩

/-- The limbs of a number, least significant first. -/
def limbs (n : Nat) (v : Nat) : List Nat := (List.range n).map fun j => v / 2 ^ (32 * j) % 2 ^ 32

/-- Perform settings in order: each value reduced to `[0, p)`. -/
def perform {σ : Type} (x : CalcInst σ) : List Setting → σ → Res σ
  | [], s => .ok s
  | t :: ts, s =>
    x.setInput s (limbs x.n32 (t.value % x.prime).toNat) (t.hash.toNat / 2 ^ 32) (t.hash.toNat % 2 ^ 32) t.index >>= fun s' =>
    perform x ts s'

/-- What the code generated by circom does with input signals: the declared signals (names and numbers of values) are addressed by the
hash of their names; a value can be set once; unknown signals have size -1. The state is the table of values set so far. `prime` gives the
limbs of the prime. -/
def circomInst (declared : List (Str × Nat)) (n32 : Nat) (prime : Nat → Int) : CalcInst (UInt64 → Nat → Option Nat) where
  n32 := n32
  primeLimb := prime
  init := fun _ _ => .ok fun _ _ => none
  signalSize := fun hi lo =>
    match declared.find? fun d => (nameHash d.1).toNat = hi * 2 ^ 32 + lo with
    | some d => (d.2 : Int)
    | none => -1
  setInput := fun s mem hi lo i =>
    let h := UInt64.ofNat (hi * 2 ^ 32 + lo)
    if (s h i).isSome then Res.fail "Signal already set" else
    .ok fun h' i' => if h' = h ∧ i' = i then some (fromArray32 mem.reverse) else s h' i'
  inputSize := ((declared.map Prod.snd).sum : Nat)

end Zkenc.CalcSpec
