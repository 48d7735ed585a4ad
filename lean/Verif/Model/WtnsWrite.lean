import Verif.Model.Serialize
/-!
# Writers of `.wtns` bytes in zkenc-js

`packages/zkenc-js/src/zkenc.ts` 142-227 and `packages/zkenc-js/src/witness_calculator.ts` 27-217, 315-361.
Simplification: the writers fill a pre-sized buffer front to back; the model concatenates the written pieces.
`Uint32Array` is little-endian (as on every platform that runs Node or a browser).
-/

namespace Zkenc

/-- `bigIntToLeBytes32` (zkenc.ts 219-227): `n` times `bytes[i] = v & 0xff; v >>= 8` on a signed big integer. -/
def bigIntLeBytes : Nat → Int → Bytes
  | 0, _ => []
  | n + 1, v => UInt8.ofNat (v % 256).toNat :: bigIntLeBytes n (v / 256)

/-- `bigIntToLeBytes32` (zkenc.ts 219-227). -/
def bigIntToLeBytes32 (v : Int) : Bytes := bigIntLeBytes 32 v

/-- `serializeWitnessSimple` (zkenc.ts 142-214). -/
def serializeWitnessSimple (w : List Int) : Bytes :=
  [119, 116, 110, 115] ++ (u32le 2 ++ (u32le 2 ++
    (u32le 1 ++ (u64le (4 + 32 + 4) ++ (u32le 32 ++ (bigIntToLeBytes32 frModulus ++ (u32le w.length ++
    (u32le 2 ++ (u64le (w.length * 32) ++ (w.map bigIntToLeBytes32).flatten)))))))))

/-- What the compiled circuit exports (witness_calculator.ts 38-52, 118-124, 184-214): number of 32-bit limbs, limbs of the prime
and of the witness values as delivered by `readSharedRWMemory(j)` (least significant limb first), number of witness values. Wasm
returns signed 32-bit numbers; storing them in a `Uint32Array` keeps them modulo `2^32`. -/
structure CalcExports where
  n32 : Nat
  prime : Nat → Int
  witnessSize : Nat
  witness : Nat → Nat → Int

/-- `arr[k] = x` for a `Uint32Array` (witness_calculator.ts 46, 122, 142, 191, 211). -/
def toU32 (x : Int) : Nat := (x % 2 ^ 32).toNat

/-- `buff32[pos + j] = readSharedRWMemory(j)` for `j < n32`, seen as bytes (witness_calculator.ts 190-192, 210-212). -/
def limbBytes (n32 : Nat) (limb : Nat → Int) : Bytes := ((List.range n32).map fun j => u32le (toU32 (limb j))).flatten

/-- `calculateBinWitness` after the witness is computed (witness_calculator.ts 129-148). -/
def calcBin (x : CalcExports) : Bytes := ((List.range x.witnessSize).map fun i => limbBytes x.n32 (x.witness i)).flatten

/-- `calculateWTNSBin` after the witness is computed (witness_calculator.ts 150-217). -/
def calcWtnsBin (x : CalcExports) : Bytes :=
  [119, 116, 110, 115] ++ (u32le 2 ++ (u32le 2 ++
    (u32le 1 ++ (u64le (8 + x.n32 * 4) ++ (u32le (x.n32 * 4) ++ (limbBytes x.n32 x.prime ++ (u32le x.witnessSize ++
    (u32le 2 ++ (u64le (x.n32 * 4 * x.witnessSize) ++ calcBin x)))))))))

/-- `fromArray32` (witness_calculator.ts 332-339): most significant limb first. -/
def fromArray32 (a : List Nat) : Nat := a.foldl (fun res d => res * 2 ^ 32 + d) 0

/-- Digits pushed to the front while `rem` is not 0 (witness_calculator.ts 318-321). -/
def toArray32Digits (rem : Nat) (res : List Nat) : List Nat :=
  if h : rem = 0 then res else toArray32Digits (rem / 2 ^ 32) (rem % 2 ^ 32 :: res)
termination_by rem
decreasing_by exact Nat.div_lt_self (Nat.pos_of_ne_zero h) (by decide)

/-- `toArray32` on a non-negative integer (witness_calculator.ts 315-330): padded with zeros at the front to `size` digits. -/
def toArray32 (rem size : Nat) : List Nat :=
  let res := toArray32Digits rem []
  List.replicate (size - res.length) 0 ++ res

/-- `normalize` (witness_calculator.ts 357-361): JS `%` keeps the sign of the dividend. -/
def normalizeBig (n : Int) (prime : Nat) : Int :=
  let res := n.tmod prime
  if res < 0 then res + prime else res

/-- `calculateWitness` after the witness is computed (witness_calculator.ts 108-127): `arr[n32-1-j] = readSharedRWMemory(j)`. -/
def calcWitness (x : CalcExports) : List Nat :=
  (List.range x.witnessSize).map fun i =>
    fromArray32 (((List.range x.n32).map fun j => toU32 (x.witness i j)).reverse)

end Zkenc
