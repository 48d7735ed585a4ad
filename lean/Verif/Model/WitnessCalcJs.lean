import Verif.Model.Witness
/-!
# The original witness calculator — `packages/zkenc-js/src/witness_calculator.js`

The file that `witness_calculator.ts` is a rewrite of. It is what the test suite runs (vitest resolves the import in `witness.ts` to the
`.js` file), while the published package contains the compiled `.ts`. Functions that are the same in both files (`toArray32`, `fromArray32`,
`fnvHash`, `calculateWitness`, `calculateBinWitness`) are not repeated.
-/

namespace Zkenc

mutual
/-- `fillArray` (witness_calculator.js 308-316): values are collected as they are. -/
def rawFill : JsVal → List JsVal → List JsVal
  | .arr l, res => rawFills l res
  | .null, res => res ++ [.null]
  | .undef, res => res ++ [.undef]
  | .bool b, res => res ++ [.bool b]
  | .num n, res => res ++ [.num n]
  | .numText s, res => res ++ [.numText s]
  | .bigint n, res => res ++ [.bigint n]
  | .str s, res => res ++ [.str s]
  | .obj l, res => res ++ [.obj l]
/-- The loop over the items (witness_calculator.js 310-312). -/
def rawFills : List JsVal → List JsVal → List JsVal
  | [], res => res
  | v :: vs, res => rawFills vs (rawFill v res)
end

/-- `flatArray` (witness_calculator.js 303-317). -/
def rawFlat (a : JsVal) : List JsVal := rawFill a []

section
variable {σ : Type} (N : JsNums) (x : CalcInst σ)

/-- The loop over the values of one signal (witness_calculator.js 151-163); `BigInt(n)` is called by `normalize`, value by value
(witness_calculator.js 319-323). -/
def rawSetValues (hMSB hLSB : Nat) : List JsVal → Nat → σ → Nat → Res (σ × Nat)
  | [], _, s, counter => .ok (s, counter)
  | v :: vs, i, s, counter =>
    toBigInt N v >>= fun z =>
    if x.prime = 0 then Res.fail "RangeError" else
    x.setInput s (sharedMemory x.n32 (toArray32 (normalizeBig z x.prime).toNat x.n32)) hMSB hLSB i >>= fun s' =>
    rawSetValues hMSB hLSB vs (i + 1) s' (counter + 1)

/-- The loop over the keys (witness_calculator.js 134-165). -/
def rawSetKeys : List (Str × JsVal) → σ → Nat → Res (σ × Nat)
  | [], s, counter => .ok (s, counter)
  | (k, v) :: rest, s, counter =>
    hashHalves k >>= fun h =>
    if x.signalSize h.1 h.2 < 0 then Res.fail "Signal not found" else
    if ((rawFlat v).length : Int) < x.signalSize h.1 h.2 then Res.fail "Not enough values for input signal" else
    if ((rawFlat v).length : Int) > x.signalSize h.1 h.2 then Res.fail "Too many values for input signal" else
    rawSetValues N x h.1 h.2 (rawFlat v) 0 s counter >>= fun r =>
    rawSetKeys rest r.1 r.2

/-- `_doCalculateWitness` (witness_calculator.js 131-169). The constructor receives the options object as `sanityCheck`, which counts as
true (witness_calculator.js 66-78), so `init` is always called with 1. -/
def rawCalculate (input : List (Str × JsVal)) (s : σ) : Res σ :=
  x.init true s >>= fun s =>
  rawSetKeys N x input s 0 >>= fun r =>
  if (r.2 : Int) < x.inputSize then Res.fail "Not all inputs have been set" else .ok r.1

end

/-- `buff32[pos] = parseInt(hex.slice(0,8), 16); buff32[pos+1] = parseInt(hex.slice(8,16), 16)` (witness_calculator.js 232-234, 258-260);
`NaN` is stored as 0. -/
def hexLength (n : Nat) : Bytes :=
  let hex := natHex n
  u32le (((parseInt16 (hex.take 8)).getD 0) % 2 ^ 32) ++ u32le (((parseInt16 ((hex.drop 8).take 8)).getD 0) % 2 ^ 32)

/-- `calculateWTNSBin` after the witness is computed (witness_calculator.js 208-272). -/
def rawWtnsBin (x : CalcExports) : Bytes :=
  [119, 116, 110, 115] ++ (u32le 2 ++ (u32le 2 ++
    (u32le 1 ++ (hexLength (8 + x.n32 * 4) ++ (u32le (x.n32 * 4) ++ (limbBytes x.n32 x.prime ++ (u32le x.witnessSize ++
    (u32le 2 ++ (hexLength (x.n32 * 4 * x.witnessSize) ++ calcBin x)))))))))

end Zkenc
