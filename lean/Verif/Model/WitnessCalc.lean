import Verif.Model.Inputs
/-!
# The witness calculator's input handling — `packages/zkenc-js/src/witness_calculator.ts` 59-106, 341-375

The compiled circuit (a WebAssembly instance) is an external program: an arbitrary state with the exported functions the calculator
calls. What is written after the witness is computed is in `Model/WtnsWrite.lean`.
-/

namespace Zkenc

/-! ## Signal hash -/

/-- `charCodeAt(0), charCodeAt(1), …`: UTF-16 code units of a string (witness_calculator.ts 366-367). -/
def utf16 (s : Str) : List Nat :=
  s.flatMap fun c =>
    if c.toNat < 0x10000 then [c.toNat] else [0xD800 + (c.toNat - 0x10000) / 0x400, 0xDC00 + (c.toNat - 0x10000) % 0x400]

/-- The multiplier (witness_calculator.ts 368). -/
def fnvPrime : Nat := 0x100000001b3

/-- One iteration of the loop of `fnvHash` (witness_calculator.ts 367-369), on unbounded integers. -/
def fnvStep (hash u : Nat) : Nat := ((hash ^^^ u) * fnvPrime) % 2 ^ 64

/-- The loop of `fnvHash` on the code units (witness_calculator.ts 366-370). -/
def fnvLoop (us : List Nat) (hash : Nat) : Nat := us.foldl fnvStep hash

/-- Hexadecimal digit, lower case. -/
def hexChar (d : Nat) : Char := if d < 10 then Char.ofNat (48 + d) else Char.ofNat (87 + d)

/-- `hash.toString(16)` (witness_calculator.ts 371). -/
def natHex (n : Nat) : Str :=
  if _h : n < 16 then [hexChar n] else natHex (n / 16) ++ [hexChar (n % 16)]
termination_by n
decreasing_by omega

/-- `fnvHash` (witness_calculator.ts 363-375); `"0".repeat(n)` throws a `RangeError` for negative `n`. -/
def fnvHash (s : Str) : Res Str :=
  let shash := natHex (fnvLoop (utf16 s) 0xCBF29CE484222325)
  if 16 < shash.length then Res.fail "RangeError" else .ok (List.replicate (16 - shash.length) '0' ++ shash)

/-- `parseInt(s, 16)` (witness_calculator.ts 71-72): the value of the longest prefix of hexadecimal digits, `NaN` if it is empty.
Simplification: leading white space, signs and `0x` (none of which occurs in a hash) are not handled. -/
def parseInt16 (s : Str) : Option Nat :=
  let ds := s.takeWhile fun c => (hexVal c).isSome
  if ds = [] then none else some (ds.foldl (fun a c => 16 * a + (hexVal c).getD 0) 0)

/-- `hMSB` and `hLSB` (witness_calculator.ts 70-72). -/
def hashHalves (key : Str) : Res (Nat × Nat) :=
  fnvHash key >>= fun h =>
  match parseInt16 (h.take 8), parseInt16 ((h.drop 8).take 8) with
  | some a, some b => .ok (a, b)
  | _, _ => Res.fail "NaN"

/-! ## Values -/

/-- What `BigInt(x)` makes of JS numbers: `big z` for a number whose text is the integer `z` (equal to `z` up to `2^53`; beyond that the
text is only the shortest decimal that rounds to the number), `text s` for numbers with other texts (`none`: not an integer, a
`RangeError`). -/
structure JsNums where
  big : Int → Int
  big_small : ∀ z, z.natAbs ≤ 2 ^ 53 → big z = z
  text : Str → Option Int

/-- `BigInt(a)` (witness_calculator.ts 352) for a value that is not an array; an object becomes the text `[object Object]`. -/
def toBigInt (N : JsNums) : JsVal → Res Int
  | .null => Res.fail "TypeError"
  | .undef => Res.fail "TypeError"
  | .bool b => .ok (if b then 1 else 0)
  | .num z => .ok (N.big z)
  | .numText s => Res.ofOption (N.text s) "RangeError"
  | .bigint z => .ok z
  | .str s => Res.ofOption (jsBigInt s) "SyntaxError"
  | .arr _ => Res.fail "unreachable"
  | .obj _ => Res.fail "SyntaxError"

mutual
/-- `fillArray` (witness_calculator.ts 346-354). -/
def fillArray (N : JsNums) : JsVal → List Int → Res (List Int)
  | .arr l, res => fillArrays N l res
  | .null, res => toBigInt N .null >>= fun z => .ok (res ++ [z])
  | .undef, res => toBigInt N .undef >>= fun z => .ok (res ++ [z])
  | .bool b, res => toBigInt N (.bool b) >>= fun z => .ok (res ++ [z])
  | .num n, res => toBigInt N (.num n) >>= fun z => .ok (res ++ [z])
  | .numText s, res => toBigInt N (.numText s) >>= fun z => .ok (res ++ [z])
  | .bigint n, res => toBigInt N (.bigint n) >>= fun z => .ok (res ++ [z])
  | .str s, res => toBigInt N (.str s) >>= fun z => .ok (res ++ [z])
  | .obj l, res => toBigInt N (.obj l) >>= fun z => .ok (res ++ [z])
/-- The loop over the items (witness_calculator.ts 348-350). -/
def fillArrays (N : JsNums) : List JsVal → List Int → Res (List Int)
  | [], res => .ok res
  | x :: xs, res =>
    match fillArray N x res with
    | .error e => .error e
    | .ok res' => fillArrays N xs res'
end

/-- `flatArray` (witness_calculator.ts 341-355). -/
def flatArray (N : JsNums) (a : JsVal) : Res (List Int) := fillArray N a []

/-! ## The calculator -/

/-- The exported functions of the compiled circuit used at witness_calculator.ts 39-106: number of limbs and limbs of the prime, `init`,
`getInputSignalSize`, `setInputSignal` (with the limbs found in the shared memory, least significant first), `getInputSize`.
Simplification: the two size functions do not depend on the state (in circom's output they read constant tables). -/
structure CalcInst (σ : Type) where
  n32 : Nat
  primeLimb : Nat → Int
  init : Bool → σ → Res σ
  signalSize : Nat → Nat → Int
  setInput : σ → List Nat → Nat → Nat → Nat → Res σ
  inputSize : Int

section
variable {σ : Type} (N : JsNums) (x : CalcInst σ)

/-- `this.prime` (witness_calculator.ts 45-50). -/
def CalcInst.prime : Nat := fromArray32 (((List.range x.n32).map fun j => toU32 (x.primeLimb j)).reverse)

/-- What `writeSharedRWMemory` stores before a signal is set (witness_calculator.ts 87-90): `arrFr[n32 - 1 - j]` at `j`; a missing
element is `undefined`, stored as 0. -/
def sharedMemory (n32 : Nat) (arr : List Nat) : List Nat := (List.range n32).map fun j => arr.getD (n32 - 1 - j) 0

/-- The loop over the values of one signal (witness_calculator.ts 86-97); `%` by a zero prime is a `RangeError`. -/
def setValues (hMSB hLSB : Nat) : List Int → Nat → σ → Nat → Res (σ × Nat)
  | [], _, s, counter => .ok (s, counter)
  | z :: zs, i, s, counter =>
    if x.prime = 0 then Res.fail "RangeError" else
    x.setInput s (sharedMemory x.n32 (toArray32 (normalizeBig z x.prime).toNat x.n32)) hMSB hLSB i >>= fun s' =>
    setValues hMSB hLSB zs (i + 1) s' (counter + 1)

/-- The loop over the keys (witness_calculator.ts 69-98). -/
def setKeys : List (Str × JsVal) → σ → Nat → Res (σ × Nat)
  | [], s, counter => .ok (s, counter)
  | (k, v) :: rest, s, counter =>
    hashHalves k >>= fun h =>
    flatArray N v >>= fun fArr =>
    if x.signalSize h.1 h.2 < 0 then Res.fail "Signal not found" else
    if (fArr.length : Int) < x.signalSize h.1 h.2 then Res.fail "Not enough values for input signal" else
    if (fArr.length : Int) > x.signalSize h.1 h.2 then Res.fail "Too many values for input signal" else
    setValues x h.1 h.2 fArr 0 s counter >>= fun r =>
    setKeys rest r.1 r.2

/-- `_doCalculateWitness` (witness_calculator.ts 59-106): the state of the circuit afterwards. -/
def doCalculateWitness (sanityCheck : Bool) (input : List (Str × JsVal)) (s : σ) : Res σ :=
  x.init sanityCheck s >>= fun s =>
  setKeys N x input s 0 >>= fun r =>
  if (r.2 : Int) < x.inputSize then Res.fail "Not all inputs have been set" else .ok r.1

end

end Zkenc
