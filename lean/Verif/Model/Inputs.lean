import Verif.Model.Sym
import Verif.Model.Serialize
import Verif.Model.WtnsWrite
import Verif.Model.WtnsParse
/-!
# From input objects to wire assignments

`packages/zkenc-cli/src/commands.rs` 24-66, 455-504 and `packages/zkenc-js/src/zkenc.ts` 81-122, `sym_parser.ts` 88-126,
`packages/zkenc-js/src/lib.rs` 384-405.

JSON text parsing is outside the model: the functions start from the parsed value.
-/

namespace Zkenc

/-! ## CLI -/

/-- `serde_json::Value` (commands.rs 457). `int z`: an integer literal that `serde_json` keeps as an integer or, out of the 64-bit
ranges, turns into a float; `float`: every other number (including `-0`). `obj` holds the entries in iteration order, keys are
distinct (a repeated key in the text keeps the last value). -/
inductive Json where
  | null
  | bool (b : Bool)
  | int (z : Int)
  | float
  | str (s : Str)
  | arr (l : List Json)
  | obj (l : List (Str × Json))

/-- `num_bigint::BigUint::from_str_radix(s, 10)`: an optional `+`, then digits; `_` is skipped but cannot come first. -/
def bigUintDigits (s : Str) : Option Nat :=
  let s := match s with
    | '+' :: t => if t.head? = some '+' then s else t
    | _ => s
  if s = [] then none else
  if s.head? = some '_' then none else
  let v := s.filter (fun c => c ≠ '_')
  if v.all isDig then some (decVal v) else none

/-- `num_bigint::BigInt::from_str`: an optional `-` (kept if `+` follows, which then fails), then `BigUint`. -/
def bigIntFromStr (s : Str) : Option Int :=
  match s with
  | '-' :: t => if t.head? = some '+' then (bigUintDigits s).map (fun n : Nat => -(n : Int)) else (bigUintDigits t).map (fun n : Nat => -(n : Int))
  | _ => (bigUintDigits s).map (fun n : Nat => (n : Int))

/-- `Fr::from_str` (commands.rs 483; ark-ff): the integer reduced modulo `p`. -/
def frFromStr (s : Str) : Option Fr := (bigIntFromStr s).map (fun z : Int => (z : Fr))

/-- `n.as_u64()` and then `n.as_i64()` with `as u64` (commands.rs 472-478). -/
def frFromJsonInt (z : Int) : Option Fr :=
  if 0 ≤ z ∧ z < 2 ^ 64 then some ((z.toNat : Nat) : Fr)
  else if -2 ^ 63 ≤ z ∧ z < 0 then some (((z + 2 ^ 64).toNat : Nat) : Fr)
  else none

/-- `format!("{}[{}]", key, idx)` (commands.rs 490; sym_parser.ts 100). -/
def idxKey (key : Str) (i : Nat) : Str := key ++ ('[' :: (natDec i ++ [']']))

mutual
/-- `flatten_value` of `parse_circuit_inputs_with_keys` (commands.rs 465-497). -/
def flattenValue : Json → Str → AMap Fr → Res (AMap Fr)
  | .int z, key, m =>
    match frFromJsonInt z with
    | some v => .ok (AMap.insert m key v)
    | none => Res.fail "Unsupported number format"
  | .float, _, _ => Res.fail "Unsupported number format"
  | .str s, key, m =>
    match frFromStr s with
    | some v => .ok (AMap.insert m key v)
    | none => Res.fail "Failed to parse string as field element"
  | .arr l, key, m => flattenArr l 0 key m
  | .null, _, _ => Res.fail "Unsupported JSON type"
  | .bool _, _, _ => Res.fail "Unsupported JSON type"
  | .obj _, _, _ => Res.fail "Unsupported JSON type"
/-- The loop over array items (commands.rs 488-493). -/
def flattenArr : List Json → Nat → Str → AMap Fr → Res (AMap Fr)
  | [], _, _, m => .ok m
  | x :: xs, i, key, m =>
    match flattenValue x (idxKey key i) m with
    | .error e => .error e
    | .ok m' => flattenArr xs (i + 1) key m'
end

/-- The loop over the object entries (commands.rs 499-501). -/
def flattenEntries : List (Str × Json) → AMap Fr → Res (AMap Fr)
  | [], m => .ok m
  | (k, v) :: rest, m =>
    match flattenValue v k m with
    | .error e => .error e
    | .ok m' => flattenEntries rest m'

/-- `parse_circuit_inputs_with_keys` after the JSON text is parsed (commands.rs 456-504). -/
def cliInputs : Json → Res (AMap Fr)
  | .obj l => flattenEntries l []
  | _ => Res.fail "JSON must be an object"

/-- `HashMap<u32, Fr>`. -/
abbrev WireMap := Nat → Option Fr

/-- `witness.insert(k, v)`. -/
def WireMap.insert (w : WireMap) (k : Nat) (v : Fr) : WireMap := fun i => if i = k then some v else w i

/-- One iteration of the loop at commands.rs 60-65. -/
def wireStep (sig : AMap Nat) (w : WireMap) (e : Str × Fr) : WireMap :=
  match sig.get e.1 with
  | some i => w.insert i e.2
  | none => w

/-- The wire assignment of `encap_command` and `encrypt_command` (commands.rs 55-65, 192-202). `inputs` lists the entries of the
input map in its iteration order. -/
def cliWires (sig : AMap Nat) (inputs : List (Str × Fr)) : WireMap :=
  inputs.foldl (wireStep sig) (WireMap.insert (fun _ => none) 0 1)

/-- Iteration order of a `HashMap`: any permutation of its entries. -/
structure HashOrder where
  ord : {V : Type} → AMap V → List (Str × V)
  perm : ∀ {V : Type} (m : AMap V), (ord m).Perm m

/-- From files to the wire assignment (commands.rs 41-65): symbol file text, parsed JSON, number of public inputs. -/
def cliAssign (h : HashOrder) (nPubIn : Nat) (sym : Str) (input : Json) : Res WireMap :=
  parseSymFile sym >>= fun wm =>
  let sig := inputSignals (h.ord wm) (some nPubIn)
  cliInputs input >>= fun inputs =>
  .ok (cliWires sig (h.ord inputs))

/-! ## JS -/

/-- Values of a JS input object. `num z`: a number whose `toString` is the decimal text of an integer (`|z| < 10^21`); `numText s`:
any other number with its text; `undef` is `undefined`. `obj` holds `Object.entries`. Simplification: plain data only (no
overridden `toString`, no symbols or functions). -/
inductive JsVal where
  | null
  | undef
  | bool (b : Bool)
  | num (z : Int)
  | numText (s : Str)
  | bigint (z : Int)
  | str (s : Str)
  | arr (l : List JsVal)
  | obj (l : List (Str × JsVal))

/-- `String({})`. -/
def objectText : Str := ['[', 'o', 'b', 'j', 'e', 'c', 't', ' ', 'O', 'b', 'j', 'e', 'c', 't', ']']

/-- `String(b)`. -/
def boolText (b : Bool) : Str := if b then ['t', 'r', 'u', 'e'] else ['f', 'a', 'l', 's', 'e']

mutual
/-- `String(v)` inside `Array.prototype.join` (null and undefined are empty), for nested values (sym_parser.ts 103). -/
def JsVal.joinText : JsVal → Str
  | .null => []
  | .undef => []
  | .bool b => boolText b
  | .num z => intDec z
  | .numText s => s
  | .bigint z => intDec z
  | .str s => s
  | .arr l => joinTexts l
  | .obj _ => objectText
/-- `Array.prototype.join(",")` (sym_parser.ts 103). -/
def joinTexts : List JsVal → Str
  | [] => []
  | x :: xs => x.joinText ++ joinRest xs
/-- The rest of the list, a comma before each item. -/
def joinRest : List JsVal → Str
  | [] => []
  | x :: xs => ',' :: (x.joinText ++ joinRest xs)
end

/-- `value.toString()` (sym_parser.ts 103, 115): throws on null and undefined. -/
def JsVal.toStr : JsVal → Res Str
  | .null => Res.fail "TypeError"
  | .undef => Res.fail "TypeError"
  | v => .ok v.joinText

/-- `Map<number, string>`: insertion order. -/
abbrev NMap := List (Nat × Str)

/-- `map.set(k, v)`. -/
def NMap.set (m : NMap) (k : Nat) (v : Str) : NMap :=
  match m with
  | [] => [(k, v)]
  | (k', v') :: rest => if k' = k then (k, v) :: rest else (k', v') :: NMap.set rest k v

/-- `map.get(k)`. -/
def NMap.get (m : NMap) (k : Nat) : Option Str :=
  match m with
  | [] => none
  | (k', v') :: rest => if k' = k then some v' else NMap.get rest k

/-- `const wireId = wireMap.get(key); if (wireId !== undefined) wireValues.set(wireId, value.toString())`
(sym_parser.ts 101-104, 113-116). -/
def setWire (sig : AMap Nat) (key : Str) (v : JsVal) (m : NMap) : Res NMap :=
  match sig.get key with
  | none => .ok m
  | some w => v.toStr >>= fun s => .ok (m.set w s)

/-- The loop over array items (sym_parser.ts 99-105). -/
def setWires (sig : AMap Nat) (key : Str) : List JsVal → Nat → NMap → Res NMap
  | [], _, m => .ok m
  | x :: xs, i, m => setWire sig (idxKey key i) x m >>= fun m' => setWires sig key xs (i + 1) m'

/-- `prefix ? `${prefix}.${key}` : key` (sym_parser.ts 95). -/
def dotKey (pre key : Str) : Str := if pre = [] then key else pre ++ '.' :: key

mutual
/-- `flattenInput` (sym_parser.ts 94-118) with the full key already computed. -/
def flattenInput (sig : AMap Nat) : JsVal → Str → NMap → Res NMap
  | .arr l, full, m => setWires sig full l 0 m
  | .obj l, full, m => flattenFields sig l full m
  | .null, full, m => setWire sig full .null m
  | .undef, full, m => setWire sig full .undef m
  | .bool b, full, m => setWire sig full (.bool b) m
  | .num z, full, m => setWire sig full (.num z) m
  | .numText s, full, m => setWire sig full (.numText s) m
  | .bigint z, full, m => setWire sig full (.bigint z) m
  | .str s, full, m => setWire sig full (.str s) m
/-- The loop over object entries (sym_parser.ts 108-110, and 121-123 with an empty prefix). -/
def flattenFields (sig : AMap Nat) : List (Str × JsVal) → Str → NMap → Res NMap
  | [], _, m => .ok m
  | (k, v) :: rest, pre, m =>
    match flattenInput sig v (dotKey pre k) m with
    | .error e => .error e
    | .ok m' => flattenFields sig rest pre m'
end

/-- `mapInputsToWires` (sym_parser.ts 88-126). -/
def mapInputsToWires (inputs : List (Str × JsVal)) (sig : AMap Nat) : Res NMap := flattenFields sig inputs [] []

/-- Value of a hexadecimal digit. -/
def hexVal (c : Char) : Option Nat :=
  if isDig c then some (digVal c)
  else if 97 ≤ c.toNat && c.toNat ≤ 102 then some (c.toNat - 87)
  else if 65 ≤ c.toNat && c.toNat ≤ 70 then some (c.toNat - 55)
  else none

/-- Digits in base `b` after a prefix such as `0x`; at least one. -/
def radixDigits (b : Nat) (s : Str) : Option Nat :=
  if s = [] then none else
  s.foldl (fun a c => match a, hexVal c with
    | some a, some d => if d < b then some (b * a + d) else none
    | _, _ => none) (some 0)

/-- Decimal digits, at least one. -/
def decDigits (s : Str) : Option Nat := if s ≠ [] ∧ s.all isDig then some (decVal s) else none

/-- `BigInt(string)` (zkenc.ts 104; ECMAScript StringToBigInt); `none` is a thrown `SyntaxError`. -/
def jsBigInt (s : Str) : Option Int :=
  match trim jsWs s with
  | [] => some 0
  | '-' :: t => (decDigits t).map (fun n : Nat => -(n : Int))
  | '+' :: t => (decDigits t).map (fun n : Nat => (n : Int))
  | '0' :: 'x' :: t => (radixDigits 16 t).map (fun n : Nat => (n : Int))
  | '0' :: 'X' :: t => (radixDigits 16 t).map (fun n : Nat => (n : Int))
  | '0' :: 'o' :: t => (radixDigits 8 t).map (fun n : Nat => (n : Int))
  | '0' :: 'O' :: t => (radixDigits 8 t).map (fun n : Nat => (n : Int))
  | '0' :: 'b' :: t => (radixDigits 2 t).map (fun n : Nat => (n : Int))
  | '0' :: 'B' :: t => (radixDigits 2 t).map (fun n : Nat => (n : Int))
  | t => (decDigits t).map (fun n : Nat => (n : Int))

/-- `Math.max(...keys)` (zkenc.ts 95); no keys gives `-Infinity`, for which the loop does not run either. Simplification: the limit on
the number of call arguments is not modelled. -/
def maxKey (m : NMap) : Nat := (m.map Prod.fst).foldl max 0

/-- The loop filling the witness array (zkenc.ts 101-113): from wire `i`, `n` wires to go; stops at the first missing wire. -/
def fillWitness (m : NMap) : Nat → Nat → Res (List Int)
  | _, 0 => .ok []
  | i, n + 1 =>
    match m.get i with
    | none => .ok []
    | some s =>
      match jsBigInt s with
      | none => Res.fail "SyntaxError"
      | some z => fillWitness m (i + 1) n >>= fun zs => .ok (z :: zs)

/-- The witness bytes passed to `wasm_encap` (zkenc.ts 86-116, 315-344): symbol file text and input object. -/
def jsEncapWitness (sym : Str) (inputs : List (Str × JsVal)) : Res Bytes :=
  let sig := inputSignals (jsParseSymFile sym) none
  mapInputsToWires inputs sig >>= fun m =>
  fillWitness m 1 (maxKey m) >>= fun zs =>
  .ok (serializeWitnessSimple (1 :: zs))

/-- The witness map of `wasm_encap` (lib.rs 400-405): entries `0..=n_pub` that the parsed witness has. -/
def wasmEncapWires (nPub : Nat) (vals : List Fr) : WireMap := fun i => if i ≤ nPub then vals[i]? else none

/-- The wire assignment that reaches the circuit in JS `encap`/`encrypt` (zkenc.ts 86-116, lib.rs 390-405). -/
def jsAssign (nPub : Nat) (sym : Str) (inputs : List (Str × JsVal)) : Res WireMap :=
  jsEncapWitness sym inputs >>= fun b =>
  jsParseWtns b >>= fun vals =>
  .ok (wasmEncapWires nPub vals)

/-- The witness map of `wasm_decap` (lib.rs 467-470) and of the CLI (witness.rs). -/
def fullWires (vals : List Fr) : WireMap := fun i => vals[i]?

end Zkenc
