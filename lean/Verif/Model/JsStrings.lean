import Verif.Model.Api
import Verif.Model.JsonText
/-!
# JS strings as they are: sequences of UTF-16 code units — `zkenc.ts` 81-122, 309-380, 474-529, `sym_parser.ts` 88-126

Elsewhere in the model a JS string is a list of Unicode scalar values. A JS program can also hold strings that are no such list: a surrogate
code unit without its partner ("lone"). `JSON.stringify` writes a lone surrogate as an escape, `JSON.parse` reads it back, `serde_json`
rejects it. Here names and values of the input object are arbitrary strings. The text of the symbol file is still a list of characters, and so
are JSON texts: `JSON.stringify` never writes a lone surrogate, `TextDecoder` never makes one.
-/

namespace Zkenc

/-- A JS string: UTF-16 code units. -/
abbrev JStr := List UInt16

/-- The code units of a character. -/
def charUnits (c : Char) : JStr :=
  if c.toNat < 0x10000 then [UInt16.ofNat c.toNat]
  else [UInt16.ofNat (0xD800 + (c.toNat - 0x10000) / 0x400), UInt16.ofNat (0xDC00 + (c.toNat - 0x10000) % 0x400)]

/-- The JS string of a list of characters. -/
def strUnits (s : Str) : JStr := s.flatMap charUnits

/-- A leading surrogate. -/
def isHigh (u : UInt16) : Bool := 0xD800 ≤ u.toNat && u.toNat < 0xDC00

/-- A trailing surrogate. -/
def isLow (u : UInt16) : Bool := 0xDC00 ≤ u.toNat && u.toNat < 0xE000

/-- A code point of a JS string: a character or a lone surrogate. -/
inductive CodePoint where
  | char (c : Char)
  | lone (u : UInt16)

/-- `StringToCodePoints` (ECMAScript; inside `JSON.stringify`, zkenc.ts 327). -/
def codePoints : JStr → List CodePoint
  | [] => []
  | [u] => if isHigh u || isLow u then [.lone u] else [.char (Char.ofNat u.toNat)]
  | u :: v :: r =>
    if isHigh u && isLow v then .char (Char.ofNat (0x10000 + (u.toNat - 0xD800) * 0x400 + (v.toNat - 0xDC00))) :: codePoints r
    else if isHigh u || isLow u then .lone u :: codePoints (v :: r)
    else .char (Char.ofNat u.toNat) :: codePoints (v :: r)

/-- The characters of a string without lone surrogates. -/
def charsOf : List CodePoint → Option Str
  | [] => some []
  | .char c :: l => (charsOf l).map (c :: ·)
  | .lone _ :: _ => none

/-- The list of characters that the JS string is, if it is one (`isWellFormed`). -/
def JStr.toStr? (s : JStr) : Option Str := charsOf (codePoints s)

/-- Values of a JS input object, as `JsVal`, with arbitrary strings. -/
inductive UVal where
  | null
  | undef
  | bool (b : Bool)
  | num (z : Int)
  | numText (s : Str)
  | bigint (z : Int)
  | str (s : JStr)
  | arr (l : List UVal)
  | obj (l : List (JStr × UVal))

/-- Syntax tree of a JSON text with JS strings. -/
inductive UTree where
  | null
  | bool (b : Bool)
  | num (lit : Str)
  | str (s : JStr)
  | arr (l : List UTree)
  | obj (l : List (JStr × UTree))

mutual
/-- The same value with its strings as code units. -/
def JsVal.units : JsVal → UVal
  | .null => .null
  | .undef => .undef
  | .bool b => .bool b
  | .num z => .num z
  | .numText s => .numText s
  | .bigint z => .bigint z
  | .str s => .str (strUnits s)
  | .arr l => .arr (unitsItems l)
  | .obj l => .obj (unitsFields l)
/-- Items. -/
def unitsItems : List JsVal → List UVal
  | [] => []
  | v :: vs => v.units :: unitsItems vs
/-- Fields. -/
def unitsFields : List (Str × JsVal) → List (JStr × UVal)
  | [] => []
  | (k, v) :: vs => (strUnits k, v.units) :: unitsFields vs
end

/-! ## `JSON.stringify` -/

/-- `UnicodeEscape`: `\u` and four lower-case hexadecimal digits. -/
def unicodeEscape (u : UInt16) : Str :=
  ['\\', 'u', escChar.hexDigit (u.toNat / 4096), escChar.hexDigit (u.toNat / 256 % 16), escChar.hexDigit (u.toNat / 16 % 16),
    escChar.hexDigit (u.toNat % 16)]

/-- One code point inside a JSON string (`QuoteJSONString`; used at zkenc.ts 327). -/
def uEscPoint : CodePoint → Str
  | .char c => escChar c
  | .lone u => unicodeEscape u

/-- A quoted string (zkenc.ts 327). -/
def uQuote (s : JStr) : Str := '"' :: ((codePoints s).flatMap uEscPoint ++ ['"'])

mutual
/-- The compact text of a tree (zkenc.ts 327). -/
def UTree.render : UTree → Str
  | .null => ['n', 'u', 'l', 'l']
  | .bool b => boolText b
  | .num lit => lit
  | .str s => uQuote s
  | .arr l => '[' :: (uRenderItems l ++ [']'])
  | .obj l => '{' :: (uRenderFields l ++ ['}'])
/-- Items, separated by commas. -/
def uRenderItems : List UTree → Str
  | [] => []
  | [t] => t.render
  | t :: u :: ts => t.render ++ ',' :: uRenderItems (u :: ts)
/-- Fields, separated by commas. -/
def uRenderFields : List (JStr × UTree) → Str
  | [] => []
  | [(k, t)] => uQuote k ++ ':' :: t.render
  | (k, t) :: u :: ts => uQuote k ++ ':' :: (t.render ++ ',' :: uRenderFields (u :: ts))
end

mutual
/-- `SerializeJSONProperty` (zkenc.ts 327): `none` for `undefined`, a `TypeError` for a `BigInt`. -/
def uTree : UVal → Res (Option UTree)
  | .null => .ok (some .null)
  | .undef => .ok none
  | .bool b => .ok (some (.bool b))
  | .num z => .ok (some (.num (intDec z)))
  | .numText s => .ok (some (if nonFinite s then .null else .num s))
  | .bigint _ => Res.fail "TypeError"
  | .str s => .ok (some (.str s))
  | .arr l => uTrees l >>= fun ts => .ok (some (.arr ts))
  | .obj l => uFields l >>= fun ts => .ok (some (.obj ts))
/-- `SerializeJSONArray`: `undefined` becomes `null`. -/
def uTrees : List UVal → Res (List UTree)
  | [] => .ok []
  | v :: vs => uTree v >>= fun t => uTrees vs >>= fun ts => .ok (t.getD .null :: ts)
/-- `SerializeJSONObject`: `undefined` is left out. -/
def uFields : List (JStr × UVal) → Res (List (JStr × UTree))
  | [] => .ok []
  | (k, v) :: vs => uTree v >>= fun t => uFields vs >>= fun ts =>
    match t with
    | some t => .ok ((k, t) :: ts)
    | none => .ok ts
end

/-- `JSON.stringify(publicInputs)` (zkenc.ts 327). -/
def uStringify (inputs : List (JStr × UVal)) : Res Str := uFields inputs >>= fun ts => .ok (UTree.obj ts).render

/-! ## `JSON.parse` -/

/-- An escape sequence after the backslash, as code units: `\u` and four digits is one code unit. -/
def uEscape : Str → Option (JStr × Str)
  | [] => none
  | e :: r =>
    if e = 'u' then (hex4 r).map fun t => ([UInt16.ofNat t.1], t.2)
    else (pEscape (e :: r)).map fun t => (charUnits t.1, t.2)

/-- The characters of a string up to and including the closing quote; the first argument bounds the number of steps. -/
def uChars : Nat → Str → Option (JStr × Str)
  | 0, _ => none
  | _ + 1, [] => none
  | f + 1, c :: r =>
    if c = '"' then some ([], r)
    else if c = '\\' then
      match uEscape r with
      | none => none
      | some (x, r) => (uChars f r).map fun t => (x ++ t.1, t.2)
    else if c.toNat < 32 then none
    else (uChars f r).map fun t => (charUnits c ++ t.1, t.2)

mutual
/-- A value; leading white space is skipped. The first argument bounds the number of steps. -/
def uValue : Nat → Str → Option (UTree × Str)
  | 0, _ => none
  | f + 1, s =>
    match skipWs s with
    | [] => none
    | c :: r =>
      if c = '"' then (uChars f r).map fun t => (.str t.1, t.2)
      else if c = '[' then
        if (skipWs r).head? = some ']' then some (.arr [], (skipWs r).tail) else (uItems f r).map fun t => (.arr t.1, t.2)
      else if c = '{' then
        if (skipWs r).head? = some '}' then some (.obj [], (skipWs r).tail) else (uObjFields f r).map fun t => (.obj t.1, t.2)
      else if c = 'n' then if r.take 3 = ['u', 'l', 'l'] then some (.null, r.drop 3) else none
      else if c = 't' then if r.take 3 = ['r', 'u', 'e'] then some (.bool true, r.drop 3) else none
      else if c = 'f' then if r.take 4 = ['a', 'l', 's', 'e'] then some (.bool false, r.drop 4) else none
      else (pNum (c :: r)).map fun t => (.num t.1, t.2)
/-- The items of an array, up to and including the closing bracket. -/
def uItems : Nat → Str → Option (List UTree × Str)
  | 0, _ => none
  | f + 1, s =>
    match uValue f s with
    | none => none
    | some (t, r) =>
      match skipWs r with
      | [] => none
      | c :: r => if c = ',' then (uItems f r).map fun u => (t :: u.1, u.2) else if c = ']' then some ([t], r) else none
/-- The fields of an object, up to and including the closing brace. -/
def uObjFields : Nat → Str → Option (List (JStr × UTree) × Str)
  | 0, _ => none
  | f + 1, s =>
    match skipWs s with
    | [] => none
    | c :: r =>
      if c = '"' then
        match uChars f r with
        | none => none
        | some (k, r) =>
          match skipWs r with
          | [] => none
          | c :: r =>
            if c = ':' then
              match uValue f r with
              | none => none
              | some (t, r) =>
                match skipWs r with
                | [] => none
                | c :: r =>
                  if c = ',' then (uObjFields f r).map fun u => ((k, t) :: u.1, u.2) else if c = '}' then some ([(k, t)], r) else none
            else none
      else none
end

/-- A whole JSON text: one value and white space. Every step of the parser consumes at least one character of the text or goes one level
deeper, so the bound on the number of steps is never reached. -/
def uText (s : Str) : Option UTree :=
  match uValue (2 * s.length + 2) s with
  | none => none
  | some (t, r) => if skipWs r = [] then some t else none

/-! ## Values -/

/-- An array index. -/
def uKeyIndex (k : JStr) : Option Nat := k.toStr?.bind keyIndex

/-- JS objects list array indices first, in ascending order, then the other keys in the order of creation: may `a` come before `b`? -/
def uKeyBefore (a b : JStr) : Bool :=
  match uKeyIndex a, uKeyIndex b with
  | some i, some j => i < j
  | some _, none => true
  | none, some _ => false
  | none, none => a ≠ b

/-- A new key takes its place in the order. -/
def uObjInsert (k : JStr) (v : UVal) : List (JStr × UVal) → List (JStr × UVal)
  | [] => [(k, v)]
  | e :: l => if uKeyBefore e.1 k then e :: uObjInsert k v l else (k, v) :: e :: l

/-- `CreateDataProperty`: an existing key keeps its place, a new one takes its place in the order. -/
def uObjSet (l : List (JStr × UVal)) (k : JStr) (v : UVal) : List (JStr × UVal) :=
  if l.any (fun e => e.1 = k) then l.map fun e => if e.1 = k then (k, v) else e else uObjInsert k v l

mutual
/-- The value `JSON.parse` makes of a tree. -/
def UTree.toJs (D : Doubles) : UTree → UVal
  | .null => .null
  | .bool b => .bool b
  | .num lit => (D.round lit).units
  | .str s => .str s
  | .arr l => .arr (uTreesToJs D l)
  | .obj l => .obj (uFieldsToJs D l [])
/-- Array items. -/
def uTreesToJs (D : Doubles) : List UTree → List UVal
  | [] => []
  | t :: ts => t.toJs D :: uTreesToJs D ts
/-- Object fields, one after the other. -/
def uFieldsToJs (D : Doubles) : List (JStr × UTree) → List (JStr × UVal) → List (JStr × UVal)
  | [], o => o
  | (k, t) :: ts, o => uFieldsToJs D ts (uObjSet o k (t.toJs D))
end

/-- `JSON.parse` (zkenc.ts 522); `none` is a thrown `SyntaxError`. -/
def uParse (D : Doubles) (s : Str) : Option UVal := (uText s).map (UTree.toJs D)

/-! ## Inputs -/

mutual
/-- `String(v)` inside `Array.prototype.join` (sym_parser.ts 103). -/
def UVal.joinText : UVal → JStr
  | .null => []
  | .undef => []
  | .bool b => strUnits (boolText b)
  | .num z => strUnits (intDec z)
  | .numText s => strUnits s
  | .bigint z => strUnits (intDec z)
  | .str s => s
  | .arr l => uJoinTexts l
  | .obj _ => strUnits objectText
/-- `Array.prototype.join(",")` (sym_parser.ts 103). -/
def uJoinTexts : List UVal → JStr
  | [] => []
  | x :: xs => x.joinText ++ uJoinRest xs
/-- The rest of the list, a comma before each item. -/
def uJoinRest : List UVal → JStr
  | [] => []
  | x :: xs => charUnits ',' ++ (x.joinText ++ uJoinRest xs)
end

/-- `value.toString()` (sym_parser.ts 103, 115): throws on null and undefined. -/
def UVal.toStr : UVal → Res JStr
  | .null => Res.fail "TypeError"
  | .undef => Res.fail "TypeError"
  | v => .ok v.joinText

/-- `Map<number, string>`: insertion order. -/
abbrev UMap := List (Nat × JStr)

/-- `map.set(k, v)`. -/
def UMap.set (m : UMap) (k : Nat) (v : JStr) : UMap :=
  match m with
  | [] => [(k, v)]
  | (k', v') :: rest => if k' = k then (k, v) :: rest else (k', v') :: UMap.set rest k v

/-- `map.get(k)`. -/
def UMap.get (m : UMap) (k : Nat) : Option JStr :=
  match m with
  | [] => none
  | (k', v') :: rest => if k' = k then some v' else UMap.get rest k

/-- `wireMap.get(key)`: the first entry of the map whose name has the same code units. -/
def uLookup (sig : AMap Nat) (key : JStr) : Option Nat := (sig.find? fun e => decide (strUnits e.1 = key)).map Prod.snd

/-- `const wireId = wireMap.get(key); if (wireId !== undefined) wireValues.set(wireId, value.toString())` (sym_parser.ts 101-104, 113-116). -/
def uSetWire (sig : AMap Nat) (key : JStr) (v : UVal) (m : UMap) : Res UMap :=
  match uLookup sig key with
  | none => .ok m
  | some w => v.toStr >>= fun s => .ok (m.set w s)

/-- The loop over array items (sym_parser.ts 99-105). -/
def uSetWires (sig : AMap Nat) (key : JStr) : List UVal → Nat → UMap → Res UMap
  | [], _, m => .ok m
  | x :: xs, i, m => uSetWire sig (key ++ strUnits ('[' :: (natDec i ++ [']']))) x m >>= fun m' => uSetWires sig key xs (i + 1) m'

/-- `prefix ? `${prefix}.${key}` : key` (sym_parser.ts 95). -/
def uDotKey (pre key : JStr) : JStr := if pre = [] then key else pre ++ (charUnits '.' ++ key)

mutual
/-- `flattenInput` (sym_parser.ts 94-118) with the full key already computed. -/
def uFlattenInput (sig : AMap Nat) : UVal → JStr → UMap → Res UMap
  | .arr l, full, m => uSetWires sig full l 0 m
  | .obj l, full, m => uFlattenFields sig l full m
  | .null, full, m => uSetWire sig full .null m
  | .undef, full, m => uSetWire sig full .undef m
  | .bool b, full, m => uSetWire sig full (.bool b) m
  | .num z, full, m => uSetWire sig full (.num z) m
  | .numText s, full, m => uSetWire sig full (.numText s) m
  | .bigint z, full, m => uSetWire sig full (.bigint z) m
  | .str s, full, m => uSetWire sig full (.str s) m
/-- The loop over object entries (sym_parser.ts 108-110, and 121-123 with an empty prefix). -/
def uFlattenFields (sig : AMap Nat) : List (JStr × UVal) → JStr → UMap → Res UMap
  | [], _, m => .ok m
  | (k, v) :: rest, pre, m =>
    match uFlattenInput sig v (uDotKey pre k) m with
    | .error e => .error e
    | .ok m' => uFlattenFields sig rest pre m'
end

/-- `mapInputsToWires` (sym_parser.ts 88-126). -/
def uMapInputsToWires (inputs : List (JStr × UVal)) (sig : AMap Nat) : Res UMap := uFlattenFields sig inputs [] []

/-- `BigInt(string)` (zkenc.ts 104): a lone surrogate is neither a digit nor white space. -/
def uBigInt (s : JStr) : Option Int := s.toStr?.bind jsBigInt

/-- `Math.max(...keys)` (zkenc.ts 95). -/
def uMaxKey (m : UMap) : Nat := (m.map Prod.fst).foldl max 0

/-- The loop filling the witness array (zkenc.ts 101-113). -/
def uFillWitness (m : UMap) : Nat → Nat → Res (List Int)
  | _, 0 => .ok []
  | i, n + 1 =>
    match m.get i with
    | none => .ok []
    | some s =>
      match uBigInt s with
      | none => Res.fail "SyntaxError"
      | some z => uFillWitness m (i + 1) n >>= fun zs => .ok (z :: zs)

/-- The witness bytes passed to `wasm_encap` (zkenc.ts 86-116). -/
def uEncapWitness (sym : Str) (inputs : List (JStr × UVal)) : Res Bytes :=
  let sig := inputSignals (jsParseSymFile sym) none
  uMapInputsToWires inputs sig >>= fun m =>
  uFillWitness m 1 (uMaxKey m) >>= fun zs =>
  .ok (serializeWitnessSimple (1 :: zs))

section
variable {G1 G2 GT : Type} [AddCommGroup G1] [Module Fr G1] [AddCommGroup G2] [Module Fr G2] [AddCommGroup GT] [Module Fr GT]
  (S : Sys G1 G2 GT)

/-- JS `encap` (zkenc.ts 81-122), after initialisation of the wasm module. -/
def uEncap (r1cs : Bytes) (sym : Str) (inputs : List (JStr × UVal)) (ρ : Rand Fr) : Res (Bytes × Bytes) :=
  uEncapWitness sym inputs >>= fun wtns => wasmEncap S r1cs wtns ρ

/-- JS `encrypt` (zkenc.ts 309-380): combined ciphertext and key. -/
def uEncrypt (r1cs : Bytes) (sym : Str) (inputs : List (JStr × UVal)) (message : Bytes) (includePublicInput : Bool) (ρ : Rand Fr)
    (nonce : Bytes) : Res (Bytes × Bytes) :=
  uEncap S r1cs sym inputs ρ >>= fun ck =>
  encryptGcm S.cipher .js ck.2 nonce message >>= fun enc =>
  (if includePublicInput then uStringify inputs >>= fun s => .ok (utf8Enc s) else .ok []) >>= fun pub =>
  .ok (combine includePublicInput ck.1 pub enc, ck.2)

/-- JS `getPublicInput` (zkenc.ts 474-529). -/
def uGetPublicInput (D : Doubles) (ciphertext : Bytes) : Res UVal := getPublicInput (textDecode S) (uParse D) ciphertext

end

end Zkenc
