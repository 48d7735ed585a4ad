import Verif.Model.Inputs
/-!
# JSON texts — `JSON.stringify` (zkenc.ts 327), `JSON.parse` (zkenc.ts 522), `serde_json::from_str` (commands.rs 457)

The two parsers accept the same grammar (RFC 8259) and are written once, as a parser into syntax trees; they differ in what they make of
numbers, in the nesting limit of `serde_json`, and in the order of object entries.
-/

namespace Zkenc

/-- Syntax tree of a JSON text. Numbers keep their literal; strings are unescaped; objects keep all entries in the order of the text. -/
inductive JTree where
  | null
  | bool (b : Bool)
  | num (lit : Str)
  | str (s : Str)
  | arr (l : List JTree)
  | obj (l : List (Str × JTree))

/-! ## Writing (compact form, as `JSON.stringify` without indentation) -/

/-- One character inside a JSON string (`QuoteJSONString`; used at zkenc.ts 327): short escapes, `\u00xx` for other control characters. -/
def escChar (c : Char) : Str :=
  if c = '"' then ['\\', '"']
  else if c = '\\' then ['\\', '\\']
  else if c.toNat = 8 then ['\\', 'b']
  else if c.toNat = 9 then ['\\', 't']
  else if c.toNat = 10 then ['\\', 'n']
  else if c.toNat = 12 then ['\\', 'f']
  else if c.toNat = 13 then ['\\', 'r']
  else if c.toNat < 32 then ['\\', 'u', '0', '0', if c.toNat < 16 then '0' else '1', hexDigit (c.toNat % 16)]
  else [c]
where
  /-- Lower-case hexadecimal digit. -/
  hexDigit (d : Nat) : Char := if d < 10 then Char.ofNat (48 + d) else Char.ofNat (87 + d)

/-- A quoted string (zkenc.ts 327). -/
def quote (s : Str) : Str := '"' :: (s.flatMap escChar ++ ['"'])

mutual
/-- The compact text of a tree (zkenc.ts 327). -/
def JTree.render : JTree → Str
  | .null => ['n', 'u', 'l', 'l']
  | .bool b => boolText b
  | .num lit => lit
  | .str s => quote s
  | .arr l => '[' :: (renderItems l ++ [']'])
  | .obj l => '{' :: (renderFields l ++ ['}'])
/-- Items, separated by commas. -/
def renderItems : List JTree → Str
  | [] => []
  | [t] => t.render
  | t :: u :: ts => t.render ++ ',' :: renderItems (u :: ts)
/-- Fields, separated by commas. -/
def renderFields : List (Str × JTree) → Str
  | [] => []
  | [(k, t)] => quote k ++ ':' :: t.render
  | (k, t) :: u :: ts => quote k ++ ':' :: (t.render ++ ',' :: renderFields (u :: ts))
end

/-- Numbers whose text is no JSON number. -/
def nonFinite (s : Str) : Bool :=
  s = ['N', 'a', 'N'] || s = ['I', 'n', 'f', 'i', 'n', 'i', 't', 'y'] || s = ['-', 'I', 'n', 'f', 'i', 'n', 'i', 't', 'y']

mutual
/-- `SerializeJSONProperty` (zkenc.ts 327): `none` for `undefined`, a `TypeError` for a `BigInt`. -/
def jsTree : JsVal → Res (Option JTree)
  | .null => .ok (some .null)
  | .undef => .ok none
  | .bool b => .ok (some (.bool b))
  | .num z => .ok (some (.num (intDec z)))
  | .numText s => .ok (some (if nonFinite s then .null else .num s))
  | .bigint _ => Res.fail "TypeError"
  | .str s => .ok (some (.str s))
  | .arr l => jsTrees l >>= fun ts => .ok (some (.arr ts))
  | .obj l => jsonFields l >>= fun ts => .ok (some (.obj ts))
/-- `SerializeJSONArray`: `undefined` becomes `null`. -/
def jsTrees : List JsVal → Res (List JTree)
  | [] => .ok []
  | v :: vs => jsTree v >>= fun t => jsTrees vs >>= fun ts => .ok (t.getD .null :: ts)
/-- `SerializeJSONObject`: `undefined` is left out. -/
def jsonFields : List (Str × JsVal) → Res (List (Str × JTree))
  | [] => .ok []
  | (k, v) :: vs => jsTree v >>= fun t => jsonFields vs >>= fun ts =>
    match t with
    | some t => .ok ((k, t) :: ts)
    | none => .ok ts
end

/-- `JSON.stringify(publicInputs)` (zkenc.ts 327). -/
def jsonStringify (inputs : List (Str × JsVal)) : Res Str := jsonFields inputs >>= fun ts => .ok (JTree.obj ts).render

/-! ## Reading -/

/-- JSON white space. -/
def jsonWs (c : Char) : Bool := c = ' ' || c = '\t' || c = '\n' || c = '\r'

/-- Skip white space. -/
def skipWs (s : Str) : Str := s.dropWhile jsonWs

/-- Four hexadecimal digits. -/
def hex4 : Str → Option (Nat × Str)
  | a :: b :: c :: d :: r =>
    match hexVal a, hexVal b, hexVal c, hexVal d with
    | some a, some b, some c, some d => some (((a * 16 + b) * 16 + c) * 16 + d, r)
    | _, _, _, _ => none
  | _ => none

/-- The escape after `\u`. A lone surrogate, which `JSON.parse` accepts and `serde_json` rejects, is rejected; `JSON.parse` as it is: `Model/JsStrings`. -/
def pUnicode (s : Str) : Option (Char × Str) :=
  match hex4 s with
  | none => none
  | some (n, r) =>
    if 0xD800 ≤ n ∧ n < 0xDC00 then
      match r with
      | '\\' :: 'u' :: r =>
        match hex4 r with
        | none => none
        | some (m, r) => if 0xDC00 ≤ m ∧ m < 0xE000 then some (Char.ofNat (0x10000 + (n - 0xD800) * 0x400 + (m - 0xDC00)), r) else none
      | _ => none
    else if 0xDC00 ≤ n ∧ n < 0xE000 then none
    else some (Char.ofNat n, r)

/-- An escape sequence after the backslash. -/
def pEscape : Str → Option (Char × Str)
  | [] => none
  | e :: r =>
    if e = '"' then some ('"', r)
    else if e = '\\' then some ('\\', r)
    else if e = '/' then some ('/', r)
    else if e = 'b' then some (Char.ofNat 8, r)
    else if e = 'f' then some (Char.ofNat 12, r)
    else if e = 'n' then some (Char.ofNat 10, r)
    else if e = 'r' then some (Char.ofNat 13, r)
    else if e = 't' then some (Char.ofNat 9, r)
    else if e = 'u' then pUnicode r
    else none

/-- The characters of a string up to and including the closing quote; the first argument bounds the number of steps. -/
def pChars : Nat → Str → Option (Str × Str)
  | 0, _ => none
  | _ + 1, [] => none
  | f + 1, c :: r =>
    if c = '"' then some ([], r)
    else if c = '\\' then
      match pEscape r with
      | none => none
      | some (x, r) => (pChars f r).map fun t => (x :: t.1, t.2)
    else if c.toNat < 32 then none
    else (pChars f r).map fun t => (c :: t.1, t.2)

/-- Integer part of a number. -/
def pInt : Str → Option (Str × Str)
  | [] => none
  | c :: r => if c = '0' then some ([c], r) else if isDig c then some (c :: r.takeWhile isDig, r.dropWhile isDig) else none

/-- Digits, at least one. -/
def pDigits (r : Str) : Option (Str × Str) := if r.takeWhile isDig = [] then none else some (r.takeWhile isDig, r.dropWhile isDig)

/-- Optional fraction. -/
def pFrac (s : Str) : Option (Str × Str) :=
  match s with
  | [] => some ([], s)
  | c :: r => if c = '.' then (pDigits r).map fun t => ('.' :: t.1, t.2) else some ([], s)

/-- Optional exponent. -/
def pExp (s : Str) : Option (Str × Str) :=
  match s with
  | [] => some ([], s)
  | c :: r =>
    if c = 'e' ∨ c = 'E' then
      match r with
      | [] => none
      | d :: r' => if d = '+' ∨ d = '-' then (pDigits r').map fun t => (c :: d :: t.1, t.2) else (pDigits r).map fun t => (c :: t.1, t.2)
    else some ([], s)

/-- A number: its literal and the rest. -/
def pNum (s : Str) : Option (Str × Str) :=
  let sg := if s.head? = some '-' then ['-'] else []
  pInt (s.drop sg.length) >>= fun i =>
  pFrac i.2 >>= fun q =>
  pExp q.2 >>= fun e =>
  some (sg ++ (i.1 ++ (q.1 ++ e.1)), e.2)

mutual
/-- A value; leading white space is skipped. The first argument bounds the number of steps. -/
def pValue : Nat → Str → Option (JTree × Str)
  | 0, _ => none
  | f + 1, s =>
    match skipWs s with
    | [] => none
    | c :: r =>
      if c = '"' then (pChars f r).map fun t => (.str t.1, t.2)
      else if c = '[' then
        if (skipWs r).head? = some ']' then some (.arr [], (skipWs r).tail) else (pItems f r).map fun t => (.arr t.1, t.2)
      else if c = '{' then
        if (skipWs r).head? = some '}' then some (.obj [], (skipWs r).tail) else (pFields f r).map fun t => (.obj t.1, t.2)
      else if c = 'n' then if r.take 3 = ['u', 'l', 'l'] then some (.null, r.drop 3) else none
      else if c = 't' then if r.take 3 = ['r', 'u', 'e'] then some (.bool true, r.drop 3) else none
      else if c = 'f' then if r.take 4 = ['a', 'l', 's', 'e'] then some (.bool false, r.drop 4) else none
      else (pNum (c :: r)).map fun t => (.num t.1, t.2)
/-- The items of an array, up to and including the closing bracket. -/
def pItems : Nat → Str → Option (List JTree × Str)
  | 0, _ => none
  | f + 1, s =>
    match pValue f s with
    | none => none
    | some (t, r) =>
      match skipWs r with
      | [] => none
      | c :: r => if c = ',' then (pItems f r).map fun u => (t :: u.1, u.2) else if c = ']' then some ([t], r) else none
/-- The fields of an object, up to and including the closing brace. -/
def pFields : Nat → Str → Option (List (Str × JTree) × Str)
  | 0, _ => none
  | f + 1, s =>
    match skipWs s with
    | [] => none
    | c :: r =>
      if c = '"' then
        match pChars f r with
        | none => none
        | some (k, r) =>
          match skipWs r with
          | [] => none
          | c :: r =>
            if c = ':' then
              match pValue f r with
              | none => none
              | some (t, r) =>
                match skipWs r with
                | [] => none
                | c :: r =>
                  if c = ',' then (pFields f r).map fun u => ((k, t) :: u.1, u.2) else if c = '}' then some ([(k, t)], r) else none
            else none
      else none
end

/-- A whole JSON text: one value and white space. Every step of the parser consumes at least one character of the text or goes one level
deeper, so the bound on the number of steps is never reached. -/
def pText (s : Str) : Option JTree :=
  match pValue (2 * s.length + 2) s with
  | none => none
  | some (t, r) => if skipWs r = [] then some t else none

/-! ## Values -/

/-- Floating point numbers: what a JSON number literal means as a JS number, and whether it is out of range for `serde_json`. Exact for
integers up to `2^53`. -/
structure Doubles where
  round : Str → JsVal
  round_small : ∀ z : Int, z.natAbs ≤ 2 ^ 53 → round (intDec z) = .num z
  outOfRange : Str → Bool

/-- An array index: the canonical decimal text of an integer below `2^32 - 1`. -/
def keyIndex (k : Str) : Option Nat :=
  if k ≠ [] ∧ k.all isDig = true ∧ natDec (decVal k) = k ∧ decVal k < 2 ^ 32 - 1 then some (decVal k) else none

/-- JS objects list array indices first, in ascending order, then the other keys in the order of creation: may `a` come before `b`? -/
def keyBefore (a b : Str) : Bool :=
  match keyIndex a, keyIndex b with
  | some i, some j => i < j
  | some _, none => true
  | none, some _ => false
  | none, none => a ≠ b

/-- A new key takes its place in the order. -/
def objInsert (k : Str) (v : JsVal) : List (Str × JsVal) → List (Str × JsVal)
  | [] => [(k, v)]
  | e :: l => if keyBefore e.1 k then e :: objInsert k v l else (k, v) :: e :: l

/-- `CreateDataProperty`: an existing key keeps its place, a new one takes its place in the order. -/
def objSet (l : List (Str × JsVal)) (k : Str) (v : JsVal) : List (Str × JsVal) :=
  if l.any (fun e => e.1 = k) then l.map fun e => if e.1 = k then (k, v) else e else objInsert k v l

mutual
/-- The value `JSON.parse` makes of a tree. -/
def JTree.toJs (D : Doubles) : JTree → JsVal
  | .null => .null
  | .bool b => .bool b
  | .num lit => D.round lit
  | .str s => .str s
  | .arr l => .arr (treesToJs D l)
  | .obj l => .obj (fieldsToJs D l [])
/-- Array items. -/
def treesToJs (D : Doubles) : List JTree → List JsVal
  | [] => []
  | t :: ts => t.toJs D :: treesToJs D ts
/-- Object fields, one after the other. -/
def fieldsToJs (D : Doubles) : List (Str × JTree) → List (Str × JsVal) → List (Str × JsVal)
  | [], o => o
  | (k, t) :: ts, o => fieldsToJs D ts (objSet o k (t.toJs D))
end

/-- `JSON.parse` (zkenc.ts 522); `none` is a thrown `SyntaxError`. -/
def jsonParse (D : Doubles) (s : Str) : Option JsVal := (pText s).map (JTree.toJs D)

/-- A number literal in `serde_json`: an integer literal is an integer unless it is `-0`; the rest are floats, an error if out of range.
(`Json.int` also stands for an integer literal beyond 64 bits, which `serde_json` turns into a float; out of the floating point range it
is an error.) -/
def serdeNum (D : Doubles) (lit : Str) : Option Json :=
  if lit.all (fun c => isDig c || c = '-') then
    if lit = ['-', '0'] then some .float
    else if D.outOfRange lit then none
    else if lit.head? = some '-' then some (.int (-(decVal lit.tail : Int))) else some (.int (decVal lit))
  else if D.outOfRange lit then none else some .float

mutual
/-- The value `serde_json` makes of a tree; `d` is the nesting still allowed. -/
def JTree.toSerde (D : Doubles) (ord : List (Str × Json) → List (Str × Json)) : Nat → JTree → Option Json
  | _, .null => some .null
  | _, .bool b => some (.bool b)
  | _, .num lit => serdeNum D lit
  | _, .str s => some (.str s)
  | 0, .arr _ => none
  | d + 1, .arr l => (treesToSerde D ord d l).map .arr
  | 0, .obj _ => none
  | d + 1, .obj l => (fieldsToSerde D ord d l []).map fun es => .obj (ord es)
/-- Array items. -/
def treesToSerde (D : Doubles) (ord : List (Str × Json) → List (Str × Json)) : Nat → List JTree → Option (List Json)
  | _, [] => some []
  | d, t :: ts => t.toSerde D ord d >>= fun j => treesToSerde D ord d ts >>= fun js => some (j :: js)
/-- Object fields: the last value of a repeated key wins. -/
def fieldsToSerde (D : Doubles) (ord : List (Str × Json) → List (Str × Json)) : Nat → List (Str × JTree) → List (Str × Json) →
    Option (List (Str × Json))
  | _, [], o => some o
  | d, (k, t) :: ts, o => t.toSerde D ord d >>= fun j => fieldsToSerde D ord d ts (AMap.insert o k j)
end

/-- `serde_json::from_str::<Value>` (commands.rs 457-458): nesting at most 127; `ord` is the order of `serde_json::Map` (sorted by key, or
insertion order if the build unifies the `preserve_order` feature of zkenc-js). -/
def serdeFromStr (D : Doubles) (ord : List (Str × Json) → List (Str × Json)) (s : Str) : Option Json :=
  (pText s).bind (JTree.toSerde D ord 127)

end Zkenc
