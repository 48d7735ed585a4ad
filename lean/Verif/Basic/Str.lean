import Verif.Basic.Res
/-!
# Character strings

Strings are lists of Unicode scalar values (Rust `str`); JS strings without lone surrogates are the same thing; the others are in `Model/JsStrings`.
-/

namespace Zkenc

/-- Strings. -/
abbrev Str := List Char

/-- `s.split(c)` for one character (Rust `str::split`, JS `String.prototype.split`). -/
def splitOn (c : Char) : Str → List Str
  | [] => [[]]
  | x :: xs =>
    if x = c then [] :: splitOn c xs
    else match splitOn c xs with
      | [] => [[x]]
      | h :: t => (x :: h) :: t

/-- Unicode `White_Space`, used by Rust `str::trim`. -/
def rustWs (c : Char) : Bool :=
  let n := c.toNat
  (9 ≤ n && n ≤ 13) || n == 0x20 || n == 0x85 || n == 0xA0 || n == 0x1680 || (0x2000 ≤ n && n ≤ 0x200A) ||
    n == 0x2028 || n == 0x2029 || n == 0x202F || n == 0x205F || n == 0x3000

/-- ECMAScript WhiteSpace and LineTerminator, used by `String.prototype.trim`, `parseInt` and `BigInt(string)`. -/
def jsWs (c : Char) : Bool :=
  let n := c.toNat
  (9 ≤ n && n ≤ 13) || n == 0x20 || n == 0xA0 || n == 0xFEFF || n == 0x1680 || (0x2000 ≤ n && n ≤ 0x200A) ||
    n == 0x2028 || n == 0x2029 || n == 0x202F || n == 0x205F || n == 0x3000

/-- Drop trailing characters. -/
def dropEndWhile (p : Char → Bool) (s : Str) : Str := (s.reverse.dropWhile p).reverse

/-- `trim` for a given notion of white space. -/
def trim (ws : Char → Bool) (s : Str) : Str := dropEndWhile ws (s.dropWhile ws)

/-- ASCII decimal digit. -/
def isDig (c : Char) : Bool := 48 ≤ c.toNat && c.toNat ≤ 57

/-- Value of a digit. -/
def digVal (c : Char) : Nat := c.toNat - 48

/-- Value of a string of decimal digits. -/
def decVal (s : Str) : Nat := s.foldl (fun a c => 10 * a + digVal c) 0

/-- The digit character of `d < 10`. -/
def digChar (d : Nat) : Char := Char.ofNat (48 + d)

/-- Decimal representation (Rust `{}`, JS `String(n)`). -/
def natDec (n : Nat) : Str :=
  if _h : n < 10 then [digChar n] else natDec (n / 10) ++ [digChar (n % 10)]
termination_by n
decreasing_by omega

/-- Decimal representation of an integer. -/
def intDec (z : Int) : Str := if z < 0 then '-' :: natDec z.natAbs else natDec z.natAbs

/-- Association list with unique keys: `HashMap<String, V>` and JS `Map` (insertion order). -/
abbrev AMap (V : Type) := List (Str × V)

/-- `map.insert(k, v)` / `map.set(k, v)`: an existing key keeps its place. -/
def AMap.insert {V : Type} (m : AMap V) (k : Str) (v : V) : AMap V :=
  match m with
  | [] => [(k, v)]
  | (k', v') :: rest => if k' = k then (k, v) :: rest else (k', v') :: AMap.insert rest k v

/-- `map.get(k)`. -/
def AMap.get {V : Type} (m : AMap V) (k : Str) : Option V :=
  match m with
  | [] => none
  | (k', v') :: rest => if k' = k then some v' else AMap.get rest k

end Zkenc
