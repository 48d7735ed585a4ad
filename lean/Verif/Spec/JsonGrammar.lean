import Verif.Spec.JsonText
/-!
# Specification: JSON texts (RFC 8259) and what they mean as JS values

The grammar relates texts and syntax trees; it is written without reference to the parser. Characters of a text are Unicode scalar values.
-/

namespace Zkenc.JsonSpec

open Zkenc

/-- White space (RFC 8259, section 2). -/
def Ws (w : Str) : Prop := ∀ c ∈ w, c = ' ' ∨ c = '\t' ∨ c = '\n' ∨ c = '\r'

/-- A hexadecimal digit and its value. -/
def HexDigit (c : Char) (n : Nat) : Prop :=
  ['0', '1', '2', '3', '4', '5', '6', '7', '8', '9', 'a', 'b', 'c', 'd', 'e', 'f'][n]? = some c ∨ ['0', '1', '2', '3', '4', '5', '6', '7', '8', '9', 'A', 'B', 'C', 'D', 'E', 'F'][n]? = some c

/-- Four hexadecimal digits and the number they denote. -/
def Hex4 (h : Str) (n : Nat) : Prop :=
  ∃ a b c d i j k l, h = [a, b, c, d] ∧ HexDigit a i ∧ HexDigit b j ∧ HexDigit c k ∧ HexDigit d l ∧ n = 4096 * i + 256 * j + 16 * k + l

/-- The two-character escapes (RFC 8259, section 7): the character after the backslash and what it stands for. -/
def shortEscapes : List (Char × Char) :=
  [('"', '"'), ('\\', '\\'), ('/', '/'), ('b', '\x08'), ('f', '\x0c'), ('n', '\n'), ('r', '\r'), ('t', '\t')]

/-- The text between the quotes of a string, and the string. -/
inductive StrText : Str → Str → Prop
  | nil : StrText [] []
  | raw {c : Char} {b s : Str} : c ≠ '"' → c ≠ '\\' → 0x20 ≤ c.toNat → StrText b s → StrText (c :: b) (c :: s)
  | short {e c : Char} {b s : Str} : (e, c) ∈ shortEscapes → StrText b s → StrText ('\\' :: e :: b) (c :: s)
  | code {h : Str} {c : Char} {b s : Str} : Hex4 h c.toNat → StrText b s → StrText ('\\' :: 'u' :: (h ++ b)) (c :: s)
  /-- A character beyond `0xFFFF` as UTF-16 surrogate pair. -/
  | pair {h h' : Str} {c : Char} {b s : Str} : 0x10000 ≤ c.toNat → Hex4 h (0xD800 + (c.toNat - 0x10000) / 0x400) →
      Hex4 h' (0xDC00 + (c.toNat - 0x10000) % 0x400) → StrText b s → StrText ('\\' :: 'u' :: (h ++ '\\' :: 'u' :: (h' ++ b))) (c :: s)

mutual
/-- A value without surrounding white space. -/
inductive ValueText : Str → JTree → Prop
  | null : ValueText ['n', 'u', 'l', 'l'] .null
  | true : ValueText ['t', 'r', 'u', 'e'] (.bool true)
  | false : ValueText ['f', 'a', 'l', 's', 'e'] (.bool false)
  | num {lit : Str} : NumLit lit → ValueText lit (.num lit)
  | str {b s : Str} : StrText b s → ValueText ('"' :: (b ++ ['"'])) (.str s)
  | noItems {w : Str} : Ws w → ValueText ('[' :: (w ++ [']'])) (.arr [])
  | arr {b : Str} {l : List JTree} : ItemsText b l → ValueText ('[' :: (b ++ [']'])) (.arr l)
  | noFields {w : Str} : Ws w → ValueText ('{' :: (w ++ ['}'])) (.obj [])
  | obj {b : Str} {l : List (Str × JTree)} : FieldsText b l → ValueText ('{' :: (b ++ ['}'])) (.obj l)
/-- One or more values, separated by commas. -/
inductive ItemsText : Str → List JTree → Prop
  | one {w b w' : Str} {t : JTree} : Ws w → ValueText b t → Ws w' → ItemsText (w ++ (b ++ w')) [t]
  | more {w b w' b' : Str} {t : JTree} {l : List JTree} : Ws w → ValueText b t → Ws w' → ItemsText b' l →
      ItemsText (w ++ (b ++ (w' ++ ',' :: b'))) (t :: l)
/-- One or more names with values, separated by commas. -/
inductive FieldsText : Str → List (Str × JTree) → Prop
  | one {w n w' w'' b w''' k : Str} {t : JTree} : Ws w → StrText n k → Ws w' → Ws w'' → ValueText b t → Ws w''' →
      FieldsText (w ++ '"' :: (n ++ '"' :: (w' ++ ':' :: (w'' ++ (b ++ w'''))))) [(k, t)]
  | more {w n w' w'' b w''' b' k : Str} {t : JTree} {l : List (Str × JTree)} : Ws w → StrText n k → Ws w' → Ws w'' → ValueText b t → Ws w''' →
      FieldsText b' l → FieldsText (w ++ '"' :: (n ++ '"' :: (w' ++ ':' :: (w'' ++ (b ++ (w''' ++ ',' :: b')))))) ((k, t) :: l)
end

/-- A JSON text: one value and white space around it. -/
def Text (s : Str) (t : JTree) : Prop := ∃ w b w', s = w ++ (b ++ w') ∧ Ws w ∧ ValueText b t ∧ Ws w'

/-! ## JS objects -/

/-- The last value the text has for a name. -/
def LastValue (l : List (Str × JTree)) (k : Str) (t : JTree) : Prop := ∃ l₁ l₂, l = l₁ ++ (k, t) :: l₂ ∧ ∀ e ∈ l₂, e.1 ≠ k

/-- `a` occurs in the text before `b` does. -/
def OccursBefore (l : List (Str × JTree)) (a b : Str) : Prop := ∃ l₁ l₂, l = l₁ ++ l₂ ∧ (∃ e ∈ l₁, e.1 = a) ∧ ∀ e ∈ l₁, e.1 ≠ b

/-- The order of the properties of an object made from the text: array indices ascending, then the other names in the order of the text. -/
def PropOrder (l : List (Str × JTree)) (a b : Str) : Prop :=
  (∃ i j, IsIndex a i ∧ IsIndex b j ∧ i < j) ∨ ((∃ i, IsIndex a i) ∧ ∀ j, ¬ IsIndex b j) ∨
  ((∀ i, ¬ IsIndex a i) ∧ (∀ j, ¬ IsIndex b j) ∧ OccursBefore l a b)

/-- What a syntax tree is as JS value: numbers are rounded; of a repeated name the last value counts. -/
inductive JsMeans (D : Doubles) : JTree → JsVal → Prop
  | null : JsMeans D .null .null
  | bool (b : Bool) : JsMeans D (.bool b) (.bool b)
  | num (lit : Str) : JsMeans D (.num lit) (D.round lit)
  | str (s : Str) : JsMeans D (.str s) (.str s)
  | arr {l : List JTree} {l' : List JsVal} : l.length = l'.length → (∀ (i : Nat) t v, l[i]? = some t → l'[i]? = some v → JsMeans D t v) →
      JsMeans D (.arr l) (.arr l')
  | obj {l : List (Str × JTree)} {o : List (Str × JsVal)} : (∀ k, (∃ v, (k, v) ∈ o) ↔ ∃ t, (k, t) ∈ l) →
      o.Pairwise (fun a b => PropOrder l a.1 b.1) → (∀ k v t, (k, v) ∈ o → LastValue l k t → JsMeans D t v) → JsMeans D (.obj l) (.obj o)

/-! ## The limits of `serde_json` -/

mutual
/-- How deep arrays and objects are nested. -/
def nesting : JTree → Nat
  | .arr l => nestingItems l + 1
  | .obj l => nestingFields l + 1
  | _ => 0
/-- The deepest item. -/
def nestingItems : List JTree → Nat
  | [] => 0
  | t :: ts => max (nesting t) (nestingItems ts)
/-- The deepest field. -/
def nestingFields : List (Str × JTree) → Nat
  | [] => 0
  | (_, t) :: ts => max (nesting t) (nestingFields ts)
end

/-- A number literal occurs in the tree. -/
inductive HasNum : JTree → Str → Prop
  | here (lit : Str) : HasNum (.num lit) lit
  | item {l : List JTree} {t : JTree} {lit : Str} : t ∈ l → HasNum t lit → HasNum (.arr l) lit
  | field {l : List (Str × JTree)} {k : Str} {t : JTree} {lit : Str} : (k, t) ∈ l → HasNum t lit → HasNum (.obj l) lit

end Zkenc.JsonSpec
