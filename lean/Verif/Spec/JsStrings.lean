import Verif.Spec.JsonGrammar
import Verif.Model.JsStrings
/-!
# Specification: JS strings, JSON texts with arbitrary JS strings

The grammar is that of `Spec/JsonGrammar`; only strings differ: they are sequences of UTF-16 code units, and `\uXXXX` is one code unit.
-/

namespace Zkenc.JsonSpec

open Zkenc

/-- UTF-16 (RFC 2781): the code units of a list of characters. -/
inductive Utf16 : Str → JStr → Prop
  | nil : Utf16 [] []
  | one {c : Char} {u : UInt16} {s : Str} {us : JStr} : u.toNat = c.toNat → Utf16 s us → Utf16 (c :: s) (u :: us)
  | two {c : Char} {u v : UInt16} {s : Str} {us : JStr} : 0xD800 ≤ u.toNat → u.toNat < 0xDC00 → 0xDC00 ≤ v.toNat → v.toNat < 0xE000 →
      c.toNat = 0x10000 + 0x400 * (u.toNat - 0xD800) + (v.toNat - 0xDC00) → Utf16 s us → Utf16 (c :: s) (u :: v :: us)

/-- The string is a list of characters: no surrogate without its partner. -/
def WellFormed (k : JStr) : Prop := ∃ s, Utf16 s k

mutual
/-- The same value, strings as lists of characters and as code units. -/
inductive SameVal : JsVal → UVal → Prop
  | null : SameVal .null .null
  | undef : SameVal .undef .undef
  | bool (b : Bool) : SameVal (.bool b) (.bool b)
  | num (z : Int) : SameVal (.num z) (.num z)
  | numText (s : Str) : SameVal (.numText s) (.numText s)
  | bigint (z : Int) : SameVal (.bigint z) (.bigint z)
  | str {s : Str} {k : JStr} : Utf16 s k → SameVal (.str s) (.str k)
  | arr {l : List JsVal} {l' : List UVal} : SameVals l l' → SameVal (.arr l) (.arr l')
  | obj {l : List (Str × JsVal)} {l' : List (JStr × UVal)} : SameEntries l l' → SameVal (.obj l) (.obj l')
/-- Item by item. -/
inductive SameVals : List JsVal → List UVal → Prop
  | nil : SameVals [] []
  | cons {v v' l l'} : SameVal v v' → SameVals l l' → SameVals (v :: l) (v' :: l')
/-- Entry by entry, in the same order. -/
inductive SameEntries : List (Str × JsVal) → List (JStr × UVal) → Prop
  | nil : SameEntries [] []
  | cons {k k' v v' l l'} : Utf16 k k' → SameVal v v' → SameEntries l l' → SameEntries ((k, v) :: l) ((k', v') :: l')
end

/-! ## The grammar -/

/-- The text between the quotes of a string, and the string. -/
inductive UStrText : Str → JStr → Prop
  | nil : UStrText [] []
  | raw {c : Char} {u : JStr} {b : Str} {s : JStr} : c ≠ '"' → c ≠ '\\' → 0x20 ≤ c.toNat → Utf16 [c] u → UStrText b s → UStrText (c :: b) (u ++ s)
  | short {e c : Char} {u : JStr} {b : Str} {s : JStr} : (e, c) ∈ shortEscapes → Utf16 [c] u → UStrText b s → UStrText ('\\' :: e :: b) (u ++ s)
  | code {h : Str} {u : UInt16} {b : Str} {s : JStr} : Hex4 h u.toNat → UStrText b s → UStrText ('\\' :: 'u' :: (h ++ b)) (u :: s)

mutual
/-- A value without surrounding white space. -/
inductive UValueText : Str → UTree → Prop
  | null : UValueText ['n', 'u', 'l', 'l'] .null
  | true : UValueText ['t', 'r', 'u', 'e'] (.bool true)
  | false : UValueText ['f', 'a', 'l', 's', 'e'] (.bool false)
  | num {lit : Str} : NumLit lit → UValueText lit (.num lit)
  | str {b : Str} {s : JStr} : UStrText b s → UValueText ('"' :: (b ++ ['"'])) (.str s)
  | noItems {w : Str} : Ws w → UValueText ('[' :: (w ++ [']'])) (.arr [])
  | arr {b : Str} {l : List UTree} : UItemsText b l → UValueText ('[' :: (b ++ [']'])) (.arr l)
  | noFields {w : Str} : Ws w → UValueText ('{' :: (w ++ ['}'])) (.obj [])
  | obj {b : Str} {l : List (JStr × UTree)} : UFieldsText b l → UValueText ('{' :: (b ++ ['}'])) (.obj l)
/-- One or more values, separated by commas. -/
inductive UItemsText : Str → List UTree → Prop
  | one {w b w' : Str} {t : UTree} : Ws w → UValueText b t → Ws w' → UItemsText (w ++ (b ++ w')) [t]
  | more {w b w' b' : Str} {t : UTree} {l : List UTree} : Ws w → UValueText b t → Ws w' → UItemsText b' l →
      UItemsText (w ++ (b ++ (w' ++ ',' :: b'))) (t :: l)
/-- One or more names with values, separated by commas. -/
inductive UFieldsText : Str → List (JStr × UTree) → Prop
  | one {w n w' w'' b w''' : Str} {k : JStr} {t : UTree} : Ws w → UStrText n k → Ws w' → Ws w'' → UValueText b t → Ws w''' →
      UFieldsText (w ++ '"' :: (n ++ '"' :: (w' ++ ':' :: (w'' ++ (b ++ w'''))))) [(k, t)]
  | more {w n w' w'' b w''' b' : Str} {k : JStr} {t : UTree} {l : List (JStr × UTree)} : Ws w → UStrText n k → Ws w' → Ws w'' → UValueText b t → Ws w''' →
      UFieldsText b' l → UFieldsText (w ++ '"' :: (n ++ '"' :: (w' ++ ':' :: (w'' ++ (b ++ (w''' ++ ',' :: b')))))) ((k, t) :: l)
end

/-- A JSON text: one value and white space around it. -/
def UText (s : Str) (t : UTree) : Prop := ∃ w b w', s = w ++ (b ++ w') ∧ Ws w ∧ UValueText b t ∧ Ws w'

/-! ## JS objects -/

/-- The property name is an array index: the decimal text of a number below `2^32 - 1`. -/
def UIsIndex (k : JStr) (n : Nat) : Prop := Utf16 (natDec n) k ∧ n < 2 ^ 32 - 1

/-- The last value the text has for a name. -/
def ULastValue (l : List (JStr × UTree)) (k : JStr) (t : UTree) : Prop := ∃ l₁ l₂, l = l₁ ++ (k, t) :: l₂ ∧ ∀ e ∈ l₂, e.1 ≠ k

/-- `a` occurs in the text before `b` does. -/
def UOccursBefore (l : List (JStr × UTree)) (a b : JStr) : Prop := ∃ l₁ l₂, l = l₁ ++ l₂ ∧ (∃ e ∈ l₁, e.1 = a) ∧ ∀ e ∈ l₁, e.1 ≠ b

/-- The order of the properties of an object made from the text: array indices ascending, then the other names in the order of the text. -/
def UPropOrder (l : List (JStr × UTree)) (a b : JStr) : Prop :=
  (∃ i j, UIsIndex a i ∧ UIsIndex b j ∧ i < j) ∨ ((∃ i, UIsIndex a i) ∧ ∀ j, ¬ UIsIndex b j) ∨
  ((∀ i, ¬ UIsIndex a i) ∧ (∀ j, ¬ UIsIndex b j) ∧ UOccursBefore l a b)

/-- What a syntax tree is as JS value: numbers are rounded; of a repeated name the last value counts. -/
inductive UJsMeans (D : Doubles) : UTree → UVal → Prop
  | null : UJsMeans D .null .null
  | bool (b : Bool) : UJsMeans D (.bool b) (.bool b)
  | num (lit : Str) {v : UVal} : SameVal (D.round lit) v → UJsMeans D (.num lit) v
  | str (s : JStr) : UJsMeans D (.str s) (.str s)
  | arr {l : List UTree} {l' : List UVal} : l.length = l'.length → (∀ (i : Nat) t v, l[i]? = some t → l'[i]? = some v → UJsMeans D t v) →
      UJsMeans D (.arr l) (.arr l')
  | obj {l : List (JStr × UTree)} {o : List (JStr × UVal)} : (∀ k, (∃ v, (k, v) ∈ o) ↔ ∃ t, (k, t) ∈ l) →
      o.Pairwise (fun a b => UPropOrder l a.1 b.1) → (∀ k v t, (k, v) ∈ o → ULastValue l k t → UJsMeans D t v) → UJsMeans D (.obj l) (.obj o)

/-- The order in which an object lists its properties: array indices ascending, then the other names (in any order). -/
def UOrdered (a b : JStr) : Prop :=
  (∃ i j, UIsIndex a i ∧ UIsIndex b j ∧ i < j) ∨ ((∃ i, UIsIndex a i) ∧ ∀ j, ¬ UIsIndex b j) ∨
  ((∀ i, ¬ UIsIndex a i) ∧ (∀ j, ¬ UIsIndex b j) ∧ a ≠ b)

mutual
/-- A plain JS value as a program can hold it: numbers are really numbers (reading their text gives them back, `NaN` and the infinities
aside) and objects list their entries in property order. -/
def UReal (D : Doubles) : UVal → Prop
  | .null => True
  | .undef => True
  | .bool _ => True
  | .num z => D.round (intDec z) = .num z
  | .numText s => nonFinite s = true ∨ (NumLit s ∧ D.round s = .numText s)
  | .bigint _ => True
  | .str _ => True
  | .arr l => URealItems D l
  | .obj l => l.Pairwise (fun a b => UOrdered a.1 b.1) ∧ URealFields D l
/-- All items. -/
def URealItems (D : Doubles) : List UVal → Prop
  | [] => True
  | v :: vs => UReal D v ∧ URealItems D vs
/-- All fields. -/
def URealFields (D : Doubles) : List (JStr × UVal) → Prop
  | [] => True
  | (_, v) :: vs => UReal D v ∧ URealFields D vs
end

mutual
/-- Somewhere in the value there is a `BigInt`. -/
def UHasBig : UVal → Prop
  | .bigint _ => True
  | .arr l => UHasBigItems l
  | .obj l => UHasBigFields l
  | _ => False
/-- In some item. -/
def UHasBigItems : List UVal → Prop
  | [] => False
  | v :: vs => UHasBig v ∨ UHasBigItems vs
/-- In some field. -/
def UHasBigFields : List (JStr × UVal) → Prop
  | [] => False
  | (_, v) :: vs => UHasBig v ∨ UHasBigFields vs
end

mutual
/-- What JSON keeps of a value: fields that are `undefined` disappear, `undefined` array items and numbers that are not finite become
`null`, everything else stays. -/
def uKept : UVal → UVal
  | .undef => .null
  | .numText s => if nonFinite s then .null else .numText s
  | .arr l => .arr (uKeptItems l)
  | .obj l => .obj (uKeptFields l)
  | v => v
/-- Array items. -/
def uKeptItems : List UVal → List UVal
  | [] => []
  | v :: vs => uKept v :: uKeptItems vs
/-- Object fields. -/
def uKeptFields : List (JStr × UVal) → List (JStr × UVal)
  | [] => []
  | (_, .undef) :: vs => uKeptFields vs
  | (k, v) :: vs => (k, uKept v) :: uKeptFields vs
end

mutual
/-- No `undefined`, no `BigInt`, only finite numbers: values JSON can express. -/
def UPlain : UVal → Prop
  | .undef => False
  | .bigint _ => False
  | .numText s => nonFinite s = false
  | .arr l => UPlainItems l
  | .obj l => UPlainFields l
  | _ => True
/-- All items. -/
def UPlainItems : List UVal → Prop
  | [] => True
  | v :: vs => UPlain v ∧ UPlainItems vs
/-- All fields. -/
def UPlainFields : List (JStr × UVal) → Prop
  | [] => True
  | (_, v) :: vs => UPlain v ∧ UPlainFields vs
end

/-! ## Strings in trees and values -/

/-- The tree contains the string, as value or as name. -/
inductive UHasStr : UTree → JStr → Prop
  | here (s : JStr) : UHasStr (.str s) s
  | item {l : List UTree} {t : UTree} {s : JStr} : t ∈ l → UHasStr t s → UHasStr (.arr l) s
  | name {l : List (JStr × UTree)} {k : JStr} {t : UTree} : (k, t) ∈ l → UHasStr (.obj l) k
  | field {l : List (JStr × UTree)} {k : JStr} {t : UTree} {s : JStr} : (k, t) ∈ l → UHasStr t s → UHasStr (.obj l) s

/-- The JS value contains the string, as value or as name. -/
inductive UContains : UVal → JStr → Prop
  | here (s : JStr) : UContains (.str s) s
  | item {l : List UVal} {v : UVal} {s : JStr} : v ∈ l → UContains v s → UContains (.arr l) s
  | name {l : List (JStr × UVal)} {k : JStr} {v : UVal} : (k, v) ∈ l → UContains (.obj l) k
  | field {l : List (JStr × UVal)} {k : JStr} {v : UVal} {s : JStr} : (k, v) ∈ l → UContains v s → UContains (.obj l) s

/-! ## Inputs without their lone surrogates -/

mutual
/-- The same value, but entries whose name is not well-formed are missing and `?` stands in place of strings that are not well-formed. -/
inductive Cleaned : UVal → JsVal → Prop
  | null : Cleaned .null .null
  | undef : Cleaned .undef .undef
  | bool (b : Bool) : Cleaned (.bool b) (.bool b)
  | num (z : Int) : Cleaned (.num z) (.num z)
  | numText (s : Str) : Cleaned (.numText s) (.numText s)
  | bigint (z : Int) : Cleaned (.bigint z) (.bigint z)
  | str {k : JStr} {s : Str} : Utf16 s k → Cleaned (.str k) (.str s)
  | ill {k : JStr} : ¬ WellFormed k → Cleaned (.str k) (.str ['?'])
  | arr {l : List UVal} {l' : List JsVal} : CleanedItems l l' → Cleaned (.arr l) (.arr l')
  | obj {l : List (JStr × UVal)} {l' : List (Str × JsVal)} : CleanedEntries l l' → Cleaned (.obj l) (.obj l')
/-- Item by item. -/
inductive CleanedItems : List UVal → List JsVal → Prop
  | nil : CleanedItems [] []
  | cons {v v' l l'} : Cleaned v v' → CleanedItems l l' → CleanedItems (v :: l) (v' :: l')
/-- Entry by entry, in the same order. -/
inductive CleanedEntries : List (JStr × UVal) → List (Str × JsVal) → Prop
  | nil : CleanedEntries [] []
  | cons {k k' v v' l l'} : Utf16 k' k → Cleaned v v' → CleanedEntries l l' → CleanedEntries ((k, v) :: l) ((k', v') :: l')
  | ill {k v l l'} : ¬ WellFormed k → CleanedEntries l l' → CleanedEntries ((k, v) :: l) l'
end

end Zkenc.JsonSpec
