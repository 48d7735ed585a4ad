import Verif.Model.JsonText
/-!
# What is expected of JSON texts
-/

namespace Zkenc.JsonSpec

open Zkenc

/-- A number literal of the JSON grammar (RFC 8259, section 6). -/
inductive NumLit : Str → Prop
  | mk (sign int frac exp : Str) (hs : sign = [] ∨ sign = ['-'])
      (hi : int = ['0'] ∨ ∃ c ds, int = c :: ds ∧ isDig c = true ∧ c ≠ '0' ∧ ds.all isDig = true)
      (hf : frac = [] ∨ ∃ ds, frac = '.' :: ds ∧ ds ≠ [] ∧ ds.all isDig = true)
      (he : exp = [] ∨ ∃ c sg ds, exp = c :: (sg ++ ds) ∧ (c = 'e' ∨ c = 'E') ∧ (sg = [] ∨ sg = ['+'] ∨ sg = ['-']) ∧ ds ≠ [] ∧
        ds.all isDig = true) : NumLit (sign ++ (int ++ (frac ++ exp)))

/-- The property name is an array index: the decimal text of a number below `2^32 - 1`. -/
def IsIndex (k : Str) (n : Nat) : Prop := k = natDec n ∧ n < 2 ^ 32 - 1

/-- The order in which an object lists its properties: array indices ascending, then the other names (in any order). -/
def Ordered (a b : Str) : Prop :=
  (∃ i j, IsIndex a i ∧ IsIndex b j ∧ i < j) ∨ ((∃ i, IsIndex a i) ∧ ∀ j, ¬ IsIndex b j) ∨
  ((∀ i, ¬ IsIndex a i) ∧ (∀ j, ¬ IsIndex b j) ∧ a ≠ b)

mutual
/-- A plain JS value as a program can hold it: numbers are really numbers (reading their text gives them back, `NaN` and the infinities
aside) and objects list their entries in property order. -/
def Real (D : Doubles) : JsVal → Prop
  | .null => True
  | .undef => True
  | .bool _ => True
  | .num z => D.round (intDec z) = .num z
  | .numText s => nonFinite s = true ∨ (NumLit s ∧ D.round s = .numText s)
  | .bigint _ => True
  | .str _ => True
  | .arr l => RealItems D l
  | .obj l => l.Pairwise (fun a b => Ordered a.1 b.1) ∧ RealFields D l
/-- All items. -/
def RealItems (D : Doubles) : List JsVal → Prop
  | [] => True
  | v :: vs => Real D v ∧ RealItems D vs
/-- All fields. -/
def RealFields (D : Doubles) : List (Str × JsVal) → Prop
  | [] => True
  | (_, v) :: vs => Real D v ∧ RealFields D vs
end

mutual
/-- Somewhere in the value there is a `BigInt`. -/
def HasBig : JsVal → Prop
  | .bigint _ => True
  | .arr l => HasBigItems l
  | .obj l => HasBigFields l
  | _ => False
/-- In some item. -/
def HasBigItems : List JsVal → Prop
  | [] => False
  | v :: vs => HasBig v ∨ HasBigItems vs
/-- In some field. -/
def HasBigFields : List (Str × JsVal) → Prop
  | [] => False
  | (_, v) :: vs => HasBig v ∨ HasBigFields vs
end

mutual
/-- What JSON keeps of a value: fields that are `undefined` disappear, `undefined` array items and numbers that are not finite become
`null`, everything else stays. -/
def kept : JsVal → JsVal
  | .undef => .null
  | .numText s => if nonFinite s then .null else .numText s
  | .arr l => .arr (keptItems l)
  | .obj l => .obj (keptFields l)
  | v => v
/-- Array items. -/
def keptItems : List JsVal → List JsVal
  | [] => []
  | v :: vs => kept v :: keptItems vs
/-- Object fields. -/
def keptFields : List (Str × JsVal) → List (Str × JsVal)
  | [] => []
  | (_, .undef) :: vs => keptFields vs
  | (k, v) :: vs => (k, kept v) :: keptFields vs
end

mutual
/-- No `undefined`, no `BigInt`, only finite numbers: values JSON can express. -/
def Plain : JsVal → Prop
  | .undef => False
  | .bigint _ => False
  | .numText s => nonFinite s = false
  | .arr l => PlainItems l
  | .obj l => PlainFields l
  | _ => True
/-- All items. -/
def PlainItems : List JsVal → Prop
  | [] => True
  | v :: vs => Plain v ∧ PlainItems vs
/-- All fields. -/
def PlainFields : List (Str × JsVal) → Prop
  | [] => True
  | (_, v) :: vs => Plain v ∧ PlainFields vs
end

mutual
/-- The value `serde_json` reads and the value JS reads from the same text: the same constants, strings, arrays and objects; an integer is
the same number up to `2^53` and the nearest floating point number beyond. -/
inductive Same (D : Doubles) : Json → JsVal → Prop
  | null : Same D .null .null
  | bool (b : Bool) : Same D (.bool b) (.bool b)
  | int (z : Int) : Same D (.int z) (D.round (intDec z))
  | float (lit : Str) (h : NumLit lit) : Same D .float (D.round lit)
  | str (s : Str) : Same D (.str s) (.str s)
  | arr {l : List Json} {l' : List JsVal} (h : SameItems D l l') : Same D (.arr l) (.arr l')
  | obj {l : List (Str × Json)} {l' : List (Str × JsVal)} (hk : ∀ k, (∃ v, (k, v) ∈ l) ↔ ∃ v, (k, v) ∈ l')
      (hnd : (l.map Prod.fst).Nodup) (hnd' : (l'.map Prod.fst).Nodup) (h : ∀ k v v', (k, v) ∈ l → (k, v') ∈ l' → Same D v v') :
      Same D (.obj l) (.obj l')
/-- Item by item. -/
inductive SameItems (D : Doubles) : List Json → List JsVal → Prop
  | nil : SameItems D [] []
  | cons {x x' l l'} (h : Same D x x') (hs : SameItems D l l') : SameItems D (x :: l) (x' :: l')
end

end Zkenc.JsonSpec
