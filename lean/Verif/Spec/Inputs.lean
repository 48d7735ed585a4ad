import Verif.Model.Inputs
/-!
# Specification: what an input object says about signals

`x` at indices `i₁ … i_k` of the (nested) array input `a` is the value of the signal `a[i₁]…[i_k]`.
-/

namespace Zkenc.InputSpec

open Zkenc

/-- `y` is found in `j` by following the array indices `path`. -/
inductive AtPath : Json → List Nat → Json → Prop
  | here (j : Json) : AtPath j [] j
  | elem {l : List Json} {i : Nat} {x : Json} {path : List Nat} {y : Json} : l[i]? = some x → AtPath x path y → AtPath (.arr l) (i :: path) y

/-- Not an array. -/
def NotArr : Json → Prop
  | .arr _ => False
  | _ => True

/-- The name of the signal: `key[i₁]…[i_k]`. -/
def signalName (key : Str) : List Nat → Str
  | [] => key
  | i :: path => signalName (key ++ '[' :: (natDec i ++ [']'])) path

/-- Decimal text accepted for a field element: optional sign, a digit, then digits and underscores. -/
def DecText (s : Str) (z : Int) : Prop :=
  ∃ d t, isDig d = true ∧ (∀ c ∈ t, isDig c = true ∨ c = '_') ∧
    ((s = d :: t ∧ z = decVal ((d :: t).filter (· ≠ '_'))) ∨ (s = '+' :: d :: t ∧ z = decVal ((d :: t).filter (· ≠ '_'))) ∨
      (s = '-' :: d :: t ∧ z = -(decVal ((d :: t).filter (· ≠ '_')) : Int)))

/-- The field element that a scalar stands for, in the CLI. Negative JSON integers stand for `z + 2^64`. -/
inductive Denotes : Json → Fr → Prop
  | nat (z : Int) : 0 ≤ z → z < 2 ^ 64 → Denotes (.int z) (z : Fr)
  | neg (z : Int) : -2 ^ 63 ≤ z → z < 0 → Denotes (.int z) ((z + 2 ^ 64 : Int) : Fr)
  | str (s : Str) (z : Int) : DecText s z → Denotes (.str s) (z : Fr)

/-- The input object gives the signal `name` the value `x`. -/
def Gives (entries : List (Str × Json)) (name : Str) (x : Fr) : Prop :=
  ∃ e ∈ entries, ∃ path y, AtPath e.2 path y ∧ NotArr y ∧ name = signalName e.1 path ∧ Denotes y x

/-- Everything in the object that is not an array stands for a field element. -/
def AllDenote (entries : List (Str × Json)) : Prop :=
  ∀ e ∈ entries, ∀ path y, AtPath e.2 path y → NotArr y → ∃ x, Denotes y x

/-- The symbol table sends the input `name` to wire `i`, which is within the bound. -/
def Resolves (symtab : AMap Nat) (max : Option Nat) (name : Str) (i : Nat) : Prop :=
  symtab.get ("main.".toList ++ name) = some i ∧ ∀ k, max = some k → i ≤ k

/-- No two values of the object are for the same wire, unless they are equal. -/
def NoAlias (symtab : AMap Nat) (max : Option Nat) (entries : List (Str × Json)) : Prop :=
  ∀ n n' i x x', Resolves symtab max n i → Resolves symtab max n' i → Gives entries n x → Gives entries n' x' → x = x'

/-! ## JS -/

/-- What JS finds under the full key: arrays are entered one level only, objects are entered with `.`. -/
inductive JsAt : JsVal → Str → Str → JsVal → Prop
  | elem {l : List JsVal} {i : Nat} {x : JsVal} {full : Str} : l[i]? = some x → JsAt (.arr l) full (full ++ '[' :: (natDec i ++ [']'])) x
  | field {l : List (Str × JsVal)} {k : Str} {v : JsVal} {full name : Str} {x : JsVal} : (k, v) ∈ l →
      JsAt v (if full = [] then k else full ++ '.' :: k) name x → JsAt (.obj l) full name x
  | scalar {v : JsVal} {full : Str} : (∀ l, v ≠ .arr l) → (∀ l, v ≠ .obj l) → JsAt v full full v

/-- The JS input object gives the signal `name` the value `v`. -/
def JsGives (inputs : List (Str × JsVal)) (name : Str) (v : JsVal) : Prop := ∃ e ∈ inputs, JsAt e.2 e.1 name v

/-- No two values of the object are for the same wire, unless their texts are equal. -/
def JsNoAlias (symtab : AMap Nat) (inputs : List (Str × JsVal)) : Prop :=
  ∀ n n' i v v', Resolves symtab none n i → Resolves symtab none n' i → JsGives inputs n v → JsGives inputs n' v' →
    v.toStr = v'.toStr

/-- The object gives wire `i` a value. -/
def JsSupplies (symtab : AMap Nat) (inputs : List (Str × JsVal)) (i : Nat) : Prop :=
  ∃ name v, Resolves symtab none name i ∧ JsGives inputs name v

/-- Some wire among 1, 2, …, 2^25 is given no value, so that the witness array, which ends before the first such wire, stays below 1 GiB. -/
def JsSmall (symtab : AMap Nat) (inputs : List (Str × JsVal)) : Prop := ∃ i, 1 ≤ i ∧ i ≤ 2 ^ 25 ∧ ¬ JsSupplies symtab inputs i

/-- In particular if all values are for wires below 2^25. -/
theorem JsSmall.of_lt {symtab : AMap Nat} {inputs : List (Str × JsVal)}
    (h : ∀ name v i, Resolves symtab none name i → JsGives inputs name v → i < 2 ^ 25) : JsSmall symtab inputs :=
  ⟨2 ^ 25, Nat.one_le_two_pow, le_rfl, fun ⟨name, v, h1, h2⟩ => lt_irrefl _ (h name v _ h1 h2)⟩

/-- An unbroken run of wires that are given values is shorter than 2^25. -/
theorem JsSmall.run_lt {symtab : AMap Nat} {inputs : List (Str × JsVal)} (h : JsSmall symtab inputs) {n : Nat}
    (hn : ∀ k, k < n → JsSupplies symtab inputs (k + 1)) : n < 2 ^ 25 := by
  obtain ⟨i, h1, h2, h3⟩ := h
  by_contra hc
  apply h3
  have := hn (i - 1) (by omega)
  rwa [Nat.sub_add_cancel h1] at this

end Zkenc.InputSpec

namespace Zkenc

/-- Iteration in insertion order. -/
def HashOrder.same : HashOrder := ⟨fun m => m, fun m => List.Perm.refl m⟩

/-- Iteration in reverse order. -/
def HashOrder.reversed : HashOrder := ⟨fun m => m.reverse, fun m => List.reverse_perm m⟩

end Zkenc
