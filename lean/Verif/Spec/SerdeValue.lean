import Verif.Spec.JsonGrammar
/-!
# Specification: what a JSON text is as value of `serde_json`
-/

namespace Zkenc.JsonSpec

open Zkenc

/-- What a syntax tree is as `serde_json` value: a literal that is the decimal text of an integer is that integer, every other number (`-0`, fractions,
exponents) a float; of a repeated name the last value counts. The order of the entries of an object is left open. -/
inductive SerdeMeans : JTree → Json → Prop
  | null : SerdeMeans .null .null
  | bool (b : Bool) : SerdeMeans (.bool b) (.bool b)
  | int (z : Int) : SerdeMeans (.num (intDec z)) (.int z)
  | float {lit : Str} : (∀ z, lit ≠ intDec z) → SerdeMeans (.num lit) .float
  | str (s : Str) : SerdeMeans (.str s) (.str s)
  | arr {l : List JTree} {l' : List Json} : l.length = l'.length → (∀ (i : Nat) t v, l[i]? = some t → l'[i]? = some v → SerdeMeans t v) →
      SerdeMeans (.arr l) (.arr l')
  | obj {l : List (Str × JTree)} {o : List (Str × Json)} : (∀ k, (∃ v, (k, v) ∈ o) ↔ ∃ t, (k, t) ∈ l) → (o.map Prod.fst).Nodup →
      (∀ k v t, (k, v) ∈ o → LastValue l k t → SerdeMeans t v) → SerdeMeans (.obj l) (.obj o)

/-- Two `serde_json` values are equal up to the order of the entries of objects. -/
inductive SameValue : Json → Json → Prop
  | refl (j : Json) : SameValue j j
  | arr {l l' : List Json} : l.length = l'.length → (∀ (i : Nat) u v, l[i]? = some u → l'[i]? = some v → SameValue u v) → SameValue (.arr l) (.arr l')
  | obj {o o' : List (Str × Json)} : (∀ k, (∃ v, (k, v) ∈ o) ↔ ∃ v, (k, v) ∈ o') → (∀ k u v, (k, u) ∈ o → (k, v) ∈ o' → SameValue u v) →
      SameValue (.obj o) (.obj o')

end Zkenc.JsonSpec
