import Verif.Spec.EndToEnd
/-!
# Specification: several values for one wire

An input object may give several values to one wire: `{"a": {"b": 1}, "a.b": 2}`, or two names of the symbol file on one wire. This says, for
JS, in which order the values of an object come, and which of the values for a wire counts: the last one. For the CLI: of the values for one name
the last one counts; of the names for one wire any one may.
-/

namespace Zkenc.InputSpec

open Zkenc

mutual
/-- The values found under the full name, in order: the items of an array (which are not entered), the fields of an object (which are),
or the value itself. -/
def valuesUnder : JsVal → Str → List (Str × JsVal)
  | .arr l, full => l.zipIdx.map fun e => (signalName full [e.2], e.1)
  | .obj l, full => valuesOf l full
  | .null, full => [(full, .null)]
  | .undef, full => [(full, .undef)]
  | .bool b, full => [(full, .bool b)]
  | .num z, full => [(full, .num z)]
  | .numText s, full => [(full, .numText s)]
  | .bigint z, full => [(full, .bigint z)]
  | .str s, full => [(full, .str s)]
/-- The values of the fields, in the order of the fields. -/
def valuesOf : List (Str × JsVal) → Str → List (Str × JsVal)
  | [], _ => []
  | (k, v) :: rest, pre => valuesUnder v (if pre = [] then k else pre ++ '.' :: k) ++ valuesOf rest pre
end

/-- All values of an input object with the names of their signals, in order. -/
def valuesInOrder (inputs : List (Str × JsVal)) : List (Str × JsVal) := valuesOf inputs []

/-- `v` is the value that counts for wire `i`: the object gives it to a signal on wire `i`, and none of the values after it is for a signal
on wire `i`. -/
def JsCounts (symtab : AMap Nat) (inputs : List (Str × JsVal)) (i : Nat) (v : JsVal) : Prop :=
  ∃ before name after, valuesInOrder inputs = before ++ (name, v) :: after ∧ Resolves symtab none name i ∧
    ∀ e ∈ after, ¬ Resolves symtab none e.1 i

/-! ## CLI -/

mutual
/-- The values found under the full name, in order: the items of an array, which are entered, or the value itself. -/
def cliValuesUnder : Json → Str → List (Str × Json)
  | .arr l, key => cliItems l 0 key
  | .null, key => [(key, .null)]
  | .bool b, key => [(key, .bool b)]
  | .int z, key => [(key, .int z)]
  | .float, key => [(key, .float)]
  | .str s, key => [(key, .str s)]
  | .obj l, key => [(key, .obj l)]
/-- The values in the items number `i`, `i + 1`, … of an array. -/
def cliItems : List Json → Nat → Str → List (Str × Json)
  | [], _, _ => []
  | x :: xs, i, key => cliValuesUnder x (signalName key [i]) ++ cliItems xs (i + 1) key
end

/-- All values of an input object with the names of their signals, in order. -/
def cliValuesInOrder (entries : List (Str × Json)) : List (Str × Json) := entries.flatMap fun e => cliValuesUnder e.2 e.1

/-- `x` is the value that counts for the name: the last one given to it. -/
def CliCounts (entries : List (Str × Json)) (name : Str) (x : Fr) : Prop :=
  ∃ before y after, cliValuesInOrder entries = before ++ (name, y) :: after ∧ Denotes y x ∧ ∀ e ∈ after, e.1 ≠ name

/-- The object gives a value to wire `i`, which is within the bound `n`. -/
def CliGivesWire (symtab : AMap Nat) (n : Nat) (entries : List (Str × Json)) (i : Nat) : Prop :=
  ∃ name x, Resolves symtab (some n) name i ∧ Gives entries name x

/-- A wire assignment that chooses among the values of the object: each wire that is given values has the value that counts for one of its names;
of the others, wire 0 is one and the rest are missing. -/
structure CliChoice (symtab : AMap Nat) (n : Nat) (entries : List (Str × Json)) (c : Nat → Option Fr) : Prop where
  given : ∀ i, CliGivesWire symtab n entries i → ∃ name x, Resolves symtab (some n) name i ∧ CliCounts entries name x ∧ c i = some x
  other : ∀ i, ¬ CliGivesWire symtab n entries i → c i = if i = 0 then some 1 else none

end Zkenc.InputSpec

namespace Zkenc.Spec

open Zkenc Zkenc.InputSpec

/-- The object can be used by JS `encap`, if the last value for a wire counts: no value with a wire is null or undefined (also if it does not
count), and the values that count for the unbroken run of wires 1, 2, 3, … are texts of integers. -/
structure JsUsableLast (symtab : AMap Nat) (inputs : List (Str × JsVal)) : Prop where
  not_null : ∀ name v i, Resolves symtab none name i → JsGives inputs name v → v ≠ .null ∧ v ≠ .undef
  integer : ∀ i, 1 ≤ i → (∀ j, 1 ≤ j → j ≤ i → JsSupplies symtab inputs j) →
    ∀ v s, JsCounts symtab inputs i v → v.toStr = .ok s → ∃ z, jsBigInt s = some z

/-- In the witness, the wires 1, 2, … up to the first one that is given no value, and up to `n`, have the values that count for them. -/
def JsEnforcedLast (symtab : AMap Nat) (n : Nat) (inputs : List (Str × JsVal)) (vals : List Fr) : Prop :=
  ∀ j, 1 ≤ j → j ≤ n → (∀ i, 1 ≤ i → i ≤ j → JsSupplies symtab inputs i) →
    ∀ v s z, JsCounts symtab inputs j v → v.toStr = .ok s → jsBigInt s = some z →
      vals[j]? = some (((z % 2 ^ 256).toNat : Nat) : Fr)

end Zkenc.Spec
