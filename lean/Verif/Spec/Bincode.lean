import Verif.Model.TestFixture
/-!
# The binary files of `serializable.rs`, as an independent description

Written from the type declarations of `packages/zkenc-core/src/serializable.rs` 8-77 and the bincode 1.3 format (fixed-width integers): numbers are little-endian,
`u32` has four bytes and a length eight; a vector, a string and a map are their length followed by their parts, `Option` is one byte, 0 or 1, followed by the value;
a structure is its fields in the order of declaration.
-/

namespace Zkenc.BincodeSpec

open Zkenc

/-- The bytes `b` are the number `v`, written in `k` bytes. -/
def IsNum (k : Nat) (b : Bytes) (v : Nat) : Prop := b.length = k ∧ leNat b = v

/-- A vector of bytes. -/
def IsBytes (b v : Bytes) : Prop := ∃ n, IsNum 8 n v.length ∧ b = n ++ v

/-- A string: the bytes are UTF-8. -/
def IsText (b : Bytes) (s : String) : Prop := IsBytes b s.toUTF8.data.toList

/-- A vector. -/
def IsSeq {α : Type} (E : Bytes → α → Prop) (b : Bytes) (l : List α) : Prop :=
  ∃ n es, IsNum 8 n l.length ∧ List.Forall₂ E es l ∧ b = n ++ List.flatten es

/-- A pair, a structure of two fields. -/
def IsPair {α β : Type} (E : Bytes → α → Prop) (E' : Bytes → β → Prop) (b : Bytes) (p : α × β) : Prop :=
  ∃ e e', E e p.1 ∧ E' e' p.2 ∧ b = e ++ e'

/-- `Option`. -/
def IsOption {α : Type} (E : Bytes → α → Prop) (b : Bytes) : Option α → Prop
  | none => b = [0]
  | some a => ∃ e, E e a ∧ b = 1 :: e

/-- The map `m`, listed in some order, is what remains of the entries `l` when of several entries with the same key the last one counts. -/
def IsMapOf {α : Type} (l m : List (Nat × α)) : Prop :=
  (m.map (·.1)).Nodup ∧ ∀ k v, (k, v) ∈ m ↔ ∃ l1 l2, l = l1 ++ (k, v) :: l2 ∧ ∀ x ∈ l2, x.1 ≠ k

/-- A map with `u32` keys. -/
def IsMap {α : Type} (E : Bytes → α → Prop) (b : Bytes) (m : List (Nat × α)) : Prop := ∃ l, IsSeq (IsPair (IsNum 4) E) b l ∧ IsMapOf l m

/-- A linear combination: a vector of wire numbers and coefficients. -/
def IsLc (b : Bytes) (l : List SFactor) : Prop := IsSeq (IsPair (IsNum 4) IsBytes) b (l.map fun f => (f.wireId, f.coefficientBytes))

/-- A constraint. -/
def IsConstraint (b : Bytes) (k : SConstraint) : Prop := ∃ x y z, IsLc x k.a ∧ IsLc y k.b ∧ IsLc z k.c ∧ b = x ++ y ++ z

/-- A circuit. -/
def IsCircuit (b : Bytes) (c : SCircuit) : Prop :=
  ∃ f p w o i v n k l : Bytes, IsNum 4 f c.fieldSize ∧ IsBytes p c.primeBytes ∧ IsNum 4 w c.nWires ∧ IsNum 4 o c.nPubOut ∧ IsNum 4 i c.nPubIn ∧
    IsNum 4 v c.nPrvIn ∧ IsNum 4 n c.nConstraints ∧ IsSeq IsConstraint k c.constraints ∧ IsOption (IsMap IsText) l c.wireLabels ∧
    b = f ++ p ++ w ++ o ++ i ++ v ++ n ++ k ++ l

/-- A test case: circuit, witness (a map from wires to bytes), name and description. -/
def IsTestCase (b : Bytes) (t : STestCase) : Prop :=
  ∃ c w n d : Bytes, IsCircuit c t.circuit ∧ IsMap IsBytes w t.witness.assignments ∧ IsText n t.name ∧ IsOption IsText d t.description ∧
    b = c ++ w ++ n ++ d

/-- The same circuit: only the order in which the label map is listed may differ. -/
def SameCircuit (c c' : SCircuit) : Prop :=
  { c with wireLabels := none } = { c' with wireLabels := none } ∧
  match c.wireLabels, c'.wireLabels with
  | none, none => True
  | some m, some m' => m.Perm m'
  | _, _ => False

/-- The same test case: only the order in which the maps are listed may differ. -/
def SameTestCase (t t' : STestCase) : Prop :=
  SameCircuit t.circuit t'.circuit ∧ t.witness.assignments.Perm t'.witness.assignments ∧ t.name = t'.name ∧ t.description = t'.description

end Zkenc.BincodeSpec
