import Verif.Basic.Str
/-!
# Specification: symbol files

One line `label,wire,component,name` per signal; wire -1 means that the signal has no wire. Lines with another number of fields
mean nothing.
-/

namespace Zkenc.SymSpec

open Zkenc

/-- A signal. -/
structure Entry where
  label : Str
  wire : Int
  comp : Str
  name : Str
  deriving DecidableEq

/-- A line of the file. -/
inductive Item where
  | entry (e : Entry)
  | junk (text : Str)

/-- The text of a line. -/
def Item.text : Item → Str
  | .entry e => e.label ++ ',' :: (intDec e.wire ++ ',' :: (e.comp ++ ',' :: e.name))
  | .junk s => s

/-- The lines of a file, separated by line feeds (a file that ends with a line feed has an empty junk line at the end). -/
def text : List Item → Str
  | [] => []
  | [i] => i.text
  | i :: j :: is => i.text ++ '\n' :: text (j :: is)

/-- Well-formed lines: no separators inside the fields, no white space around the name, wire ids are
32-bit signed numbers. -/
def Item.Ok : Item → Prop
  | .entry e => (∀ c ∈ e.label, c ≠ ',' ∧ c ≠ '\n') ∧ (∀ c ∈ e.comp, c ≠ ',' ∧ c ≠ '\n') ∧ (∀ c ∈ e.name, c ≠ ',' ∧ c ≠ '\n') ∧
      trim rustWs e.name = e.name ∧ -2 ^ 31 ≤ e.wire ∧ e.wire < 2 ^ 31
  | .junk s => '\n' ∉ s ∧ s.count ',' ≠ 3

/-- The signals of a file that have a wire. -/
def signals : List Item → List (Str × Nat)
  | [] => []
  | .entry e :: is => if 0 ≤ e.wire then (e.name, e.wire.toNat) :: signals is else signals is
  | .junk _ :: is => signals is

/-- No character on which Rust and JS disagree about being white space. -/
def PlainWs (s : Str) : Prop := ∀ c ∈ s, c.toNat ≠ 0x85 ∧ c.toNat ≠ 0xFEFF

end Zkenc.SymSpec
