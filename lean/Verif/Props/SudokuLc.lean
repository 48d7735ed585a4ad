import Verif.Model.SudokuR1cs
import Verif.Model.SudokuCert
import Verif.Model.Serialize
import Verif.Spec.R1cs
import Mathlib.Tactic.LinearCombination
/-!
# Proof support for the Sudoku circuit: integer linear combinations, checked by computation

The compiled constraints are compared with the template by normalising integer linear combinations; the results hold for every assignment.
-/

namespace Zkenc.SudokuLc

open Zkenc Zkenc.Spec

/-- Value of a linear combination (proof helper). -/
def ev (v : Nat → Fr) (l : IntLc) : Fr := (l.map fun t => (t.2 : Fr) * v t.1).sum

@[simp] theorem ev_nil (v : Nat → Fr) : ev v [] = 0 := rfl
@[simp] theorem ev_cons (v : Nat → Fr) (t : Nat × Int) (l : IntLc) : ev v (t :: l) = (t.2 : Fr) * v t.1 + ev v l := by simp [ev]
theorem ev_append (v : Nat → Fr) (l m : IntLc) : ev v (l ++ m) = ev v l + ev v m := by simp [ev]

/-- A constraint holds (proof helper). -/
def Holds (v : Nat → Fr) (k : IntCstr) : Prop := ev v k.a * ev v k.b = ev v k.c

/-- Multiply by an integer (proof helper). -/
def scale (z : Int) (l : IntLc) : IntLc := l.map fun t => (t.1, z * t.2)

theorem ev_scale (v : Nat → Fr) (z : Int) (l : IntLc) : ev v (scale z l) = (z : Fr) * ev v l := by
  induction l with
  | nil => simp [scale]
  | cons t l ih =>
    have : scale z (t :: l) = (t.1, z * t.2) :: scale z l := rfl
    rw [this, ev_cons, ev_cons, ih]; push_cast; ring

/-- Add a term to a sorted combination (proof helper). -/
def addTerm (w : Nat) (c : Int) : IntLc → IntLc
  | [] => if c = 0 then [] else [(w, c)]
  | (w', c') :: l => if w = w' then (if c + c' = 0 then l else (w, c + c') :: l)
      else if w < w' then (if c = 0 then (w', c') :: l else (w, c) :: (w', c') :: l) else (w', c') :: addTerm w c l

theorem ev_addTerm (v : Nat → Fr) (w : Nat) (c : Int) (l : IntLc) : ev v (addTerm w c l) = (c : Fr) * v w + ev v l := by
  induction l with
  | nil => unfold addTerm; split <;> simp_all
  | cons t l ih =>
    obtain ⟨w', c'⟩ := t
    unfold addTerm
    split
    · rename_i h; subst h
      split
      · rename_i h0
        have : ((c + c' : Int) : Fr) = 0 := by rw [h0]; simp
        push_cast at this
        simp only [ev_cons]; linear_combination (-(v w)) * this
      · simp only [ev_cons]; push_cast; ring
    · split
      · split
        · rename_i h0; subst h0; simp
        · simp
      · simp only [ev_cons, ih]; ring

/-- Sort and collect (proof helper). -/
def norm : IntLc → IntLc
  | [] => []
  | t :: l => addTerm t.1 t.2 (norm l)

theorem ev_norm (v : Nat → Fr) (l : IntLc) : ev v (norm l) = ev v l := by
  induction l with
  | nil => rfl
  | cons t l ih => rw [norm, ev_addTerm, ih, ev_cons]

/-- Equal as linear forms (proof helper). -/
def same (l m : IntLc) : Bool := norm l == norm m

theorem ev_same {l m : IntLc} (h : same l m = true) (v : Nat → Fr) : ev v l = ev v m := by
  rw [← ev_norm v l, ← ev_norm v m, eq_of_beq h]

/-- Replace removed signals (proof helper). -/
def elimOf (w : Nat) : Option IntLc := (sudokuElim.find? fun r => r.sig == w).map ElimRow.expr

/-- Replace removed signals in a combination (proof helper). -/
def subst (l : IntLc) : IntLc := l.flatMap fun t => match elimOf t.1 with
  | some e => scale t.2 e
  | none => [t]

/-- The removed signals have the values of the table (proof helper). -/
def Elim (v : Nat → Fr) : Prop := ∀ r ∈ sudokuElim, v r.sig = ev v r.expr

theorem ev_subst {v : Nat → Fr} (h : Elim v) (l : IntLc) : ev v (subst l) = ev v l := by
  induction l with
  | nil => rfl
  | cons t l ih =>
    have : subst (t :: l) = (match elimOf t.1 with | some e => scale t.2 e | none => [t]) ++ subst l := rfl
    rw [this, ev_append, ih, ev_cons]
    congr 1
    cases hc : elimOf t.1 with
    | none => simp
    | some e =>
      simp only [ev_scale]
      unfold elimOf at hc
      cases hf : sudokuElim.find? (fun r => r.sig == t.1) with
      | none => rw [hf] at hc; simp at hc
      | some r =>
        rw [hf] at hc
        simp only [Option.map_some, Option.some.injEq] at hc
        have hm := List.mem_of_find?_eq_some hf
        have hs : r.sig = t.1 := by have := List.find?_some hf; exact eq_of_beq this
        rw [← hs, h r hm, hc]

/-- Wire numbers to labels (proof helper). -/
def relabel (l : IntLc) : IntLc := l.map fun t => (sudokuLabels.getD t.1 0, t.2)

/-- The compiled constraints over labels (proof helper). -/
def compiled : List IntCstr := sudokuTable.map fun k => ⟨relabel k.a, relabel k.b, relabel k.c⟩

/-- The linear constraints of the template (proof helper). -/
def linear : List IntCstr := sudokuRows ++ sudokuCols ++ sudokuBoxes

/-- `a - c` (proof helper): linear constraints are `a · 1 = c`. -/
def zeroForm (k : IntCstr) : IntLc := k.a ++ scale (-1) k.c

/-- The k-th square constraint matches (proof helper). -/
def squareMatch (t c : IntCstr) : Bool :=
  same (subst t.a) (scale (-1) c.a) && same (subst t.b) c.b && same (subst t.c) (scale (-1) c.c)

/-- The k-th puzzle constraint matches (proof helper). -/
def givenMatch (t c : IntCstr) : Bool := same (subst t.a) c.b && same (subst t.b) c.a && same (subst t.c) c.c

/-- Multiples of linear constraints added up (proof helper). -/
def combo (mult : List (Nat × Int)) : IntLc := mult.flatMap fun m => scale m.2 ((linear[m.1]?).elim [] zeroForm)

set_option maxRecDepth 20000

theorem squares_ok : (sudokuSquares.zip (compiled.take 81)).all (fun p => squareMatch p.1 p.2) = true := by decide +kernel
theorem givens_ok : (sudokuGivens.zip (compiled.drop 81)).all (fun p => givenMatch p.1 p.2) = true := by decide +kernel
theorem linear_ok : linear.all (fun k => same (subst (zeroForm k)) []) = true := by decide +kernel
theorem linear_b : linear.all (fun k => k.b == [(0, 1)]) = true := by decide +kernel
theorem elim_ok : sudokuElim.all (fun r => same ((r.sig, 1) :: scale (-1) r.expr) (combo r.mult)) = true := by decide +kernel
theorem compiled_length : compiled.length = 162 := by decide +kernel

theorem zeroForm_iff {v : Nat → Fr} (h1 : v 0 = 1) {k : IntCstr} (hb : k.b = [(0, 1)]) : Holds v k ↔ ev v (zeroForm k) = 0 := by
  unfold Holds zeroForm
  rw [hb, ev_append, ev_scale]
  simp only [ev_cons, ev_nil, h1]
  push_cast
  constructor
  · intro h; linear_combination h
  · intro h; linear_combination h

theorem elim_of_linear {v : Nat → Fr} (h1 : v 0 = 1) (h : ∀ k ∈ linear, Holds v k) : Elim v := by
  intro r hr
  have h2 := List.all_eq_true.1 elim_ok r hr
  have h3 := ev_same h2 v
  have h4 : ev v (combo r.mult) = 0 := by
    unfold combo
    generalize r.mult = ms
    induction ms with
    | nil => rfl
    | cons m ms ih =>
      rw [List.flatMap_cons, ev_append, ih, ev_scale]
      cases hk : linear[m.1]? with
      | none => simp
      | some k =>
        have hm := List.mem_of_getElem? hk
        have hb : k.b = [(0, 1)] := eq_of_beq (List.all_eq_true.1 linear_b k hm)
        simp only [Option.elim_some, (zeroForm_iff h1 hb).1 (h k hm)]
        simp
  rw [h4, ev_cons, ev_scale] at h3
  push_cast at h3
  linear_combination h3

theorem linear_of_elim {v : Nat → Fr} (h1 : v 0 = 1) (h : Elim v) : ∀ k ∈ linear, Holds v k := by
  intro k hk
  have hb : k.b = [(0, 1)] := eq_of_beq (List.all_eq_true.1 linear_b k hk)
  rw [zeroForm_iff h1 hb, ← ev_subst h, ev_same (List.all_eq_true.1 linear_ok k hk) v]
  rfl

theorem squareMatch_iff {v : Nat → Fr} (h : Elim v) {t c : IntCstr} (hm : squareMatch t c = true) : Holds v t ↔ Holds v c := by
  unfold squareMatch at hm
  simp only [Bool.and_eq_true] at hm
  obtain ⟨⟨ha, hb⟩, hc⟩ := hm
  have ha := ev_same ha v
  have hb := ev_same hb v
  have hc := ev_same hc v
  rw [ev_subst h, ev_scale] at ha hc
  rw [ev_subst h] at hb
  unfold Holds
  rw [ha, hb, hc]
  push_cast
  constructor
  · intro e; linear_combination -e
  · intro e; linear_combination -e

theorem givenMatch_iff {v : Nat → Fr} (h : Elim v) {t c : IntCstr} (hm : givenMatch t c = true) : Holds v t ↔ Holds v c := by
  unfold givenMatch at hm
  simp only [Bool.and_eq_true] at hm
  obtain ⟨⟨ha, hb⟩, hc⟩ := hm
  have ha := ev_same ha v
  have hb := ev_same hb v
  have hc := ev_same hc v
  rw [ev_subst h] at ha hb hc
  unfold Holds
  rw [ha, hb, hc, mul_comm]

/-- Pointwise equivalent lists of constraints (proof helper). -/
theorem all_iff_of_zip {v : Nat → Fr} (f : IntCstr → IntCstr → Bool) (hf : ∀ t c, f t c = true → (Holds v t ↔ Holds v c)) :
    ∀ (l m : List IntCstr), l.length = m.length → (l.zip m).all (fun p => f p.1 p.2) = true →
      ((∀ k ∈ l, Holds v k) ↔ ∀ k ∈ m, Holds v k)
  | [], [], _, _ => by simp
  | [], _ :: _, h, _ => by simp at h
  | _ :: _, [], h, _ => by simp at h
  | t :: l, c :: m, h, ha => by
    simp only [List.zip_cons_cons, List.all_cons, Bool.and_eq_true] at ha
    have := all_iff_of_zip f hf l m (by simpa using h) ha.2
    simp only [List.forall_mem_cons, hf t c ha.1, this]

/-- The compiled circuit is the template, up to the removed signals. -/
theorem template_iff {v : Nat → Fr} (h1 : v 0 = 1) :
    (∀ k ∈ sudokuTemplate, Holds v k) ↔ Elim v ∧ ∀ k ∈ compiled, Holds v k := by
  have hsplit : sudokuTemplate = sudokuSquares ++ sudokuGivens ++ linear := by simp [sudokuTemplate, linear, List.append_assoc]
  have hc : compiled = compiled.take 81 ++ compiled.drop 81 := (List.take_append_drop 81 compiled).symm
  have key : Elim v → ((∀ k ∈ sudokuSquares ++ sudokuGivens, Holds v k) ↔ ∀ k ∈ compiled, Holds v k) := by
    intro he
    rw [hc]
    simp only [List.forall_mem_append]
    rw [all_iff_of_zip squareMatch (fun t c => squareMatch_iff he) sudokuSquares (compiled.take 81)
        (by rw [List.length_take, compiled_length]; simp [sudokuSquares]) squares_ok,
      all_iff_of_zip givenMatch (fun t c => givenMatch_iff he) sudokuGivens (compiled.drop 81)
        (by rw [List.length_drop, compiled_length]; simp [sudokuGivens]) givens_ok]
  rw [hsplit, List.forall_mem_append]
  constructor
  · rintro ⟨h, hl⟩
    have he := elim_of_linear h1 hl
    exact ⟨he, (key he).1 h⟩
  · rintro ⟨he, h⟩
    exact ⟨(key he).2 h, linear_of_elim h1 he⟩

end Zkenc.SudokuLc
