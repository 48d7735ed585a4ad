import Verif.Props.PlaySudoku
/-!
# C86: the "Auto Solve Puzzle" button of the playground
-/

namespace Zkenc.PlaySpec

open Zkenc Zkenc.SudokuSpec

/-- What the solver is given for a list of cells: -1 for an empty one. -/
inductive Asked : List JsVal → List JsVal → Prop
  | nil : Asked [] []
  | empty {l q} (h : Asked l q) : Asked (.num 0 :: l) (.num (-1) :: q)
  | other {v l q} (hv : v ≠ .num 0) (h : Asked l q) : Asked (v :: l) (v :: q)

/-- The solver gives a complete answer for the cells: a list without -1. -/
def Solves (E : PlayEnv) (cells answer : List JsVal) : Prop :=
  ∃ q, Asked cells q ∧ E.getSolution q = some answer ∧ (.num (-1)) ∉ answer

end Zkenc.PlaySpec

namespace Zkenc.Props

open Zkenc Zkenc.PlaySpec Zkenc.SudokuSpec Zkenc.SudokuLc Zkenc.JsonSpec

theorem isZero_iff (v : JsVal) : isZero v = true ↔ v = .num 0 := by
  constructor
  · intro h
    unfold isZero at h
    split at h
    · rfl
    · cases h
  · rintro rfl; rfl

theorem isMinusOne_iff (v : JsVal) : isMinusOne v = true ↔ v = .num (-1) := by
  constructor
  · intro h
    unfold isMinusOne at h
    split at h
    · rfl
    · cases h
  · rintro rfl; rfl

theorem asked_iff (l q : List JsVal) : Asked l q ↔ q = l.map fun v => if isZero v then .num (-1) else v := by
  constructor
  · intro h
    induction h with
    | nil => rfl
    | empty _ ih => rw [ih]; rfl
    | other hv _ ih => rw [ih, List.map_cons, if_neg (by rw [isZero_iff]; exact hv)]
  · rintro rfl
    induction l with
    | nil => exact .nil
    | cons v l ih =>
      rw [List.map_cons]
      by_cases hv : v = .num 0
      · subst hv; exact .empty ih
      · rw [if_neg (by rw [isZero_iff]; exact hv)]; exact .other hv ih

theorem solve_iff (E : PlayEnv) (l a : List JsVal) : E.solve l = some a ↔ Solves E l a := by
  unfold PlayEnv.solve Solves
  constructor
  · intro h
    refine ⟨_, (asked_iff _ _).2 rfl, ?_⟩
    split at h
    · cases h
    · rename_i b hb
      split_ifs at h with hm
      cases h
      refine ⟨hb, fun hin => hm ?_⟩
      exact List.any_eq_true.2 ⟨_, hin, rfl⟩
  · rintro ⟨q, hq, hs, hm⟩
    rw [asked_iff] at hq
    subst hq
    rw [hs]
    simp only
    rw [if_neg]
    intro h
    obtain ⟨v, hv, hv'⟩ := List.any_eq_true.1 h
    rw [isMinusOne_iff] at hv'
    subst hv'
    exact hm hv

section
variable {σ : Type} (N : JsNums) {G1 G2 GT : Type} [AddCommGroup G1] [Module Fr G1] [AddCommGroup G2] [Module Fr G2] [AddCommGroup GT]
  [Module Fr GT] (S : Sys G1 G2 GT) (inst : Bytes → Res (CircuitWasm σ)) (E : PlayEnv) {D : Doubles} {ord : List (Str × Json) → List (Str × Json)}

/-- **C86** (the button) — in any history, the Sudoku tab is open on its decryption side, no call is in flight and there is a puzzle. The button puts a complete
answer of the solver for the puzzle on the page into the solution grid and clears the error; if the solver has none, the solution grid is emptied and an error is
shown. Nothing else changes. -/
theorem C86_button (h : List PlayEvent) (htab : (Play.after N S inst E h).activeTab = .sudoku) (hmode : (Play.after N S inst E h).mode = .decrypt)
    (hidle : (Play.after N S inst E h).loading = false) (hp : (Play.after N S inst E h).puzzle ≠ []) :
    (∀ a, Solves E (Play.after N S inst E h).puzzle a →
      Play.after N S inst E (h ++ [.clickSolve]) = { Play.after N S inst E h with solution := a, error := false }) ∧
    ((¬ ∃ a, Solves E (Play.after N S inst E h).puzzle a) →
      Play.after N S inst E (h ++ [.clickSolve]) = { Play.after N S inst E h with solution := [], error := true }) := by
  rw [play_after_snoc]
  simp only [Play.step, Play.clickSolve]
  rw [if_pos ⟨htab, hmode, hidle, fun h0 => hp (List.length_eq_zero_iff.1 h0)⟩]
  constructor
  · intro a ha
    rw [(solve_iff E _ a).2 ha]
  · intro hn
    cases hs : E.solve (Play.after N S inst E h).puzzle with
    | none => rfl
    | some a => exact absurd ⟨a, (solve_iff E _ a).1 hs⟩ hn

/-- **C86** (the message without solving by hand) — the site has been loaded, no call is in flight and the Sudoku tab is open. A ciphertext for puzzle `p` is
uploaded, "Auto Solve Puzzle" and "Decrypt" are clicked, and the call ends. If the solver answers with a solved grid that has the given cells, the message is
shown and no error. If it has no complete answer, an error is shown and `decrypt` is never called. -/
theorem C86_auto_solve (hJ : ConcreteJson S D ord) (hlim : 51696 ≤ S.lim) (p : Grid Nat) (hp : IsPuzzle p) (m combined : Bytes)
    (hc : PuzzleCiphertext S p m combined) (hl : m.length ≤ S.cipher.maxDec .js) (x : CircuitWasm σ) (hx : SudokuSite inst E x)
    (h : List PlayEvent) (htab : (Play.after N S inst E h).activeTab = .sudoku) (hidle : (Play.after N S inst E h).loading = false)
    (hload : (Play.after N S inst E h).circuitFiles ≠ none) (ρ : Rand Fr) (nonce : Bytes) :
    (∀ g : Grid Nat, Solves E p.array g.array → Solved g → Fills p g →
      let s := Play.after N S inst E (h ++ [.ciphertextFile combined, .clickSolve, .clickDecrypt, .finish 0 true ρ nonce])
      (∃ t, s.shown = some t ∧ TextFor S m t) ∧ s.error = false) ∧
    ((¬ ∃ a, Solves E p.array a) →
      let s := Play.after N S inst E (h ++ [.ciphertextFile combined, .clickSolve, .clickDecrypt])
      s.error = true ∧ s.jobs = []) := by
  obtain ⟨u1, u2, u3, u4, u5, u6, u7⟩ := C82_upload_and_type N S inst E hJ hlim p hp m combined hc h htab []
  simp only [List.map_nil] at u1 u2 u3 u4 u5 u6 u7
  have hne : (Play.after N S inst E (h ++ [.ciphertextFile combined])).puzzle ≠ [] := by
    rw [u3]
    intro h0
    have := array_length p
    rw [h0] at this
    cases this
  obtain ⟨b1, b2⟩ := C86_button N S inst E (h ++ [.ciphertextFile combined]) u1 u2 (u6.trans hidle) hne
  rw [u3] at b1 b2
  constructor
  · intro g hs hsol hfill
    have hb := b1 _ hs
    have hr : Ready (Play.after N S inst E (h ++ [.ciphertextFile combined] ++ [.clickSolve])) combined p g := by
      rw [hb]
      exact ⟨u1, u2, u6.trans hidle, by simp only; rw [u7]; exact hload, u5, u3, rfl⟩
    have happ : h ++ [.ciphertextFile combined, .clickSolve, .clickDecrypt, .finish 0 true ρ nonce] =
        (h ++ [.ciphertextFile combined] ++ [.clickSolve]) ++ [.clickDecrypt, .finish 0 true ρ nonce] := by simp
    rw [happ]
    obtain ⟨d1, -⟩ := C82_decrypt N S inst E hJ hlim p hp m combined hc hl x hx p g hp (fun r c => (solved_digits hsol r c).2)
      (fun r c h0 => by have := (solved_digits hsol r c).1; omega) _ hr ρ nonce
    obtain ⟨e1, e2, -⟩ := d1 ⟨rfl, solved_sums hsol hfill⟩
    exact ⟨e1, e2⟩
  · intro hn
    have hb := b2 hn
    have happ : h ++ [.ciphertextFile combined, .clickSolve, .clickDecrypt] =
        (h ++ [.ciphertextFile combined] ++ [.clickSolve]) ++ [.clickDecrypt] := by simp
    rw [happ, play_after_snoc, hb]
    have hj : (Play.after N S inst E (h ++ [.ciphertextFile combined])).jobs = [] := by
      have := play_loading N S inst E (h ++ [.ciphertextFile combined])
      rw [u6.trans hidle] at this
      simpa using this
    obtain ⟨f, hf⟩ := Option.ne_none_iff_exists'.1 (by rw [u7]; exact hload : (Play.after N S inst E (h ++ [.ciphertextFile combined])).circuitFiles ≠ none)
    simp only [Play.step, Play.clickDecrypt, Play.ciphertextToUse]
    rw [if_pos ⟨u1, u2, u6.trans hidle⟩, u5, hf]
    simp [hj]

end

end Zkenc.Props
