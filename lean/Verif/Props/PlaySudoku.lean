import Verif.Props.Playground
import Verif.Props.SudokuProgram
/-!
# C82: a Sudoku message in the playground, from the uploaded file to the text on the page
-/

namespace Zkenc.PlaySpec

open Zkenc Zkenc.SudokuSpec

/-- What a field for one digit holds after something was typed into it; 0 is an empty cell. -/
def digitTyped : Option Char → Nat
  | some '1' => 1
  | some '2' => 2
  | some '3' => 3
  | some '4' => 4
  | some '5' => 5
  | some '6' => 6
  | some '7' => 7
  | some '8' => 8
  | some '9' => 9
  | _ => 0

/-- The grid after typing into the empty cells of a puzzle (cells counted row by row): the last thing typed into a cell counts, given cells stay. -/
def typedGrid (p : Grid Nat) (typed : List (Nat × Option Char)) : Grid Nat := fun r c =>
  if p r c ≠ 0 then p r c else
  match (typed.filter fun e => e.1 = 9 * (r : Nat) + c).getLast? with
  | none => 0
  | some e => digitTyped e.2

end Zkenc.PlaySpec

namespace Zkenc.Props

open Zkenc Zkenc.PlaySpec Zkenc.SudokuSpec Zkenc.SudokuLc Zkenc.JsonSpec

theorem cellValue_eq (c : Option Char) : cellValue c = digitTyped c := by
  cases c with
  | none => rfl
  | some c =>
    by_cases hd : isDig c = true
    · have hd' := hd
      unfold isDig at hd'
      simp only [Bool.and_eq_true, decide_eq_true_eq] at hd'
      have hc : ∀ n, c.toNat = n → c = Char.ofNat n := fun n hn => by rw [← hn, Char.ofNat_toNat]
      have : c.toNat = 48 ∨ c.toNat = 49 ∨ c.toNat = 50 ∨ c.toNat = 51 ∨ c.toNat = 52 ∨ c.toNat = 53 ∨ c.toNat = 54 ∨ c.toNat = 55 ∨ c.toNat = 56 ∨
          c.toNat = 57 := by
        omega
      rcases this with h | h | h | h | h | h | h | h | h | h <;> obtain rfl := hc _ h <;> rfl
    · simp only [cellValue, if_neg hd]
      unfold digitTyped
      split
      all_goals first | rfl | (rename_i he; cases he; exact absurd rfl hd)

theorem digitTyped_le (c : Option Char) : digitTyped c ≤ 9 := by
  unfold digitTyped
  split <;> omega

theorem typedGrid_le {p : Grid Nat} (hp : IsPuzzle p) (typed : List (Nat × Option Char)) : IsPuzzle (typedGrid p typed) := by
  intro r c
  unfold typedGrid
  split
  · exact hp r c
  · split
    · omega
    · exact digitTyped_le _

theorem array_length (g : Grid Nat) : g.array.length = 81 := by simp [Grid.array]

theorem array_get (g : Grid Nat) {i : Nat} (hi : i < 81) : g.array[i]? = some (.num (g.cell i)) := by
  unfold Grid.array
  rw [List.getElem?_map, List.getElem?_range hi]
  rfl

theorem array_ext {l : List JsVal} {g : Grid Nat} (hl : l.length = 81) (h : ∀ i, i < 81 → l[i]? = some (.num (g.cell i))) : l = g.array := by
  refine List.ext_getElem? fun i => ?_
  by_cases hi : i < 81
  · rw [h i hi, array_get g hi]
  · rw [List.getElem?_eq_none (by omega), List.getElem?_eq_none (by rw [array_length]; omega)]

theorem isZero_num (n : Nat) : isZero (.num n) = true ↔ n = 0 := by
  cases n with
  | zero => simp [isZero]
  | succ n =>
    simp only [isZero]
    constructor
    · intro h; cases h
    · intro h; omega

theorem typedGrid_cell (p : Grid Nat) (typed : List (Nat × Option Char)) {i : Nat} (hi : i < 81) :
    (typedGrid p typed).cell i = if p.cell i ≠ 0 then p.cell i else
      match (typed.filter fun e => e.1 = i).getLast? with
      | none => 0
      | some e => digitTyped e.2 := by
  unfold Grid.cell typedGrid
  have : 9 * (i / 9 % 9) + i % 9 = i := by omega
  simp only [this]

theorem typedGrid_nil (p : Grid Nat) : typedGrid p [] = p := by
  funext r c
  unfold typedGrid
  split
  · rfl
  · rename_i h
    simp only [ne_eq, not_not] at h
    simp [h]

/-- Typing into one cell. -/
theorem typedGrid_snoc (p : Grid Nat) (typed : List (Nat × Option Char)) (j : Nat) (c : Option Char) :
    (typedGrid p (typed ++ [(j, c)])).array =
      if j < 81 ∧ p.cell j = 0 then (typedGrid p typed).array.set j (.num (digitTyped c)) else (typedGrid p typed).array := by
  symm
  refine array_ext (by split_ifs <;> simp [array_length]) fun i hi => ?_
  rw [typedGrid_cell _ _ hi, List.filter_append]
  by_cases hji : j = i
  · subst hji
    by_cases hz : p.cell j = 0
    · rw [if_pos ⟨hi, hz⟩, if_neg (by simpa using hz), List.getElem?_set_self (by rw [array_length]; exact hi)]
      simp
    · rw [if_neg (by simp [hz]), if_pos hz, array_get _ hi, typedGrid_cell _ _ hi, if_pos hz]
  · have hf : [(j, c)].filter (fun e => decide (e.1 = i)) = [] := by simp [hji]
    rw [hf, List.append_nil]
    have : ((typedGrid p typed).array.set j (.num (digitTyped c)))[i]? = (typedGrid p typed).array[i]? := List.getElem?_set_ne hji
    split_ifs <;> first | rw [this] | skip
    all_goals rw [array_get _ hi, typedGrid_cell _ _ hi]
    all_goals simp_all

section
variable {σ : Type} (N : JsNums) {G1 G2 GT : Type} [AddCommGroup G1] [Module Fr G1] [AddCommGroup G2] [Module Fr G2] [AddCommGroup GT]
  [Module Fr GT] (S : Sys G1 G2 GT) (inst : Bytes → Res (CircuitWasm σ)) (E : PlayEnv) {D : Doubles} {ord : List (Str × Json) → List (Str × Json)}

/-- **C82** (upload and typing) — when a ciphertext for a puzzle is uploaded in the Sudoku tab, the page shows its puzzle; after digits have been typed, its
solution grid has the given cells and in each empty cell the digit typed last. The page is on the decryption side, and nothing else has changed that matters
for decryption. -/
theorem C82_upload_and_type (hJ : ConcreteJson S D ord) (hlim : 51696 ≤ S.lim) (p : Grid Nat) (hp : IsPuzzle p) (m combined : Bytes)
    (hc : PuzzleCiphertext S p m combined) (h : List PlayEvent) (htab : (Play.after N S inst E h).activeTab = .sudoku)
    (typed : List (Nat × Option Char)) :
    let s := Play.after N S inst E (h ++ .ciphertextFile combined :: typed.map fun e => .typeSolution e.1 e.2)
    s.activeTab = .sudoku ∧ s.mode = .decrypt ∧ s.puzzle = p.array ∧ s.solution = (typedGrid p typed).array ∧ s.uploadedCiphertext = some combined ∧
      s.loading = (Play.after N S inst E h).loading ∧ s.circuitFiles = (Play.after N S inst E h).circuitFiles := by
  induction typed using List.reverseRecOn with
  | nil =>
    simp only [List.map_nil, play_after_snoc, Play.step, Play.ciphertextFile, puzzle_public hJ hlim hp hc, typedGrid_nil]
    have : jsProp "puzzle".toList (.obj [("puzzle".toList, .arr p.array)]) = some (.arr p.array) := by
      simp only [jsProp, List.find?_cons, decide_true, Option.map_some, Option.getD_some]
    rw [this]
    exact ⟨htab, rfl, rfl, rfl, rfl, rfl, rfl⟩
  | append_singleton typed e ih =>
    obtain ⟨j, c⟩ := e
    have happ : h ++ .ciphertextFile combined :: (typed ++ [(j, c)]).map (fun e => PlayEvent.typeSolution e.1 e.2) =
        (h ++ .ciphertextFile combined :: typed.map fun e => .typeSolution e.1 e.2) ++ [.typeSolution j c] := by simp
    rw [happ]
    simp only [play_after_snoc, Play.step]
    generalize Play.after N S inst E (h ++ .ciphertextFile combined :: typed.map fun e => .typeSolution e.1 e.2) = s at ih
    obtain ⟨i1, i2, i3, i4, i5, i6, i7⟩ := ih
    have hgrid : s.solutionGrid = (typedGrid p typed).array := by
      unfold Play.solutionGrid
      rw [i4, array_length, if_neg (by omega)]
    unfold Play.typeSolution
    rw [hgrid, typedGrid_snoc, array_length, i3, cellValue_eq]
    have hz : ∀ hj : j < 81, (isZero (p.array[j]?.getD .undef) = true ↔ p.cell j = 0) := by
      intro hj
      rw [array_get p hj]
      exact isZero_num _
    by_cases hj : j < 81 ∧ p.cell j = 0
    · rw [if_pos ⟨i1, i2, hj.1, (hz hj.1).2 hj.2⟩, if_pos hj]
      exact ⟨i1, i2, rfl, rfl, i5, i6, i7⟩
    · rw [if_neg (fun hh => hj ⟨hh.2.2.1, (hz hh.2.2.1).1 hh.2.2.2⟩), if_neg hj]
      exact ⟨i1, i2, i3, i4, i5, i6, i7⟩

/-- The page is ready for a decryption in the Sudoku tab, with a ciphertext for the puzzle `p` uploaded last and the grids `q` and `g` on the page. -/
structure _root_.Zkenc.PlaySpec.Ready (s : Play) (combined : Bytes) (q g : Grid Nat) : Prop where
  tab : s.activeTab = .sudoku
  mode : s.mode = .decrypt
  idle : s.loading = false
  files : s.circuitFiles ≠ none
  uploaded : s.uploadedCiphertext = some combined
  puzzle : s.puzzle = q.array
  solution : s.solution = g.array

/-- The site serves the committed circuit and its witness program. -/
structure _root_.Zkenc.PlaySpec.SudokuSite (x : CircuitWasm σ) : Prop where
  r1cs : E.site.r1csBuffer = sudokuBytes
  wasm : inst E.site.wasmBuffer = .ok x
  program : SudokuProgram x

theorem array_any (g : Grid Nat) : g.array.any isZero = true ↔ ∃ r c, g r c = 0 := by
  rw [List.any_eq_true]
  unfold Grid.array
  constructor
  · rintro ⟨v, hv, hz⟩
    obtain ⟨i, -, rfl⟩ := List.mem_map.1 hv
    exact ⟨_, _, (isZero_num _).1 hz⟩
  · rintro ⟨r, c, h0⟩
    refine ⟨_, List.mem_map.2 ⟨r * 9 + c, List.mem_range.2 (by omega), rfl⟩, (isZero_num _).2 ?_⟩
    rw [cell_eq, h0]

/-- The click. -/
theorem ready_click {combined : Bytes} {q g : Grid Nat} (h : List PlayEvent) (hr : Ready (Play.after N S inst E h) combined q g) :
    Play.after N S inst E (h ++ [.clickDecrypt]) =
      if ∃ r c, g r c = 0 then { Play.after N S inst E h with error := true } else
        { Play.after N S inst E h with loading := true, error := false, decrypted := [], jobs := [.decrypt .sudoku E.site combined (.obj (sudokuObject q g))] } := by
  have hj : (Play.after N S inst E h).jobs = [] := by
    have := play_loading N S inst E h
    rw [hr.idle] at this
    simpa using this
  obtain ⟨f, hf⟩ := Option.ne_none_iff_exists'.1 hr.files
  obtain rfl := files_site N S inst E h f hf
  have hu : (Play.after N S inst E h).ciphertextToUse = some combined := by
    unfold Play.ciphertextToUse
    rw [hr.uploaded]
    rfl
  rw [play_after_snoc]
  simp only [Play.step, Play.clickDecrypt]
  rw [if_pos ⟨hr.tab, hr.mode, hr.idle⟩, hu, hf]
  simp only
  by_cases hz : ∃ r c, g r c = 0
  · rw [if_pos (by rw [hr.solution]; exact (array_any g).2 hz), if_pos hz]
  · rw [if_neg (by rw [hr.solution, array_any]; exact hz), if_neg (by rw [hr.solution, array_length]; simp), if_neg hz, hj, hr.puzzle, hr.solution]
    rfl

/-- **C82** (incomplete grid) — a click on "Decrypt" while a cell is empty only shows an error; `decrypt` is not called. -/
theorem C82_incomplete (combined : Bytes) (q g : Grid Nat) (h : List PlayEvent) (hr : Ready (Play.after N S inst E h) combined q g)
    (hz : ∃ r c, g r c = 0) : Play.after N S inst E (h ++ [.clickDecrypt]) = { Play.after N S inst E h with error := true } := by
  rw [ready_click N S inst E h hr, if_pos hz]

/-- **C82** (exactly when the message appears) — the page is ready, with a ciphertext for puzzle `p` uploaded and a complete grid on the page. When the call
that the click starts has ended, the message is shown and no error if the puzzle on the page is (still) `p` and the grid has the right sums; otherwise an error
is shown and no message. -/
theorem C82_decrypt (hJ : ConcreteJson S D ord) (hlim : 51696 ≤ S.lim) (p : Grid Nat) (hp : IsPuzzle p) (m combined : Bytes)
    (hc : PuzzleCiphertext S p m combined) (hl : m.length ≤ S.cipher.maxDec .js) (x : CircuitWasm σ) (hx : SudokuSite inst E x)
    (q g : Grid Nat) (hq : IsPuzzle q) (hg : IsPuzzle g) (hz : ∀ r c, g r c ≠ 0)
    (h : List PlayEvent) (hr : Ready (Play.after N S inst E h) combined q g) (ρ : Rand Fr) (nonce : Bytes) :
    let s := Play.after N S inst E (h ++ [.clickDecrypt, .finish 0 true ρ nonce])
    (q = p ∧ SumsOk p.toFr g.toFr → (∃ t, s.shown = some t ∧ TextFor S m t) ∧ s.error = false ∧ s.loading = false) ∧
    (¬ (q = p ∧ SumsOk p.toFr g.toFr) → s.shown = none ∧ s.error = true ∧ s.loading = false) := by
  have hclick := ready_click N S inst E h hr
  rw [if_neg (by rintro ⟨r, c, h0⟩; exact hz r c h0)] at hclick
  obtain ⟨a1, a2⟩ := puzzle_api hJ hlim (N := N) hx.program hp hq hg hc hl
  have hd : playDecrypt N S inst E.site combined (.obj (sudokuObject q g)) true = jsDecryptApi N S sudokuBytes (.ok x) combined (sudokuObject q g) := by
    simp [playDecrypt, jsEntries, hx.r1cs, hx.wasm]
  have happ : h ++ [.clickDecrypt, .finish 0 true ρ nonce] = (h ++ [.clickDecrypt]) ++ [.finish 0 true ρ nonce] := by simp
  rw [happ]
  simp only [play_after_snoc _ _ _ _ (h ++ [PlayEvent.clickDecrypt]), hclick, Play.step, List.getElem?_cons_zero, Play.settle, hd]
  constructor
  · intro hok
    rw [a1 hok]
    simp only
    refine ⟨⟨shownText (textDecode S m), ?_, ?_⟩, trivial, trivial⟩
    · unfold Play.shown
      rw [if_pos]
      refine ⟨hr.tab, hr.mode, ?_⟩
      simp only [shownText]
      split_ifs with h0
      · decide
      · exact h0
    · unfold TextFor shownText
      by_cases h0 : textDecode S m = []
      · exact Or.inr ⟨h0, by rw [if_pos h0]⟩
      · exact Or.inl ⟨h0, by rw [if_neg h0]⟩
  · intro hno
    obtain ⟨e, he⟩ := a2 hno
    rw [he]
    simp only
    refine ⟨?_, trivial, trivial⟩
    unfold Play.shown
    rw [if_neg]
    rintro ⟨-, -, h3⟩
    exact h3 rfl

/-- **C82** (the whole visit) — the site has been loaded, no call is in flight and the Sudoku tab is open. A ciphertext for puzzle `p` is uploaded, digits are
typed into empty cells, "Decrypt" is clicked, and the call ends. The message is shown exactly if the typed grid is complete and has the right sums; otherwise
an error is shown. -/
theorem C82_visit (hJ : ConcreteJson S D ord) (hlim : 51696 ≤ S.lim) (p : Grid Nat) (hp : IsPuzzle p) (m combined : Bytes)
    (hc : PuzzleCiphertext S p m combined) (hl : m.length ≤ S.cipher.maxDec .js) (x : CircuitWasm σ) (hx : SudokuSite inst E x)
    (h : List PlayEvent) (htab : (Play.after N S inst E h).activeTab = .sudoku) (hidle : (Play.after N S inst E h).loading = false)
    (hload : (Play.after N S inst E h).circuitFiles ≠ none) (typed : List (Nat × Option Char)) (ρ : Rand Fr) (nonce : Bytes) :
    let g := typedGrid p typed
    let s := Play.after N S inst E ((h ++ .ciphertextFile combined :: typed.map fun e => .typeSolution e.1 e.2) ++ [.clickDecrypt, .finish 0 true ρ nonce])
    ((∀ r c, g r c ≠ 0) ∧ SumsOk p.toFr g.toFr → (∃ t, s.shown = some t ∧ TextFor S m t) ∧ s.error = false) ∧
    (¬ ((∀ r c, g r c ≠ 0) ∧ SumsOk p.toFr g.toFr) → s.error = true ∧ ((∀ r c, g r c ≠ 0) → s.shown = none)) := by
  intro g s
  obtain ⟨u1, u2, u3, u4, u5, u6, u7⟩ := C82_upload_and_type N S inst E hJ hlim p hp m combined hc h htab typed
  have hr : Ready (Play.after N S inst E (h ++ .ciphertextFile combined :: typed.map fun e => .typeSolution e.1 e.2)) combined p g :=
    ⟨u1, u2, u6.trans hidle, by rw [u7]; exact hload, u5, u3, u4⟩
  by_cases hz : ∀ r c, g r c ≠ 0
  · obtain ⟨d1, d2⟩ := C82_decrypt N S inst E hJ hlim p hp m combined hc hl x hx p g hp (typedGrid_le hp typed) hz _ hr ρ nonce
    refine ⟨fun hh => ?_, fun hh => ?_⟩
    · obtain ⟨e1, e2, -⟩ := d1 ⟨rfl, hh.2⟩
      exact ⟨e1, e2⟩
    · obtain ⟨e1, e2, -⟩ := d2 fun hs => hh ⟨hz, hs.2⟩
      exact ⟨e2, fun _ => e1⟩
  · refine ⟨fun hh => absurd hh.1 hz, fun _ => ⟨?_, fun hh => absurd hh hz⟩⟩
    have hz' : ∃ r c, g r c = 0 := by
      by_contra hn
      exact hz fun r c h0 => hn ⟨r, c, h0⟩
    have hcl := C82_incomplete N S inst E combined p g _ hr hz'
    have happ : (h ++ .ciphertextFile combined :: typed.map fun e => .typeSolution e.1 e.2) ++ [.clickDecrypt, .finish 0 true ρ nonce] =
        ((h ++ .ciphertextFile combined :: typed.map fun e => .typeSolution e.1 e.2) ++ [.clickDecrypt]) ++ [.finish 0 true ρ nonce] := by simp
    have hj : (Play.after N S inst E (h ++ .ciphertextFile combined :: typed.map fun e => .typeSolution e.1 e.2)).jobs = [] := by
      have := play_loading N S inst E (h ++ .ciphertextFile combined :: typed.map fun e => .typeSolution e.1 e.2)
      rw [hr.idle] at this
      simpa using this
    change (Play.after N S inst E _).error = true
    rw [happ, play_after_snoc, hcl]
    simp only [Play.step, hj, List.getElem?_nil]

theorem digitTyped_digChar (n : Nat) (h : n ≤ 9) : digitTyped (some (digChar n)) = n := by
  interval_cases n <;> decide

theorem typing_reaches (p g : Grid Nat) (hg : ∀ r c, g r c ≤ 9) (hf : Fills p g) : ∃ typed, typedGrid p typed = g := by
  refine ⟨(List.range 81).map fun i => (i, some (digChar (g.cell i))), grid_ext fun i hi => ?_⟩
  rw [typedGrid_cell _ _ hi]
  split_ifs with h0
  · exact (hf _ _ h0).symm
  · have key : ∀ n, (((List.range n).map fun i => (i, some (digChar (g.cell i)))).filter fun e => decide (e.1 = i)).getLast? =
        if i < n then some (i, some (digChar (g.cell i))) else none := by
      intro n
      induction n with
      | zero => rfl
      | succ n ih =>
        rw [List.range_succ, List.map_append, List.filter_append, List.getLast?_append, ih]
        by_cases hn : n = i
        · subst hn
          simp
        · have : (i < n + 1) ↔ i < n := by omega
          simp [hn, this]
    rw [key, if_pos hi]
    exact digitTyped_digChar _ (hg _ _)

theorem solved_digits {g : Grid Nat} (hs : Solved g) (r c : Fin 9) : 1 ≤ g r c ∧ g r c ≤ 9 := by
  choose f hf _ using fun d : Fin 9 => hs.row r (d + 1) (by omega) (by omega)
  have hinj : Function.Injective f := fun a b h => by
    have h1 := hf a
    rw [h, hf b] at h1
    exact Fin.ext (by omega)
  obtain ⟨d, rfl⟩ := Finite.surjective_of_injective hinj c
  have := hf d
  omega

theorem solved_sums {p g : Grid Nat} (hs : Solved g) (hf : Fills p g) : SumsOk p.toFr g.toFr :=
  ⟨cast_given hf, fun r => cast_sums (nine_cells _ (hs.row r)), fun c => cast_sums (nine_cells _ (hs.col c)), fun b => cast_sums (nine_cells _ (hs.box b))⟩

/-- **C82** (every solver reads the message) — a solution of the puzzle can be typed, and whoever types it reads the message. -/
theorem C82_solution_shows (hJ : ConcreteJson S D ord) (hlim : 51696 ≤ S.lim) (p : Grid Nat) (hp : IsPuzzle p) (m combined : Bytes)
    (hc : PuzzleCiphertext S p m combined) (hl : m.length ≤ S.cipher.maxDec .js) (x : CircuitWasm σ) (hx : SudokuSite inst E x)
    (h : List PlayEvent) (htab : (Play.after N S inst E h).activeTab = .sudoku) (hidle : (Play.after N S inst E h).loading = false)
    (hload : (Play.after N S inst E h).circuitFiles ≠ none) (g : Grid Nat) (hs : Solved g) (hf : Fills p g) (ρ : Rand Fr) (nonce : Bytes) :
    (∃ typed, typedGrid p typed = g) ∧ ∀ typed, typedGrid p typed = g →
      ∃ t, (Play.after N S inst E ((h ++ .ciphertextFile combined :: typed.map fun e => .typeSolution e.1 e.2) ++
        [.clickDecrypt, .finish 0 true ρ nonce])).shown = some t ∧ TextFor S m t := by
  refine ⟨typing_reaches p g (fun r c => (solved_digits hs r c).2) hf, fun typed ht => ?_⟩
  subst ht
  exact ((C82_visit N S inst E hJ hlim p hp m combined hc hl x hx h htab hidle hload typed ρ nonce).1
    ⟨fun r c => by have := (solved_digits hs r c).1; omega, solved_sums hs hf⟩).1

/-- **C82** (not only solvers) — for the puzzle of the repository's own tests, a grid that is no solution can be typed, and whoever types it reads the message. -/
theorem C82_wrong_solution_shows (hJ : ConcreteJson S D ord) (hlim : 51696 ≤ S.lim) (m combined : Bytes)
    (hc : PuzzleCiphertext S repoPuzzle m combined) (hl : m.length ≤ S.cipher.maxDec .js) (x : CircuitWasm σ) (hx : SudokuSite inst E x)
    (h : List PlayEvent) (htab : (Play.after N S inst E h).activeTab = .sudoku) (hidle : (Play.after N S inst E h).loading = false)
    (hload : (Play.after N S inst E h).circuitFiles ≠ none) (ρ : Rand Fr) (nonce : Bytes) :
    ∃ typed, ¬ Solved (typedGrid repoPuzzle typed) ∧
      ∃ t, (Play.after N S inst E ((h ++ .ciphertextFile combined :: typed.map fun e => .typeSolution e.1 e.2) ++
        [.clickDecrypt, .finish 0 true ρ nonce])).shown = some t ∧ TextFor S m t := by
  obtain ⟨-, hf, hd, hns⟩ := C75_wrong_solution_accepted
  obtain ⟨typed, ht⟩ := typing_reaches repoPuzzle wrongSolution (fun r c => (hd r c).2) hf
  refine ⟨typed, by rw [ht]; exact hns, ?_⟩
  refine ((C82_visit N S inst E hJ hlim repoPuzzle C76_who_decrypts.2.1 m combined hc hl x hx h htab hidle hload typed ρ nonce).1 ?_).1
  rw [ht]
  exact ⟨fun r c => by have := (hd r c).1; omega, cast_given hf, fun r => cast_sums (by revert r; decide +kernel),
    fun c => cast_sums (by revert c; decide +kernel), fun b => cast_sums (by revert b; decide +kernel)⟩

end

end Zkenc.Props
