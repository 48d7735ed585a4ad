import Verif.Props.Sudoku
import Verif.Props.EndToEnd
import Verif.Props.EndToEndKem
import Verif.Props.R1csParseJs
import Verif.Props.Sym
import Verif.Props.Inputs
import Verif.Props.WitnessLength
/-!
# C76: encrypting for a Sudoku puzzle with the committed circuit files
-/

namespace Zkenc.SudokuSpec

open Zkenc Zkenc.R1csFormat

/-- The bytes of `packages/zkenc-cli/tests/r1cs/sudoku.r1cs` (the sections are in the order constraints, header, labels). -/
def sudokuBytes : Bytes := fileBytes [(2, constraintsBytes sudokuR1cs), (1, headerBytes sudokuR1cs), (3, labelsBytes sudokuR1cs)]

/-- The input object `{"puzzle": [81 numbers]}` as the CLI reads it. -/
def puzzleJson (p : Grid Nat) : List (Str × Json) := [("puzzle".toList, .arr ((List.range 81).map fun i => .int (p.cell i)))]

/-- The input object `{puzzle: [81 numbers]}` as JavaScript has it. -/
def puzzleObject (p : Grid Nat) : List (Str × JsVal) := [("puzzle".toList, .arr ((List.range 81).map fun i => .num (p.cell i)))]

end Zkenc.SudokuSpec

namespace Zkenc.Props

open Zkenc Zkenc.Spec Zkenc.SudokuSpec Zkenc.SudokuLc Zkenc.R1csFormat Zkenc.SymSpec Zkenc.InputSpec

/-! ## The circuit file -/

theorem coefBytes_length (z : Int) : (coefBytes z).length = 32 := by simp [coefBytes]

set_option maxRecDepth 20000 in
theorem sudokuTable_small : sudokuTable.all (fun k => decide (k.a.length < 100) && decide (k.b.length < 100) && decide (k.c.length < 100)) = true := by
  decide +kernel

theorem lcOk_factors {l : IntLc} (hl : l.length < 100) (hw : ∀ t ∈ l, t.1 < 202) : LcOk 32 (IntLc.factors l) := by
  refine ⟨by simp only [IntLc.factors, List.length_map]; omega, ?_⟩
  intro x hx
  obtain ⟨t, ht, rfl⟩ := List.mem_map.1 hx
  exact ⟨by have := hw t ht; simp only; omega, coefBytes_length _⟩

theorem sudoku_fits : Fits sudokuR1cs where
  fieldSize := by decide
  prime := by show (leBytes 32 frModulus).length = 32; simp
  nWires := by decide
  nPubOut := by decide
  nPubIn := by decide
  nPrvIn := by decide
  nLabels := by decide
  nConstraints := by decide
  constraints := by
    show (sudokuTable.map IntCstr.toFile).length = 162
    rw [List.length_map]; decide +kernel
  lcs := by
    show ∀ c ∈ sudokuTable.map IntCstr.toFile, _
    rw [List.forall_mem_map]
    intro k hk
    have h1 := List.all_eq_true.1 sudokuTable_small k hk
    have h2 := List.all_eq_true.1 tableWires k hk
    simp only [Bool.and_eq_true, decide_eq_true_eq] at h1
    have hw : ∀ t ∈ k.a ++ k.b ++ k.c, t.1 < 202 := fun t ht => by simpa using List.all_eq_true.1 h2 t ht
    exact ⟨lcOk_factors h1.1.1 fun t ht => hw t (by simp [ht]), lcOk_factors h1.1.2 fun t ht => hw t (by simp [ht]),
      lcOk_factors h1.2 fun t ht => hw t (by simp [ht])⟩
  labels := labels_facts.1
  label := fun l hl => lt_trans (labels_facts.2.2.1 l hl) (by norm_num)

theorem lcBytes_length' (f : IntLc) : (lcBytes (IntLc.factors f)).length = 4 + 36 * f.length := by
  unfold lcBytes IntLc.factors
  rw [List.length_append, u32le_length, List.length_flatten, List.map_map, List.map_map]
  congr 1
  rw [List.map_congr_left (g := fun _ => 36) (fun t _ => by simp [Function.comp, coefBytes_length])]
  simp [Nat.mul_comm]

theorem constraints_length : (constraintsBytes sudokuR1cs).length = 49968 := by
  unfold constraintsBytes
  show ((List.map cstrBytes (sudokuTable.map IntCstr.toFile)).flatten).length = _
  rw [List.length_flatten, List.map_map, List.map_map]
  have : ∀ k : IntCstr, (List.length ∘ cstrBytes ∘ IntCstr.toFile) k = 12 + 36 * (k.a.length + k.b.length + k.c.length) := by
    intro k
    simp only [Function.comp, cstrBytes, IntCstr.toFile, List.length_append, lcBytes_length']
    omega
  rw [show (List.length ∘ cstrBytes) ∘ IntCstr.toFile = List.length ∘ cstrBytes ∘ IntCstr.toFile from rfl,
    List.map_congr_left fun k _ => this k]
  decide +kernel

theorem header_length : (headerBytes sudokuR1cs).length = 64 := by
  simp [headerBytes, sudokuR1cs]

theorem labels_length : (labelsBytes sudokuR1cs).length = 1616 := by
  unfold labelsBytes
  rw [List.length_flatten, List.map_map, List.map_congr_left (g := fun _ => 8) (fun t _ => by simp [Function.comp])]
  show (sudokuLabels.map fun _ => 8).sum = _
  rw [List.map_const', List.sum_replicate, labels_facts.1]
  rfl

/-- **C76** (the circuit file) — both parsers read the committed file of 51696 bytes as `sudokuR1cs`. -/
theorem C76_circuit_file (lim : Nat) (hlim : 51696 ≤ lim) :
    sudokuBytes.length = 51696 ∧ cliParseR1cs lim sudokuBytes = .ok sudokuR1cs ∧ jsParseR1cs sudokuBytes = .ok sudokuR1cs.toJs := by
  have hlen : sudokuBytes.length = 51696 := by
    simp [sudokuBytes, fileBytes, secBytes, constraints_length, header_length, labels_length]
  have hs : SecsFit [(2, constraintsBytes sudokuR1cs), (1, headerBytes sudokuR1cs), (3, labelsBytes sudokuR1cs)] := by
    constructor
    · simp
    · intro s hs
      simp only [List.mem_cons, List.not_mem_nil, or_false] at hs
      rcases hs with rfl | rfl | rfl <;> simp [constraints_length, header_length, labels_length]
  have hd : Describes [(2, constraintsBytes sudokuR1cs), (1, headerBytes sudokuR1cs), (3, labelsBytes sudokuR1cs)] sudokuR1cs :=
    { header := ⟨[], by rw [List.append_nil]; rfl⟩
      constraints := ⟨[], by rw [List.append_nil]; rfl⟩
      labels := Or.inl ⟨[], by rw [List.append_nil]; rfl⟩ }
  have h1 := C21_cli_inverts_format (lim := lim) [] sudoku_fits hs hd (by
    have : (fileBytes [(2, constraintsBytes sudokuR1cs), (1, headerBytes sudokuR1cs), (3, labelsBytes sudokuR1cs)]).length = 51696 := hlen
    omega)
  rw [List.append_nil] at h1
  exact ⟨hlen, h1, C23_js_agrees (by rw [hlen]; norm_num) h1⟩

/-! ## The symbol file -/

/-- The lines of the symbol file (proof helper). -/
def sudokuItems : List Item :=
  (List.range 243).map (fun i => Item.entry ⟨natDec (i + 1), sudokuWire (i + 1), ['0'], sudokuSignalName (i + 1)⟩) ++ [.junk []]

theorem text_lines (es : List Item) : text (es ++ [.junk []]) = es.flatMap fun e => e.text ++ ['\n'] := by
  induction es with
  | nil => rfl
  | cons e es ih =>
    cases es with
    | nil => simp [text, Item.text]
    | cons e' es =>
      rw [List.cons_append, List.cons_append, text, ← List.cons_append, ih]
      simp

theorem sudokuItems_text : text sudokuItems = sudokuSym := by
  unfold sudokuItems sudokuSym
  rw [text_lines, List.flatMap_map]
  rfl

/-- The signal names are made of three keys and an index (proof helper). -/
theorem signalName_cases (label : Nat) : ∃ key i, sudokuSignalName label = signalName key [i] ∧
    (key = "main.puzzle".toList ∧ i = label - 1 ∧ label < 82 ∨ key = "main.solution".toList ∧ i = label - 82 ∧ 82 ≤ label ∧ label < 163 ∨
      key = "main.solutionSquared".toList ∧ i = label - 163 ∧ 163 ≤ label) := by
  unfold sudokuSignalName
  split_ifs with h1 h2
  · exact ⟨_, _, rfl, Or.inl ⟨rfl, rfl, h1⟩⟩
  · exact ⟨_, _, rfl, Or.inr (Or.inl ⟨rfl, rfl, by omega, h2⟩)⟩
  · exact ⟨_, _, rfl, Or.inr (Or.inr ⟨rfl, rfl, by omega⟩)⟩

theorem sudokuSignalName_inj {a b : Nat} (ha : 1 ≤ a) (hb : 1 ≤ b) (h : sudokuSignalName a = sudokuSignalName b) : a = b := by
  obtain ⟨k, i, e1, h1⟩ := signalName_cases a
  obtain ⟨k', i', e2, h2⟩ := signalName_cases b
  rw [e1, e2] at h
  have hk : '[' ∉ k := by rcases h1 with ⟨rfl, -⟩ | ⟨rfl, -⟩ | ⟨rfl, -⟩ <;> decide
  have hk' : '[' ∉ k' := by rcases h2 with ⟨rfl, -⟩ | ⟨rfl, -⟩ | ⟨rfl, -⟩ <;> decide
  obtain ⟨hkk, hi⟩ := C38_names_unique hk hk' h
  simp only [List.cons.injEq, and_true] at hi
  rcases h1 with ⟨rfl, g1⟩ | ⟨rfl, g1⟩ | ⟨rfl, g1⟩ <;> rcases h2 with ⟨rfl, g2⟩ | ⟨rfl, g2⟩ | ⟨rfl, g2⟩ <;>
    first | omega | (exfalso; revert hkk; decide)

theorem isDig_plain {c : Char} (h : isDig c = true) : c ≠ ',' ∧ c ≠ '\n' ∧ rustWs c = false ∧ c.toNat < 128 := by
  refine ⟨isDig_ne h (by decide), isDig_ne h (by decide), (not_ws_of_isDig h).1, ?_⟩
  unfold isDig at h
  simp only [Bool.and_eq_true, decide_eq_true_eq] at h
  omega

theorem natDec_plain (n : Nat) : ∀ c ∈ natDec n, c ≠ ',' ∧ c ≠ '\n' ∧ rustWs c = false ∧ c.toNat < 128 := fun c hc =>
  isDig_plain (List.all_eq_true.1 (natDec_spec n).1 c hc)

theorem sudokuSignalName_plain (label : Nat) : ∀ c ∈ sudokuSignalName label, c ≠ ',' ∧ c ≠ '\n' ∧ rustWs c = false ∧ c.toNat < 128 := by
  have key : ∀ (pre : Str) (n : Nat), (∀ c ∈ pre, c ≠ ',' ∧ c ≠ '\n' ∧ rustWs c = false ∧ c.toNat < 128) →
      ∀ c ∈ pre ++ (natDec n ++ [']']), c ≠ ',' ∧ c ≠ '\n' ∧ rustWs c = false ∧ c.toNat < 128 := by
    intro pre n hp c hc
    rcases List.mem_append.1 hc with hc | hc
    · exact hp c hc
    rcases List.mem_append.1 hc with hc | hc
    · exact natDec_plain n c hc
    · rw [List.mem_singleton] at hc; subst hc; decide
  unfold sudokuSignalName
  split_ifs
  · exact key _ _ (by decide)
  · exact key _ _ (by decide)
  · exact key _ _ (by decide)

theorem sudokuWire_range (label : Nat) : -1 ≤ sudokuWire label ∧ sudokuWire label < 202 := by
  unfold sudokuWire
  split_ifs with h
  · have := List.idxOf_lt_length_of_mem h
    rw [labels_facts.1] at this
    omega
  · omega

theorem sudokuItems_ok : ∀ i ∈ sudokuItems, i.Ok := by
  intro i hi
  unfold sudokuItems at hi
  rcases List.mem_append.1 hi with hi | hi
  · obtain ⟨j, -, rfl⟩ := List.mem_map.1 hi
    have hw := sudokuWire_range (j + 1)
    refine ⟨fun c hc => ?_, (by decide : ∀ c ∈ ['0'], c ≠ ',' ∧ c ≠ '\n'), fun c hc => ?_, trim_of_no_ws _ fun c hc => (sudokuSignalName_plain _ c hc).2.2.1, ?_, ?_⟩
    · exact ⟨(natDec_plain _ c hc).1, (natDec_plain _ c hc).2.1⟩
    · exact ⟨(sudokuSignalName_plain _ c hc).1, (sudokuSignalName_plain _ c hc).2.1⟩
    · simp only; omega
    · simp only; omega
  · rw [List.mem_singleton] at hi
    subst hi
    exact ⟨by simp, by simp⟩

theorem mem_signals (is : List Item) (name : Str) (w : Nat) :
    (name, w) ∈ signals is ↔ ∃ e, Item.entry e ∈ is ∧ 0 ≤ e.wire ∧ name = e.name ∧ w = e.wire.toNat := by
  induction is with
  | nil => simp [signals]
  | cons i is ih =>
    cases i with
    | junk s => simp [signals, ih]
    | entry e =>
      unfold signals
      split_ifs with h
      · simp only [List.mem_cons, Prod.mk.injEq, ih, Item.entry.injEq]
        constructor
        · rintro (⟨rfl, rfl⟩ | ⟨e', h1, h2⟩)
          · exact ⟨e, Or.inl rfl, h, rfl, rfl⟩
          · exact ⟨e', Or.inr h1, h2⟩
        · rintro ⟨e', rfl | h1, h2, h3⟩
          · exact Or.inl h3
          · exact Or.inr ⟨e', h1, h2, h3⟩
      · simp only [List.mem_cons, ih, Item.entry.injEq]
        constructor
        · rintro ⟨e', h1, h2⟩; exact ⟨e', Or.inr h1, h2⟩
        · rintro ⟨e', rfl | h1, h2, h3⟩
          · exact absurd h2 h
          · exact ⟨e', h1, h2, h3⟩

theorem sudoku_signals (name : Str) (w : Nat) :
    (name, w) ∈ signals sudokuItems ↔ ∃ l, 1 ≤ l ∧ l < 244 ∧ l ∈ sudokuLabels ∧ name = sudokuSignalName l ∧ w = sudokuLabels.idxOf l := by
  rw [mem_signals]
  constructor
  · rintro ⟨e, he, h0, rfl, rfl⟩
    unfold sudokuItems at he
    simp only [List.mem_append, List.mem_map, List.mem_range, List.mem_singleton, reduceCtorEq, or_false] at he
    obtain ⟨j, hj, he⟩ := he
    cases he
    refine ⟨j + 1, by omega, by omega, ?_, rfl, ?_⟩
    · by_contra hn
      simp only [sudokuWire, if_neg hn] at h0
      omega
    · simp only [sudokuWire] at h0 ⊢
      split_ifs at h0 ⊢ with hm
      · simp
      · omega
  · rintro ⟨l, h1, h2, hm, rfl, rfl⟩
    refine ⟨⟨natDec l, sudokuWire l, ['0'], sudokuSignalName l⟩, ?_, ?_, rfl, ?_⟩
    · unfold sudokuItems
      simp only [List.mem_append, List.mem_map, List.mem_range]
      refine Or.inl ⟨l - 1, by omega, ?_⟩
      rw [show l - 1 + 1 = l by omega]
    · simp [sudokuWire, hm]
    · simp [sudokuWire, hm]

/-- Both tools read the committed symbol file as the table of the signals with wires. -/
theorem sudoku_table : ∃ m : AMap Nat, parseSymFile sudokuSym = .ok m ∧ jsParseSymFile sudokuSym = m ∧
    ∀ name w, m.get name = some w ↔ (name, w) ∈ signals sudokuItems := by
  have hd : ∀ s ∈ signals sudokuItems, ∀ s' ∈ signals sudokuItems, s.1 = s'.1 → s.2 = s'.2 := by
    rintro ⟨n, w⟩ hs ⟨n', w'⟩ hs' h
    simp only at h ⊢
    subst h
    obtain ⟨l, h1, -, -, hn, rfl⟩ := (sudoku_signals _ _).1 hs
    obtain ⟨l', h1', -, -, hn', rfl⟩ := (sudoku_signals _ _).1 hs'
    rw [sudokuSignalName_inj h1 h1' (hn.symm.trans hn')]
  obtain ⟨m, hm, -, hget, hjs⟩ := C35_parses (is := sudokuItems) (by simp [sudokuItems]) sudokuItems_ok hd
  rw [sudokuItems_text] at hm hjs
  refine ⟨m, hm, hjs ?_, hget⟩
  · intro c hc
    have : c.toNat < 128 := by
      unfold sudokuSym at hc
      obtain ⟨i, -, hc⟩ := List.mem_flatMap.1 hc
      rcases List.mem_append.1 hc with hc | hc
      · unfold sudokuSymLine at hc
        rcases List.mem_append.1 hc with hc | hc
        · exact (natDec_plain _ c hc).2.2.2
        rcases List.mem_cons.1 hc with rfl | hc
        · decide
        rcases List.mem_append.1 hc with hc | hc
        · unfold intDec at hc
          split_ifs at hc
          · rcases List.mem_cons.1 hc with rfl | hc
            · decide
            · exact (natDec_plain _ c hc).2.2.2
          · exact (natDec_plain _ c hc).2.2.2
        rcases List.mem_cons.1 hc with rfl | hc
        · decide
        rcases List.mem_cons.1 hc with rfl | hc
        · decide
        rcases List.mem_cons.1 hc with rfl | hc
        · decide
        exact (sudokuSignalName_plain _ c hc).2.2.2
      · rw [List.mem_singleton] at hc; subst hc; decide
    omega

/-- **C76** (the symbol file) — both tools read the committed symbol file as the table of the 201 signals with wires; in particular `puzzle[i]` has wire
`i + 1`. -/
theorem C76_symbol_file : ∃ m : AMap Nat, parseSymFile sudokuSym = .ok m ∧ jsParseSymFile sudokuSym = m ∧
    (∀ i, i < 81 → m.get ("main.".toList ++ signalName "puzzle".toList [i]) = some (i + 1)) ∧
    (∀ name w, m.get name = some w → w < 202) := by
  obtain ⟨m, hm, hjs, hget⟩ := sudoku_table
  refine ⟨m, hm, hjs, ?_, ?_⟩
  · intro i hi
    rw [hget, sudoku_signals]
    have hf : (List.range 81).all (fun i => decide (i + 1 ∈ sudokuLabels ∧ sudokuLabels.idxOf (i + 1) = i + 1)) = true := by decide +kernel
    have := List.all_eq_true.1 hf i (by simpa using hi)
    simp only [decide_eq_true_eq] at this
    refine ⟨i + 1, by omega, by omega, this.1, ?_, this.2.symm⟩
    unfold sudokuSignalName
    rw [if_pos (by omega)]
    rfl
  · intro name w h
    rw [hget, sudoku_signals] at h
    obtain ⟨l, -, -, hm, -, rfl⟩ := h
    have := List.idxOf_lt_length_of_mem hm
    rw [labels_facts.1] at this
    exact this

end Zkenc.Props
