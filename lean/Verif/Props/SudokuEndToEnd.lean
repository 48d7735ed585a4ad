import Verif.Props.SudokuFiles
import Verif.Props.EndToEndExactly
import Verif.Props.EndToEndOutcome
import Verif.Props.JsonText
/-!
# C76: messages for whoever solves a Sudoku puzzle

The documentation's example: a message is encrypted for the solvers of a puzzle, with the circuit and symbol files in the repository.
-/

namespace Zkenc.SudokuSpec

open Zkenc Zkenc.R1csFormat

/-- What `zkenc encrypt` is given: the two committed files and a JSON file that says `{"puzzle": [81 numbers]}`. -/
structure PuzzleFiles {G1 G2 GT : Type} [AddCommGroup G1] [Module Fr G1] [AddCommGroup G2] [Module Fr G2] [AddCommGroup GT] [Module Fr GT]
    (S : Sys G1 G2 GT) (fs : FS) (circuit sym input : Path) (p : Grid Nat) : Prop where
  circuit : fs circuit = some sudokuBytes
  sym : fs sym = some (utf8Enc sudokuSym)
  input : ∃ b s, fs input = some b ∧ utf8Dec b = some s ∧ S.serdeParse s.toList = some (.obj (puzzleJson p))

/-- A puzzle: digits, 0 for an empty cell. -/
def IsPuzzle (p : Grid Nat) : Prop := ∀ r c, p r c ≤ 9

/-- The witness values belong to the puzzle and to a grid with the right sums (wire 0 is not looked at). -/
def PuzzleWitness (p : Grid Nat) (vals : List Fr) : Prop :=
  ∃ g : Grid Fr, SumsOk p.toFr g ∧ ∀ i, 1 ≤ i → i < 202 → vals[i]? = (sudokuWitness p.toFr g)[i]?

end Zkenc.SudokuSpec

namespace Zkenc.Props

open Zkenc Zkenc.Spec Zkenc.SudokuSpec Zkenc.SudokuLc Zkenc.InputSpec

/-! ## The circuit -/

theorem sudoku_wf : WellFormed sudokuR1cs := ⟨by decide, by decide⟩
theorem sudoku_ct : CtFits sudokuR1cs := by unfold CtFits; decide
theorem sudoku_nAlloc : sudokuR1cs.nAlloc = 202 := sudoku_wf.nAlloc

theorem grid_ext {α : Type} {p q : Grid α} (h : ∀ i, i < 81 → p.cell i = q.cell i) : p = q := by
  funext r c
  have := h (9 * r + c) (by omega)
  unfold Grid.cell at this
  have hr : (⟨(9 * (r : Nat) + c) / 9 % 9, by omega⟩ : Fin 9) = r := Fin.ext (by simp only; omega)
  have hc : (⟨(9 * (r : Nat) + c) % 9, by omega⟩ : Fin 9) = c := Fin.ext (by simp only; omega)
  rw [hr, hc] at this
  exact this

theorem sudokuWitness_length (p g : Grid Fr) : (sudokuWitness p g).length = 202 := by
  unfold sudokuWitness
  rw [List.length_map, labels_facts.1]

theorem puzzleWitness_iff (p : Grid Nat) (vals : List Fr) :
    PuzzleWitness p vals ↔ Accepted sudokuR1cs vals ∧ ∀ i, i < 81 → vals[i + 1]? = some (p.cell i : Fr) := by
  constructor
  · rintro ⟨g, hs, hag⟩
    have hw := (C75_accepts_iff _).2 ⟨_, g, rfl, hs⟩
    have hlen := sudokuWitness_length p.toFr g
    refine ⟨⟨fun i => (sudokuWitness p.toFr g).getD i 0, ⟨?_, ?_⟩, ?_, hw.sat⟩, ?_⟩
    · simp only [List.getD_eq_getElem?_getD, hw.one]; rfl
    · intro i hi
      rw [sudoku_nAlloc] at hi
      simp only [List.getD_eq_getElem?_getD, List.getElem?_eq_none (show (sudokuWitness p.toFr g).length ≤ i by omega)]; rfl
    · intro i h1 h2
      rw [sudoku_nAlloc] at h2
      unfold fullWires
      simp only [hag i h1 h2, List.getD_eq_getElem?_getD]
      rw [List.getElem?_eq_getElem (by omega)]
      rfl
    · intro i hi
      rw [hag (i + 1) (by omega) (by omega), C75_public_wires _ _ i hi]
      rfl
  · rintro ⟨⟨val, hv, ha, hs⟩, hp⟩
    have hget : ∀ i, i < 202 → ((List.range 202).map val)[i]? = some (val i) := by
      intro i hi
      rw [List.getElem?_map, List.getElem?_range hi]
      rfl
    have hfun : (fun i => ((List.range 202).map val).getD i 0) = val := by
      funext i
      rw [List.getD_eq_getElem?_getD]
      by_cases hi : i < 202
      · rw [hget i hi]; rfl
      · rw [List.getElem?_eq_none (by simp; omega), hv.beyond i (by rw [sudoku_nAlloc]; omega)]
        rfl
    have hw : Witness sudokuR1cs ((List.range 202).map val) := by
      refine ⟨by simp [sudokuR1cs], by rw [hget 0 (by omega), hv.one], ?_⟩
      rw [hfun]
      exact hs
    obtain ⟨q, g, he, hok⟩ := (C75_accepts_iff _).1 hw
    have hval : ∀ i, 1 ≤ i → i < 202 → vals[i]? = (sudokuWitness q g)[i]? := by
      intro i h1 h2
      rw [← he, hget i h2]
      exact ha i h1 (by rw [sudoku_nAlloc]; exact h2)
    have hq : q = p.toFr := grid_ext fun i hi => by
      have h1 := hval (i + 1) (by omega) (by omega)
      rw [hp i hi, C75_public_wires _ _ i hi] at h1
      exact (Option.some.inj h1).symm
    subst hq
    exact ⟨g, hok, hval⟩

/-! ## The inputs -/

theorem puzzle_gives_cli {p : Grid Nat} (hp : IsPuzzle p) (name : Str) (x : Fr) :
    Gives (puzzleJson p) name x ↔ ∃ i, i < 81 ∧ name = signalName "puzzle".toList [i] ∧ x = (p.cell i : Fr) := by
  have hd : ∀ n : Nat, n ≤ 9 → ∀ y : Fr, Denotes (.int (n : Int)) y ↔ y = (n : Fr) := by
    intro n hn y
    constructor
    · intro h
      cases h with
      | nat z h1 h2 => push_cast; rfl
      | neg z h1 h2 => omega
    · rintro rfl
      have := Denotes.nat (n : Int) (by omega) (by omega)
      simpa using this
  constructor
  · rintro ⟨e, he, path, y, hat, hna, rfl, hy⟩
    rw [puzzleJson, List.mem_singleton] at he
    subst he
    cases hat with
    | here => exact absurd hna (by simp [NotArr])
    | elem hi hat =>
      rename_i i x' path'
      simp only [List.getElem?_map, Option.map_eq_some_iff] at hi
      obtain ⟨a, ha, rfl⟩ := hi
      obtain ⟨hlt, rfl⟩ := List.getElem?_eq_some_iff.1 ha
      simp only [List.length_range] at hlt
      cases hat with
      | here => exact ⟨i, hlt, rfl, by rw [List.getElem_range] at hy; exact (hd _ (hp _ _) _).1 hy⟩
  · rintro ⟨i, hi, rfl, rfl⟩
    refine ⟨_, List.mem_singleton.2 rfl, [i], .int (p.cell i), .elem ?_ (.here _), trivial, rfl, (hd _ (hp _ _) _).2 rfl⟩
    rw [List.getElem?_map, List.getElem?_range hi]
    rfl

theorem puzzle_gives_js {p : Grid Nat} (name : Str) (v : JsVal) :
    JsGives (puzzleObject p) name v ↔ ∃ i, i < 81 ∧ name = signalName "puzzle".toList [i] ∧ v = .num (p.cell i) := by
  unfold puzzleObject
  rw [(C38_js_array_one_level _ _ _ _).1]
  constructor
  · rintro ⟨i, hi, rfl⟩
    rw [List.getElem?_map, Option.map_eq_some_iff] at hi
    obtain ⟨a, ha, rfl⟩ := hi
    obtain ⟨hlt, rfl⟩ := List.getElem?_eq_some_iff.1 ha
    simp only [List.length_range] at hlt
    exact ⟨i, hlt, rfl, by rw [List.getElem_range]⟩
  · rintro ⟨i, hi, rfl, rfl⟩
    exact ⟨i, by rw [List.getElem?_map, List.getElem?_range hi]; rfl, rfl⟩

section inputs

variable {m : AMap Nat} (hm : ∀ i, i < 81 → m.get ("main.".toList ++ signalName "puzzle".toList [i]) = some (i + 1))

include hm

theorem puzzle_resolves {max : Option Nat} {i j : Nat} (hi : i < 81) (h : Resolves m max (signalName "puzzle".toList [i]) j) : j = i + 1 := by
  have h1 := h.1
  rw [hm i hi] at h1
  exact (Option.some.inj h1).symm

theorem puzzle_noAlias {p : Grid Nat} (hp : IsPuzzle p) (max : Option Nat) : NoAlias m max (puzzleJson p) := by
  intro n n' i x x' r1 r2 g1 g2
  obtain ⟨a, ha, rfl, rfl⟩ := (puzzle_gives_cli hp _ _).1 g1
  obtain ⟨b, hb, rfl, rfl⟩ := (puzzle_gives_cli hp _ _).1 g2
  have e1 := puzzle_resolves hm ha r1
  have e2 := puzzle_resolves hm hb r2
  rw [show a = b by omega]

theorem puzzle_enforced_cli {p : Grid Nat} (hp : IsPuzzle p) (vals : List Fr) :
    CliEnforced m 81 (puzzleJson p) vals ↔ ∀ i, i < 81 → vals[i + 1]? = some (p.cell i : Fr) := by
  have hr : ∀ i, i < 81 → Resolves m (some 81) (signalName "puzzle".toList [i]) (i + 1) := fun i hi =>
    ⟨hm i hi, by rintro k hk; cases hk; omega⟩
  have hg : ∀ i, i < 81 → Gives (puzzleJson p) (signalName "puzzle".toList [i]) (p.cell i : Fr) := fun i hi =>
    (puzzle_gives_cli hp _ _).2 ⟨i, hi, rfl, rfl⟩
  constructor
  · intro h i hi
    refine h (i + 1) (by omega) (fun k h1 h2 => ?_) _ _ (hr i hi) (hg i hi)
    obtain ⟨k', rfl⟩ : ∃ k', k = k' + 1 := ⟨k - 1, by omega⟩
    exact ⟨_, _, hr k' (by omega), hg k' (by omega)⟩
  · intro h j _ _ name x r g
    obtain ⟨i, hi, rfl, rfl⟩ := (puzzle_gives_cli hp _ _).1 g
    rw [puzzle_resolves hm hi r]
    exact h i hi

theorem puzzle_noAlias_js (p : Grid Nat) : JsNoAlias m (puzzleObject p) := by
  intro n n' i v v' r1 r2 g1 g2
  obtain ⟨a, ha, rfl, rfl⟩ := (puzzle_gives_js _ _).1 g1
  obtain ⟨b, hb, rfl, rfl⟩ := (puzzle_gives_js _ _).1 g2
  have e1 := puzzle_resolves hm ha r1
  have e2 := puzzle_resolves hm hb r2
  rw [show a = b by omega]

theorem puzzle_small (p : Grid Nat) : JsSmall m (puzzleObject p) := by
  refine .of_lt fun name v i r g => ?_
  obtain ⟨a, ha, rfl, rfl⟩ := (puzzle_gives_js _ _).1 g
  rw [puzzle_resolves hm ha r]
  omega

omit hm in
theorem puzzle_usable (p : Grid Nat) : JsUsable m (puzzleObject p) where
  not_null := by
    intro name v i _ g
    obtain ⟨a, ha, rfl, rfl⟩ := (puzzle_gives_js _ _).1 g
    exact ⟨by simp, by simp⟩
  integer := by
    intro i _ _ name v s _ g hs
    obtain ⟨a, ha, rfl, rfl⟩ := (puzzle_gives_js _ _).1 g
    obtain ⟨t1, -, -, t4⟩ := C39_js_integers (p.cell a : Int)
    rw [t1] at hs
    cases hs
    exact ⟨_, t4⟩

theorem puzzle_enforced_js {p : Grid Nat} (hp : IsPuzzle p) (vals : List Fr) :
    JsEnforced m 81 (puzzleObject p) vals ↔ ∀ i, i < 81 → vals[i + 1]? = some (p.cell i : Fr) := by
  have hr : ∀ i, i < 81 → Resolves m none (signalName "puzzle".toList [i]) (i + 1) := fun i hi => ⟨hm i hi, by simp⟩
  have hg : ∀ i, i < 81 → JsGives (puzzleObject p) (signalName "puzzle".toList [i]) (.num (p.cell i)) := fun i hi =>
    (puzzle_gives_js _ _).2 ⟨i, hi, rfl, rfl⟩
  have hz : ∀ i : Nat, (((p.cell i : Int) % 2 ^ 256).toNat : Fr) = (p.cell i : Fr) := by
    intro i
    have : p.cell i ≤ 9 := hp _ _
    rw [Int.emod_eq_of_lt (by omega) (by omega), Int.toNat_natCast]
  constructor
  · intro h i hi
    obtain ⟨t1, -, -, t4⟩ := C39_js_integers (p.cell i : Int)
    have := h (i + 1) (by omega) (by omega) (fun k h1 h2 => by
      obtain ⟨k', rfl⟩ : ∃ k', k = k' + 1 := ⟨k - 1, by omega⟩
      exact ⟨_, _, hr k' (by omega), hg k' (by omega)⟩) _ _ _ _ (hr i hi) (hg i hi) t1 t4
    rw [this, hz]
  · intro h j _ _ _ name v s z r g hs hzz
    obtain ⟨i, hi, rfl, rfl⟩ := (puzzle_gives_js _ _).1 g
    obtain ⟨t1, -, -, t4⟩ := C39_js_integers (p.cell i : Int)
    rw [t1] at hs
    cases hs
    rw [t4] at hzz
    cases hzz
    rw [puzzle_resolves hm hi r, hz]
    exact h i hi

end inputs

/-! ## Messages -/

variable {G1 G2 GT : Type} [AddCommGroup G1] [Module Fr G1] [AddCommGroup G2] [Module Fr G2] [AddCommGroup GT] [Module Fr GT]
  (S : Sys G1 G2 GT)

theorem text_file {fs : FS} {path : Path} {s : Str} (h : fs path = some (utf8Enc s)) {m : AMap Nat} (hm : parseSymFile s = .ok m) :
    ∃ b s', fs path = some b ∧ utf8Dec b = some s' ∧ parseSymFile s'.toList = .ok m :=
  ⟨_, String.ofList s, h, utf8Dec_enc _, by rw [String.toList_ofList]; exact hm⟩

theorem PuzzleFiles.cli {S : Sys G1 G2 GT} (hlim : 51696 ≤ S.lim) {fs : FS} {circuit sym input : Path} {p : Grid Nat}
    (h : PuzzleFiles S fs circuit sym input p) {m : AMap Nat} (hm : parseSymFile sudokuSym = .ok m) :
    CliFiles S fs circuit sym input sudokuR1cs m (puzzleJson p) :=
  ⟨⟨_, h.circuit, (C76_circuit_file S.lim hlim).2.1⟩, text_file h.sym hm, h.input⟩

/-- **C76** (encryption works) — for every puzzle `zkenc encrypt` and JS `encrypt` succeed (unless the random `δ` is zero or the message is too long for the
AES library), whether the puzzle is included or not. -/
theorem C76_encrypts (hlim : 51696 ≤ S.lim) (p : Grid Nat) (hp : IsPuzzle p) (m : Bytes) (ρ : Rand Fr) (hδ : ρ.delta ≠ 0) (nonce : Bytes)
    (hn : nonce.length = 12) :
    (∀ fs circuit sym input message output incl, PuzzleFiles S fs circuit sym input p → fs message = some m → m.length ≤ S.cipher.maxEnc .cli →
      ∃ b, (encryptCommand S circuit sym input message output incl ρ nonce).exec fs = (fs.set output b, .ok ())) ∧
    (∀ incl, (incl = true → S.stringify = jsonStringify) → m.length ≤ S.cipher.maxEnc .js →
      ∃ b k, jsEncrypt S sudokuBytes sudokuSym (puzzleObject p) m incl ρ nonce = .ok (b, k)) := by
  obtain ⟨t, h1, h2, h3, -⟩ := C76_symbol_file
  constructor
  · intro fs circuit sym input message output incl hfiles hmsg hl
    refine (C47_encrypt_outcome S fs circuit sym input message output sudokuR1cs t (puzzleJson p) (PuzzleFiles.cli hlim hfiles h1) m hmsg incl ρ nonce
      hn).1 ⟨?_, hδ, hl⟩
    intro e he path y hat hna
    rw [puzzleJson, List.mem_singleton] at he
    subst he
    cases hat with
    | here => exact absurd hna (by simp [NotArr])
    | elem hi hat =>
      rw [List.getElem?_map, Option.map_eq_some_iff] at hi
      obtain ⟨a, -, rfl⟩ := hi
      cases hat with
      | here => exact ⟨_, Denotes.nat _ (by omega) (by have : p.cell a ≤ 9 := hp _ _; omega)⟩
  · intro incl hs hl
    have hnb : ∀ l : List Nat, ¬ JsonSpec.HasBigItems (l.map fun i => .num (p.cell i)) := by
      intro l
      induction l with
      | nil => simp [JsonSpec.HasBigItems]
      | cons a l ih =>
        rw [List.map_cons, JsonSpec.HasBigItems, JsonSpec.HasBig]
        · rintro (h | h)
          · exact h
          · exact ih h
        all_goals intros; (rename_i h; cases h)
    refine (C48_encrypt_outcome S sudokuBytes sudokuR1cs (C76_circuit_file 51696 le_rfl).2.2 sudokuSym (puzzleObject p) ?_ ?_ m incl ρ nonce hn).2
      ⟨?_, hδ, hl, fun hi => by
        rw [hs hi]
        refine (C56_stringify_outcome _).2 ?_
        rw [puzzleObject, JsonSpec.HasBigFields, JsonSpec.HasBigFields, JsonSpec.HasBig, or_false]
        exact hnb _⟩
    · rw [h2]; exact puzzle_noAlias_js h3 p
    · rw [h2]; exact puzzle_small h3 p
    · rw [h2]; exact puzzle_usable p

/-- **C76** (CLI to CLI) — a message encrypted for a puzzle is decrypted by exactly those witness files that belong to the puzzle and a grid with the right
sums; with all others `zkenc decrypt` fails and changes nothing. -/
theorem C76_cli_to_cli (hlim : 51696 ≤ S.lim) (p : Grid Nat) (hp : IsPuzzle p) (fs fs' : FS) (circuit sym input message output : Path)
    (hfiles : PuzzleFiles S fs circuit sym input p) (m : Bytes) (hmsg : fs message = some m) (incl : Bool) (ρ : Rand Fr) (nonce : Bytes)
    (hn : nonce.length = 12) (hj : incl = true → ∀ j, fs input = some j → j.length < 2 ^ 32)
    (henc : (encryptCommand S circuit sym input message output incl ρ nonce).exec fs = (fs', .ok ()))
    (fs₂ : FS) (circuit₂ witness ciphertext output₂ : Path) (wdata : Bytes) (vals : List Fr) (hdata : fs₂ circuit₂ = some sudokuBytes)
    (hct : fs₂ ciphertext = fs' output) (hwd : fs₂ witness = some wdata) (hwit : CliWitness wdata vals) :
    (PuzzleWitness p vals → (decryptCommand S circuit₂ witness ciphertext output₂).exec fs₂ = (fs₂.set output₂ m, .ok ())) ∧
    (¬ PuzzleWitness p vals → ∃ e, (decryptCommand S circuit₂ witness ciphertext output₂).exec fs₂ = (fs₂, .error e)) := by
  obtain ⟨t, h1, h2, h3, -⟩ := C76_symbol_file
  rw [puzzleWitness_iff, ← puzzle_enforced_cli h3 hp]
  exact C77_cli_to_cli_exactly S fs fs' circuit sym input message output sudokuR1cs t (puzzleJson p) (PuzzleFiles.cli hlim hfiles h1) m hmsg incl ρ nonce hn
    hj henc sudoku_wf sudoku_ct (by decide) (puzzle_noAlias h3 hp _) fs₂ circuit₂ witness ciphertext output₂ sudokuBytes wdata vals hdata
    (C76_circuit_file S.lim hlim).2.1 hct hwd hwit

/-- **C76** (CLI to JS). -/
theorem C76_cli_to_js (hlim : 51696 ≤ S.lim) (p : Grid Nat) (hp : IsPuzzle p) (fs fs' : FS) (circuit sym input message output : Path)
    (hfiles : PuzzleFiles S fs circuit sym input p) (m : Bytes) (hmsg : fs message = some m) (incl : Bool) (ρ : Rand Fr) (nonce : Bytes)
    (hn : nonce.length = 12) (hj : incl = true → ∀ j, fs input = some j → j.length < 2 ^ 32)
    (henc : (encryptCommand S circuit sym input message output incl ρ nonce).exec fs = (fs', .ok ()))
    (combined : Bytes) (hct : fs' output = some combined) (wtns : Bytes) (vals : List Fr) (hwit : jsParseWtns wtns = .ok vals)
    (hl : m.length ≤ S.cipher.maxDec .js) :
    (vals.length = 202 ∧ PuzzleWitness p vals → jsDecrypt S sudokuBytes (.ok wtns) combined = .ok m) ∧
    (¬ (vals.length = 202 ∧ PuzzleWitness p vals) → ∃ e, jsDecrypt S sudokuBytes (.ok wtns) combined = .error e) := by
  obtain ⟨t, h1, h2, h3, -⟩ := C76_symbol_file
  rw [puzzleWitness_iff, ← puzzle_enforced_cli h3 hp]
  exact C77_cli_to_js_exactly S fs fs' circuit sym input message output sudokuR1cs t (puzzleJson p) (PuzzleFiles.cli hlim hfiles h1) m hmsg incl ρ nonce hn
    hj henc sudoku_wf sudoku_ct (by decide) (puzzle_noAlias h3 hp _) sudokuBytes hfiles.circuit
    (by rw [(C76_circuit_file 51696 le_rfl).1]; norm_num) combined hct wtns vals hwit hl

/-- **C76** (JS to CLI). -/
theorem C76_js_to_cli (hlim : 51696 ≤ S.lim) (p : Grid Nat) (hp : IsPuzzle p) (m : Bytes) (incl : Bool) (ρ : Rand Fr) (nonce : Bytes) (hn : nonce.length = 12)
    (hj : incl = true → ∀ s, S.stringify (puzzleObject p) = .ok s → (utf8Enc s).length < 2 ^ 32) (combined key : Bytes)
    (henc : jsEncrypt S sudokuBytes sudokuSym (puzzleObject p) m incl ρ nonce = .ok (combined, key))
    (fs : FS) (circuit witness ciphertext output : Path) (wdata : Bytes) (vals : List Fr)
    (hdata : fs circuit = some sudokuBytes) (hct : fs ciphertext = some combined) (hwd : fs witness = some wdata)
    (hwit : CliWitness wdata vals) (hl : m.length ≤ S.cipher.maxDec .cli) :
    (PuzzleWitness p vals → (decryptCommand S circuit witness ciphertext output).exec fs = (fs.set output m, .ok ())) ∧
    (¬ PuzzleWitness p vals → ∃ e, (decryptCommand S circuit witness ciphertext output).exec fs = (fs, .error e)) := by
  obtain ⟨t, h1, h2, h3, -⟩ := C76_symbol_file
  rw [puzzleWitness_iff, ← puzzle_enforced_js h3 hp]
  have := C77_js_to_cli_exactly S sudokuBytes (by rw [(C76_circuit_file 51696 le_rfl).1]; norm_num) sudokuR1cs (C76_circuit_file S.lim hlim).2.1 sudokuSym
    (puzzleObject p) (by rw [h2]; exact puzzle_noAlias_js h3 p) (by rw [h2]; exact puzzle_small h3 p) m incl ρ nonce hn hj combined key henc sudoku_wf
    sudoku_ct (by decide) fs circuit witness ciphertext output wdata vals hdata hct hwd hwit hl
  rw [h2] at this
  exact this

/-- **C76** (JS to JS). -/
theorem C76_js_to_js (p : Grid Nat) (hp : IsPuzzle p) (m : Bytes) (incl : Bool) (ρ : Rand Fr) (nonce : Bytes) (hn : nonce.length = 12)
    (hj : incl = true → ∀ s, S.stringify (puzzleObject p) = .ok s → (utf8Enc s).length < 2 ^ 32) (combined key : Bytes)
    (henc : jsEncrypt S sudokuBytes sudokuSym (puzzleObject p) m incl ρ nonce = .ok (combined, key))
    (wtns : Bytes) (vals : List Fr) (hwit : jsParseWtns wtns = .ok vals) :
    (vals.length = 202 ∧ PuzzleWitness p vals → jsDecrypt S sudokuBytes (.ok wtns) combined = .ok m) ∧
    (¬ (vals.length = 202 ∧ PuzzleWitness p vals) → ∃ e, jsDecrypt S sudokuBytes (.ok wtns) combined = .error e) := by
  obtain ⟨t, h1, h2, h3, -⟩ := C76_symbol_file
  rw [puzzleWitness_iff, ← puzzle_enforced_js h3 hp]
  have := C77_js_to_js_exactly S sudokuBytes sudokuR1cs (C76_circuit_file 51696 le_rfl).2.2 sudokuSym
    (puzzleObject p) (by rw [h2]; exact puzzle_noAlias_js h3 p) (by rw [h2]; exact puzzle_small h3 p) m incl ρ nonce hn hj combined key henc sudoku_wf
    sudoku_ct (by decide) wtns vals hwit
  rw [h2] at this
  exact this

/-- **C76** (who can decrypt) — the witness of every solution of the puzzle is among those that decrypt; for the puzzle of the repository's own tests a grid
of digits that is no solution is, too. -/
theorem C76_who_decrypts :
    (∀ p g : Grid Nat, Solved g → Fills p g → PuzzleWitness p (sudokuWitness p.toFr g.toFr)) ∧
    IsPuzzle repoPuzzle ∧ PuzzleWitness repoPuzzle (sudokuWitness repoPuzzle.toFr wrongSolution.toFr) ∧ Fills repoPuzzle wrongSolution ∧
      (∀ r c, 1 ≤ wrongSolution r c ∧ wrongSolution r c ≤ 9) ∧ ¬ Solved wrongSolution := by
  have key : ∀ p g : Grid Nat, Witness sudokuR1cs (sudokuWitness p.toFr g.toFr) → PuzzleWitness p (sudokuWitness p.toFr g.toFr) := by
    intro p g hw
    refine (puzzleWitness_iff _ _).2 ⟨⟨fun i => (sudokuWitness p.toFr g.toFr).getD i 0, ⟨?_, ?_⟩, ?_, hw.sat⟩, ?_⟩
    · simp only [List.getD_eq_getElem?_getD, hw.one]; rfl
    · intro i hi
      rw [sudoku_nAlloc] at hi
      simp only [List.getD_eq_getElem?_getD, List.getElem?_eq_none (show (sudokuWitness p.toFr g.toFr).length ≤ i by rw [sudokuWitness_length]; omega)]
      rfl
    · intro i h1 h2
      rw [sudoku_nAlloc] at h2
      unfold fullWires
      simp only [List.getD_eq_getElem?_getD]
      rw [List.getElem?_eq_getElem (by rw [sudokuWitness_length]; omega)]
      rfl
    · intro i hi
      rw [C75_public_wires _ _ i hi]
      rfl
  obtain ⟨h1, h2, h3, h4⟩ := C75_wrong_solution_accepted
  exact ⟨fun p g hs hf => key p g (C75_solutions_accepted p g hs hf), by unfold IsPuzzle; decide +kernel, key _ _ h1, h2, h3, h4⟩

/-- Every list of values is in some witness file. -/
theorem some_wtns (vals : List Fr) (hl : vals.length < 1000) : ∃ b, jsParseWtns b = .ok vals := by
  refine ⟨serializeWitnessSimple (vals.map fun x => (x.val : Int)), ?_⟩
  rw [C30_roundtrip _ (by rw [List.length_map]; omega), List.map_map]
  have : ((fun v : Int => (((v % 2 ^ 256).toNat : Nat) : Fr)) ∘ fun x : Fr => (x.val : Int)) = id := by
    funext x
    have h1 : x.val < frModulus := ZMod.val_lt x
    have h2 : frModulus < 2 ^ 256 := by decide
    simp only [Function.comp, id]
    rw [Int.emod_eq_of_lt (by omega) (by exact_mod_cast (lt_trans h1 h2)), Int.toNat_natCast, ZMod.natCast_val, ZMod.cast_id]
  rw [this, List.map_id]

/-- A concrete case of the theorems above: JS encrypts for the puzzle of the repository's tests, and a grid that is no solution decrypts. -/
example : ∃ b k wtns, jsEncrypt Ex.S sudokuBytes sudokuSym (puzzleObject repoPuzzle) [1, 2, 3] false Ex.ρ Ex.nonce = .ok (b, k) ∧
    jsParseWtns wtns = .ok (sudokuWitness repoPuzzle.toFr wrongSolution.toFr) ∧ jsDecrypt Ex.S sudokuBytes (.ok wtns) b = .ok [1, 2, 3] ∧
    ¬ Solved wrongSolution := by
  obtain ⟨-, hp, hw, -, -, hns⟩ := C76_who_decrypts
  obtain ⟨b, k, hb⟩ := (C76_encrypts Ex.S (by change 51696 ≤ 2 ^ 62; norm_num) repoPuzzle hp [1, 2, 3] Ex.ρ Ex.delta_ne Ex.nonce rfl).2 false (by simp)
    (by change 3 ≤ 2 ^ 36; norm_num)
  obtain ⟨wtns, hwt⟩ := some_wtns (sudokuWitness repoPuzzle.toFr wrongSolution.toFr) (by rw [sudokuWitness_length]; norm_num)
  exact ⟨b, k, wtns, hb, hwt, (C76_js_to_js Ex.S repoPuzzle hp [1, 2, 3] false Ex.ρ Ex.nonce rfl (by simp) b k hb wtns _ hwt).1
    ⟨sudokuWitness_length _ _, hw⟩, hns⟩

end Zkenc.Props
