import Verif.Spec.SudokuProgram
import Verif.Props.Compose
import Verif.Props.JsonText
/-!
# The Sudoku witness program and ciphertexts for a puzzle (used for C82)
-/

namespace Zkenc.Props

open Zkenc Zkenc.Spec Zkenc.InputSpec Zkenc.SudokuSpec Zkenc.SudokuLc Zkenc.JsonSpec CalcSpec

/-- The input object of a decryption in the Sudoku tab. -/
def sudokuObject (q g : Grid Nat) : List (Str × JsVal) := [("puzzle".toList, .arr q.array), ("solution".toList, .arr g.array)]

theorem array_leaves (g : Grid Nat) : CalcSpec.leaves (.arr g.array) = g.array := by
  rw [CalcSpec.leaves]
  refine leavesList_of_leaves fun y hy => ?_
  obtain ⟨i, -, rfl⟩ := List.mem_map.1 hy
  trivial

theorem array_ints {N : JsNums} {g : Grid Nat} (hg : ∀ r c, g r c ≤ 9) : List.Forall₂ (IsInt N) (CalcSpec.leaves (.arr g.array)) g.ints := by
  rw [array_leaves]
  unfold Grid.array Grid.ints
  rw [List.forall₂_map_left_iff, List.forall₂_map_right_iff, List.forall₂_same]
  intro i _
  exact ExactNat.isInt (.num _ (by have : g.cell i ≤ 9 := hg _ _; omega))

section
variable {σ : Type} {N : JsNums} {x : CircuitWasm σ}

theorem sudoku_prime (hx : SudokuProgram x) : x.toCalcInst.prime ≠ 0 := by
  rw [hx.compiled.prime]
  decide

/-- The witness calculator accepts exactly grids with the right sums. -/
theorem sudoku_calc (hx : SudokuProgram x) {q g : Grid Nat} (hq : IsPuzzle q) (hg : IsPuzzle g) :
    (∃ w, calculateWitness N (.ok x) (sudokuObject q g) = .ok w) ↔ SumsOk q.toFr g.toFr := by
  have hlen : ∀ p : Grid Nat, p.ints.length = 81 := fun p => by simp [Grid.ints]
  constructor
  · rintro ⟨w, hw⟩
    unfold calculateWitness at hw
    rw [Res.ok_bind] at hw
    obtain ⟨t, ht, -⟩ := Res.bind_eq_ok.1 hw
    obtain ⟨s0, h0, zss, hf, hper, -⟩ := (C53_accepts_iff (sudoku_prime hx) _ _ _ _).1 ht
    refine (hx.checks s0 q g h0).1 ⟨t, ?_⟩
    cases hf with
    | cons h1 hf =>
      cases hf with
      | cons h2 hf =>
        cases hf
        rw [forall2_isInt_unique h1.1 (array_ints hq), forall2_isInt_unique h2.1 (array_ints hg)] at hper
        simpa [sudokuObject] using hper
  · intro hs
    obtain ⟨s0, h0⟩ := hx.starts
    obtain ⟨t, ht⟩ := (hx.checks s0 q g h0).2 hs
    have hd := (C53_accepts_iff (N := N) (sudoku_prime hx) false (sudokuObject q g) x.start t).2 ⟨s0, h0, [q.ints, g.ints], ?_, ?_, ?_⟩
    · exact ⟨_, by unfold calculateWitness; rw [Res.ok_bind, hd, Res.ok_bind]⟩
    · refine .cons ⟨array_ints hq, ?_⟩ (.cons ⟨array_ints hg, ?_⟩ .nil)
      · rw [hlen]; exact hx.sizes _ [81] (by simp [sudokuInputs])
      · rw [hlen]; exact hx.sizes _ [81] (by simp [sudokuInputs])
    · simpa [sudokuObject] using ht
    · have := hx.inputs
      simp [hlen]
      omega

/-- The witness of accepted grids: accepted by the constraints, and the public wires carry the puzzle. -/
theorem sudoku_vals (hx : SudokuProgram x) {q g : Grid Nat} (hq : IsPuzzle q) {w : Bytes}
    (hw : calculateWitness N (.ok x) (sudokuObject q g) = .ok w) :
    ∃ vals, jsParseWtns w = .ok vals ∧ Witness sudokuR1cs vals ∧ ∀ i, i < 81 → vals[i + 1]? = some (q.cell i : Fr) := by
  obtain ⟨vals, h1, -, h2, -, h3⟩ := calc_ok hx.compiled (by decide) hw
  refine ⟨vals, h1, h2, fun i hi => ?_⟩
  obtain ⟨t, -, ht, hpw, -⟩ := C76_symbol_file
  have := h3 "puzzle".toList (.arr q.array) [81] [i] (i + 1) (.num (q.cell i)) (q.cell i) (by simp [sudokuObject]) (by simp [sudokuInputs])
    (by rw [ht]; exact hpw i hi) (by
      rw [array_leaves]
      simp only [rowMajor, List.prod_nil, mul_one, add_zero]
      unfold Grid.array
      rw [List.getElem?_map, List.getElem?_range hi]
      rfl) (ExactNat.isInt (.num _ (by have : q.cell i ≤ 9 := hq _ _; omega)))
  simpa using this

theorem digit_cast {a b : Nat} (ha : a ≤ 9) (hb : b ≤ 9) (h : (a : Fr) = (b : Fr)) : a = b := by
  have := congrArg ZMod.val h
  have h9 : 9 < frModulus := by decide
  rwa [ZMod.val_natCast_of_lt (by omega), ZMod.val_natCast_of_lt (by omega)] at this

theorem sudoku_puzzleWitness {p q : Grid Nat} (hp : IsPuzzle p) (hq : IsPuzzle q) {vals : List Fr} (hw : Witness sudokuR1cs vals)
    (hv : ∀ i, i < 81 → vals[i + 1]? = some (q.cell i : Fr)) : vals.length = 202 ∧ (PuzzleWitness p vals ↔ q = p) := by
  have hlen : vals.length = 202 := hw.len
  refine ⟨hlen, ?_⟩
  rw [puzzleWitness_iff]
  constructor
  · rintro ⟨-, h⟩
    refine grid_ext fun i hi => ?_
    have := h i hi
    rw [hv i hi] at this
    exact digit_cast (hq _ _) (hp _ _) (Option.some.inj this)
  · rintro rfl
    refine ⟨⟨fun i => vals.getD i 0, ⟨?_, ?_⟩, ?_, hw.sat⟩, hv⟩
    · simp only [List.getD_eq_getElem?_getD, hw.one]; rfl
    · intro i hi
      rw [sudoku_nAlloc] at hi
      simp only [List.getD_eq_getElem?_getD, List.getElem?_eq_none (show vals.length ≤ i by omega)]; rfl
    · intro i h1 h2
      rw [sudoku_nAlloc] at h2
      unfold fullWires
      simp only [List.getD_eq_getElem?_getD]
      rw [List.getElem?_eq_getElem (by omega)]
      rfl

end

section
variable {G1 G2 GT : Type} [AddCommGroup G1] [Module Fr G1] [AddCommGroup G2] [Module Fr G2] [AddCommGroup GT] [Module Fr GT]
  (S : Sys G1 G2 GT)

theorem jsDecrypt_error (data combined : Bytes) (e : Fault) : ∃ e', jsDecrypt S data (.error e) combined = .error e' := by
  unfold jsDecrypt jsDecap
  cases splitJs combined with
  | error e => exact ⟨e, rfl⟩
  | ok p => exact ⟨e, rfl⟩

theorem utf8Enc_le (s : Str) : (utf8Enc s).length ≤ 4 * s.length := by
  induction s with
  | nil => decide
  | cons c s ih =>
    rw [utf8Enc_cons, List.length_append, List.length_cons, String.length_utf8EncodeChar]
    have : c.utf8Size ≤ 4 := Char.utf8Size_le_four c
    omega

theorem jsTrees_nums (l : List Nat) : jsTrees (l.map fun n : Nat => .num (n : Int)) = .ok (l.map fun n : Nat => .num (intDec n)) := by
  induction l with
  | nil => rfl
  | cons n l ih =>
    rw [List.map_cons, jsTrees, jsTree, ih]
    rfl

theorem renderItems_len (l : List JTree) (h : ∀ t ∈ l, t.render.length ≤ 1) : (renderItems l).length ≤ 2 * l.length := by
  induction l with
  | nil => decide
  | cons t l ih =>
    have h1 := h t (by simp)
    cases l with
    | nil => rw [renderItems]; simp; omega
    | cons u l =>
      have := ih fun t ht => h t (by simp [ht])
      rw [renderItems]
      simp only [List.length_append, List.length_cons] at this ⊢
      omega

theorem intDec_digit (n : Nat) (h : n ≤ 9) : (intDec n).length = 1 := by
  interval_cases n <;> decide +kernel

/-- The JSON text of a puzzle is short. -/
theorem puzzle_text {p : Grid Nat} (hp : IsPuzzle p) : ∃ s, jsonStringify (puzzleObject p) = .ok s ∧ (utf8Enc s).length < 2 ^ 32 := by
  have e : (List.range 81).map (fun i => JsVal.num (p.cell i : Int)) = ((List.range 81).map p.cell).map fun n : Nat => .num (n : Int) := by
    rw [List.map_map]; rfl
  have h : jsonStringify (puzzleObject p) = .ok (JTree.obj [("puzzle".toList, .arr (((List.range 81).map p.cell).map fun n : Nat => .num (intDec n)))]).render := by
    unfold jsonStringify puzzleObject
    rw [e, jsonFields, jsTree, jsTrees_nums, jsonFields]
    rfl
  refine ⟨_, h, ?_⟩
  refine lt_of_le_of_lt (utf8Enc_le _) ?_
  have hr := renderItems_len (((List.range 81).map p.cell).map fun n : Nat => .num (intDec n)) (by
    intro t ht
    obtain ⟨n, hn, rfl⟩ := List.mem_map.1 ht
    obtain ⟨i, -, rfl⟩ := List.mem_map.1 hn
    rw [JTree.render, intDec_digit (p.cell i) (hp _ _)])
  have hq : (quote "puzzle".toList).length = 8 := by decide
  rw [JTree.render, renderFields, JTree.render]
  simp only [List.length_append, List.length_cons, List.length_nil, List.length_map, List.length_range, hq] at hr ⊢
  omega

variable {D : Doubles} {ord : List (Str × Json) → List (Str × Json)}

theorem puzzle_hj {S : Sys G1 G2 GT} (hJ : ConcreteJson S D ord) {p : Grid Nat} (hp : IsPuzzle p) (s : Str) (hs : S.stringify (puzzleObject p) = .ok s) :
    (utf8Enc s).length < 2 ^ 32 := by
  obtain ⟨s', h1, h2⟩ := puzzle_text hp
  rw [hJ.stringify, h1] at hs
  cases hs
  exact h2

/-- Encryption in the default mode succeeds. -/
theorem puzzle_encrypts {S : Sys G1 G2 GT} (hJ : ConcreteJson S D ord) {p : Grid Nat} (hp : IsPuzzle p) (m : Bytes) (ρ : Rand Fr) (hδ : ρ.delta ≠ 0) (nonce : Bytes)
    (hn : nonce.length = 12) (hl : m.length ≤ S.cipher.maxEnc .js) : ∃ combined, PuzzleCiphertext S p m combined := by
  obtain ⟨t, h1, h2, h3, -⟩ := C76_symbol_file
  obtain ⟨b, k, h⟩ := (C48_encrypt_outcome S sudokuBytes sudokuR1cs (C76_circuit_file 51696 le_rfl).2.2 sudokuSym (puzzleObject p)
    (by rw [h2]; exact puzzle_noAlias_js h3 p) (by rw [h2]; exact puzzle_small h3 p) m true ρ nonce hn).2
      ⟨by rw [h2]; exact puzzle_usable p, hδ, hl, fun _ => by
        obtain ⟨s, hs, -⟩ := puzzle_text hp
        exact ⟨s, by rw [hJ.stringify]; exact hs⟩⟩
  exact ⟨b, .js ρ nonce b k hn h⟩

/-- What decrypts a ciphertext for a puzzle. -/
theorem puzzle_decrypts {S : Sys G1 G2 GT} (hJ : ConcreteJson S D ord) (hlim : 51696 ≤ S.lim) {p : Grid Nat} (hp : IsPuzzle p) {m combined : Bytes}
    (hc : PuzzleCiphertext S p m combined) (hl : m.length ≤ S.cipher.maxDec .js) (wtns : Bytes) (vals : List Fr) (hwit : jsParseWtns wtns = .ok vals) :
    (vals.length = 202 ∧ PuzzleWitness p vals → jsDecrypt S sudokuBytes (.ok wtns) combined = .ok m) ∧
    (¬ (vals.length = 202 ∧ PuzzleWitness p vals) → ∃ e, jsDecrypt S sudokuBytes (.ok wtns) combined = .error e) := by
  cases hc with
  | js ρ nonce combined key hn henc =>
    exact C76_js_to_js S p hp m true ρ nonce hn (fun _ s hs => puzzle_hj hJ hp s hs) combined key henc wtns vals hwit
  | cli fs fs' circuit sym input message output ρ nonce combined hf hj hm hn henc ho =>
    exact C76_cli_to_js S hlim p hp fs fs' circuit sym input message output hf m hm true ρ nonce hn (fun _ => hj) henc combined ho wtns vals hwit hl

theorem sameItems_ints {l : List Nat} {l' : List JsVal} (hl : ∀ n ∈ l, n ≤ 9) (h : SameItems D (l.map fun n : Nat => .int (n : Int)) l') :
    l' = l.map fun n : Nat => .num (n : Int) := by
  induction l generalizing l' with
  | nil => cases h; rfl
  | cons n l ih =>
    cases h with
    | cons h hs =>
      rw [ih (fun n hn => hl n (by simp [hn])) hs]
      have hn := hl n (by simp)
      cases h with
      | int _ => rw [D.round_small n (by omega), List.map_cons]

/-- The public input that comes with the ciphertext. -/
theorem puzzle_public {S : Sys G1 G2 GT} (hJ : ConcreteJson S D ord) (hlim : 51696 ≤ S.lim) {p : Grid Nat} (hp : IsPuzzle p) {m combined : Bytes}
    (hc : PuzzleCiphertext S p m combined) : jsGetPublicInput S combined = .ok (.obj [("puzzle".toList, .arr p.array)]) := by
  cases hc with
  | js ρ nonce combined key hn henc =>
    refine C45_js_values_plain S hJ sudokuBytes sudokuR1cs (C76_circuit_file 51696 le_rfl).2.2 sudokuSym (puzzleObject p) ?_ ?_ m ρ nonce combined key henc
      sudoku_wf.fits sudoku_ct (fun s hs => puzzle_hj hJ hp s (by rw [hJ.stringify]; exact hs))
    · refine ⟨List.pairwise_singleton _ _, ?_, trivial⟩
      have : ∀ l : List Nat, (∀ i ∈ l, p.cell i ≤ 9) → RealItems D (l.map fun i => .num (p.cell i)) := by
        intro l
        induction l with
        | nil => intro _; trivial
        | cons i l ih =>
          intro h
          refine ⟨?_, ih fun i hi => h i (by simp [hi])⟩
          have := h i (by simp)
          exact D.round_small _ (by omega)
      exact this _ fun i _ => hp _ _
    · have : ∀ l : List Nat, PlainItems (l.map fun i => .num (p.cell i)) := by
        intro l
        induction l with
        | nil => trivial
        | cons i l ih => exact ⟨trivial, ih⟩
      exact ⟨this _, trivial⟩
  | cli fs fs' circuit sym input message output ρ nonce combined hf hj hm hn henc ho =>
    obtain ⟨t, h1, h2, h3, -⟩ := C76_symbol_file
    obtain ⟨c, x, e1, e2, e3⟩ := C57_cli_values S hJ fs fs' circuit sym input message output sudokuR1cs t (puzzleJson p) (PuzzleFiles.cli hlim hf h1) ρ nonce
      henc sudoku_wf.fits sudoku_ct hj
    rw [ho] at e1
    cases e1
    rw [e2]
    refine congrArg Except.ok ?_
    cases e3 with
    | obj hk hnd hnd' h =>
      rename_i l'
      have hmem : ∀ k v, (k, v) ∈ l' → k = "puzzle".toList := by
        intro k v hv
        obtain ⟨u, hu⟩ := (hk k).2 ⟨v, hv⟩
        rw [puzzleJson, List.mem_singleton] at hu
        exact (Prod.mk.inj hu).1
      obtain ⟨v, hv⟩ := (hk "puzzle".toList).1 ⟨_, List.mem_singleton.2 rfl⟩
      have hl' : l' = [("puzzle".toList, v)] := by
        match l', hv, hmem, hnd' with
        | [e], hv, _, _ => rw [List.mem_singleton] at hv; rw [hv]
        | e :: e' :: l', _, hmem, hnd' =>
          exfalso
          have h1 := hmem e.1 e.2 (by simp)
          have h2 := hmem e'.1 e'.2 (by simp)
          simp only [List.map_cons, List.nodup_cons, List.mem_cons, not_or] at hnd'
          exact hnd'.1.1 (h1.trans h2.symm)
      subst hl'
      have hs := h _ _ _ (List.mem_singleton.2 rfl) (List.mem_singleton.2 rfl)
      cases hs with
      | arr hs =>
        rename_i l''
        have := sameItems_ints (l := (List.range 81).map p.cell) (fun n hn => by
          obtain ⟨i, -, rfl⟩ := List.mem_map.1 hn
          exact hp _ _) (l' := l'') (by rw [List.map_map]; exact hs)
        rw [this, List.map_map]
        rfl

/-- The result of `decrypt` for a puzzle and a grid on the page. -/
theorem puzzle_api {S : Sys G1 G2 GT} (hJ : ConcreteJson S D ord) (hlim : 51696 ≤ S.lim) {σ : Type} {N : JsNums} {x : CircuitWasm σ} (hx : SudokuProgram x)
    {p q g : Grid Nat} (hp : IsPuzzle p) (hq : IsPuzzle q) (hg : IsPuzzle g) {m combined : Bytes}
    (hc : PuzzleCiphertext S p m combined) (hl : m.length ≤ S.cipher.maxDec .js) :
    (q = p ∧ SumsOk p.toFr g.toFr → jsDecryptApi N S sudokuBytes (.ok x) combined (sudokuObject q g) = .ok m) ∧
    (¬ (q = p ∧ SumsOk p.toFr g.toFr) → ∃ e, jsDecryptApi N S sudokuBytes (.ok x) combined (sudokuObject q g) = .error e) := by
  unfold jsDecryptApi
  cases hw : calculateWitness N (.ok x) (sudokuObject q g) with
  | error e =>
    refine ⟨?_, fun _ => jsDecrypt_error S _ _ _⟩
    rintro ⟨rfl, hs⟩
    obtain ⟨w, hw'⟩ := (sudoku_calc (N := N) hx hq hg).2 hs
    rw [hw'] at hw
    cases hw
  | ok w =>
    obtain ⟨vals, h1, h2, h3⟩ := sudoku_vals hx hq hw
    have hs := (sudoku_calc (N := N) hx hq hg).1 ⟨w, hw⟩
    obtain ⟨hlen, hiff⟩ := sudoku_puzzleWitness hp hq h2 h3
    obtain ⟨d1, d2⟩ := puzzle_decrypts hJ hlim hp hc hl w vals h1
    refine ⟨fun ⟨hqp, _⟩ => d1 ⟨hlen, hiff.2 hqp⟩, fun hn => d2 fun ⟨_, h⟩ => ?_⟩
    have := hiff.1 h
    subst this
    exact hn ⟨rfl, hs⟩

end

end Zkenc.Props
