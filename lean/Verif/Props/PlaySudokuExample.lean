import Verif.Props.PlaySudoku
import Verif.Props.PlaySolve
import Verif.Props.ComposeExample
/-!
# A concrete case for C82

A witness program that meets `SudokuProgram`. It takes the 162 numbers in the order in which the calculator sends them for `{puzzle, solution}` (the program
compiled by circom takes them in any order), and throws with the last one if the sums are wrong.
-/

namespace Zkenc.Props

open Zkenc Zkenc.Spec Zkenc.SymSpec Zkenc.InputSpec Zkenc.SudokuSpec Zkenc.SudokuLc Zkenc.PlaySpec CalcSpec

namespace Ex

/-- The signal that comes at position `n`. -/
def sudokuKey (n : Nat) : Str := if n < 81 then "puzzle".toList else "solution".toList

/-- The grids in a list of 162 numbers. -/
def gridAt (s : List Nat) (off : Nat) : Grid Fr := fun r c => (s.getD (off + (9 * (r : Nat) + c)) 0 : Nat)

/-- After a number has been set. -/
noncomputable def sudokuDone (s : List Nat) : Res (List Nat) := by
  classical exact if s.length = 162 ∧ ¬ SumsOk (gridAt s 0) (gridAt s 81) then Res.fail "Assert Failed." else .ok s

/-- The witness program. -/
noncomputable def sudokuWasm : CircuitWasm (List Nat) where
  n32 := 8
  primeLimb := limb frModulus
  init _ _ := .ok []
  signalSize hi lo := if hi * 2 ^ 32 + lo = (nameHash "puzzle".toList).toNat ∨ hi * 2 ^ 32 + lo = (nameHash "solution".toList).toNat then 81 else -1
  setInput s mem hi lo i :=
    if s.length < 162 ∧ hi * 2 ^ 32 + lo = (nameHash (sudokuKey s.length)).toNat ∧ i = s.length % 81 then
      sudokuDone (s ++ [fromArray32 mem.reverse]) else Res.fail "Signal not found."
  inputSize := 162
  version := 2
  witnessSize := 202
  witness s i j := limb (((sudokuWitness (gridAt s 0) (gridAt s 81)).getD i 0).val) j
  start := []

theorem sudokuWasm_prime : sudokuWasm.prime = frModulus := from_limb _ modulus_lt

/-- The value that arrives. -/
def arrives (z : Int) : Nat := (z % frModulus).toNat

/-- One setting. -/
theorem sudoku_set (u : Setting) (s : List Nat) :
    sudokuWasm.setInput s (limbs sudokuWasm.n32 (u.value % sudokuWasm.prime).toNat) (u.hash.toNat / 2 ^ 32) (u.hash.toNat % 2 ^ 32) u.index =
      if s.length < 162 ∧ u.hash = nameHash (sudokuKey s.length) ∧ u.index = s.length % 81 then sudokuDone (s ++ [arrives u.value])
      else Res.fail "Signal not found." := by
  have hp : sudokuWasm.toCalcInst.prime ≠ 0 := by rw [sudokuWasm_prime]; decide
  have hm : fromArray32 (limbs sudokuWasm.n32 (u.value % sudokuWasm.toCalcInst.prime).toNat).reverse = arrives u.value := by
    rw [fromArray32_limbs _ _ (value_lt _ hp _), sudokuWasm_prime]
    rfl
  generalize limbs sudokuWasm.n32 (u.value % sudokuWasm.toCalcInst.prime).toNat = mem at hm
  simp only [sudokuWasm]
  rw [Nat.div_add_mod', hm]
  simp only [UInt64.toNat_inj]

theorem sudokuDone_ok (s t : List Nat) : sudokuDone s = .ok t ↔ t = s ∧ (s.length = 162 → SumsOk (gridAt s 0) (gridAt s 81)) := by
  unfold sudokuDone
  split_ifs with h
  · refine ⟨fun h' => (by cases h'), fun h' => absurd (h'.2 h.1) h.2⟩
  · constructor
    · intro h'
      cases h'
      exact ⟨rfl, fun hl => by by_contra hn; exact h ⟨hl, hn⟩⟩
    · rintro ⟨rfl, -⟩
      rfl

/-- Settings in order. -/
theorem sudoku_perform (L : List Setting) (s t : List Nat) (hs : s.length = 162 → SumsOk (gridAt s 0) (gridAt s 81)) :
    perform sudokuWasm.toCalcInst L s = .ok t ↔ t = s ++ L.map (fun u => arrives u.value) ∧ (t.length = 162 → SumsOk (gridAt t 0) (gridAt t 81)) ∧
      (L ≠ [] → s.length + L.length ≤ 162) ∧
      ∀ (k : Nat) u, L[k]? = some u → u.hash = nameHash (sudokuKey (s.length + k)) ∧ u.index = (s.length + k) % 81 := by
  induction L generalizing s with
  | nil =>
    simp only [perform]
    constructor
    · intro h
      cases h
      exact ⟨by simp, hs, by simp, by simp⟩
    · rintro ⟨rfl, -⟩
      simp
  | cons u L ih =>
    simp only [perform]
    rw [sudoku_set]
    constructor
    · intro h
      obtain ⟨s', h1, h2⟩ := Res.bind_eq_ok.1 h
      split_ifs at h1 with hc
      · obtain ⟨rfl, hsum⟩ := (sudokuDone_ok _ _).1 h1
        obtain ⟨e1, e2, e3, e4⟩ := (ih _ hsum).1 h2
        refine ⟨by rw [e1]; simp, e2, fun _ => ?_, fun k v hk => ?_⟩
        · cases L with
          | nil => simp; omega
          | cons _ _ =>
            have := e3 (by simp)
            simp only [List.length_append, List.length_cons, List.length_nil] at this ⊢
            omega
        · cases k with
          | zero =>
            simp only [List.getElem?_cons_zero, Option.some.injEq] at hk
            subst hk
            exact hc.2
          | succ k =>
            have := e4 k v (by simpa using hk)
            rw [List.length_append, List.length_singleton, Nat.add_assoc, Nat.add_comm 1 k] at this
            exact this
      · cases h1
    · rintro ⟨e1, e2, e3, e4⟩
      have hlen := e3 (by simp)
      simp only [List.length_cons] at hlen
      have hu := e4 0 u rfl
      rw [if_pos ⟨by omega, hu.1, hu.2⟩]
      have hsum : (s ++ [arrives u.value]).length = 162 → SumsOk (gridAt (s ++ [arrives u.value]) 0) (gridAt (s ++ [arrives u.value]) 81) := by
        intro hl
        have hL : L = [] := by
          cases L with
          | nil => rfl
          | cons _ _ => simp at hl hlen; omega
        subst hL
        have : t = s ++ [arrives u.value] := e1
        rw [this] at e2
        exact e2 hl
      rw [(sudokuDone_ok _ _).2 ⟨rfl, hsum⟩, Res.ok_bind]
      refine (ih _ hsum).2 ⟨by rw [e1]; simp, e2, fun _ => by simp; omega, fun k v hk => ?_⟩
      have := e4 (k + 1) v (by simpa using hk)
      rw [List.length_append, List.length_singleton, Nat.add_assoc, Nat.add_comm 1 k]
      exact this

theorem key_hash : nameHash "puzzle".toList ≠ nameHash "solution".toList := by decide

theorem gridAt_cell (s : List Nat) (off i : Nat) (hi : i < 81) : (gridAt s off).cell i = (s.getD (off + i) 0 : Nat) := by
  unfold Grid.cell gridAt
  have : 9 * (i / 9 % 9) + i % 9 = i := by omega
  simp only [this]

/-- The table of names. -/
theorem sudoku_name {k : Str} {dims path : List Nat} {w : Nat} (hk : (k, dims) ∈ sudokuInputs)
    (h : (jsParseSymFile sudokuSym).get ("main.".toList ++ signalName k path) = some w) :
    dims = [81] ∧ ∃ i, i < 81 ∧ path = [i] ∧ ((k = "puzzle".toList ∧ puzzleSig i ∈ sudokuLabels ∧ w = sudokuLabels.idxOf (puzzleSig i)) ∨
      (k = "solution".toList ∧ solutionSig i ∈ sudokuLabels ∧ w = sudokuLabels.idxOf (solutionSig i))) := by
  obtain ⟨m, -, hm, hget⟩ := sudoku_table
  rw [hm, hget, sudoku_signals] at h
  obtain ⟨l, h1, h2, h3, hn, hw⟩ := h
  obtain ⟨key, i, hkey, hcases⟩ := signalName_cases l
  rw [hkey] at hn
  have happ : ∀ (p : List Nat) (a b : Str), a ++ signalName b p = signalName (a ++ b) p := by
    intro p
    induction p with
    | nil => intro a b; rfl
    | cons i p ih => intro a b; simp only [signalName]; rw [ih, List.append_assoc]
  rw [happ] at hn
  have hmain : '[' ∉ key := by rcases hcases with ⟨rfl, -⟩ | ⟨rfl, -⟩ | ⟨rfl, -⟩ <;> decide
  simp only [sudokuInputs, List.mem_cons, Prod.mk.injEq, List.not_mem_nil, or_false] at hk
  have hkk : '[' ∉ "main.".toList ++ k := by rcases hk with ⟨rfl, -⟩ | ⟨rfl, -⟩ <;> decide
  obtain ⟨he, hp⟩ := C38_names_unique hkk hmain hn
  refine ⟨by rcases hk with ⟨-, h⟩ | ⟨-, h⟩ <;> exact h, i, ?_, hp, ?_⟩
  · rcases hcases with ⟨-, rfl, hl⟩ | ⟨-, rfl, hl⟩ | ⟨rfl, hi, hl⟩
    · omega
    · omega
    · exfalso
      rcases hk with ⟨rfl, -⟩ | ⟨rfl, -⟩ <;> exact absurd he (by decide +kernel)
  · rcases hcases with ⟨rfl, rfl, hl⟩ | ⟨rfl, rfl, hl⟩ | ⟨rfl, hi, hl⟩
    · rcases hk with ⟨rfl, -⟩ | ⟨rfl, -⟩
      · have : puzzleSig (l - 1) = l := by unfold puzzleSig; omega
        rw [this]
        exact Or.inl ⟨rfl, h3, hw⟩
      · exact absurd he (by decide +kernel)
    · rcases hk with ⟨rfl, -⟩ | ⟨rfl, -⟩
      · exact absurd he (by decide +kernel)
      · have : solutionSig (l - 82) = l := by unfold solutionSig; omega
        rw [this]
        exact Or.inr ⟨rfl, h3, hw⟩
    · exfalso
      rcases hk with ⟨rfl, -⟩ | ⟨rfl, -⟩ <;> exact absurd he (by decide +kernel)

theorem sudoku_calcWitness (s : List Nat) :
    calcWitness (sudokuWasm.exports s) = (sudokuWitness (gridAt s 0) (gridAt s 81)).map fun v => v.val := by
  have hlen := sudokuWitness_length (gridAt s 0) (gridAt s 81)
  have hm := modulus_lt
  change (List.range 202).map (fun i => fromArray32 (((List.range 8).map fun j =>
    toU32 (limb (((sudokuWitness (gridAt s 0) (gridAt s 81)).getD i 0).val) j)).reverse)) = _
  refine List.ext_getElem (by simp [hlen]) fun i h1 h2 => ?_
  simp only [List.getElem_map, List.getElem_range]
  rw [from_limb _ (lt_trans (ZMod.val_lt _) hm), List.getD_eq_getElem?_getD, List.getElem?_eq_getElem (by simpa using h2)]
  rfl

theorem sudoku_witnessOf (s : List Nat) : witnessOf sudokuWasm s = sudokuWitness (gridAt s 0) (gridAt s 81) := by
  rw [witnessOf, sudoku_calcWitness, List.map_map]
  conv_rhs => rw [← List.map_id (sudokuWitness (gridAt s 0) (gridAt s 81))]
  refine List.map_congr_left fun v _ => ?_
  simp only [Function.comp, id]
  rw [ZMod.natCast_val, ZMod.cast_id]

theorem witness_label (p g : Grid Fr) {l : Nat} (hl : l ∈ sudokuLabels) : (sudokuWitness p g)[sudokuLabels.idxOf l]? = some (signalValue p g l) := by
  unfold sudokuWitness
  rw [List.getElem?_map, List.getElem?_eq_getElem (List.idxOf_lt_length_of_mem hl), List.getElem_idxOf]
  rfl

/-- It belongs to the committed files. -/
theorem sudoku_compiled : Compiled sudokuWasm sudokuR1cs (jsParseSymFile sudokuSym) sudokuInputs where
  n32 := rfl
  prime := sudokuWasm_prime
  size := rfl
  names := by
    intro k dims path w hk hs
    obtain ⟨rfl, i, hi, rfl, -⟩ := sudoku_name hk hs
    exact ⟨hi, trivial⟩
  run := by
    intro sanity s0 L t h0 hper hl
    cases h0
    have hl' : 162 ≤ L.length := by
      have : (162 : Int) ≤ (L.length : Int) := hl
      omega
    obtain ⟨e1, e2, e3, e4⟩ := (sudoku_perform L [] t (by simp)).1 hper
    have hL : L.length = 162 := by
      have := e3 (by rintro rfl; simp at hl')
      simp at this
      omega
    rw [List.nil_append] at e1
    have hsum := e2 (by rw [e1]; simpa using hL)
    refine ⟨?_, ?_, ?_⟩
    · rw [sudoku_calcWitness]
      intro v hv
      obtain ⟨a, -, rfl⟩ := List.mem_map.1 hv
      exact ZMod.val_lt a
    · rw [sudoku_witnessOf]
      exact (C75_accepts_iff _).2 ⟨_, _, rfl, hsum⟩
    · intro k dims path w u hk hs hu hh hidx
      obtain ⟨rfl, i, hi, rfl, hcase⟩ := sudoku_name hk hs
      simp only [rowMajor, List.prod_nil, mul_one, add_zero] at hidx
      obtain ⟨n, hn⟩ := List.getElem?_of_mem hu
      obtain ⟨f1, f2⟩ := e4 n u hn
      simp only [List.length_nil, Nat.zero_add] at f1 f2
      have hn162 : n < 162 := by
        have := (List.getElem?_eq_some_iff.1 hn).1
        omega
      have hval : t.getD n 0 = arrives u.value := by
        rw [e1, List.getD_eq_getElem?_getD, List.getElem?_map, hn]
        rfl
      have hcast : ((arrives u.value : Nat) : Fr) = (u.value : Fr) := (emod_lt u.value).2
      rw [sudoku_witnessOf]
      rcases hcase with ⟨rfl, hm, rfl⟩ | ⟨rfl, hm, rfl⟩
      · have hlt : n < 81 := by
          by_contra hge
          rw [hh] at f1
          unfold sudokuKey at f1
          rw [if_neg hge] at f1
          exact key_hash f1
        rw [witness_label _ _ hm, signalValue_puzzle _ _ _ hi, gridAt_cell _ _ _ hi, show 0 + i = n by omega, hval, hcast]
      · have hge : 81 ≤ n := by
          by_contra hlt
          rw [hh] at f1
          unfold sudokuKey at f1
          rw [if_pos (by omega)] at f1
          exact key_hash f1.symm
        rw [witness_label _ _ hm, signalValue_solution _ _ _ hi, gridAt_cell _ _ _ hi, show 81 + i = n by omega, hval, hcast]

theorem settings_get (k : Str) (g : Grid Nat) (i : Nat) (hi : i < 81) :
    (keySettings k g.ints)[i]? = some ⟨nameHash k, i, g.cell i⟩ := by
  unfold keySettings Grid.ints
  rw [List.getElem?_map, List.getElem?_zipIdx, List.getElem?_map, List.getElem?_range hi]
  simp

theorem settings_length (k : Str) (g : Grid Nat) : (keySettings k g.ints).length = 81 := by simp [keySettings, Grid.ints]

theorem sudoku_program : SudokuProgram sudokuWasm where
  compiled := sudoku_compiled
  sizes := by
    intro k dims hk
    simp only [sudokuWasm]
    rw [Nat.div_add_mod', if_pos]
    simp only [sudokuInputs, List.mem_cons, Prod.mk.injEq, List.not_mem_nil, or_false] at hk
    rcases hk with ⟨rfl, -⟩ | ⟨rfl, -⟩
    · exact Or.inl rfl
    · exact Or.inr rfl
  inputs := rfl
  starts := ⟨[], rfl⟩
  checks := by
    intro s0 p g h0
    cases h0
    set L := keySettings "puzzle".toList p.ints ++ keySettings "solution".toList g.ints with hL
    have hlen : L.length = 162 := by rw [hL, List.length_append, settings_length, settings_length]
    have hget1 : ∀ i, i < 81 → L[i]? = some ⟨nameHash "puzzle".toList, i, p.cell i⟩ := by
      intro i hi
      rw [hL, List.getElem?_append_left (by rw [settings_length]; exact hi), settings_get _ _ _ hi]
    have hget2 : ∀ i, i < 81 → L[81 + i]? = some ⟨nameHash "solution".toList, i, g.cell i⟩ := by
      intro i hi
      rw [hL, List.getElem?_append_right (by rw [settings_length]; omega), settings_length, Nat.add_sub_cancel_left, settings_get _ _ _ hi]
    have hgrid : ∀ t : List Nat, t = L.map (fun u => arrives u.value) → gridAt t 0 = p.toFr ∧ gridAt t 81 = g.toFr := by
      rintro t rfl
      constructor
      · refine grid_ext fun i hi => ?_
        rw [gridAt_cell _ _ _ hi, Nat.zero_add, List.getD_eq_getElem?_getD, List.getElem?_map, hget1 i hi]
        have := (emod_lt (p.cell i : Int)).2
        simpa [arrives, Grid.toFr, Grid.cell] using this
      · refine grid_ext fun i hi => ?_
        rw [gridAt_cell _ _ _ hi, List.getD_eq_getElem?_getD, List.getElem?_map, hget2 i hi]
        have := (emod_lt (g.cell i : Int)).2
        simpa [arrives, Grid.toFr, Grid.cell] using this
    have horder : ∀ (k : Nat) u, L[k]? = some u → u.hash = nameHash (sudokuKey k) ∧ u.index = k % 81 := by
      intro k u hk
      have hk162 : k < 162 := by
        have := (List.getElem?_eq_some_iff.1 hk).1
        omega
      by_cases hk81 : k < 81
      · rw [hget1 k hk81] at hk
        cases hk
        exact ⟨by unfold sudokuKey; rw [if_pos hk81], by simp only; omega⟩
      · obtain ⟨i, rfl⟩ : ∃ i, k = 81 + i := ⟨k - 81, by omega⟩
        rw [hget2 i (by omega)] at hk
        cases hk
        exact ⟨by unfold sudokuKey; rw [if_neg hk81], by simp only; omega⟩
    constructor
    · rintro ⟨t, ht⟩
      obtain ⟨e1, e2, -, -⟩ := (sudoku_perform L [] t (by simp)).1 ht
      rw [List.nil_append] at e1
      obtain ⟨g1, g2⟩ := hgrid t e1
      rw [← g1, ← g2]
      exact e2 (by rw [e1]; simpa using hlen)
    · intro hs
      refine ⟨L.map fun u => arrives u.value, (sudoku_perform L [] _ (by simp)).2 ⟨by simp, fun _ => ?_, fun _ => by simp [hlen], ?_⟩⟩
      · obtain ⟨g1, g2⟩ := hgrid _ rfl
        rw [g1, g2]
        exact hs
      · simpa using horder

/-- A site that serves the circuit. -/
def sudokuEnv : PlayEnv := ⟨⟨sudokuBytes, [1]⟩, fun _ => none, fun _ => []⟩

noncomputable def sudokuInst : Bytes → Res (CircuitWasm (List Nat)) := fun _ => .ok sudokuWasm

theorem sudoku_site : SudokuSite sudokuInst sudokuEnv sudokuWasm := ⟨rfl, rfl, sudoku_program⟩

/-- A visit: the page is opened, a ciphertext for the puzzle of the repository's tests is uploaded, its solution is typed, and the message appears. -/
theorem sudoku_visit : ∃ combined, PuzzleCiphertext S repoPuzzle [104, 105] combined ∧
    ∃ typed, typedGrid repoPuzzle typed = repoSolution ∧
      ∃ t, (Play.after smallNums S sudokuInst sudokuEnv (([.circuitsLoaded true] ++ .ciphertextFile combined :: typed.map fun e => .typeSolution e.1 e.2) ++
        [.clickDecrypt, .finish 0 true ρ nonce])).shown = some t ∧ TextFor S [104, 105] t := by
  have hp := C76_who_decrypts.2.1
  obtain ⟨combined, hc⟩ := puzzle_encrypts S_json hp [104, 105] ρ delta_ne nonce rfl (by change 2 ≤ 2 ^ 36; norm_num)
  obtain ⟨⟨typed, ht⟩, hall⟩ := C82_solution_shows smallNums S sudokuInst sudokuEnv S_json (by change 51696 ≤ 2 ^ 62; norm_num) repoPuzzle hp [104, 105]
    combined hc (by change 2 ≤ 2 ^ 36; norm_num) sudokuWasm sudoku_site [.circuitsLoaded true] rfl rfl (by simp [Play.after, Play.step]) repoSolution
    repoSolution_solved.1 repoSolution_solved.2 ρ nonce
  exact ⟨combined, hc, typed, ht, hall typed ht⟩

/-- A site with a solver that knows this puzzle. -/
def solverEnv : PlayEnv := ⟨⟨sudokuBytes, [1]⟩, fun _ => some repoSolution.array, fun _ => []⟩

theorem solver_solves : Solves solverEnv repoPuzzle.array repoSolution.array := by
  refine ⟨_, (asked_iff _ _).2 rfl, rfl, fun h => ?_⟩
  obtain ⟨i, -, hi⟩ := List.mem_map.1 h
  injection hi with hi
  omega

/-- C86: the same visit with the "Auto Solve Puzzle" button; with the site above, whose solver finds nothing, an error. -/
theorem solver_visit : ∃ combined, PuzzleCiphertext S repoPuzzle [104, 105] combined ∧
    (∃ t, (Play.after smallNums S sudokuInst solverEnv ([.circuitsLoaded true] ++ [.ciphertextFile combined, .clickSolve, .clickDecrypt, .finish 0 true ρ nonce])).shown
      = some t ∧ TextFor S [104, 105] t) ∧
    (Play.after smallNums S sudokuInst sudokuEnv ([.circuitsLoaded true] ++ [.ciphertextFile combined, .clickSolve, .clickDecrypt])).error = true := by
  have hp := C76_who_decrypts.2.1
  obtain ⟨combined, hc⟩ := puzzle_encrypts S_json hp [104, 105] ρ delta_ne nonce rfl (by change 2 ≤ 2 ^ 36; norm_num)
  obtain ⟨h1, -⟩ := C86_auto_solve smallNums S sudokuInst solverEnv S_json (by change 51696 ≤ 2 ^ 62; norm_num) repoPuzzle hp [104, 105]
    combined hc (by change 2 ≤ 2 ^ 36; norm_num) sudokuWasm ⟨rfl, rfl, sudoku_program⟩ [.circuitsLoaded true] rfl rfl (by simp [Play.after, Play.step]) ρ nonce
  obtain ⟨-, h2⟩ := C86_auto_solve smallNums S sudokuInst sudokuEnv S_json (by change 51696 ≤ 2 ^ 62; norm_num) repoPuzzle hp [104, 105]
    combined hc (by change 2 ≤ 2 ^ 36; norm_num) sudokuWasm sudoku_site [.circuitsLoaded true] rfl rfl (by simp [Play.after, Play.step]) ρ nonce
  refine ⟨combined, hc, (h1 repoSolution solver_solves repoSolution_solved.1 repoSolution_solved.2).1, (h2 ?_).1⟩
  rintro ⟨a, q, -, h3, -⟩
  cases h3

end Ex

end Zkenc.Props
