import Verif.Props.SudokuEndToEnd
import Verif.Spec.Compiled
/-!
# Specification: the Sudoku witness program, and ciphertexts for a puzzle
-/

namespace Zkenc.SudokuSpec

open Zkenc Zkenc.Spec Zkenc.InputSpec CalcSpec

/-- The two input signals of the circuit. -/
def sudokuInputs : List (Str × List Nat) := [("puzzle".toList, [81]), ("solution".toList, [81])]

/-- The 81 numbers of a grid, row by row. -/
def Grid.ints (g : Grid Nat) : List Int := (List.range 81).map fun i => (g.cell i : Int)

/-- The JS array of the 81 numbers of a grid. -/
def Grid.array (g : Grid Nat) : List JsVal := (List.range 81).map fun i => .num (g.cell i)

/-- What is expected of the committed witness program `sudoku.wasm` (it is not modelled): it is what circom compiles from `sudoku.circom`, i.e. it belongs
to the committed constraints and names, it has the two input signals with 81 values each, and setting all of them succeeds exactly if the statements of
the template hold. -/
structure SudokuProgram {σ : Type} (x : CircuitWasm σ) : Prop where
  compiled : Compiled x sudokuR1cs (jsParseSymFile sudokuSym) sudokuInputs
  sizes : ∀ k dims, (k, dims) ∈ sudokuInputs → x.signalSize ((nameHash k).toNat / 2 ^ 32) ((nameHash k).toNat % 2 ^ 32) = 81
  inputs : x.inputSize = 162
  starts : ∃ s0, x.init false x.start = .ok s0
  checks : ∀ s0 (p g : Grid Nat), x.init false x.start = .ok s0 →
    ((∃ t, perform x.toCalcInst (keySettings "puzzle".toList p.ints ++ keySettings "solution".toList g.ints) s0 = .ok t) ↔ SumsOk p.toFr g.toFr)

/-- The file is what one of the tools produced when it encrypted the message for the puzzle, in the default mode, with the committed circuit. -/
inductive PuzzleCiphertext {G1 G2 GT : Type} [AddCommGroup G1] [Module Fr G1] [AddCommGroup G2] [Module Fr G2] [AddCommGroup GT] [Module Fr GT]
    (S : Sys G1 G2 GT) (p : Grid Nat) (m : Bytes) : Bytes → Prop
  | js (ρ : Rand Fr) (nonce combined key : Bytes) : nonce.length = 12 →
      jsEncrypt S sudokuBytes sudokuSym (puzzleObject p) m true ρ nonce = .ok (combined, key) → PuzzleCiphertext S p m combined
  | cli (fs fs' : FS) (circuit sym input message output : Path) (ρ : Rand Fr) (nonce combined : Bytes) :
      PuzzleFiles S fs circuit sym input p → (∀ j, fs input = some j → j.length < 2 ^ 32) → fs message = some m → nonce.length = 12 →
      (encryptCommand S circuit sym input message output true ρ nonce).exec fs = (fs', .ok ()) → fs' output = some combined →
      PuzzleCiphertext S p m combined

end Zkenc.SudokuSpec
