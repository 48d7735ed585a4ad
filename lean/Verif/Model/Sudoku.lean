import Verif.Basic.FrPrime
import Verif.Model.R1csTypes
/-!
# The Sudoku circuit template — `packages/zkenc-cli/tests/circuits/sudoku.circom`

The template as the list of constraints it writes down, one per `<==`/`===` statement, in program order, over the labels that `sudoku.sym` gives
to its signals. Simplification: a circom `var` that collects signals is a linear combination.
-/

namespace Zkenc

/-- A linear combination with integer coefficients: (signal or wire, coefficient). -/
abbrev IntLc := List (Nat × Int)

/-- A constraint `a · b = c`. -/
structure IntCstr where
  a : IntLc
  b : IntLc
  c : IntLc
  deriving DecidableEq

/-- `signal input puzzle[81]` (sudoku.circom 9): label of `puzzle[i]` in the symbol file (label 0 is the constant one). -/
def puzzleSig (i : Nat) : Nat := 1 + i
/-- `signal input solution[81]` (sudoku.circom 10). -/
def solutionSig (i : Nat) : Nat := 82 + i
/-- `signal solutionSquared[81]` (sudoku.circom 13). -/
def squaredSig (i : Nat) : Nat := 163 + i

/-- `for i < 81: solutionSquared[i] <== solution[i] * solution[i]` (sudoku.circom 14-16). -/
def sudokuSquares : List IntCstr :=
  (List.range 81).map fun i => ⟨[(solutionSig i, 1)], [(solutionSig i, 1)], [(squaredSig i, 1)]⟩

/-- `for i < 81: puzzle[i] * (puzzle[i] - solution[i]) === 0` (sudoku.circom 19-25). -/
def sudokuGivens : List IntCstr :=
  (List.range 81).map fun i => ⟨[(puzzleSig i, 1)], [(puzzleSig i, 1), (solutionSig i, -1)], []⟩

/-- `sum === n` for a `sum` collected from signals. -/
def sumIs (sum : List Nat) (n : Int) : IntCstr := ⟨sum.map fun s => (s, 1), [(0, 1)], [(0, n)]⟩

/-- `sum === 45; sumSquares === 285` for the cells of a row, column or box (sudoku.circom 37-39, 51-52, 68-69). -/
def unitSums (cells : List Nat) : List IntCstr := [sumIs (cells.map solutionSig) 45, sumIs (cells.map squaredSig) 285]

/-- The rows (sudoku.circom 28-40). -/
def sudokuRows : List IntCstr := (List.range 9).flatMap fun row => unitSums ((List.range 9).map fun col => row * 9 + col)

/-- The columns (sudoku.circom 43-53). -/
def sudokuCols : List IntCstr := (List.range 9).flatMap fun col => unitSums ((List.range 9).map fun row => row * 9 + col)

/-- The boxes (sudoku.circom 56-71). -/
def sudokuBoxes : List IntCstr :=
  (List.range 3).flatMap fun boxRow => (List.range 3).flatMap fun boxCol =>
    unitSums ((List.range 3).flatMap fun i => (List.range 3).map fun j => (boxRow * 3 + i) * 9 + (boxCol * 3 + j))

/-- `template Sudoku()` (sudoku.circom 8-72). -/
def sudokuTemplate : List IntCstr := sudokuSquares ++ sudokuGivens ++ sudokuRows ++ sudokuCols ++ sudokuBoxes

/-- The bytes of a coefficient in an `.r1cs` file: 32 bytes, little-endian, of the residue modulo the group order. -/
def coefBytes (z : Int) : Bytes := leBytes 32 (z % (frModulus : Int)).toNat

/-- A linear combination in a file. -/
def IntLc.factors (l : IntLc) : Factors := l.map fun t => (t.1, coefBytes t.2)

/-- A constraint in a file. -/
def IntCstr.toFile (k : IntCstr) : FileCstr := ⟨IntLc.factors k.a, IntLc.factors k.b, IntLc.factors k.c⟩

end Zkenc
