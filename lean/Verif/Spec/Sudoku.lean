import Verif.Model.Serialize
import Mathlib.Algebra.BigOperators.Fin
/-!
# Specification: Sudoku

Nothing here refers to the circuit.
-/

namespace Zkenc.SudokuSpec

open Zkenc

/-- A 9 × 9 grid: row, column. -/
abbrev Grid (α : Type) := Fin 9 → Fin 9 → α

/-- Row of the `k`-th cell of box `b` (boxes and cells counted left to right, top to bottom). -/
def boxRow (b k : Fin 9) : Fin 9 := ⟨3 * (b / 3) + k / 3, by omega⟩
/-- Column of the `k`-th cell of box `b`. -/
def boxCol (b k : Fin 9) : Fin 9 := ⟨3 * (b % 3) + k % 3, by omega⟩

/-- The rules of Sudoku: every row, every column and every box contains every digit from 1 to 9 exactly once. -/
structure Solved (g : Grid Nat) : Prop where
  row : ∀ r d, 1 ≤ d → d ≤ 9 → ∃! c, g r c = d
  col : ∀ c d, 1 ≤ d → d ≤ 9 → ∃! r, g r c = d
  box : ∀ b d, 1 ≤ d → d ≤ 9 → ∃! k, g (boxRow b k) (boxCol b k) = d

/-- The grid has the digits that the puzzle prints (0 is an empty cell). -/
def Fills (puzzle g : Grid Nat) : Prop := ∀ r c, puzzle r c ≠ 0 → g r c = puzzle r c

/-- A grid of numbers as field elements. -/
def Grid.toFr (g : Grid Nat) : Grid Fr := fun r c => (g r c : Fr)

/-- What the circuit checks instead of the rules: cells with a non-zero puzzle value carry it, and every row, column and box has the sum
`1 + … + 9 = 45` and the sum of squares `1² + … + 9² = 285`, in the field. -/
structure SumsOk (puzzle g : Grid Fr) : Prop where
  given : ∀ r c, puzzle r c ≠ 0 → g r c = puzzle r c
  row : ∀ r, ∑ c, g r c = 45 ∧ ∑ c, g r c ^ 2 = 285
  col : ∀ c, ∑ r, g r c = 45 ∧ ∑ r, g r c ^ 2 = 285
  box : ∀ b, ∑ k, g (boxRow b k) (boxCol b k) = 45 ∧ ∑ k, g (boxRow b k) (boxCol b k) ^ 2 = 285

/-- Row-major reading. -/
def Grid.cell {α : Type} (g : Grid α) (i : Nat) : α := g ⟨i / 9 % 9, by omega⟩ ⟨i % 9, by omega⟩

end Zkenc.SudokuSpec
