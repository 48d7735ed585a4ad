import Verif.Props.SudokuFiles
open Zkenc Zkenc.SudokuSpec
def main : IO Unit := do
  let d := "/repo/packages/zkenc-cli/tests/r1cs/"
  let b ← IO.FS.readBinFile (d ++ "sudoku.r1cs")
  IO.println s!"r1cs {b.toList.map (fun x => x.toNat) == sudokuBytes.map (fun x => x.toNat)}"
  let t ← IO.FS.readFile (d ++ "sudoku.sym")
  IO.println s!"sym {t.toList == sudokuSym}"
#eval main
