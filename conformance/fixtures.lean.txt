import Verif
open Zkenc
def rd (p : System.FilePath) : IO Bytes := do return (← IO.FS.readBinFile p).data.toList
def main : IO Unit := do
  let r ← rd "/repo/packages/zkenc-cli/tests/r1cs/sudoku.r1cs"
  let bin ← rd "/repo/packages/zkenc-core/tests/fixtures/sudoku_circuit.bin"
  match cliParseR1cs (2^63-1) r with
  | .error _ => IO.println "cli r1cs: error"
  | .ok f =>
    IO.println s!"cli r1cs ok wires {f.nWires} pubOut {f.nPubOut} pubIn {f.nPubIn} prv {f.nPrvIn} cons {f.constraints.length}"
    let b := toBincode f.toSerializable
    IO.println s!"bincode prefix of fixture: {decide (b.isPrefixOf bin)} ({b.length} of {bin.length})"
    match fromBincode bin with
    | some c => IO.println s!"fromBincode fixture = export: {decide (c = f.toSerializable)}"
    | none => IO.println "fromBincode: none"
    match jsParseR1cs r with
    | .ok j => IO.println s!"js r1cs agrees: {decide (j = f.toJs)}"
    | .error _ => IO.println "js r1cs: error"
    for w in ["sudoku_sudoku_basic", "sudoku_sudoku_general"] do
      let wb ← rd s!"/repo/packages/zkenc-cli/tests/inputs/{w}.wtns"
      match cliParseWtns wb, jsParseWtns wb with
      | .ok wf, .ok js =>
        match wf.toFieldElements with
        | .ok vals =>
          IO.println s!"{w}: {vals.length} values, js agrees: {decide (js = vals)}"
          let (cs, res) := cliCircuit f (fullWires vals) (CS.new Fr)
          IO.println s!"  synth ok: {match res with | .ok _ => true | _ => false}, satisfied: {cs.isSatisfied}, inst {cs.numInst}, wit {cs.numWit}"
          let vals' := vals.set 100 7
          let (cs, _) := cliCircuit f (fullWires vals') (CS.new Fr)
          IO.println s!"  changed wire satisfied: {cs.isSatisfied}"
        | .error _ => IO.println "toFieldElements error"
      | _, _ => IO.println s!"{w}: error"
    let sym ← IO.FS.readFile "/repo/packages/zkenc-cli/tests/r1cs/sudoku.sym"
    match parseSymFile sym.toList with
    | .ok wm =>
      IO.println s!"cli sym: {wm.length} entries; js agrees: {decide (jsParseSymFile sym.toList = wm)}"
      let sig := inputSignals wm (some f.nPubIn)
      IO.println s!"signals: {sig.length} first {sig.take 3 |>.map (fun e => (String.ofList e.1, e.2))}"
    | .error _ => IO.println "sym error"
#eval main
