import Verif.Model.Inputs
import Verif.Model.Commands
/-!
# Legacy input helpers — `packages/zkenc-cli/src/commands.rs` 408-453 and `circom.rs` 13-60, 128-141
-/

namespace Zkenc

mutual
/-- `flatten_value` of `parse_circuit_inputs` (commands.rs 416-443): push to the result vector. -/
def pushValue : Json → List Fr → Res (List Fr)
  | .int z, acc =>
    match frFromJsonInt z with
    | some v => .ok (acc ++ [v])
    | none => Res.fail "Unsupported number format"
  | .float, _ => Res.fail "Unsupported number format"
  | .str s, acc =>
    match frFromStr s with
    | some v => .ok (acc ++ [v])
    | none => Res.fail "Failed to parse string as field element"
  | .arr l, acc => pushArr l acc
  | .null, _ => Res.fail "Unsupported JSON type"
  | .bool _, _ => Res.fail "Unsupported JSON type"
  | .obj _, _ => Res.fail "Unsupported JSON type"
/-- The loop over array items (commands.rs 437-439). -/
def pushArr : List Json → List Fr → Res (List Fr)
  | [], acc => .ok acc
  | x :: xs, acc =>
    match pushValue x acc with
    | .error e => .error e
    | .ok acc' => pushArr xs acc'
end

/-- The loop over the object entries (commands.rs 448-450). -/
def pushEntries : List (Str × Json) → List Fr → Res (List Fr)
  | [], acc => .ok acc
  | (_, v) :: rest, acc =>
    match pushValue v acc with
    | .error e => .error e
    | .ok acc' => pushEntries rest acc'

/-- `parse_circuit_inputs` after the JSON text is parsed (commands.rs 408-453); object entries in the order of `serde_json::Map`. -/
def parseCircuitInputs : Json → Res (List Fr)
  | .obj l => pushEntries l []
  | _ => Res.fail "JSON must be an object"

mutual
/-- `flatten_value` (circom.rs 128-141). `floatText` is the text of a number that is not a 64-bit integer. -/
def legacyTexts (floatText : Json → Str) : Json → List Str
  | .str s => [s]
  | .int z => if -2 ^ 63 ≤ z ∧ z < 2 ^ 64 then [intDec z] else [floatText (.int z)]
  | .float => [floatText .float]
  | .arr l => legacyTextsArr floatText l
  | .bool b => [if b then ['1'] else ['0']]
  | .null => [['0']]
  | .obj _ => []
/-- `arr.iter().flat_map(flatten_value)` (circom.rs 132). -/
def legacyTextsArr (floatText : Json → Str) : List Json → List Str
  | [] => []
  | x :: xs => legacyTexts floatText x ++ legacyTextsArr floatText xs
end

/-- `parse_inputs` after the JSON text is parsed (circom.rs 49-60). -/
def legacyParseInputs (floatText : Json → Str) : Json → Res (AMap (List Str))
  | .obj l => .ok (l.foldl (fun m e => AMap.insert m e.1 (legacyTexts floatText e.2)) [])
  | _ => Res.fail "Input JSON must be an object"

/-- `load_circom_circuit` (circom.rs 13-36): constraints, public inputs, variables. -/
def loadCircomCircuit (fs : FS) (r1cs wasm : Path) : Res (Nat × Nat × Nat) :=
  Res.ofOption (fs r1cs) "Failed to read R1CS file" >>= fun data =>
  Res.ofOption (fs wasm) "Failed to read WASM file" >>= fun _ =>
  .ok (data.length / 1000, 3, data.length / 1000 * 2)

end Zkenc
