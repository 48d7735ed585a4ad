import Verif.Basic.Str
/-!
# Symbol files — `packages/zkenc-cli/src/sym_parser.rs` and `packages/zkenc-js/src/sym_parser.ts`
-/

namespace Zkenc

/-! ## CLI -/

/-- `str::parse::<i32>` (sym_parser.rs 34): optional sign, at least one digit, only digits, in range. -/
def parseI32 (s : Str) : Option Int :=
  match s with
  | '-' :: ds => if ds ≠ [] ∧ ds.all isDig ∧ decVal ds ≤ 2 ^ 31 then some (-(decVal ds : Int)) else none
  | '+' :: ds => if ds ≠ [] ∧ ds.all isDig ∧ decVal ds < 2 ^ 31 then some (decVal ds) else none
  | ds => if ds ≠ [] ∧ ds.all isDig ∧ decVal ds < 2 ^ 31 then some (decVal ds) else none

/-- Strip one trailing carriage return. -/
def stripCr (l : Str) : Str := if l.getLast? = some '\r' then l.dropLast else l

/-- `str::lines` (sym_parser.rs 23): split at `\n`, a final empty piece is not a line, one trailing `\r` is removed. -/
def rustLines (s : Str) : List Str :=
  let ls := splitOn '\n' s
  (if ls.getLast? = some [] then ls.dropLast else ls).map stripCr

/-- One iteration of the loop (sym_parser.rs 24-53): nothing, an entry, or an error. -/
def cliSymLine (line : Str) : Res (Option (Str × Nat)) :=
  let line := trim rustWs line
  if line = [] then .ok none else
  match splitOn ',' line with
  | [_, p1, _, p3] =>
    match parseI32 (trim rustWs p1) with
    | none => Res.fail "Failed to parse wire_id"
    | some w => if w < 0 then .ok none else .ok (some (trim rustWs p3, w.toNat))
  | _ => .ok none

/-- The loop (sym_parser.rs 21-54). -/
def cliSymLoop : List Str → AMap Nat → Res (AMap Nat)
  | [], m => .ok m
  | l :: ls, m =>
    match cliSymLine l with
    | .error e => .error e
    | .ok none => cliSymLoop ls m
    | .ok (some (k, w)) => cliSymLoop ls (AMap.insert m k w)

/-- `parse_sym_file` (sym_parser.rs 20-57). -/
def parseSymFile (content : Str) : Res (AMap Nat) := cliSymLoop (rustLines content) []

/-- `"main."` -/
def mainDot : Str := ['m', 'a', 'i', 'n', '.']

/-- `strip_prefix("main.")` / `startsWith("main.")` with `substring(5)`. -/
def stripMain (s : Str) : Option Str := if s.take 5 = mainDot then some (s.drop 5) else none

/-- One iteration of `get_input_signals` (sym_parser.rs 74-86; sym_parser.ts 65-76). -/
def inputSignalStep (max : Option Nat) (m : AMap Nat) (e : Str × Nat) : AMap Nat :=
  if (match max with | some k => decide (k < e.2) | none => false) then m
  else match stripMain e.1 with
    | some s => AMap.insert m s e.2
    | none => m

/-- `get_input_signals` (sym_parser.rs 68-89; sym_parser.ts 59-79) over the map entries in iteration order. -/
def inputSignals (entries : List (Str × Nat)) (max : Option Nat) : AMap Nat := entries.foldl (inputSignalStep max) []

/-! ## JS -/

/-- `parseInt(s, 10)` (sym_parser.ts 37): leading white space, optional sign, longest digit prefix; `none` is `NaN`.
Simplification: the result is exact (JS rounds above 2^53). -/
def parseInt (s : Str) : Option Int :=
  match s.dropWhile jsWs with
  | '-' :: ds => if ds.takeWhile isDig = [] then none else some (-(decVal (ds.takeWhile isDig) : Int))
  | '+' :: ds => if ds.takeWhile isDig = [] then none else some (decVal (ds.takeWhile isDig))
  | ds => if ds.takeWhile isDig = [] then none else some (decVal (ds.takeWhile isDig))

/-- One iteration of the loop (sym_parser.ts 30-46). -/
def jsSymLine (line : Str) : Option (Str × Nat) :=
  match splitOn ',' line with
  | [_, p1, _, p3] =>
    match parseInt p1 with
    | none => none
    | some w => if 0 ≤ w then some (trim jsWs p3, w.toNat) else none
  | _ => none

/-- `parseSymFile` (sym_parser.ts 26-49). -/
def jsParseSymFile (content : Str) : AMap Nat :=
  (splitOn '\n' (trim jsWs content)).foldl (fun m l => match jsSymLine l with
    | some (k, w) => AMap.insert m k w
    | none => m) []

end Zkenc
