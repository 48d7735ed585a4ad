import Verif.Model.Commands
/-!
# The command line — `packages/zkenc-cli/src/main.rs` 12-95

`Cli::parse()` with the derive attributes of `main.rs`, after clap 4.5 (`Parser::get_matches_with`, `parse_long_arg`, `parse_short_arg`,
`parse_opt_value`, `MKeyMap::get`). Arguments are texts (clap rejects others for `String` options).
-/

namespace Zkenc

/-- An `#[arg(...)]`. -/
structure OptSpec where
  long : Str
  short : Option Char
  /-- a `bool` field: takes no value -/
  flag : Bool
deriving DecidableEq

/-- The field with its default names (`#[arg(short, long)]`: the first letter, the name). -/
def OptSpec.field (name : String) : OptSpec := ⟨name.toList, name.toList.head?, false⟩

/-- The subcommands. -/
inductive Sub where
  | encap | decap | encrypt | decrypt
deriving DecidableEq

/-- `enum Commands` (main.rs 22-93): the fields in order. -/
def Sub.opts : Sub → List OptSpec
  | .encap => [.field "circuit", .field "sym", .field "input", .field "ciphertext", .field "key"]
  | .decap => [.field "circuit", .field "witness", .field "ciphertext", .field "key"]
  | .encrypt => [.field "circuit", .field "sym", .field "input", .field "message", .field "output", ⟨"no-public-input".toList, none, true⟩]
  | .decrypt => [.field "circuit", .field "witness", ⟨"ciphertext".toList, some 'i', false⟩, .field "output"]

/-- Names of the subcommands. -/
def subOf (s : Str) : Option Sub :=
  if s = "encap".toList then some .encap
  else if s = "decap".toList then some .decap
  else if s = "encrypt".toList then some .encrypt
  else if s = "decrypt".toList then some .decrypt
  else none

/-- `--name=value` is split at the first `=`. -/
def splitEq : Str → Str × Option Str
  | [] => ([], none)
  | c :: t => if c = '=' then ([], some t) else ((c :: (splitEq t).1), (splitEq t).2)

/-- Arguments that start with `-`, other than `-` itself, are never taken as the value of the option before. -/
def isDash : Str → Bool
  | '-' :: _ :: _ => true
  | _ => false

/-- `parse_opt_value`: the attached value, or the next argument. -/
def optValue (o : OptSpec) (attached : Option Str) (rest : List Str) : Option ((Str × Option Str) × List Str) :=
  if o.flag then
    match attached with
    | none => some ((o.long, none), rest)
    | some _ => none
  else
    match attached with
    | some v => some ((o.long, some v), rest)
    | none =>
      match rest with
      | [] => none
      | v :: rest' => if isDash v then none else some ((o.long, some v), rest')

/-- One option at the head of the arguments. `none`: a usage error or a request for help (no field is called `help`). -/
def readOption (opts : List OptSpec) (tok : Str) (rest : List Str) : Option ((Str × Option Str) × List Str) :=
  match tok with
  | '-' :: '-' :: body => (opts.find? fun o => o.long = (splitEq body).1).bind fun o => optValue o (splitEq body).2 rest
  | '-' :: c :: body => (opts.find? fun o => o.short = some c).bind fun o =>
      optValue o (match body with | [] => none | '=' :: v => some v | _ => some body) rest
  | _ => none

/-- All options, with the ones seen so far: an option given twice is an error; `--` ends the options and nothing may follow, since there
are no positional arguments. The fuel is the number of arguments. -/
def readOptions (opts : List OptSpec) : Nat → List Str → List (Str × Option Str) → Option (List (Str × Option Str))
  | _, [], acc => some acc
  | 0, _ :: _, _ => none
  | n + 1, tok :: rest, acc =>
    if tok = ['-', '-'] then (if rest = [] then some acc else none)
    else (readOption opts tok rest).bind fun p =>
      if p.1.1 ∈ acc.map Prod.fst then none else readOptions opts n p.2 (acc ++ [p.1])

/-- The value of a required option. -/
def optGet (l : List (Str × Option Str)) (name : String) : Option Str := (l.lookup name.toList).join

/-- The fields; a missing required option is an error. -/
def Sub.build (s : Sub) (l : List (Str × Option Str)) : Option Args :=
  match s with
  | .encap => (optGet l "circuit").bind fun c => (optGet l "sym").bind fun s => (optGet l "input").bind fun i =>
      (optGet l "ciphertext").bind fun ct => (optGet l "key").map fun k => .encap c s i ct k
  | .decap => (optGet l "circuit").bind fun c => (optGet l "witness").bind fun w => (optGet l "ciphertext").bind fun ct =>
      (optGet l "key").map fun k => .decap c w ct k
  | .encrypt => (optGet l "circuit").bind fun c => (optGet l "sym").bind fun s => (optGet l "input").bind fun i =>
      (optGet l "message").bind fun m => (optGet l "output").map fun o =>
      .encrypt c s i m o (decide ("no-public-input".toList ∈ l.map Prod.fst))
  | .decrypt => (optGet l "circuit").bind fun c => (optGet l "witness").bind fun w => (optGet l "ciphertext").bind fun ct =>
      (optGet l "output").map fun o => .decrypt c w ct o

/-- What `Cli::parse()` does. -/
inductive CliParse where
  | run (a : Args)
  /-- usage error or help: the process ends without doing anything -/
  | exit
  /-- a debug assertion of clap fails -/
  | panic

/-- Two fields with the same letter, which builds with debug assertions refuse. -/
def Sub.clash (s : Sub) : Bool := !decide ((s.opts.filterMap OptSpec.short).Nodup)

/-- `Cli::parse()` on the arguments after the program name (main.rs 96). `debug`: built with debug assertions. Simplification: requests for help
and usage errors are not distinguished. -/
def parseCli (debug : Bool) : List Str → CliParse
  | [] => .exit
  | name :: toks =>
    match subOf name with
    | none => .exit
    | some s =>
      if debug && s.clash then .panic else
      match (readOptions s.opts toks.length toks []).bind s.build with
      | some a => .run a
      | none => .exit

section
variable {G1 G2 GT : Type} [AddCommGroup G1] [Module Fr G1] [AddCommGroup G2] [Module Fr G2] [AddCommGroup GT] [Module Fr GT]
  (S : Sys G1 G2 GT)

/-- `main` (main.rs 95-138). -/
def cliProgram (debug : Bool) (ρ : Rand Fr) (nonce : Bytes) (argv : List Str) : Cmd :=
  match parseCli debug argv with
  | .run a => cliMain S ρ nonce a
  | .exit => .done (Res.fail "usage")
  | .panic => .done (.error .panic)

end

end Zkenc
