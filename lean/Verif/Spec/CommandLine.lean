import Verif.Model.Commands
/-!
# Specification: command lines of `zkenc`

A command line is the name of a command followed by settings in any order, each required option once, optionally followed by `--`.
-/

namespace Zkenc.CmdSpec

open Zkenc

/-- The letter that stands for an option of a command. `encap` and `decap` have no letter for `--ciphertext`: `-c` is `--circuit`. -/
inductive Letter : String → String → Char → Prop
  | encapCircuit : Letter "encap" "circuit" 'c'
  | encapSym : Letter "encap" "sym" 's'
  | encapInput : Letter "encap" "input" 'i'
  | encapKey : Letter "encap" "key" 'k'
  | decapCircuit : Letter "decap" "circuit" 'c'
  | decapWitness : Letter "decap" "witness" 'w'
  | decapKey : Letter "decap" "key" 'k'
  | encryptCircuit : Letter "encrypt" "circuit" 'c'
  | encryptSym : Letter "encrypt" "sym" 's'
  | encryptInput : Letter "encrypt" "input" 'i'
  | encryptMessage : Letter "encrypt" "message" 'm'
  | encryptOutput : Letter "encrypt" "output" 'o'
  | decryptCircuit : Letter "decrypt" "circuit" 'c'
  | decryptWitness : Letter "decrypt" "witness" 'w'
  | decryptCiphertext : Letter "decrypt" "ciphertext" 'i'
  | decryptOutput : Letter "decrypt" "output" 'o'

/-- A text that can be given as a separate argument after its option: it is `-` or does not start with `-`. -/
def Plain (v : Str) : Prop := v = ['-'] ∨ v.head? ≠ some '-'

/-- The arguments `toks` set the option `name` of the command `cmd` to `v` (`none` for a switch). -/
inductive Sets (cmd : String) : (toks : List Str) → (name : String) → (v : Option Str) → Prop
  /-- `--name v` -/
  | long {name v} : Plain v → Sets cmd ["--".toList ++ name.toList, v] name (some v)
  /-- `--name=v` -/
  | longEq {name v} : Sets cmd ["--".toList ++ name.toList ++ '=' :: v] name (some v)
  /-- `-x v` -/
  | short {name x v} : Letter cmd name x → Plain v → Sets cmd [['-', x], v] name (some v)
  /-- `-x=v` -/
  | shortEq {name x v} : Letter cmd name x → Sets cmd ['-' :: x :: '=' :: v] name (some v)
  /-- `-xv` -/
  | attached {name x v} : Letter cmd name x → v ≠ [] → v.head? ≠ some '=' → Sets cmd ['-' :: x :: v] name (some v)
  /-- `--no-public-input` -/
  | switch {name} : Sets cmd ["--".toList ++ name.toList] name none

/-- The name of the command, and its settings. -/
def settings : Args → String × List (String × Option Str)
  | .encap c s i ct k => ("encap", [("circuit", some c), ("sym", some s), ("input", some i), ("ciphertext", some ct), ("key", some k)])
  | .decap c w ct k => ("decap", [("circuit", some c), ("witness", some w), ("ciphertext", some ct), ("key", some k)])
  | .encrypt c s i m o np => ("encrypt", [("circuit", some c), ("sym", some s), ("input", some i), ("message", some m), ("output", some o)] ++
      if np then [("no-public-input", none)] else [])
  | .decrypt c w ct o => ("decrypt", [("circuit", some c), ("witness", some w), ("ciphertext", some ct), ("output", some o)])

/-- The arguments `argv` (after the program name) ask for `a`. -/
def Asks (argv : List Str) (a : Args) : Prop :=
  ∃ items : List (List Str × (String × Option Str)),
    (∀ it ∈ items, Sets (settings a).1 it.1 it.2.1 it.2.2) ∧ (items.map Prod.snd).Perm (settings a).2 ∧
    ∃ tail, (tail = [] ∨ tail = ["--".toList]) ∧ argv = (settings a).1.toList :: ((items.map Prod.fst).flatten ++ tail)

end Zkenc.CmdSpec
