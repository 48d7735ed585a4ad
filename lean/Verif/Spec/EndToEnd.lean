import Verif.Model.Commands
import Verif.Spec.Inputs
import Verif.Spec.Tool
/-!
# Specification vocabulary for the end-to-end theorems
-/

namespace Zkenc.Spec

open Zkenc Zkenc.InputSpec

/-- The circuit has wire 0, its public outputs and its public inputs among its wires, and their number is a `u32`. -/
structure WellFormed (r : R1csFile) : Prop where
  public_le : r.nPubOut + r.nPubIn + 1 ≤ r.nWires
  wires_lt : r.nWires < 2 ^ 32

/-- The size of the witness ciphertext, at most `456 + 160 · (number of public wires)` bytes, fits the 32-bit length field (satisfied up to 26
million public wires). -/
def CtFits (r : R1csFile) : Prop := 456 + 160 * (r.nPubOut + r.nPubIn) < 2 ^ 32

/-- `vals` is a full satisfying assignment of the circuit: one value per wire, the first is one. -/
structure Witness (r : R1csFile) (vals : List Fr) : Prop where
  len : vals.length = r.nWires
  one : vals[0]? = some 1
  sat : Satisfies r.constraints fun i => vals.getD i 0

section
variable {G1 G2 GT : Type} [AddCommGroup G1] [Module Fr G1] [AddCommGroup G2] [Module Fr G2] [AddCommGroup GT] [Module Fr GT]

/-- What the three files given to `zkenc encap`/`zkenc encrypt` contain: a circuit, a symbol table and an input object. -/
structure CliFiles (S : Sys G1 G2 GT) (fs : FS) (circuit sym input : Path) (r : R1csFile) (symtab : AMap Nat)
    (entries : List (Str × Json)) : Prop where
  circuit : ∃ data, fs circuit = some data ∧ cliParseR1cs S.lim data = .ok r
  sym : ∃ b s, fs sym = some b ∧ utf8Dec b = some s ∧ parseSymFile s.toList = .ok symtab
  input : ∃ b s, fs input = some b ∧ utf8Dec b = some s ∧ S.serdeParse s.toList = some (.obj entries)

/-- The file is a witness file with the values `vals`, as the CLI reads it. -/
def CliWitness (wdata : Bytes) (vals : List Fr) : Prop := ∃ wf, cliParseWtns wdata = .ok wf ∧ wf.toFieldElements = .ok vals

end

/-- The witness has the values that the input object gives to public signals (CLI: signals on wires up to `n`). -/
def CliAgrees (symtab : AMap Nat) (n : Nat) (entries : List (Str × Json)) (vals : List Fr) : Prop :=
  ∀ name i x, Resolves symtab (some n) name i → Gives entries name x → vals[i]? = some x

/-- The witness has the values that the input object gives to public signals (JS: signals on wires up to `n`); a value counts as the integer
in its text, modulo `2^256`. -/
def JsAgrees (symtab : AMap Nat) (n : Nat) (inputs : List (Str × JsVal)) (vals : List Fr) : Prop :=
  ∀ name i v s z, Resolves symtab none name i → i ≤ n → JsGives inputs name v → v.toStr = .ok s → jsBigInt s = some z →
    vals[i]? = some (((z % 2 ^ 256).toNat : Nat) : Fr)

/-- The values of the object can be used by JS `encap`: no value with a wire is null or undefined, and the values for the unbroken run of wires
1, 2, 3, … that are given values are texts of integers. -/
structure JsUsable (symtab : AMap Nat) (inputs : List (Str × JsVal)) : Prop where
  not_null : ∀ name v i, Resolves symtab none name i → JsGives inputs name v → v ≠ .null ∧ v ≠ .undef
  integer : ∀ i, 1 ≤ i → (∀ j, 1 ≤ j → j ≤ i → JsSupplies symtab inputs j) →
    ∀ name v s, Resolves symtab none name i → JsGives inputs name v → v.toStr = .ok s → ∃ z, jsBigInt s = some z

/-- The attack: decrypt a combined ciphertext with public operations only; no circuit, no witness. -/
def openWithoutWitness {G1 G2 GT : Type} [AddCommGroup G1] [Module Fr G1] [AddCommGroup G2] [Module Fr G2] [AddCommGroup GT]
    [Module Fr GT] (S : Sys G1 G2 GT) (combined : Bytes) : Res Bytes :=
  splitCli combined >>= fun p =>
  Res.ofOption (decCiphertext S.c1 S.c2 p.witnessCt) "" >>= fun ct =>
  decryptGcm S.cipher .cli (recoverKey S.P ct).bytes p.encrypted

end Zkenc.Spec
