import Verif.Model.Commands
/-!
# How a CLI command ends: exit status and error report — `packages/zkenc-cli/src/commands.rs` 23-404, `main.rs` 95-138

`Model/Commands` only says whether a command fails. Here its commands are written once more with the texts that anyhow reports: `main` returns a `Result`, so an error
is printed to stderr as `Error: ` and the text given last by `.context(..)`, `bail!` or `anyhow!` (after it, the texts of the causes, which are not modelled), and
the exit status is 1. A panic ends the process with exit status 101.
-/

namespace Zkenc

/-- `r.context(msg)`: an error is reported under this text. -/
def Res.context {α : Type} (msg : String) : Res α → Res α
  | .error (.err _) => .error (.err msg)
  | r => r

/-- `{:?}` of `zkenc_core::Error` (algorithm.rs 15-26; `SynthesisError(format!("{:?}", e))` at 238). The circuits of the CLI fail with `AssignmentMissing` only
(circuit.rs 81, 88). -/
def coreErrorDebug (m : String) : String := if m = "SynthesisError" then "SynthesisError(\"AssignmentMissing\")" else m

/-- `r.map_err(|e| anyhow::anyhow!("{pre}{:?}", e))` (commands.rs 73-74, 140-141, 209-210, 387-388). -/
def Res.contextDebug {α : Type} (pre : String) : Res α → Res α
  | .error (.err m) => .error (.err (pre ++ coreErrorDebug m))
  | r => r

section
variable {G1 G2 GT : Type} [AddCommGroup G1] [Module Fr G1] [AddCommGroup G2] [Module Fr G2] [AddCommGroup GT] [Module Fr GT]
  (S : Sys G1 G2 GT)

/-- commands.rs 31-81 and 168-216 (as `cliEncapPart`). -/
def cliEncapPartE (circuit sym input : Path) (ρ : Rand Fr) (k : (ct : Bytes) → Key → (json : Bytes) → Cmd) : Cmd :=
  Cmd.readFile circuit "Failed to load R1CS circuit" fun data =>
  Cmd.lift ((cliParseR1cs S.lim data).context "Failed to load R1CS circuit") fun r1cs =>
  Cmd.readText sym "Failed to read symbol file" fun _ symText =>
  Cmd.lift ((parseSymFile symText).context "Failed to parse symbol file") fun wireMap =>
  let sig := inputSignals (S.hash.ord wireMap) (some r1cs.nPubIn)
  Cmd.readText input "Failed to read input JSON file" fun jsonBytes jsonText =>
  Cmd.lift ((Res.ofOption (S.serdeParse jsonText) "Invalid JSON" >>= cliInputs).context "Failed to parse input JSON") fun inputs =>
  let witness := cliWires sig (S.hash.ord inputs)
  Cmd.readFile circuit "Failed to create circuit" fun data' =>
  Cmd.lift ((cliParseR1cs S.lim data').context "Failed to create circuit") fun r1cs' =>
  Cmd.lift ((encap S.P S.dom (cliCircuit r1cs' witness) ρ).contextDebug "Encap failed: ") fun res =>
  k (encCiphertext S.c1 S.c2 res.1) res.2 jsonBytes

/-- `encap_command` (commands.rs 23-96). -/
def encapCommandE (circuit sym input ciphertext key : Path) (ρ : Rand Fr) : Cmd :=
  cliEncapPartE S circuit sym input ρ fun ct k _ =>
  Cmd.writeFile ciphertext ct "Failed to write ciphertext file" <|
  Cmd.writeFile key k.bytes "Failed to write key file" (.done (.ok ()))

/-- commands.rs 106-141 and 360-388 (as `cliDecapPart`); `ctMsg` is the text for a ciphertext that cannot be decoded. -/
def cliDecapPartE (circuit witness : Path) (getCt : (Bytes → Cmd) → Cmd) (ctMsg : String) (k : Key → Cmd) : Cmd :=
  Cmd.readFile circuit "Failed to load R1CS circuit" fun data =>
  Cmd.lift ((cliParseR1cs S.lim data).context "Failed to load R1CS circuit") fun _ =>
  Cmd.readFile witness "Failed to load witness file" fun wdata =>
  Cmd.lift ((cliParseWtns wdata).context "Failed to load witness file") fun wf =>
  Cmd.lift (wf.toFieldElements.context "Failed to convert witness to field elements") fun vals =>
  getCt fun ct =>
  Cmd.lift (Res.ofOption (decCiphertext S.c1 S.c2 ct) ctMsg) fun c =>
  Cmd.readFile circuit "Failed to create circuit" fun data' =>
  Cmd.lift ((cliParseR1cs S.lim data').context "Failed to create circuit") fun r1cs' =>
  Cmd.lift ((decap S.P (cliCircuit r1cs' (fullWires vals)) c).contextDebug "Decap failed: ") k

/-- `decap_command` (commands.rs 99-153). -/
def decapCommandE (circuit witness ciphertext key : Path) : Cmd :=
  cliDecapPartE S circuit witness (fun k => Cmd.readFile ciphertext "Failed to read ciphertext file" k) "Failed to deserialize ciphertext" fun key' =>
  Cmd.writeFile key key'.bytes "Failed to write key file" (.done (.ok ()))

/-- `encrypt_command` (commands.rs 157-283). -/
def encryptCommandE (circuit sym input message output : Path) (includePublicInput : Bool) (ρ : Rand Fr) (nonce : Bytes) : Cmd :=
  cliEncapPartE S circuit sym input ρ fun ct k json =>
  Cmd.readFile message "Failed to read message file" fun m =>
  Cmd.lift ((encryptGcm S.cipher .cli k.bytes nonce m).context "Message encryption failed") fun enc =>
  let pub := if includePublicInput then json else []
  Cmd.writeFile output (combine includePublicInput ct pub enc) "Failed to write combined ciphertext" (.done (.ok ()))

/-- `decrypt_command` (commands.rs 287-404). The container is taken apart with `bail!` texts, without a context. -/
def decryptCommandE (circuit witness ciphertext output : Path) : Cmd :=
  Cmd.readFile ciphertext "Failed to read ciphertext file" fun combined =>
  Cmd.lift (splitCli combined) fun p =>
  cliDecapPartE S circuit witness (fun k => k p.witnessCt) "Failed to deserialize witness ciphertext" fun key =>
  Cmd.lift ((decryptGcm S.cipher .cli key.bytes p.encrypted).context "Message decryption failed") fun m =>
  Cmd.writeFile output m "Failed to write decrypted file" (.done (.ok ()))

/-- `main` after command line parsing (main.rs 95-138). -/
def cliMainE (ρ : Rand Fr) (nonce : Bytes) : Args → Cmd
  | .encap c s i ct k => encapCommandE S c s i ct k ρ
  | .decap c w ct k => decapCommandE S c w ct k
  | .encrypt c s i m o noPub => encryptCommandE S c s i m o (!noPub) ρ nonce
  | .decrypt c w ct o => decryptCommandE S c w ct o

end

/-- How a process ends: its exit status and what follows `Error: ` in the first line of stderr, if that line begins so. -/
structure Ending where
  status : Nat
  report : Option Str
  deriving DecidableEq

/-- What the Rust runtime does with the result of `main` (main.rs 95); `none`: the process does not end. -/
def ending : Res Unit → Option Ending
  | .ok () => some ⟨0, none⟩
  | .error (.err m) => some ⟨1, some m.toList⟩
  | .error .panic => some ⟨101, none⟩
  | .error .hang => none

end Zkenc
