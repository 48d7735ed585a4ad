import Verif.Model.Api
/-!
# CLI commands — `packages/zkenc-cli/src/commands.rs` 23-404, `main.rs` 95-138

Commands are programs over a file system. Their runs, including I/O errors and crashes at every point, are given by `Run`.
-/

namespace Zkenc

/-- A path. Simplification: two paths name the same file iff they are equal (no links, no `./`). -/
abbrev Path := Str

/-- Contents of all files. -/
abbrev FS := Path → Option Bytes

/-- File `p` gets the contents `b`. -/
def FS.set (fs : FS) (p : Path) (b : Bytes) : FS := fun q => if q = p then some b else fs q

/-- A command: reads and writes of whole files in program order, and a final result. -/
inductive Cmd where
  | done (r : Res Unit)
  | read (p : Path) (k : Option Bytes → Cmd)
  | write (p : Path) (b : Bytes) (k : Bool → Cmd)

/-- Run without I/O errors and crashes: final file system and result. -/
def Cmd.exec : Cmd → FS → FS × Res Unit
  | .done r, fs => (fs, r)
  | .read p k, fs => (k (fs p)).exec fs
  | .write p b k, fs => (k true).exec (fs.set p b)

/-- All runs of a command: start and end file system, and the result (`none`: the process was killed, lost its terminal, or the machine
stopped). A read can fail although the file exists. `fs::write` truncates or creates the file and then appends: it can fail before doing
anything, or after any number of bytes; the process can also stop there. No other process touches the files. -/
inductive Run : Cmd → FS → FS → Option (Res Unit) → Prop
  | done (r : Res Unit) (fs : FS) : Run (.done r) fs fs (some r)
  | crash (c : Cmd) (fs : FS) : Run c fs fs none
  | read {p k fs fs' o} : Run (k (fs p)) fs fs' o → Run (.read p k) fs fs' o
  | readError {p k fs fs' o} : Run (k none) fs fs' o → Run (.read p k) fs fs' o
  | write {p b k fs fs' o} : Run (k true) (fs.set p b) fs' o → Run (.write p b k) fs fs' o
  | writeError {p b k fs fs' o} : Run (k false) fs fs' o → Run (.write p b k) fs fs' o
  | writePartial {p b k fs fs' o} (n : Nat) : Run (k false) (fs.set p (b.take n)) fs' o → Run (.write p b k) fs fs' o
  | writeCrash {p b k fs} (n : Nat) : Run (.write p b k) fs (fs.set p (b.take n)) none

/-- `?` on a `Result`. -/
def Cmd.lift {α : Type} (r : Res α) (k : α → Cmd) : Cmd :=
  match r with
  | .ok a => k a
  | .error e => .done (.error e)

/-- `fs::read(p).context(msg)?` or opening and reading a file. -/
def Cmd.readFile (p : Path) (msg : String) (k : Bytes → Cmd) : Cmd :=
  .read p fun o => match o with
    | some b => k b
    | none => .done (Res.fail msg)

/-- `fs::read_to_string(p).context(msg)?`: fails on invalid UTF-8. -/
def Cmd.readText (p : Path) (msg : String) (k : Bytes → Str → Cmd) : Cmd :=
  Cmd.readFile p msg fun b => Cmd.lift (Res.ofOption (utf8Dec b) msg) fun s => k b s.toList

/-- `fs::write(p, b).context(msg)?`. -/
def Cmd.writeFile (p : Path) (b : Bytes) (msg : String) (k : Cmd) : Cmd :=
  .write p b fun ok => if ok then k else .done (Res.fail msg)

section
variable {G1 G2 GT : Type} [AddCommGroup G1] [Module Fr G1] [AddCommGroup G2] [Module Fr G2] [AddCommGroup GT] [Module Fr GT]
  (S : Sys G1 G2 GT)

/-- The common part of `encap_command` (commands.rs 31-80) and `encrypt_command` (commands.rs 168-217): from the files to the serialized
ciphertext and the key; `json` is the text of the input file. The circuit file is read twice. -/
def cliEncapPart (circuit sym input : Path) (ρ : Rand Fr) (k : (ct : Bytes) → Key → (json : Bytes) → Cmd) : Cmd :=
  Cmd.readFile circuit "Failed to load R1CS circuit" fun data =>
  Cmd.lift (cliParseR1cs S.lim data) fun r1cs =>
  Cmd.readText sym "Failed to read symbol file" fun _ symText =>
  Cmd.lift (parseSymFile symText) fun wireMap =>
  let sig := inputSignals (S.hash.ord wireMap) (some r1cs.nPubIn)
  Cmd.readText input "Failed to read input JSON file" fun jsonBytes jsonText =>
  Cmd.lift (Res.ofOption (S.serdeParse jsonText) "Failed to parse input JSON" >>= cliInputs) fun inputs =>
  let witness := cliWires sig (S.hash.ord inputs)
  Cmd.readFile circuit "Failed to create circuit" fun data' =>
  Cmd.lift (cliParseR1cs S.lim data') fun r1cs' =>
  Cmd.lift (encap S.P S.dom (cliCircuit r1cs' witness) ρ) fun res =>
  k (encCiphertext S.c1 S.c2 res.1) res.2 jsonBytes

/-- `encap_command` (commands.rs 23-96). -/
def encapCommand (circuit sym input ciphertext key : Path) (ρ : Rand Fr) : Cmd :=
  cliEncapPart S circuit sym input ρ fun ct k _ =>
  Cmd.writeFile ciphertext ct "Failed to write ciphertext file" <|
  Cmd.writeFile key k.bytes "Failed to write key file" (.done (.ok ()))

/-- The common part of `decap_command` (commands.rs 108-141) and `decrypt_command` (commands.rs 359-386); `getCt` reads the ciphertext
after the witness has been converted. The CLI does not compare the number of values with the number of wires. -/
def cliDecapPart (circuit witness : Path) (getCt : (Bytes → Cmd) → Cmd) (k : Key → Cmd) : Cmd :=
  Cmd.readFile circuit "Failed to load R1CS circuit" fun data =>
  Cmd.lift (cliParseR1cs S.lim data) fun _ =>
  Cmd.readFile witness "Failed to load witness file" fun wdata =>
  Cmd.lift (cliParseWtns wdata) fun wf =>
  Cmd.lift wf.toFieldElements fun vals =>
  getCt fun ct =>
  Cmd.lift (Res.ofOption (decCiphertext S.c1 S.c2 ct) "Failed to deserialize ciphertext") fun c =>
  Cmd.readFile circuit "Failed to create circuit" fun data' =>
  Cmd.lift (cliParseR1cs S.lim data') fun r1cs' =>
  Cmd.lift (decap S.P (cliCircuit r1cs' (fullWires vals)) c) k

/-- `decap_command` (commands.rs 99-153). -/
def decapCommand (circuit witness ciphertext key : Path) : Cmd :=
  cliDecapPart S circuit witness (fun k => Cmd.readFile ciphertext "Failed to read ciphertext file" k) fun key' =>
  Cmd.writeFile key key'.bytes "Failed to write key file" (.done (.ok ()))

/-- `encrypt_command` (commands.rs 157-283). The message is read after encapsulation. -/
def encryptCommand (circuit sym input message output : Path) (includePublicInput : Bool) (ρ : Rand Fr) (nonce : Bytes) : Cmd :=
  cliEncapPart S circuit sym input ρ fun ct k json =>
  Cmd.readFile message "Failed to read message file" fun m =>
  Cmd.lift (encryptGcm S.cipher .cli k.bytes nonce m) fun enc =>
  let pub := if includePublicInput then json else []
  Cmd.writeFile output (combine includePublicInput ct pub enc) "Failed to write combined ciphertext" (.done (.ok ()))

/-- `decrypt_command` (commands.rs 287-404). -/
def decryptCommand (circuit witness ciphertext output : Path) : Cmd :=
  Cmd.readFile ciphertext "Failed to read ciphertext file" fun combined =>
  Cmd.lift (splitCli combined) fun p =>
  cliDecapPart S circuit witness (fun k => k p.witnessCt) fun key =>
  Cmd.lift (decryptGcm S.cipher .cli key.bytes p.encrypted) fun m =>
  Cmd.writeFile output m "Failed to write decrypted file" (.done (.ok ()))

/-- The parsed command line (main.rs 20-93). -/
inductive Args where
  | encap (circuit sym input ciphertext key : Path)
  | decap (circuit witness ciphertext key : Path)
  | encrypt (circuit sym input message output : Path) (noPublicInput : Bool)
  | decrypt (circuit witness ciphertext output : Path)

/-- `main` after command line parsing (main.rs 95-138). The parsing itself is in `Model/CommandLine`. -/
def cliMain (ρ : Rand Fr) (nonce : Bytes) : Args → Cmd
  | .encap c s i ct k => encapCommand S c s i ct k ρ
  | .decap c w ct k => decapCommand S c w ct k
  | .encrypt c s i m o noPub => encryptCommand S c s i m o (!noPub) ρ nonce
  | .decrypt c w ct o => decryptCommand S c w ct o

end

end Zkenc
