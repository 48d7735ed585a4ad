import Verif.Model.Commands
/-!
# What the commands print — `packages/zkenc-cli/src/commands.rs` 23-404

The commands of `Model/Commands` once more, now with every `println!`. `Proofs/Printing` shows that without the printing they are the
commands of `Model/Commands`.
-/

namespace Zkenc

/-- A command with its output: prints to standard output, reads and writes whole files in program order, and ends with a result. -/
inductive PCmd where
  | done (r : Res Unit)
  | print (s : Str) (k : PCmd)
  | read (p : Path) (k : Option Bytes → PCmd)
  | write (p : Path) (b : Bytes) (k : Bool → PCmd)

/-- Run without I/O errors and crashes: final file system, printed text and result. -/
def PCmd.exec : PCmd → FS → FS × Str × Res Unit
  | .done r, fs => (fs, [], r)
  | .print s k, fs => ((k.exec fs).1, s ++ (k.exec fs).2.1, (k.exec fs).2.2)
  | .read p k, fs => (k (fs p)).exec fs
  | .write p b k, fs => (k true).exec (fs.set p b)

/-- All runs: as `Run`, with the printed text. `println!` panics if the text cannot be written (a pipe whose reader has gone), after any
part of it. Simplification: a cut does not fall inside the encoding of a character. -/
inductive PRun : PCmd → FS → FS → Str → Option (Res Unit) → Prop
  | done (r : Res Unit) (fs : FS) : PRun (.done r) fs fs [] (some r)
  | crash (c : PCmd) (fs : FS) : PRun c fs fs [] none
  | print {s k fs fs' out o} : PRun k fs fs' out o → PRun (.print s k) fs fs' (s ++ out) o
  | printFails {s k fs} (n : Nat) : PRun (.print s k) fs fs (s.take n) none
  | read {p k fs fs' out o} : PRun (k (fs p)) fs fs' out o → PRun (.read p k) fs fs' out o
  | readError {p k fs fs' out o} : PRun (k none) fs fs' out o → PRun (.read p k) fs fs' out o
  | write {p b k fs fs' out o} : PRun (k true) (fs.set p b) fs' out o → PRun (.write p b k) fs fs' out o
  | writeError {p b k fs fs' out o} : PRun (k false) fs fs' out o → PRun (.write p b k) fs fs' out o
  | writePartial {p b k fs fs' out o} (n : Nat) : PRun (k false) (fs.set p (b.take n)) fs' out o → PRun (.write p b k) fs fs' out o
  | writeCrash {p b k fs} (n : Nat) : PRun (.write p b k) fs (fs.set p (b.take n)) [] none

/-- The command without its printing. -/
def PCmd.silent : PCmd → Cmd
  | .done r => .done r
  | .print _ k => k.silent
  | .read p k => .read p fun o => (k o).silent
  | .write p b k => .write p b fun ok => (k ok).silent

/-- `println!`. -/
def PCmd.println (s : Str) (k : PCmd) : PCmd := .print (s ++ ['\n']) k

/-- `?` on a `Result`. -/
def PCmd.lift {α : Type} (r : Res α) (k : α → PCmd) : PCmd :=
  match r with
  | .ok a => k a
  | .error e => .done (.error e)

/-- `fs::read(p).context(msg)?`. -/
def PCmd.readFile (p : Path) (msg : String) (k : Bytes → PCmd) : PCmd :=
  .read p fun o => match o with
    | some b => k b
    | none => .done (Res.fail msg)

/-- `fs::read_to_string(p).context(msg)?`. -/
def PCmd.readText (p : Path) (msg : String) (k : Bytes → Str → PCmd) : PCmd :=
  PCmd.readFile p msg fun b => PCmd.lift (Res.ofOption (utf8Dec b) msg) fun s => k b s.toList

/-- `fs::write(p, b).context(msg)?`. -/
def PCmd.writeFile (p : Path) (b : Bytes) (msg : String) (k : PCmd) : PCmd :=
  .write p b fun ok => if ok then k else .done (Res.fail msg)

/-- `{}` of an unsigned number. -/
def showNat (n : Nat) : Str := Nat.toDigits 10 n

section
variable {G1 G2 GT : Type} [AddCommGroup G1] [Module Fr G1] [AddCommGroup G2] [Module Fr G2] [AddCommGroup GT] [Module Fr GT]
  (S : Sys G1 G2 GT)

/-- `String::from_utf8_lossy` (commands.rs 347). The replacement of invalid bytes is arbitrary here. -/
def rustLossy (b : Bytes) : Str :=
  match utf8Dec b with
  | some s => s.toList
  | none => S.lossyDecode b

/-- commands.rs 30-50 and, with the same texts, 167-187: load the circuit, the symbol file and the inputs. -/
def pLoad (circuit sym input : Path) (k : R1csFile → (sig : AMap Nat) → (inputs : AMap Fr) → (json : Bytes) → PCmd) : PCmd :=
  .println "📂 Loading R1CS circuit...".toList <|
  PCmd.readFile circuit "Failed to load R1CS circuit" fun data =>
  PCmd.lift (cliParseR1cs S.lim data) fun r1cs =>
  .println ("   - Constraints: ".toList ++ showNat r1cs.nConstraints) <|
  .println ("   - Public inputs: ".toList ++ showNat r1cs.nPubIn) <|
  .println ("   - Wires: ".toList ++ showNat r1cs.nWires) <|
  .println "\n📂 Loading symbol file...".toList <|
  PCmd.readText sym "Failed to read symbol file" fun _ symText =>
  PCmd.lift (parseSymFile symText) fun wireMap =>
  .println "\n📋 Loading public inputs from JSON...".toList <|
  PCmd.readText input "Failed to read input JSON file" fun jsonBytes jsonText =>
  PCmd.lift (Res.ofOption (S.serdeParse jsonText) "Failed to parse input JSON" >>= cliInputs) fun inputs =>
  .println ("   - Parsed ".toList ++ showNat inputs.length ++ " field elements".toList) <|
  k r1cs (inputSignals (S.hash.ord wireMap) (some r1cs.nPubIn)) inputs jsonBytes

/-- `encap_command` (commands.rs 23-96) with its output. -/
def pEncap (circuit sym input ciphertext key : Path) (ρ : Rand Fr) : PCmd :=
  pLoad S circuit sym input fun _ sig inputs _ =>
  .println "\n🔐 Running Encap...".toList <|
  PCmd.readFile circuit "Failed to create circuit" fun data' =>
  PCmd.lift (cliParseR1cs S.lim data') fun r1cs' =>
  PCmd.lift (encap S.P S.dom (cliCircuit r1cs' (cliWires sig (S.hash.ord inputs))) ρ) fun res =>
  .println "\n💾 Saving ciphertext...".toList <|
  PCmd.writeFile ciphertext (encCiphertext S.c1 S.c2 res.1) "Failed to write ciphertext file" <|
  .println ("   ✅ Ciphertext saved (".toList ++ showNat (encCiphertext S.c1 S.c2 res.1).length ++ " bytes)".toList) <|
  .println "\n🔑 Saving key...".toList <|
  PCmd.writeFile key res.2.bytes "Failed to write key file" <|
  .println ("   ✅ Key saved (".toList ++ showNat res.2.bytes.length ++ " bytes)".toList) <|
  .done (.ok ())

/-- `decap_command` (commands.rs 99-153) with its output. -/
def pDecap (circuit witness ciphertext key : Path) : PCmd :=
  .println "📂 Loading R1CS circuit...".toList <|
  PCmd.readFile circuit "Failed to load R1CS circuit" fun data =>
  PCmd.lift (cliParseR1cs S.lim data) fun r1cs =>
  .println ("   - Constraints: ".toList ++ showNat r1cs.nConstraints) <|
  .println ("   - Public inputs: ".toList ++ showNat r1cs.nPubIn) <|
  .println ("   - Wires: ".toList ++ showNat r1cs.nWires) <|
  .println "\n📋 Loading witness from snarkjs...".toList <|
  PCmd.readFile witness "Failed to load witness file" fun wdata =>
  PCmd.lift (cliParseWtns wdata) fun wf =>
  .println ("   - Witness elements: ".toList ++ showNat wf.nWitness) <|
  PCmd.lift wf.toFieldElements fun vals =>
  .println "\n📦 Loading ciphertext...".toList <|
  PCmd.readFile ciphertext "Failed to read ciphertext file" fun ct =>
  PCmd.lift (Res.ofOption (decCiphertext S.c1 S.c2 ct) "Failed to deserialize ciphertext") fun c =>
  .println ("   - Ciphertext size: ".toList ++ showNat ct.length ++ " bytes".toList) <|
  .println "\n🔓 Running Decap...".toList <|
  PCmd.readFile circuit "Failed to create circuit" fun data' =>
  PCmd.lift (cliParseR1cs S.lim data') fun r1cs' =>
  PCmd.lift (decap S.P (cliCircuit r1cs' (fullWires vals)) c) fun key' =>
  .println "\n🔑 Saving recovered key...".toList <|
  PCmd.writeFile key key'.bytes "Failed to write key file" <|
  .println ("   ✅ Key saved (".toList ++ showNat key'.bytes.length ++ " bytes)".toList) <|
  .done (.ok ())

/-- `encrypt_command` (commands.rs 157-283) with its output. U+FFFD stands in the source. -/
def pEncrypt (circuit sym input message output : Path) (includePublicInput : Bool) (ρ : Rand Fr) (nonce : Bytes) : PCmd :=
  .println "🔐 Step 1: Running Encap...".toList <|
  pLoad S circuit sym input fun _ sig inputs json =>
  PCmd.readFile circuit "Failed to create circuit" fun data' =>
  PCmd.lift (cliParseR1cs S.lim data') fun r1cs' =>
  PCmd.lift (encap S.P S.dom (cliCircuit r1cs' (cliWires sig (S.hash.ord inputs))) ρ) fun res =>
  .println ("   ✅ Witness ciphertext generated (".toList ++ showNat (encCiphertext S.c1 S.c2 res.1).length ++ " bytes)".toList) <|
  .println "\n\uFFFD Step 2: Encrypting message...".toList <|
  PCmd.readFile message "Failed to read message file" fun m =>
  .println ("   - Message size: ".toList ++ showNat m.length ++ " bytes".toList) <|
  PCmd.lift (encryptGcm S.cipher .cli res.2.bytes nonce m) fun enc =>
  .println ("   ✅ Message encrypted (".toList ++ showNat enc.length ++ " bytes)".toList) <|
  .println "\n\uFFFD Step 3: Creating combined ciphertext...".toList <|
  PCmd.writeFile output (combine includePublicInput (encCiphertext S.c1 S.c2 res.1) (if includePublicInput then json else []) enc)
    "Failed to write combined ciphertext" <|
  .println ("   ✅ Combined ciphertext saved (".toList ++
    showNat (combine includePublicInput (encCiphertext S.c1 S.c2 res.1) (if includePublicInput then json else []) enc).length ++ " bytes)".toList) <|
  .println (if includePublicInput then "\n✨ Encryption complete! Public inputs are embedded in the ciphertext.".toList
    else "\n✨ Encryption complete! Remember to share the public inputs separately.".toList) <|
  .done (.ok ())

/-- The first part of the parsing in `decrypt_command` (commands.rs 298-322): flag, length and bytes of the witness ciphertext. -/
def splitHead (b : Bytes) : Res (UInt8 × Nat × Bytes) :=
  if b.length < 5 then Res.fail "Invalid ciphertext: too short" else
  idx b 0 >>= fun flag =>
  idxU32 b 1 >>= fun wLen =>
  if b.length < 5 + wLen then Res.fail "Invalid ciphertext: witness length mismatch" else
  idxRange b 5 (5 + wLen) >>= fun w => .ok (flag, wLen, w)

/-- The public input (commands.rs 329-347): its length and bytes. -/
def splitPublic (b : Bytes) (wLen : Nat) : Res (Nat × Bytes) :=
  if b.length < 5 + wLen + 4 then Res.fail "Invalid ciphertext: missing public input length" else
  idxU32 b (5 + wLen) >>= fun pLen =>
  if b.length < 5 + wLen + 4 + pLen then Res.fail "Invalid ciphertext: public input length mismatch" else
  idxRange b (5 + wLen + 4) (5 + wLen + 4 + pLen) >>= fun p => .ok (pLen, p)

/-- `decrypt_command` after the message has been cut out (commands.rs 355-404). -/
def pDecryptRest (circuit witness output : Path) (w enc : Bytes) : PCmd :=
  .println ("   - Encrypted message: ".toList ++ showNat enc.length ++ " bytes".toList) <|
  .println "\n🔓 Step 2: Running Decap...".toList <|
  .println "📂 Loading R1CS circuit...".toList <|
  PCmd.readFile circuit "Failed to load R1CS circuit" fun data =>
  PCmd.lift (cliParseR1cs S.lim data) fun r1cs =>
  .println ("   - Constraints: ".toList ++ showNat r1cs.nConstraints) <|
  .println ("   - Public inputs: ".toList ++ showNat r1cs.nPubIn) <|
  .println "\n📋 Loading witness from snarkjs...".toList <|
  PCmd.readFile witness "Failed to load witness file" fun wdata =>
  PCmd.lift (cliParseWtns wdata) fun wf =>
  .println ("   - Witness elements: ".toList ++ showNat wf.nWitness) <|
  PCmd.lift wf.toFieldElements fun vals =>
  PCmd.lift (Res.ofOption (decCiphertext S.c1 S.c2 w) "Failed to deserialize ciphertext") fun c =>
  PCmd.readFile circuit "Failed to create circuit" fun data' =>
  PCmd.lift (cliParseR1cs S.lim data') fun r1cs' =>
  PCmd.lift (decap S.P (cliCircuit r1cs' (fullWires vals)) c) fun key =>
  .println "   ✅ Key recovered from witness".toList <|
  .println "\n🔓 Step 3: Decrypting message...".toList <|
  PCmd.lift (decryptGcm S.cipher .cli key.bytes enc) fun m =>
  PCmd.writeFile output m "Failed to write decrypted file" <|
  .println ("   ✅ Decrypted message saved (".toList ++ showNat m.length ++ " bytes)".toList) <|
  .println "\n✨ Decryption complete!".toList <|
  .done (.ok ())

/-- `decrypt_command` (commands.rs 287-404) with its output. The public input is printed as it stands in the file. -/
def pDecrypt (circuit witness ciphertext output : Path) : PCmd :=
  .println "\uFFFD Step 1: Parsing combined ciphertext...".toList <|
  PCmd.readFile ciphertext "Failed to read ciphertext file" fun combined =>
  PCmd.lift (splitHead combined) fun h =>
  .println ("   - Flag: ".toList ++ showNat h.1.toNat) <|
  .println ("   - Witness ciphertext: ".toList ++ showNat h.2.1 ++ " bytes".toList) <|
  if h.1 = 1 then
    PCmd.lift (splitPublic combined h.2.1) fun p =>
    .println ("   - Public input: ".toList ++ rustLossy S p.2) <|
    PCmd.lift (idxRange combined (5 + h.2.1 + 4 + p.1) combined.length) fun enc =>
    pDecryptRest S circuit witness output h.2.2 enc
  else
    PCmd.lift (idxRange combined (5 + h.2.1) combined.length) fun enc =>
    pDecryptRest S circuit witness output h.2.2 enc

/-- `main` after command line parsing (main.rs 95-138) with its output. -/
def pMain (ρ : Rand Fr) (nonce : Bytes) : Args → PCmd
  | .encap c s i ct k => pEncap S c s i ct k ρ
  | .decap c w ct k => pDecap S c w ct k
  | .encrypt c s i m o noPub => pEncrypt S c s i m o (!noPub) ρ nonce
  | .decrypt c w ct o => pDecrypt S c w ct o

end

end Zkenc
