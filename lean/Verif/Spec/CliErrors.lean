import Verif.Model.CliErrors
import Verif.Spec.Container
import Verif.Props.EndToEndEnforced
/-!
# Specification for the exit status and the error report of the CLI (C104)

For every command the list of what must be in order, in the order in which it is looked at, and how the command ends if that is the first thing that is not.
-/

namespace Zkenc.CliErrorSpec

open Zkenc Spec InputSpec ContainerSpec

/-- Things that must be in order, and how the command ends otherwise: the first thing that is not in order decides; exit status 0 if there is none. -/
def Ends : List (Prop × Ending) → Ending → Prop
  | [], e => e = ⟨0, none⟩
  | (ok, otherwise) :: rest, e => (ok ∧ Ends rest e) ∨ (¬ ok ∧ e = otherwise)

/-- Exit status 1 and this report. -/
def reports (m : String) : Ending := ⟨1, some m.toList⟩

/-- Exit status of a Rust panic. -/
def panics : Ending := ⟨101, none⟩

/-- A file that holds text. -/
def IsText (fs : FS) (p : Path) (s : Str) : Prop := ∃ b t, fs p = some b ∧ utf8Dec b = some t ∧ s = t.toList

section
variable {G1 G2 GT : Type} [AddCommGroup G1] [Module Fr G1] [AddCommGroup G2] [Module Fr G2] [AddCommGroup GT] [Module Fr GT]
  (S : Sys G1 G2 GT)

/-- The file is a circuit. -/
def IsCircuit (fs : FS) (p : Path) (r : R1csFile) : Prop := ∃ data, fs p = some data ∧ cliParseR1cs S.lim data = .ok r

/-- The text is a JSON object with numbers and number strings only, in arrays or not. -/
def IsInput (text : Str) : Prop := ∃ entries, S.serdeParse text = some (.obj entries) ∧ AllDenote entries

/-- What `zkenc encap` looks at, and `zkenc encrypt` first. The last line is about the random numbers. -/
def encapChecks (fs : FS) (circuit sym input : Path) (ρ : Rand Fr) : List (Prop × Ending) :=
  [(∃ r, IsCircuit S fs circuit r, reports "Failed to load R1CS circuit"),
   (∃ s, IsText fs sym s, reports "Failed to read symbol file"),
   (∃ s symtab, IsText fs sym s ∧ parseSymFile s = .ok symtab, reports "Failed to parse symbol file"),
   (∃ s, IsText fs input s, reports "Failed to read input JSON file"),
   (∃ s, IsText fs input s ∧ IsInput S s, reports "Failed to parse input JSON"),
   (ρ.delta ≠ 0, panics)]

/-- What `zkenc encrypt` looks at. -/
def encryptChecks (fs : FS) (circuit sym input message : Path) (ρ : Rand Fr) : List (Prop × Ending) :=
  encapChecks S fs circuit sym input ρ ++
  [(∃ m, fs message = some m, reports "Failed to read message file"),
   (∃ m, fs message = some m ∧ m.length ≤ S.cipher.maxEnc .cli, reports "Message encryption failed")]

/-- The circuit and the witness of a receiver. -/
def Receives (fs : FS) (circuit witness : Path) (r : R1csFile) (vals : List Fr) : Prop :=
  IsCircuit S fs circuit r ∧ ∃ wdata, fs witness = some wdata ∧ CliWitness wdata vals

/-- The witness has the public values that the ciphertext names, on the wires 1, 2, … of the circuit. -/
def Carries (r : R1csFile) (vals : List Fr) (c : Ciphertext Fr G1 G2) : Prop :=
  ∀ i x, c.publicInputs[i]? = some x → i + 1 < r.nAlloc ∧ vals[i + 1]? = some x

/-- What loading the circuit and the witness looks at. -/
def loadChecks (fs : FS) (circuit witness : Path) : List (Prop × Ending) :=
  [(∃ r, IsCircuit S fs circuit r, reports "Failed to load R1CS circuit"),
   (∀ wdata, fs witness = some wdata → cliParseWtns wdata ≠ .error .panic, panics),
   (∃ wdata wf, fs witness = some wdata ∧ cliParseWtns wdata = .ok wf, reports "Failed to load witness file"),
   (∃ wdata vals, fs witness = some wdata ∧ CliWitness wdata vals, reports "Failed to convert witness to field elements")]

/-- What recovering the key from a ciphertext looks at. -/
def keyChecks (fs : FS) (circuit witness : Path) (c : Ciphertext Fr G1 G2) : List (Prop × Ending) :=
  [(∀ r vals, Receives S fs circuit witness r vals → ¬ SomeWireMissing r (fullWires vals), reports "Decap failed: SynthesisError(\"AssignmentMissing\")"),
   (∀ r vals, Receives S fs circuit witness r vals → Accepted r vals, reports "Decap failed: InvalidWitness"),
   (∀ r vals, Receives S fs circuit witness r vals → Carries r vals c, reports "Decap failed: InvalidPublicInputs"),
   (c.encapKey.rU ≠ [] ∧ c.encapKey.rV ≠ [] ∧ c.encapKey.phiDelta ≠ [], reports "Decap failed: InvalidWitness")]

/-- How `zkenc decap` ends. -/
def DecapEnds (fs : FS) (circuit witness ciphertext : Path) (e : Ending) : Prop :=
  (∀ b c, fs ciphertext = some b → decCiphertext S.c1 S.c2 b = some c →
    Ends (loadChecks S fs circuit witness ++ keyChecks S fs circuit witness c) e) ∧
  ((¬ ∃ b c, fs ciphertext = some b ∧ decCiphertext S.c1 S.c2 b = some c) →
    Ends (loadChecks S fs circuit witness ++ [(∃ b, fs ciphertext = some b, reports "Failed to read ciphertext file"),
      (False, reports "Failed to deserialize ciphertext")]) e)

/-- The parts of the container, as far as they are looked at before the circuit. -/
def containerChecks (b : Bytes) : List (Prop × Ending) :=
  [(5 ≤ b.length, reports "Invalid ciphertext: too short"),
   (∃ flag len w rest, b = flag :: (len ++ (w ++ rest)) ∧ len.length = 4 ∧ beNat len = w.length, reports "Invalid ciphertext: witness length mismatch"),
   (¬ ∃ len w rest, b = 1 :: (len ++ (w ++ rest)) ∧ len.length = 4 ∧ beNat len = w.length ∧ rest.length < 4,
     reports "Invalid ciphertext: missing public input length"),
   (∃ p, Layout b p, reports "Invalid ciphertext: public input length mismatch")]

/-- How `zkenc decrypt` ends. -/
def DecryptEnds (fs : FS) (circuit witness ciphertext : Path) (e : Ending) : Prop :=
  (fs ciphertext = none → e = reports "Failed to read ciphertext file") ∧
  (∀ b, fs ciphertext = some b → (∀ p, ¬ Layout b p) → Ends (containerChecks b) e) ∧
  (∀ b p, fs ciphertext = some b → Layout b p → decCiphertext S.c1 S.c2 p.witnessCt = none →
    Ends (loadChecks S fs circuit witness ++ [(False, reports "Failed to deserialize witness ciphertext")]) e) ∧
  (∀ b p c, fs ciphertext = some b → Layout b p → decCiphertext S.c1 S.c2 p.witnessCt = some c →
    Ends (loadChecks S fs circuit witness ++ (keyChecks S fs circuit witness c ++
      [(∀ r vals key, Receives S fs circuit witness r vals → decap S.P (cliCircuit r (fullWires vals)) c = .ok key →
          ∃ m, decryptGcm S.cipher .cli key.bytes p.encrypted = .ok m, reports "Message decryption failed")])) e)

end

end Zkenc.CliErrorSpec
