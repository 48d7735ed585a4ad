import Verif.Model.Printing
/-!
# What a successful command prints, and when two outputs tell an observer the same

The texts below have holes for numbers only (and for the public input in the text of `decrypt`).
-/

namespace Zkenc.PrintSpec

open Zkenc

/-- Lines of text, each ended by a line feed. -/
def text (lines : List Str) : Str := lines.flatMap (· ++ ['\n'])

/-- A text with a number in it. -/
def num (before : String) (n : Nat) (after : String) : Str := before.toList ++ (Nat.toDigits 10 n ++ after.toList)

/-- The part common to `encap` and `encrypt`: number of constraints, public inputs and wires in the header of the circuit, number of values in the input file. -/
def loading (constraints pubIn wires values : Nat) : List Str :=
  ["📂 Loading R1CS circuit...".toList, num "   - Constraints: " constraints "", num "   - Public inputs: " pubIn "",
   num "   - Wires: " wires "", "\n📂 Loading symbol file...".toList, "\n📋 Loading public inputs from JSON...".toList,
   num "   - Parsed " values " field elements"]

/-- `zkenc encap`. -/
def encapText (constraints pubIn wires values ctBytes : Nat) : Str :=
  text (loading constraints pubIn wires values ++
    ["\n🔐 Running Encap...".toList, "\n💾 Saving ciphertext...".toList, num "   ✅ Ciphertext saved (" ctBytes " bytes)",
     "\n🔑 Saving key...".toList, num "   ✅ Key saved (" 32 " bytes)"])

/-- `zkenc decap`. -/
def decapText (constraints pubIn wires witnessValues ctBytes : Nat) : Str :=
  text ["📂 Loading R1CS circuit...".toList, num "   - Constraints: " constraints "", num "   - Public inputs: " pubIn "",
    num "   - Wires: " wires "", "\n📋 Loading witness from snarkjs...".toList, num "   - Witness elements: " witnessValues "",
    "\n📦 Loading ciphertext...".toList, num "   - Ciphertext size: " ctBytes " bytes", "\n🔓 Running Decap...".toList,
    "\n🔑 Saving recovered key...".toList, num "   ✅ Key saved (" 32 " bytes)"]

/-- `zkenc encrypt`. -/
def encryptText (constraints pubIn wires values ctBytes messageBytes fileBytes : Nat) (included : Bool) : Str :=
  text (["🔐 Step 1: Running Encap...".toList] ++ loading constraints pubIn wires values ++
    [num "   ✅ Witness ciphertext generated (" ctBytes " bytes)", "\n\uFFFD Step 2: Encrypting message...".toList,
     num "   - Message size: " messageBytes " bytes", num "   ✅ Message encrypted (" (messageBytes + 28) " bytes)",
     "\n\uFFFD Step 3: Creating combined ciphertext...".toList, num "   ✅ Combined ciphertext saved (" fileBytes " bytes)",
     if included then "\n✨ Encryption complete! Public inputs are embedded in the ciphertext.".toList
     else "\n✨ Encryption complete! Remember to share the public inputs separately.".toList])

/-- The beginning of the output of `zkenc decrypt`. -/
def decryptHead (flag ctBytes : Nat) : List Str :=
  ["\uFFFD Step 1: Parsing combined ciphertext...".toList, num "   - Flag: " flag "", num "   - Witness ciphertext: " ctBytes " bytes"]

/-- The end of the output of a successful `zkenc decrypt`. -/
def decryptTail (constraints pubIn witnessValues messageBytes : Nat) : List Str :=
  [num "   - Encrypted message: " (messageBytes + 28) " bytes", "\n🔓 Step 2: Running Decap...".toList, "📂 Loading R1CS circuit...".toList,
   num "   - Constraints: " constraints "", num "   - Public inputs: " pubIn "", "\n📋 Loading witness from snarkjs...".toList,
   num "   - Witness elements: " witnessValues "", "   ✅ Key recovered from witness".toList, "\n🔓 Step 3: Decrypting message...".toList,
   num "   ✅ Decrypted message saved (" messageBytes " bytes)", "\n✨ Decryption complete!".toList]

/-- `zkenc decrypt`: the flag at the beginning of the file and, if the file contains one, the public input are shown. -/
def decryptText (flag : Nat) (pub : Option Str) (constraints pubIn witnessValues ctBytes messageBytes : Nat) : Str :=
  text (decryptHead flag ctBytes ++ (match pub with | some t => ["   - Public input: ".toList ++ t] | none => []) ++
    decryptTail constraints pubIn witnessValues messageBytes)

/-- Two outputs differ at most in how far they got. -/
def SameUpToEnd (a b : Str) : Prop := a <+: b ∨ b <+: a

end Zkenc.PrintSpec
