import Verif.Props.Signature
import Verif.Props.EndToEndExactly
import Verif.Props.EndToEndOutcome
import Verif.Props.InputsNested
/-!
# C84: messages for two of three signers

A message is encrypted for the multi-signature circuit (signature.circom) with a message to be signed and three public keys.
-/

namespace Zkenc.SignatureSpec

open Zkenc Zkenc.Spec Zkenc.InputSpec

/-- The JSON input object gives the message `msg` and all six coordinates of the keys. -/
structure GivesKeys (entries : List (Str × Json)) (msg : Fr) (keys : Fin 3 → Fr × Fr) : Prop where
  message : Gives entries "message".toList msg
  x : ∀ i : Fin 3, Gives entries (signalName "publicKeys".toList [i, 0]) (keys i).1
  y : ∀ i : Fin 3, Gives entries (signalName "publicKeys".toList [i, 1]) (keys i).2

/-- The witness satisfies the circuit and is for this message. -/
def MessageWitness (r : R1csFile) (msg : Fr) (vals : List Fr) : Prop := Accepted r vals ∧ vals[1]? = some msg

/-- The witness satisfies the circuit and is for this message and these keys. -/
def KeysWitness (r : R1csFile) (msg : Fr) (keys : Fin 3 → Fr × Fr) (vals : List Fr) : Prop :=
  MessageWitness r msg vals ∧ ∀ i : Fin 3, vals[2 + 2 * (i : Nat)]? = some (keys i).1 ∧ vals[3 + 2 * (i : Nat)]? = some (keys i).2

end Zkenc.SignatureSpec

namespace Zkenc.Props

open Zkenc Zkenc.Spec Zkenc.InputSpec Zkenc.SignatureSpec

theorem signature_wf {r : R1csFile} (hr : IsSignature r) : WellFormed r := ⟨by rw [hr.wires, hr.pubOut, hr.pubIn]; omega, by rw [hr.wires]; norm_num⟩
theorem signature_ct {r : R1csFile} (hr : IsSignature r) : CtFits r := by unfold CtFits; rw [hr.pubOut, hr.pubIn]; norm_num

/-- A public wire is the message or a coordinate of a key. -/
theorem wire_cases {j : Nat} (h1 : 1 ≤ j) (h7 : j ≤ 7) : j = 1 ∨ ∃ i : Fin 3, j = 2 + 2 * (i : Nat) ∨ j = 3 + 2 * (i : Nat) := by
  have : j = 1 ∨ j = 2 ∨ j = 3 ∨ j = 4 ∨ j = 5 ∨ j = 6 ∨ j = 7 := by omega
  rcases this with rfl | rfl | rfl | rfl | rfl | rfl | rfl
  · exact .inl rfl
  · exact .inr ⟨0, .inl rfl⟩
  · exact .inr ⟨0, .inr rfl⟩
  · exact .inr ⟨1, .inl rfl⟩
  · exact .inr ⟨1, .inr rfl⟩
  · exact .inr ⟨2, .inl rfl⟩
  · exact .inr ⟨2, .inr rfl⟩

/-- Every public wire gets a value from an object with message and keys. -/
theorem keys_given {symtab : AMap Nat} (hs : IsSignatureSym symtab) {entries : List (Str × Json)} {msg : Fr} {keys : Fin 3 → Fr × Fr}
    (hg : GivesKeys entries msg keys) {vals : List Fr} (hv : vals[1]? = some msg ∧
      ∀ i : Fin 3, vals[2 + 2 * (i : Nat)]? = some (keys i).1 ∧ vals[3 + 2 * (i : Nat)]? = some (keys i).2)
    {j : Nat} (h1 : 1 ≤ j) (h7 : j ≤ 7) : ∃ name x, Resolves symtab (some 7) name j ∧ Gives entries name x ∧ vals[j]? = some x := by
  have hb : ∀ k, some 7 = some k → j ≤ k := by rintro k hk; cases hk; exact h7
  rcases wire_cases h1 h7 with rfl | ⟨i, rfl | rfl⟩
  · exact ⟨_, _, ⟨hs.message, hb⟩, hg.message, hv.1⟩
  · exact ⟨_, _, ⟨by rw [hs.keys i 0 i.2 (by omega)]; rfl, hb⟩, hg.x i, (hv.2 i).1⟩
  · exact ⟨_, _, ⟨by rw [hs.keys i 1 i.2 (by omega)]; congr 1; omega, hb⟩, hg.y i, (hv.2 i).2⟩

theorem keys_enforced {symtab : AMap Nat} (hs : IsSignatureSym symtab) {entries : List (Str × Json)} (hna : NoAlias symtab (some 7) entries) {msg : Fr}
    {keys : Fin 3 → Fr × Fr} (hg : GivesKeys entries msg keys) (vals : List Fr) :
    CliEnforced symtab 7 entries vals ↔
      vals[1]? = some msg ∧ ∀ i : Fin 3, vals[2 + 2 * (i : Nat)]? = some (keys i).1 ∧ vals[3 + 2 * (i : Nat)]? = some (keys i).2 := by
  -- a list of values that has them, to name what is given
  have hsup : ∀ j, 1 ≤ j → j ≤ 7 → CliSupplies symtab 7 entries j := by
    intro j h1 h7
    obtain ⟨name, x, hr, hx, -⟩ := keys_given hs hg (vals := [0, msg, (keys 0).1, (keys 0).2, (keys 1).1, (keys 1).2, (keys 2).1, (keys 2).2])
      ⟨rfl, fun i => by fin_cases i <;> exact ⟨rfl, rfl⟩⟩ h1 h7
    exact ⟨name, x, hr, hx⟩
  constructor
  · intro h
    have key : ∀ j name x, 1 ≤ j → j ≤ 7 → symtab.get ("main.".toList ++ name) = some j → Gives entries name x → vals[j]? = some x :=
      fun j name x h1 h7 hn hx => h j h1 (fun i a b => hsup i a (by omega)) name x ⟨hn, by rintro k hk; cases hk; exact h7⟩ hx
    refine ⟨key 1 _ _ le_rfl (by omega) hs.message hg.message, fun i => ⟨?_, ?_⟩⟩
    · exact key _ _ _ (by omega) (by omega) (by rw [hs.keys i 0 i.2 (by omega)]; rfl) (hg.x i)
    · exact key _ _ _ (by omega) (by omega) (by rw [hs.keys i 1 i.2 (by omega)]; congr 1; omega) (hg.y i)
  · intro hv j h1 _ name x hr hx
    have h7 := hr.2 7 rfl
    obtain ⟨name', x', hr', hx', he⟩ := keys_given hs hg hv h1 h7
    rw [he, hna _ _ j x' x hr' hr hx' hx]

theorem message_enforced {symtab : AMap Nat} (hs : IsSignatureSym symtab) {inputs : List (Str × JsVal)} (hna : JsNoAlias symtab inputs)
    (hp : PlainKeys inputs) {v : JsVal} {s : Str} {z : Int} (hv : JsGives inputs "message".toList v) (hs' : v.toStr = .ok s) (hz : jsBigInt s = some z)
    (vals : List Fr) : JsEnforced symtab 7 inputs vals ↔ vals[1]? = some (((z % 2 ^ 256).toNat : Nat) : Fr) := by
  have hno : ∀ j, 2 ≤ j → j ≤ 7 → ¬ JsSupplies symtab inputs j := by
    rintro j h2 h7 ⟨name, v', ⟨hn, -⟩, hg⟩
    refine C68_js_no_value inputs hp name ?_ v' hg
    rcases hs.only name j hn (by omega) h7 with rfl | ⟨i, k, -, -, rfl⟩
    · rw [hs.message] at hn; cases hn; omega
    · exact ⟨_, i, k, [], rfl⟩
  have h1r : Resolves symtab none "message".toList 1 := ⟨hs.message, by simp⟩
  constructor
  · intro h
    exact h 1 le_rfl (by omega) (fun i a b => by obtain rfl : i = 1 := by omega
                                                 exact ⟨_, _, h1r, hv⟩) _ _ _ _ h1r hv hs' hz
  · intro h j h1 h7 hsup name v' s' z' hr hg hs'' hz'
    have : ¬ 2 ≤ j := fun h2 => hno j h2 h7 (hsup j h1 le_rfl)
    obtain rfl : j = 1 := by omega
    have e := hna _ _ 1 _ _ hr h1r hg hv
    rw [hs'', hs'] at e
    cases e
    rw [hz] at hz'
    cases hz'
    exact h

/-! ## Messages -/

variable {G1 G2 GT : Type} [AddCommGroup G1] [Module Fr G1] [AddCommGroup G2] [Module Fr G2] [AddCommGroup GT] [Module Fr GT]
  (S : Sys G1 G2 GT)

/-- **C84** (the signers) — a witness for a message and three keys has two different signer numbers from 0 to 2, and the signatures are checked with the keys of
these numbers out of the three keys. -/
theorem C84_signers (r : R1csFile) (hr : IsSignature r) (msg : Fr) (keys : Fin 3 → Fr × Fr) (vals : List Fr) (h : KeysWitness r msg keys vals) :
    TwoSigners keys (vals.getD 14 0) (vals.getD 15 0) (vals.getD 19 0, vals.getD 20 0) (vals.getD 31 0, vals.getD 32 0) := by
  have := C83_signers r hr vals h.1.1
  rwa [show (fun i : Fin 3 => (vals.getD (2 + 2 * i) 0, vals.getD (3 + 2 * i) 0)) = keys from funext fun i => by
    rw [List.getD_eq_getElem?_getD, List.getD_eq_getElem?_getD, (h.2 i).1, (h.2 i).2]; rfl] at this

/-- **C84** (CLI to CLI) — a message that `zkenc encrypt` has encrypted for a message to be signed and three keys is decrypted by exactly the witnesses for that
message and these keys; with all others `zkenc decrypt` fails and changes no file. -/
theorem C84_cli_to_cli (fs fs' : FS) (circuit sym input message output : Path) (r : R1csFile) (hr : IsSignature r) (symtab : AMap Nat)
    (hsym : IsSignatureSym symtab) (entries : List (Str × Json)) (hfiles : CliFiles S fs circuit sym input r symtab entries) (msg : Fr) (keys : Fin 3 → Fr × Fr)
    (hg : GivesKeys entries msg keys) (hna : NoAlias symtab (some 7) entries) (m : Bytes) (hm : fs message = some m)
    (incl : Bool) (ρ : Rand Fr) (nonce : Bytes) (hn : nonce.length = 12)
    (hj : incl = true → ∀ j, fs input = some j → j.length < 2 ^ 32)
    (henc : (encryptCommand S circuit sym input message output incl ρ nonce).exec fs = (fs', .ok ()))
    (fs₂ : FS) (circuit₂ witness ciphertext output₂ : Path) (data wdata : Bytes) (vals : List Fr)
    (hdata : fs₂ circuit₂ = some data) (hcirc : cliParseR1cs S.lim data = .ok r)
    (hct : fs₂ ciphertext = fs' output) (hwd : fs₂ witness = some wdata) (hwit : CliWitness wdata vals) :
    (KeysWitness r msg keys vals → (decryptCommand S circuit₂ witness ciphertext output₂).exec fs₂ = (fs₂.set output₂ m, .ok ())) ∧
    (¬ KeysWitness r msg keys vals → ∃ e, (decryptCommand S circuit₂ witness ciphertext output₂).exec fs₂ = (fs₂, .error e)) := by
  have := C77_cli_to_cli_exactly S fs fs' circuit sym input message output r symtab entries hfiles m hm incl ρ nonce hn hj henc (signature_wf hr)
    (signature_ct hr) (by rw [hr.wires, hr.pubIn]; omega) (by rw [hr.pubIn]; exact hna) fs₂ circuit₂ witness ciphertext output₂ data wdata vals hdata hcirc
    hct hwd hwit
  rwa [hr.pubIn, keys_enforced hsym hna hg vals, ← and_assoc] at this

/-- **C84** (CLI to JS). -/
theorem C84_cli_to_js (fs fs' : FS) (circuit sym input message output : Path) (r : R1csFile) (hr : IsSignature r) (symtab : AMap Nat)
    (hsym : IsSignatureSym symtab) (entries : List (Str × Json)) (hfiles : CliFiles S fs circuit sym input r symtab entries) (msg : Fr) (keys : Fin 3 → Fr × Fr)
    (hg : GivesKeys entries msg keys) (hna : NoAlias symtab (some 7) entries) (m : Bytes) (hm : fs message = some m)
    (incl : Bool) (ρ : Rand Fr) (nonce : Bytes) (hn : nonce.length = 12)
    (hj : incl = true → ∀ j, fs input = some j → j.length < 2 ^ 32)
    (henc : (encryptCommand S circuit sym input message output incl ρ nonce).exec fs = (fs', .ok ()))
    (data : Bytes) (hdata : fs circuit = some data) (hd : data.length < 2 ^ 31) (combined : Bytes) (hct : fs' output = some combined)
    (wtns : Bytes) (vals : List Fr) (hwit : jsParseWtns wtns = .ok vals) (hl : m.length ≤ S.cipher.maxDec .js) :
    (vals.length = 8449 ∧ KeysWitness r msg keys vals → jsDecrypt S data (.ok wtns) combined = .ok m) ∧
    (¬ (vals.length = 8449 ∧ KeysWitness r msg keys vals) → ∃ e, jsDecrypt S data (.ok wtns) combined = .error e) := by
  have := C77_cli_to_js_exactly S fs fs' circuit sym input message output r symtab entries hfiles m hm incl ρ nonce hn hj henc (signature_wf hr)
    (signature_ct hr) (by rw [hr.wires, hr.pubIn]; omega) (by rw [hr.pubIn]; exact hna) data hdata hd combined hct wtns vals hwit hl
  rwa [hr.pubIn, hr.wires, keys_enforced hsym hna hg vals, ← and_assoc (a := Accepted r vals)] at this

/-- **C84** (JS to CLI) — JS does not enter the array of arrays `publicKeys` (C68): a message that JS `encrypt` has encrypted is decrypted by exactly the witnesses
for the message to be signed, with whatever three public keys. The keys given to `encrypt` play no part. -/
theorem C84_js_to_cli (data : Bytes) (hd : data.length < 2 ^ 31) (r : R1csFile) (hr : IsSignature r) (hcirc : cliParseR1cs S.lim data = .ok r) (sym : Str)
    (hsym : IsSignatureSym (jsParseSymFile sym)) (inputs : List (Str × JsVal)) (hna : JsNoAlias (jsParseSymFile sym) inputs)
    (hmax : JsSmall (jsParseSymFile sym) inputs) (hp : PlainKeys inputs) (v : JsVal) (s : Str) (z : Int) (hv : JsGives inputs "message".toList v)
    (hs : v.toStr = .ok s) (hz : jsBigInt s = some z) (m : Bytes)
    (incl : Bool) (ρ : Rand Fr) (nonce : Bytes) (hn : nonce.length = 12)
    (hj : incl = true → ∀ s, S.stringify inputs = .ok s → (utf8Enc s).length < 2 ^ 32)
    (combined key : Bytes) (henc : jsEncrypt S data sym inputs m incl ρ nonce = .ok (combined, key))
    (fs : FS) (circuit witness ciphertext output : Path) (wdata : Bytes) (vals : List Fr)
    (hdata : fs circuit = some data) (hct : fs ciphertext = some combined) (hwd : fs witness = some wdata)
    (hwit : CliWitness wdata vals) (hl : m.length ≤ S.cipher.maxDec .cli) :
    (MessageWitness r ((z % 2 ^ 256).toNat : Nat) vals → (decryptCommand S circuit witness ciphertext output).exec fs = (fs.set output m, .ok ())) ∧
    (¬ MessageWitness r ((z % 2 ^ 256).toNat : Nat) vals → ∃ e, (decryptCommand S circuit witness ciphertext output).exec fs = (fs, .error e)) := by
  have := C77_js_to_cli_exactly S data hd r hcirc sym inputs hna hmax m incl ρ nonce hn hj combined key henc (signature_wf hr) (signature_ct hr)
    (by rw [hr.wires, hr.pubIn, hr.pubOut]; omega) fs circuit witness ciphertext output wdata vals hdata hct hwd hwit hl
  rwa [hr.pubIn, hr.pubOut, Nat.zero_add, message_enforced hsym hna hp hv hs hz vals] at this

/-- **C84** (JS to JS). -/
theorem C84_js_to_js (data : Bytes) (r : R1csFile) (hr : IsSignature r) (hcirc : jsParseR1cs data = .ok r.toJs) (sym : Str)
    (hsym : IsSignatureSym (jsParseSymFile sym)) (inputs : List (Str × JsVal)) (hna : JsNoAlias (jsParseSymFile sym) inputs)
    (hmax : JsSmall (jsParseSymFile sym) inputs) (hp : PlainKeys inputs) (v : JsVal) (s : Str) (z : Int) (hv : JsGives inputs "message".toList v)
    (hs : v.toStr = .ok s) (hz : jsBigInt s = some z) (m : Bytes)
    (incl : Bool) (ρ : Rand Fr) (nonce : Bytes) (hn : nonce.length = 12)
    (hj : incl = true → ∀ s, S.stringify inputs = .ok s → (utf8Enc s).length < 2 ^ 32)
    (combined key : Bytes) (henc : jsEncrypt S data sym inputs m incl ρ nonce = .ok (combined, key))
    (wtns : Bytes) (vals : List Fr) (hwit : jsParseWtns wtns = .ok vals) :
    (vals.length = 8449 ∧ MessageWitness r ((z % 2 ^ 256).toNat : Nat) vals → jsDecrypt S data (.ok wtns) combined = .ok m) ∧
    (¬ (vals.length = 8449 ∧ MessageWitness r ((z % 2 ^ 256).toNat : Nat) vals) → ∃ e, jsDecrypt S data (.ok wtns) combined = .error e) := by
  have := C77_js_to_js_exactly S data r hcirc sym inputs hna hmax m incl ρ nonce hn hj combined key henc (signature_wf hr) (signature_ct hr)
    (by rw [hr.wires, hr.pubIn, hr.pubOut]; omega) wtns vals hwit
  rwa [hr.pubIn, hr.pubOut, hr.wires, Nat.zero_add, message_enforced hsym hna hp hv hs hz vals] at this

end Zkenc.Props
