import Verif.Props.Compose
import Verif.Props.Flatten
import Verif.Props.EndToEndExactly
import Verif.Props.EndToEndExactlyKem
/-!
# C94: which input objects decrypt a message

C58 says that the sender's public inputs together with private inputs that the circuit's program accepts decrypt a message. Here: exactly which inputs do.
-/

namespace Zkenc.CalcSpec

open Zkenc Zkenc.Spec Zkenc.InputSpec

/-- The input object given to the circuit's program gives the signal `name` the integer `z`: the arrays are flattened, and the flat list is read in the
dimensions the circuit declares. -/
def ProgramGets (N : JsNums) (declared : List (Str × List Nat)) (full : List (Str × JsVal)) (name : Str) (z : Int) : Prop :=
  ∃ k u dims path y, (k, u) ∈ full ∧ (k, dims) ∈ declared ∧ name = signalName k path ∧ (CalcSpec.leaves u)[rowMajor dims path]? = some y ∧ IsInt N y z

/-- Wire `j` is public and it and all wires before it were given values by the sender (library). -/
def JsBinds (symtab : AMap Nat) (n : Nat) (pub : List (Str × JsVal)) (j : Nat) : Prop :=
  1 ≤ j ∧ j ≤ n ∧ ∀ i, 1 ≤ i → i ≤ j → JsSupplies symtab pub i

/-- The same for the CLI. -/
def CliBinds (symtab : AMap Nat) (n : Nat) (entries : List (Str × Json)) (j : Nat) : Prop :=
  1 ≤ j ∧ ∀ i, 1 ≤ i → i ≤ j → CliSupplies symtab n entries i

/-- The receiver's inputs give a value to every signal that the sender bound (library). -/
def JsGivesBound (N : JsNums) (declared : List (Str × List Nat)) (symtab : AMap Nat) (n : Nat) (pub full : List (Str × JsVal)) : Prop :=
  ∀ j, JsBinds symtab n pub j → ∀ name v, Resolves symtab none name j → JsGives pub name v → ∃ z, ProgramGets N declared full name z

/-- They give it the sender's value (library). -/
def JsSameBound (N : JsNums) (declared : List (Str × List Nat)) (symtab : AMap Nat) (n : Nat) (pub full : List (Str × JsVal)) : Prop :=
  ∀ j, JsBinds symtab n pub j → ∀ name v s z z', Resolves symtab none name j → JsGives pub name v → v.toStr = .ok s → jsBigInt s = some z →
    ProgramGets N declared full name z' → (z' : Fr) = (((z % 2 ^ 256).toNat : Nat) : Fr)

/-- The receiver's inputs give a value to every signal that the sender bound (CLI). -/
def CliGivesBound (N : JsNums) (declared : List (Str × List Nat)) (symtab : AMap Nat) (n : Nat) (entries : List (Str × Json)) (full : List (Str × JsVal)) : Prop :=
  ∀ j, CliBinds symtab n entries j → ∀ name x, Resolves symtab (some n) name j → Gives entries name x → ∃ z, ProgramGets N declared full name z

/-- They give it the sender's value (CLI). -/
def CliSameBound (N : JsNums) (declared : List (Str × List Nat)) (symtab : AMap Nat) (n : Nat) (entries : List (Str × Json)) (full : List (Str × JsVal)) : Prop :=
  ∀ j, CliBinds symtab n entries j → ∀ name x z', Resolves symtab (some n) name j → Gives entries name x → ProgramGets N declared full name z' → (z' : Fr) = x

end Zkenc.CalcSpec

namespace Zkenc.Props

open Zkenc Zkenc.Spec Zkenc.InputSpec CalcSpec

section
variable {σ : Type} {N : JsNums} {x : CircuitWasm σ} {r : R1csFile} {declared : List (Str × List Nat)}

theorem js_same_iff {symtab : AMap Nat} (hc : Compiled x r symtab declared) (hsmall : r.nWires < 2 ^ 26 - 8)
    {full : List (Str × JsVal)} {wtns : Bytes} (h : calculateWitness N (.ok x) full = .ok wtns) {n : Nat} {pub : List (Str × JsVal)}
    (hg : JsGivesBound N declared symtab n pub full) :
    ∃ vals, jsParseWtns wtns = .ok vals ∧ (0 < r.nWires → CliWitness wtns vals) ∧ Witness r vals ∧
      (JsEnforced symtab n pub vals ↔ JsSameBound N declared symtab n pub full) := by
  obtain ⟨vals, h1, h2, h3, -, h4⟩ := calc_ok hc hsmall h
  refine ⟨vals, h1, h2, h3, ?_, ?_⟩
  · rintro he j ⟨a, b, c⟩ name v s z z' hr hgv hs hz ⟨k, u, dims, path, y, g1, g2, rfl, g4, g5⟩
    have e1 := he j a b c _ v s z hr hgv hs hz
    have e2 := h4 k u dims path j y z' g1 g2 hr.1 g4 g5
    rw [e1] at e2
    exact (Option.some.inj e2).symm
  · intro he j a b c name v s z hr hgv hs hz
    obtain ⟨z', hz'⟩ := hg j ⟨a, b, c⟩ name v hr hgv
    have e1 := he j ⟨a, b, c⟩ name v s z z' hr hgv hs hz hz'
    obtain ⟨k, u, dims, path, y, g1, g2, rfl, g4, g5⟩ := hz'
    rw [h4 k u dims path j y z' g1 g2 hr.1 g4 g5, e1]

theorem cli_same_iff {symtab : AMap Nat} (hc : Compiled x r symtab declared) (hsmall : r.nWires < 2 ^ 26 - 8)
    {full : List (Str × JsVal)} {wtns : Bytes} (h : calculateWitness N (.ok x) full = .ok wtns) {n : Nat} {entries : List (Str × Json)}
    (hg : CliGivesBound N declared symtab n entries full) :
    ∃ vals, jsParseWtns wtns = .ok vals ∧ (0 < r.nWires → CliWitness wtns vals) ∧ Witness r vals ∧
      (CliEnforced symtab n entries vals ↔ CliSameBound N declared symtab n entries full) := by
  obtain ⟨vals, h1, h2, h3, -, h4⟩ := calc_ok hc hsmall h
  refine ⟨vals, h1, h2, h3, ?_, ?_⟩
  · rintro he j ⟨a, c⟩ name v z' hr hgv ⟨k, u, dims, path, y, g1, g2, rfl, g4, g5⟩
    have e1 := he j a c _ v hr hgv
    have e2 := h4 k u dims path j y z' g1 g2 hr.1 g4 g5
    rw [e1] at e2
    exact (Option.some.inj e2).symm
  · intro he j a c name v hr hgv
    obtain ⟨z', hz'⟩ := hg j ⟨a, c⟩ name v hr hgv
    have e1 := he j ⟨a, c⟩ name v z' hr hgv hz'
    obtain ⟨k, u, dims, path, y, g1, g2, rfl, g4, g5⟩ := hz'
    rw [h4 k u dims path j y z' g1 g2 hr.1 g4 g5, e1]

variable {G1 G2 GT : Type} [AddCommGroup G1] [Module Fr G1] [AddCommGroup G2] [Module Fr G2] [AddCommGroup GT] [Module Fr GT]
  (S : Sys G1 G2 GT)

/-- **C94** (JS encrypt → JS decrypt) — the sender encrypts for `pub`; the receiver calls `decrypt` with any input object that gives values to the signals the
sender bound. The message comes out exactly if the circuit's program accepts the object and its values for those signals are the sender's; otherwise the call
throws. -/
theorem C94_js_to_js (data : Bytes) (hr : jsParseR1cs data = .ok r.toJs) (sym : Str) (pub : List (Str × JsVal))
    (hna : JsNoAlias (jsParseSymFile sym) pub) (hmax : JsSmall (jsParseSymFile sym) pub)
    (m : Bytes) (incl : Bool) (ρ : Rand Fr)
    (nonce : Bytes) (hn : nonce.length = 12) (hj : incl = true → ∀ s, S.stringify pub = .ok s → (utf8Enc s).length < 2 ^ 32)
    (combined key : Bytes) (henc : jsEncrypt S data sym pub m incl ρ nonce = .ok (combined, key))
    (hwf : WellFormed r) (hs : CtFits r) (hpriv : r.nPubOut + r.nPubIn + 1 < r.nWires) (hsmall : r.nWires < 2 ^ 26 - 8)
    (hc : Compiled x r (jsParseSymFile sym) declared)
    (full : List (Str × JsVal)) (hg : JsGivesBound N declared (jsParseSymFile sym) (r.nPubOut + r.nPubIn) pub full) :
    ((∃ w, calculateWitness N (.ok x) full = .ok w) ∧ JsSameBound N declared (jsParseSymFile sym) (r.nPubOut + r.nPubIn) pub full →
      jsDecryptApi N S data (.ok x) combined full = .ok m) ∧
    (¬ ((∃ w, calculateWitness N (.ok x) full = .ok w) ∧ JsSameBound N declared (jsParseSymFile sym) (r.nPubOut + r.nPubIn) pub full) →
      ∃ e, jsDecryptApi N S data (.ok x) combined full = .error e) := by
  unfold jsDecryptApi
  cases hw : calculateWitness N (.ok x) full with
  | error e =>
    refine ⟨fun h => absurd h.1 (by simp), fun _ => ?_⟩
    unfold jsDecrypt jsDecap
    cases h : splitJs combined with
    | error e' => exact ⟨e', rfl⟩
    | ok p => exact ⟨e, rfl⟩
  | ok w =>
    obtain ⟨vals, h1, -, h3, h4⟩ := js_same_iff hc hsmall hw hg
    obtain ⟨a, b⟩ := C77_js_to_js_exactly S data r hr sym pub hna hmax m incl ρ nonce hn hj combined key henc hwf hs hpriv w vals h1
    exact ⟨fun h => a ⟨h3.len, witness_accepted hwf h3, h4.2 h.2⟩, fun h => b fun h' => h ⟨⟨w, rfl⟩, h4.1 h'.2.2⟩⟩

/-- **C94** (JS encrypt → JS calculateWitness → CLI decrypt). -/
theorem C94_js_to_cli (data : Bytes) (hd : data.length < 2 ^ 31) (hr : cliParseR1cs S.lim data = .ok r) (sym : Str) (pub : List (Str × JsVal))
    (hna : JsNoAlias (jsParseSymFile sym) pub) (hmax : JsSmall (jsParseSymFile sym) pub)
    (m : Bytes) (incl : Bool) (ρ : Rand Fr)
    (nonce : Bytes) (hn : nonce.length = 12) (hj : incl = true → ∀ s, S.stringify pub = .ok s → (utf8Enc s).length < 2 ^ 32)
    (combined key : Bytes) (henc : jsEncrypt S data sym pub m incl ρ nonce = .ok (combined, key))
    (hwf : WellFormed r) (hs : CtFits r) (hpriv : r.nPubOut + r.nPubIn + 1 < r.nWires) (hsmall : r.nWires < 2 ^ 26 - 8)
    (hc : Compiled x r (jsParseSymFile sym) declared)
    (full : List (Str × JsVal)) (hg : JsGivesBound N declared (jsParseSymFile sym) (r.nPubOut + r.nPubIn) pub full)
    (w : Bytes) (hw : calculateWitness N (.ok x) full = .ok w)
    (fs : FS) (circuit witness ciphertext output : Path) (hdata : fs circuit = some data) (hct : fs ciphertext = some combined)
    (hwd : fs witness = some w) (hl : m.length ≤ S.cipher.maxDec .cli) :
    (JsSameBound N declared (jsParseSymFile sym) (r.nPubOut + r.nPubIn) pub full →
      (decryptCommand S circuit witness ciphertext output).exec fs = (fs.set output m, .ok ())) ∧
    (¬ JsSameBound N declared (jsParseSymFile sym) (r.nPubOut + r.nPubIn) pub full →
      ∃ e, (decryptCommand S circuit witness ciphertext output).exec fs = (fs, .error e)) := by
  obtain ⟨vals, -, h2, h3, h4⟩ := js_same_iff hc hsmall hw hg
  obtain ⟨a, b⟩ := C77_js_to_cli_exactly S data hd r hr sym pub hna hmax m incl ρ nonce hn hj combined key henc hwf hs hpriv fs circuit witness ciphertext
    output w vals hdata hct hwd (h2 (by omega)) hl
  exact ⟨fun h => a ⟨witness_accepted hwf h3, h4.2 h⟩, fun h => b fun h' => h (h4.1 h'.2)⟩

/-- **C94** (CLI encrypt → JS decrypt). -/
theorem C94_cli_to_js (fs fs' : FS) (circuit sym input message output : Path) (symtab : AMap Nat)
    (entries : List (Str × Json)) (hfiles : CliFiles S fs circuit sym input r symtab entries) (m : Bytes) (hm : fs message = some m)
    (incl : Bool) (ρ : Rand Fr) (nonce : Bytes) (hn : nonce.length = 12)
    (hj : incl = true → ∀ j, fs input = some j → j.length < 2 ^ 32)
    (henc : (encryptCommand S circuit sym input message output incl ρ nonce).exec fs = (fs', .ok ()))
    (hwf : WellFormed r) (hs : CtFits r) (hpriv : r.nPubIn + 1 < r.nWires) (hsmall : r.nWires < 2 ^ 26 - 8)
    (hna : NoAlias symtab (some r.nPubIn) entries)
    (data : Bytes) (hdata : fs circuit = some data) (hd : data.length < 2 ^ 31) (combined : Bytes) (hct : fs' output = some combined)
    (hc : Compiled x r symtab declared) (full : List (Str × JsVal)) (hg : CliGivesBound N declared symtab r.nPubIn entries full)
    (hl : m.length ≤ S.cipher.maxDec .js) :
    ((∃ w, calculateWitness N (.ok x) full = .ok w) ∧ CliSameBound N declared symtab r.nPubIn entries full →
      jsDecryptApi N S data (.ok x) combined full = .ok m) ∧
    (¬ ((∃ w, calculateWitness N (.ok x) full = .ok w) ∧ CliSameBound N declared symtab r.nPubIn entries full) →
      ∃ e, jsDecryptApi N S data (.ok x) combined full = .error e) := by
  unfold jsDecryptApi
  cases hw : calculateWitness N (.ok x) full with
  | error e =>
    refine ⟨fun h => absurd h.1 (by simp), fun _ => ?_⟩
    unfold jsDecrypt jsDecap
    cases h : splitJs combined with
    | error e' => exact ⟨e', rfl⟩
    | ok p => exact ⟨e, rfl⟩
  | ok w =>
    obtain ⟨vals, h1, -, h3, h4⟩ := cli_same_iff hc hsmall hw hg
    obtain ⟨a, b⟩ := C77_cli_to_js_exactly S fs fs' circuit sym input message output r symtab entries hfiles m hm incl ρ nonce hn hj henc hwf hs hpriv hna
      data hdata hd combined hct w vals h1 hl
    exact ⟨fun h => a ⟨h3.len, witness_accepted hwf h3, h4.2 h.2⟩, fun h => b fun h' => h ⟨⟨w, rfl⟩, h4.1 h'.2.2⟩⟩

/-- **C94** (CLI encrypt → JS calculateWitness → CLI decrypt). -/
theorem C94_cli_to_cli (fs fs' : FS) (circuit sym input message output : Path) (symtab : AMap Nat)
    (entries : List (Str × Json)) (hfiles : CliFiles S fs circuit sym input r symtab entries) (m : Bytes) (hm : fs message = some m)
    (incl : Bool) (ρ : Rand Fr) (nonce : Bytes) (hn : nonce.length = 12)
    (hj : incl = true → ∀ j, fs input = some j → j.length < 2 ^ 32)
    (henc : (encryptCommand S circuit sym input message output incl ρ nonce).exec fs = (fs', .ok ()))
    (hwf : WellFormed r) (hs : CtFits r) (hpriv : r.nPubIn + 1 < r.nWires) (hsmall : r.nWires < 2 ^ 26 - 8)
    (hna : NoAlias symtab (some r.nPubIn) entries)
    (hc : Compiled x r symtab declared) (full : List (Str × JsVal)) (hg : CliGivesBound N declared symtab r.nPubIn entries full)
    (w : Bytes) (hw : calculateWitness N (.ok x) full = .ok w)
    (fs₂ : FS) (circuit₂ witness ciphertext output₂ : Path) (data : Bytes)
    (hdata : fs₂ circuit₂ = some data) (hcirc : cliParseR1cs S.lim data = .ok r)
    (hct : fs₂ ciphertext = fs' output) (hwd : fs₂ witness = some w) :
    (CliSameBound N declared symtab r.nPubIn entries full →
      (decryptCommand S circuit₂ witness ciphertext output₂).exec fs₂ = (fs₂.set output₂ m, .ok ())) ∧
    (¬ CliSameBound N declared symtab r.nPubIn entries full →
      ∃ e, (decryptCommand S circuit₂ witness ciphertext output₂).exec fs₂ = (fs₂, .error e)) := by
  obtain ⟨vals, -, h2, h3, h4⟩ := cli_same_iff hc hsmall hw hg
  obtain ⟨a, b⟩ := C77_cli_to_cli_exactly S fs fs' circuit sym input message output r symtab entries hfiles m hm incl ρ nonce hn hj henc hwf hs hpriv hna
    fs₂ circuit₂ witness ciphertext output₂ data w vals hdata hcirc hct hwd (h2 (by omega))
  exact ⟨fun h => a ⟨witness_accepted hwf h3, h4.2 h⟩, fun h => b fun h' => h (h4.1 h'.2)⟩

/-- **C94** (keys, JS encap → JS decap). -/
theorem C94_js_kem (data : Bytes) (hr : jsParseR1cs data = .ok r.toJs) (sym : Str) (pub : List (Str × JsVal))
    (hna : JsNoAlias (jsParseSymFile sym) pub) (hmax : JsSmall (jsParseSymFile sym) pub)
    (ρ : Rand Fr) (ct key : Bytes) (henc : jsEncap S data sym pub ρ = .ok (ct, key))
    (hwf : WellFormed r) (hpriv : r.nPubOut + r.nPubIn + 1 < r.nWires) (hsmall : r.nWires < 2 ^ 26 - 8)
    (hc : Compiled x r (jsParseSymFile sym) declared)
    (full : List (Str × JsVal)) (hg : JsGivesBound N declared (jsParseSymFile sym) (r.nPubOut + r.nPubIn) pub full) :
    ((∃ w, calculateWitness N (.ok x) full = .ok w) ∧ JsSameBound N declared (jsParseSymFile sym) (r.nPubOut + r.nPubIn) pub full →
      jsDecapApi N S data (.ok x) ct full = .ok key) ∧
    (¬ ((∃ w, calculateWitness N (.ok x) full = .ok w) ∧ JsSameBound N declared (jsParseSymFile sym) (r.nPubOut + r.nPubIn) pub full) →
      ∃ e, jsDecapApi N S data (.ok x) ct full = .error e) := by
  unfold jsDecapApi
  cases hw : calculateWitness N (.ok x) full with
  | error e => exact ⟨fun h => absurd h.1 (by simp), fun _ => ⟨e, rfl⟩⟩
  | ok w =>
    obtain ⟨vals, h1, -, h3, h4⟩ := js_same_iff hc hsmall hw hg
    obtain ⟨a, b⟩ := (C77_js_encap_exactly S data r hr sym pub hna hmax ρ ct key henc hwf hpriv).2 w vals h1
    exact ⟨fun h => a ⟨h3.len, witness_accepted hwf h3, h4.2 h.2⟩, fun h => b fun h' => h ⟨⟨w, rfl⟩, h4.1 h'.2.2⟩⟩

/-- **C94** (keys, CLI encap → JS decap). -/
theorem C94_cli_kem (fs fs' : FS) (circuit sym input ciphertext key : Path) (hne : ciphertext ≠ key) (symtab : AMap Nat)
    (entries : List (Str × Json)) (hfiles : CliFiles S fs circuit sym input r symtab entries) (ρ : Rand Fr)
    (henc : (encapCommand S circuit sym input ciphertext key ρ).exec fs = (fs', .ok ()))
    (hwf : WellFormed r) (hpriv : r.nPubIn + 1 < r.nWires) (hsmall : r.nWires < 2 ^ 26 - 8) (hna : NoAlias symtab (some r.nPubIn) entries)
    (data : Bytes) (hr : jsParseR1cs data = .ok r.toJs)
    (hc : Compiled x r symtab declared) (full : List (Str × JsVal)) (hg : CliGivesBound N declared symtab r.nPubIn entries full) :
    ∃ ct k, fs' ciphertext = some ct ∧ fs' key = some k ∧
      ((∃ w, calculateWitness N (.ok x) full = .ok w) ∧ CliSameBound N declared symtab r.nPubIn entries full →
        jsDecapApi N S data (.ok x) ct full = .ok k) ∧
      (¬ ((∃ w, calculateWitness N (.ok x) full = .ok w) ∧ CliSameBound N declared symtab r.nPubIn entries full) →
        ∃ e, jsDecapApi N S data (.ok x) ct full = .error e) := by
  obtain ⟨ct, k, k1, k2, -, k4⟩ := C77_cli_encap_exactly S fs fs' circuit sym input ciphertext key hne r symtab entries hfiles ρ henc hwf hpriv hna
  refine ⟨ct, k, k1, k2, ?_⟩
  unfold jsDecapApi
  cases hw : calculateWitness N (.ok x) full with
  | error e => exact ⟨fun h => absurd h.1 (by simp), fun _ => ⟨e, rfl⟩⟩
  | ok w =>
    obtain ⟨vals, h1, -, h3, h4⟩ := cli_same_iff hc hsmall hw hg
    obtain ⟨a, b⟩ := k4 data w vals hr h1
    exact ⟨fun h => a ⟨h3.len, witness_accepted hwf h3, h4.2 h.2⟩, fun h => b fun h' => h ⟨⟨w, rfl⟩, h4.1 h'.2.2⟩⟩

end

end Zkenc.Props
