import Verif.Spec.QuickStart
import Verif.Props.EndToEndExactly
/-!
# C93: the quick-start circuits do not bind the public value
-/

namespace Zkenc.Props

open Zkenc Zkenc.Spec Zkenc.InputSpec

variable {G1 G2 GT : Type} [AddCommGroup G1] [Module Fr G1] [AddCommGroup G2] [Module Fr G2] [AddCommGroup GT] [Module Fr GT]
  (S : Sys G1 G2 GT)

theorem quick_wf {r : R1csFile} {total : Option Fr} (hq : QuickStart r total) : WellFormed r :=
  ⟨by rw [hq.nPubOut, hq.nWires]; have := hq.nPubIn; omega, by rw [hq.nWires]; norm_num⟩

theorem quick_ct {r : R1csFile} {total : Option Fr} (hq : QuickStart r total) : CtFits r := by
  unfold CtFits
  have := hq.nPubIn
  rw [hq.nPubOut]
  omega

theorem quick_accepted {r : R1csFile} {total : Option Fr} (hq : QuickStart r total) (x out a b : Fr) :
    Accepted r [x, out, a, b] ↔ out = a + b ∧ Solves total a b := by
  have hwf := quick_wf hq
  have hal : r.nAlloc = 4 := by
    have h1 := nPublicInputs_eq hwf.fits
    have h2 := hwf.public_le
    have h3 := hq.nWires
    unfold R1csFile.nAlloc
    omega
  constructor
  · rintro ⟨val, h1, h2, h3⟩
    have h3 := (hq.constraints val h1.1).1 h3
    have e1 := h2 1 (by omega) (by omega)
    have e2 := h2 2 (by omega) (by omega)
    have e3 := h2 3 (by omega) (by omega)
    replace e1 : out = val 1 := Option.some.inj e1
    replace e2 : a = val 2 := Option.some.inj e2
    replace e3 : b = val 3 := Option.some.inj e3
    rw [← e1, ← e2, ← e3] at h3
    exact ⟨h3.1, fun t ht => by rw [← h3.1]; exact h3.2 t ht⟩
  · rintro ⟨rfl, hs⟩
    refine ⟨fun i => ([1, a + b, a, b] : List Fr).getD i 0, ?_, fun i h1 h2 => ?_, ?_⟩
    · refine ⟨rfl, fun i hi => ?_⟩
      rw [hal] at hi
      rw [List.getD_eq_getElem?_getD, List.getElem?_eq_none (by simpa using hi)]
      rfl
    · rw [hal] at h2
      interval_cases i <;> rfl
    · exact (hq.constraints _ rfl).2 ⟨rfl, hs⟩

theorem symbol_unique {symtab : AMap Nat} (hs : QuickStartSymbols symtab) {name : Str} {max : Option Nat} {i : Nat} (h : Resolves symtab max name i) :
    (name = "result".toList ∧ i = 1) ∨ (name = "publicValue".toList ∧ i = 2) ∨ (name = "privateValue".toList ∧ i = 3) := by
  have := (hs name i).1 ⟨h.1, fun k hk => by cases hk⟩
  simpa only [List.mem_cons, List.not_mem_nil, or_false, Prod.mk.injEq] using this

theorem quick_cli_noAlias {r : R1csFile} {total : Option Fr} (hq : QuickStart r total) {symtab : AMap Nat} (hs : QuickStartSymbols symtab)
    {entries : List (Str × Json)} (hno : ∀ x, ¬ Gives entries "result".toList x) : NoAlias symtab (some r.nPubIn) entries := by
  intro n n' i x x' h1 h2 g1 g2
  have hi := h1.2 _ rfl
  have := hq.nPubIn
  rcases symbol_unique hs h1 with ⟨rfl, rfl⟩ | ⟨rfl, rfl⟩ | ⟨rfl, rfl⟩
  · exact absurd g1 (hno x)
  · omega
  · omega

theorem quick_cli_enforced {symtab : AMap Nat} (hs : QuickStartSymbols symtab) {n : Nat}
    {entries : List (Str × Json)} (hno : ∀ x, ¬ Gives entries "result".toList x) (vals : List Fr) : CliEnforced symtab n entries vals := by
  intro j hj hsup
  obtain ⟨name, x, hr, hg⟩ := hsup 1 le_rfl hj
  rcases symbol_unique hs hr with ⟨rfl, h⟩ | ⟨rfl, h⟩ | ⟨rfl, h⟩
  · exact absurd hg (hno x)
  · omega
  · omega

/-- **C93** (CLI to CLI) — after `zkenc encrypt` with a quick-start circuit and an input file that names the inputs but not the output (such as
`{"publicValue": "42"}`), every pair of numbers that solves the circuit opens the message, whatever the public value was: `zkenc decrypt` writes the message if
the output in the witness is the sum of the two inputs in it (and 100, in the guide for Node.js), and otherwise fails. -/
theorem C93_cli_to_cli (fs fs' : FS) (circuit sym input message output : Path) (r : R1csFile) (total : Option Fr) (hq : QuickStart r total)
    (symtab : AMap Nat) (hsy : QuickStartSymbols symtab) (entries : List (Str × Json)) (hno : ∀ x, ¬ Gives entries "result".toList x)
    (hfiles : CliFiles S fs circuit sym input r symtab entries) (m : Bytes) (hm : fs message = some m)
    (incl : Bool) (ρ : Rand Fr) (nonce : Bytes) (hn : nonce.length = 12)
    (hj : incl = true → ∀ j, fs input = some j → j.length < 2 ^ 32)
    (henc : (encryptCommand S circuit sym input message output incl ρ nonce).exec fs = (fs', .ok ()))
    (fs₂ : FS) (circuit₂ witness ciphertext output₂ : Path) (data wdata : Bytes) (x out a b : Fr)
    (hdata : fs₂ circuit₂ = some data) (hcirc : cliParseR1cs S.lim data = .ok r)
    (hct : fs₂ ciphertext = fs' output) (hwd : fs₂ witness = some wdata) (hwit : CliWitness wdata [x, out, a, b]) :
    (out = a + b ∧ Solves total a b → (decryptCommand S circuit₂ witness ciphertext output₂).exec fs₂ = (fs₂.set output₂ m, .ok ())) ∧
    (¬ (out = a + b ∧ Solves total a b) → ∃ e, (decryptCommand S circuit₂ witness ciphertext output₂).exec fs₂ = (fs₂, .error e)) := by
  obtain ⟨h1, h2⟩ := C77_cli_to_cli_exactly S fs fs' circuit sym input message output r symtab entries hfiles m hm incl ρ nonce hn hj henc (quick_wf hq)
    (quick_ct hq) (by rw [hq.nWires]; have := hq.nPubIn; omega) (quick_cli_noAlias hq hsy hno) fs₂ circuit₂ witness ciphertext output₂ data wdata _
    hdata hcirc hct hwd hwit
  exact ⟨fun h => h1 ⟨(quick_accepted hq x out a b).2 h, quick_cli_enforced hsy hno _⟩, fun h => h2 fun h' => h ((quick_accepted hq x out a b).1 h'.1)⟩

/-- **C93** (CLI to JS) — the same when the message is opened with the library. -/
theorem C93_cli_to_js (fs fs' : FS) (circuit sym input message output : Path) (r : R1csFile) (total : Option Fr) (hq : QuickStart r total)
    (symtab : AMap Nat) (hsy : QuickStartSymbols symtab) (entries : List (Str × Json)) (hno : ∀ x, ¬ Gives entries "result".toList x)
    (hfiles : CliFiles S fs circuit sym input r symtab entries) (m : Bytes) (hm : fs message = some m)
    (incl : Bool) (ρ : Rand Fr) (nonce : Bytes) (hn : nonce.length = 12)
    (hj : incl = true → ∀ j, fs input = some j → j.length < 2 ^ 32)
    (henc : (encryptCommand S circuit sym input message output incl ρ nonce).exec fs = (fs', .ok ()))
    (data : Bytes) (hdata : fs circuit = some data) (hd : data.length < 2 ^ 31) (combined : Bytes) (hct : fs' output = some combined)
    (wtns : Bytes) (x out a b : Fr) (hwit : jsParseWtns wtns = .ok [x, out, a, b]) (hl : m.length ≤ S.cipher.maxDec .js) :
    (out = a + b ∧ Solves total a b → jsDecrypt S data (.ok wtns) combined = .ok m) ∧
    (¬ (out = a + b ∧ Solves total a b) → ∃ e, jsDecrypt S data (.ok wtns) combined = .error e) := by
  obtain ⟨h1, h2⟩ := C77_cli_to_js_exactly S fs fs' circuit sym input message output r symtab entries hfiles m hm incl ρ nonce hn hj henc (quick_wf hq)
    (quick_ct hq) (by rw [hq.nWires]; have := hq.nPubIn; omega) (quick_cli_noAlias hq hsy hno) data hdata hd combined hct wtns _ hwit hl
  exact ⟨fun h => h1 ⟨hq.nWires.symm, (quick_accepted hq x out a b).2 h, quick_cli_enforced hsy hno _⟩,
    fun h => h2 fun h' => h ((quick_accepted hq x out a b).1 h'.2.1)⟩

theorem quick_js_gives {v : JsVal} (hv : (∀ l, v ≠ .arr l) ∧ ∀ l, v ≠ .obj l) {name : Str} {u : JsVal}
    (h : JsGives [("publicValue".toList, v)] name u) : name = "publicValue".toList ∧ u = v := by
  obtain ⟨e, he, hat⟩ := h
  rw [List.mem_singleton] at he
  subst he
  cases hat with
  | elem h => exact absurd rfl (hv.1 _)
  | field h => exact absurd rfl (hv.2 _)
  | scalar _ _ => exact ⟨rfl, rfl⟩

theorem quick_js_noAlias {symtab : AMap Nat} {v : JsVal} (hv : (∀ l, v ≠ .arr l) ∧ ∀ l, v ≠ .obj l) :
    JsNoAlias symtab [("publicValue".toList, v)] := by
  intro n n' i u u' _ _ h1 h2
  rw [(quick_js_gives hv h1).2, (quick_js_gives hv h2).2]

theorem quick_js_small {symtab : AMap Nat} (hsy : QuickStartSymbols symtab) {v : JsVal} : JsSmall symtab [("publicValue".toList, v)] := by
  refine .of_lt fun n u i h1 _ => ?_
  rcases symbol_unique hsy h1 with ⟨-, rfl⟩ | ⟨-, rfl⟩ | ⟨-, rfl⟩ <;> norm_num

theorem quick_js_enforced {symtab : AMap Nat} (hs : QuickStartSymbols symtab) {n : Nat} {v : JsVal} (hv : (∀ l, v ≠ .arr l) ∧ ∀ l, v ≠ .obj l)
    (vals : List Fr) : JsEnforced symtab n [("publicValue".toList, v)] vals := by
  intro j hj _ hsup
  obtain ⟨name, u, hr, hg⟩ := hsup 1 le_rfl hj
  obtain ⟨rfl, -⟩ := quick_js_gives hv hg
  rcases symbol_unique hs hr with ⟨h, -⟩ | ⟨-, h⟩ | ⟨-, h⟩
  · exact absurd h (by decide)
  · omega
  · omega

/-- **C93** (JS to JS) — after `encrypt(files, { publicValue: v }, message)` of the library with a quick-start circuit and its symbol file, exactly the pairs of
numbers that solve the circuit open the message, whatever `v` was. -/
theorem C93_js_to_js (data : Bytes) (r : R1csFile) (total : Option Fr) (hq : QuickStart r total) (hr : jsParseR1cs data = .ok r.toJs) (sym : Str)
    (hsy : QuickStartSymbols (jsParseSymFile sym)) (v : JsVal) (hv : (∀ l, v ≠ .arr l) ∧ ∀ l, v ≠ .obj l) (m : Bytes) (incl : Bool) (ρ : Rand Fr)
    (nonce : Bytes) (hn : nonce.length = 12)
    (hj : incl = true → ∀ s, S.stringify [("publicValue".toList, v)] = .ok s → (utf8Enc s).length < 2 ^ 32)
    (combined key : Bytes) (henc : jsEncrypt S data sym [("publicValue".toList, v)] m incl ρ nonce = .ok (combined, key))
    (wtns : Bytes) (x out a b : Fr) (hwit : jsParseWtns wtns = .ok [x, out, a, b]) :
    (out = a + b ∧ Solves total a b → jsDecrypt S data (.ok wtns) combined = .ok m) ∧
    (¬ (out = a + b ∧ Solves total a b) → ∃ e, jsDecrypt S data (.ok wtns) combined = .error e) := by
  obtain ⟨h1, h2⟩ := C77_js_to_js_exactly S data r hr sym _ (quick_js_noAlias hv) (quick_js_small hsy) m incl ρ nonce hn hj combined key henc (quick_wf hq)
    (quick_ct hq) (by rw [hq.nPubOut, hq.nWires]; have := hq.nPubIn; omega) wtns _ hwit
  exact ⟨fun h => h1 ⟨hq.nWires.symm, (quick_accepted hq x out a b).2 h, quick_js_enforced hsy hv _⟩,
    fun h => h2 fun h' => h ((quick_accepted hq x out a b).1 h'.2.1)⟩

/-- **C93** (JS to CLI). -/
theorem C93_js_to_cli (data : Bytes) (hd : data.length < 2 ^ 31) (r : R1csFile) (total : Option Fr) (hq : QuickStart r total)
    (hr : cliParseR1cs S.lim data = .ok r) (sym : Str)
    (hsy : QuickStartSymbols (jsParseSymFile sym)) (v : JsVal) (hv : (∀ l, v ≠ .arr l) ∧ ∀ l, v ≠ .obj l) (m : Bytes) (incl : Bool) (ρ : Rand Fr)
    (nonce : Bytes) (hn : nonce.length = 12)
    (hj : incl = true → ∀ s, S.stringify [("publicValue".toList, v)] = .ok s → (utf8Enc s).length < 2 ^ 32)
    (combined key : Bytes) (henc : jsEncrypt S data sym [("publicValue".toList, v)] m incl ρ nonce = .ok (combined, key))
    (fs : FS) (circuit witness ciphertext output : Path) (wdata : Bytes) (x out a b : Fr)
    (hdata : fs circuit = some data) (hct : fs ciphertext = some combined) (hwd : fs witness = some wdata)
    (hwit : CliWitness wdata [x, out, a, b]) (hl : m.length ≤ S.cipher.maxDec .cli) :
    (out = a + b ∧ Solves total a b → (decryptCommand S circuit witness ciphertext output).exec fs = (fs.set output m, .ok ())) ∧
    (¬ (out = a + b ∧ Solves total a b) → ∃ e, (decryptCommand S circuit witness ciphertext output).exec fs = (fs, .error e)) := by
  obtain ⟨h1, h2⟩ := C77_js_to_cli_exactly S data hd r hr sym _ (quick_js_noAlias hv) (quick_js_small hsy) m incl ρ nonce hn hj combined key henc (quick_wf hq)
    (quick_ct hq) (by rw [hq.nPubOut, hq.nWires]; have := hq.nPubIn; omega) fs circuit witness ciphertext output wdata _ hdata hct hwd hwit hl
  exact ⟨fun h => h1 ⟨(quick_accepted hq x out a b).2 h, quick_js_enforced hsy hv _⟩, fun h => h2 fun h' => h ((quick_accepted hq x out a b).1 h'.1)⟩

end Zkenc.Props
