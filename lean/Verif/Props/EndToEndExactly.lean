import Verif.Props.EndToEndEnforced
/-!
# C77: exactly which witnesses open a ciphertext

With the circuit it was made for, a ciphertext is opened by exactly those witnesses that satisfy the circuit and carry the public values that are enforced;
with all others the commands fail and change no file.
-/

namespace Zkenc.Props

open Zkenc Zkenc.Spec Zkenc.InputSpec

variable {G1 G2 GT : Type} [AddCommGroup G1] [Module Fr G1] [AddCommGroup G2] [Module Fr G2] [AddCommGroup GT] [Module Fr GT]
  (S : Sys G1 G2 GT)

/-- `vals` has the values of the unbroken run of wires 1, 2, … that `w` assigns, up to wire `n` (proof helper). -/
def RunAgrees (n : Nat) (w : Nat → Option Fr) (vals : List Fr) : Prop :=
  ∀ j, 1 ≤ j → j ≤ n → (∀ i, 1 ≤ i → i ≤ j → w i ≠ none) → vals[j]? = w j

theorem cli_run_of_enforced {n : Nat} {h : HashOrder} {sym : Str} {symtab : AMap Nat} {entries : List (Str × Json)} {w : WireMap} {m : Nat} {vals : List Fr}
    (hsym : parseSymFile sym = .ok symtab) (hw : cliAssign h n sym (.obj entries) = .ok w) (hna : NoAlias symtab (some n) entries)
    (he : CliEnforced symtab n entries vals) : RunAgrees m w vals := by
  have hwires := ((C38_cli_wires h n sym entries w hsym hna).1 hw).2
  have hgive : ∀ i x, 1 ≤ i → w i = some x → ∃ name, Resolves symtab (some n) name i ∧ Gives entries name x := by
    intro i x h1 hx
    rcases (hwires i x).1 hx with h | ⟨-, rfl, -⟩
    · exact h
    · omega
  intro j hj _ hrun
  cases hx : w j with
  | none => exact absurd hx (hrun j hj le_rfl)
  | some x =>
    obtain ⟨name, hr, hg⟩ := hgive j x hj hx
    refine he j hj (fun i h1 h2 => ?_) name x hr hg
    cases hy : w i with
    | none => exact absurd hy (hrun i h1 h2)
    | some y =>
      obtain ⟨name', hr', hg'⟩ := hgive i y h1 hy
      exact ⟨name', y, hr', hg'⟩

theorem js_run_of_enforced {n : Nat} {sym : Str} {inputs : List (Str × JsVal)} {w : WireMap} {vals : List Fr}
    (hna : JsNoAlias (jsParseSymFile sym) inputs) (hmax : JsSmall (jsParseSymFile sym) inputs) (hw : jsAssign n sym inputs = .ok w)
    (he : JsEnforced (jsParseSymFile sym) n inputs vals) : RunAgrees n w vals := by
  obtain ⟨zs, hz, hend, h3⟩ := jsAssign_ok n sym inputs hna w hw
  have hl : zs.length < 2 ^ 25 := hmax.run_lt fun k hk => by
    obtain ⟨name, v, s, g1, g2, -⟩ := hz k hk
    exact ⟨name, v, g1, g2⟩
  have hwi := h3 (by omega)
  intro j hj hjn hrun
  obtain ⟨i, rfl⟩ : ∃ i, j = i + 1 := ⟨j - 1, by omega⟩
  have hat : ∀ k, k ≤ i → w (k + 1) = (zs[k]?).map fun v => (((v % 2 ^ 256).toNat : Nat) : Fr) := by
    intro k hk
    rw [hwi, if_pos (by omega)]
    simp only [List.map_cons, List.getElem?_cons_succ, List.getElem?_map]
  have hil : i < zs.length := by
    by_contra hc
    refine hrun (i + 1) hj le_rfl ?_
    rw [hat i le_rfl, List.getElem?_eq_none (by omega)]
    rfl
  obtain ⟨name, v, s, hr, hg, ht, hb⟩ := hz i hil
  rw [hat i le_rfl, List.getElem?_eq_getElem hil]
  refine he (i + 1) hj hjn (fun k h1 h2 => ?_) name v s _ hr hg ht hb
  obtain ⟨k', rfl⟩ : ∃ k', k = k' + 1 := ⟨k - 1, by omega⟩
  obtain ⟨name', v', s', hr', hg', -⟩ := hz k' (by omega)
  exact ⟨name', v', hr', hg'⟩

/-- A witness that is accepted and agrees with the enforced values recovers the key. -/
theorem decap_of_accepted {S : Sys G1 G2 GT} {tEnc tDec : Tool} {r : R1csFile} (hf : PublicFits r) {w : Nat → Option Fr}
    (hm : SomeWireMissing r w) {ρ : Rand Fr} {ct : Ciphertext Fr G1 G2} {key : Key}
    (h : encap S.P S.dom (tEnc.circuit r w) ρ = .ok (ct, key)) {vals : List Fr} (hv : Accepted r vals)
    (hag : RunAgrees (r.nPubOut + r.nPubIn) w vals) : decap S.P (tDec.circuit r (fullWires vals)) ct = .ok key := by
  obtain ⟨val, h1, h2, h3⟩ := hv
  obtain ⟨b1, b2, b3⟩ := C08_bound_public_inputs S.P S.dom tEnc r hf w ρ ct key h
  refine C01_roundtrip S.P S.dom tEnc tDec r hf w hm ρ ct key h val h1 h3 ?_ (fullWires vals) h2
  intro i hi
  have hj := hag (i + 1) (by omega) (by omega) fun k k1 k2 hn => by
    obtain ⟨k', rfl⟩ : ∃ k', k = k' + 1 := ⟨k - 1, by omega⟩
    rw [b1 k' (by omega)] at hn
    cases hn
  rw [b1 i hi] at hj
  have hlt : i + 1 < r.nAlloc := by
    have := nPublicInputs_eq hf
    unfold R1csFile.nAlloc
    omega
  have := h2 (i + 1) (by omega) hlt
  unfold fullWires at this
  rw [hj] at this
  exact Option.some.inj this

/-! ## The four tool pairs, messages -/

theorem sealed_exactly_cli {S : Sys G1 G2 GT} {t : Tool} {r : R1csFile} {w : Nat → Option Fr} {m combined : Bytes} (h : Sealed S t r w m combined)
    (hf : PublicFits r) (hs : CtFits r) (hw : ∀ i, r.nPubOut + r.nPubIn < i → w i = none) (hmiss : SomeWireMissing r w)
    {fs : FS} {circuit witness ciphertext output : Path} {data wdata : Bytes} (h1 : fs circuit = some data)
    (h2 : cliParseR1cs S.lim data = .ok r) (h3 : fs witness = some wdata) {vals : List Fr} (h4 : CliWitness wdata vals)
    (hc : fs ciphertext = some combined) (hl : m.length ≤ S.cipher.maxDec .cli) :
    (Accepted r vals ∧ RunAgrees (r.nPubOut + r.nPubIn) w vals →
      (decryptCommand S circuit witness ciphertext output).exec fs = (fs.set output m, .ok ())) ∧
    (¬ (Accepted r vals ∧ RunAgrees (r.nPubOut + r.nPubIn) w vals) →
      ∃ e, (decryptCommand S circuit witness ciphertext output).exec fs = (fs, .error e)) := by
  constructor
  · rintro ⟨ha, hr⟩
    obtain ⟨ρ, ct, key, p, g1, g2, -, g4, -, g6⟩ := h.parts hf hs hw
    obtain ⟨wf, h4, h5⟩ := h4
    have hd := decap_of_accepted (tDec := .cli) hf hmiss g1 ha hr
    have g4' := g4 []
    rw [List.append_nil] at g4'
    unfold decryptCommand
    simp only [Cmd.readFile, Cmd.exec, hc, g2, Cmd.lift]
    rw [decapPart_exec S h1 h2 h3 h4 h5 (fun _ => rfl) g4' hd]
    simp only [g6 .cli hl, exec_writeFile, Cmd.exec]
  · intro hbad
    have hrun := run_exec (decryptCommand S circuit witness ciphertext output) fs
    rcases hx : (decryptCommand S circuit witness ciphertext output).exec fs with ⟨fs', e | u⟩
    · rw [hx] at hrun
      rcases (lastWrite_decrypt S circuit witness ciphertext output).runs hrun with ⟨rfl, -⟩ | ⟨b, n, h1, -, -⟩
      · exact ⟨e, rfl⟩
      · rw [hx] at h1; simp at h1
    · exfalso
      obtain ⟨data', r₂, wdata', vals', k1, k2, k3, k4, k5⟩ := sealed_enforced_cli h hf hs hw hc hx
      rw [h1] at k1; cases k1
      rw [h2] at k2; cases k2
      rw [h3] at k3; cases k3
      obtain ⟨wf, a1, a2⟩ := h4
      obtain ⟨wf', b1, b2⟩ := k4
      rw [a1] at b1; cases b1
      rw [a2] at b2; cases b2
      exact hbad (k5 hf)

theorem sealed_exactly_js {S : Sys G1 G2 GT} {t : Tool} {r : R1csFile} {w : Nat → Option Fr} {m combined : Bytes} (h : Sealed S t r w m combined)
    (hf : PublicFits r) (hs : CtFits r) (hw : ∀ i, r.nPubOut + r.nPubIn < i → w i = none) (hmiss : SomeWireMissing r w)
    {data wtns : Bytes} (h2 : jsParseR1cs data = .ok r.toJs) {vals : List Fr} (h4 : jsParseWtns wtns = .ok vals)
    (hl : m.length ≤ S.cipher.maxDec .js) :
    (vals.length = r.nWires ∧ Accepted r vals ∧ RunAgrees (r.nPubOut + r.nPubIn) w vals → jsDecrypt S data (.ok wtns) combined = .ok m) ∧
    (¬ (vals.length = r.nWires ∧ Accepted r vals ∧ RunAgrees (r.nPubOut + r.nPubIn) w vals) →
      ∃ e, jsDecrypt S data (.ok wtns) combined = .error e) := by
  constructor
  · rintro ⟨hlen, ha, hr⟩
    obtain ⟨ρ, ct, key, p, g1, -, g3, g4, -, g6⟩ := h.parts hf hs hw
    have hd := decap_of_accepted (tDec := .js) hf hmiss g1 ha hr
    rw [Tool.circuit] at hd
    have g4' := g4 []
    rw [List.append_nil] at g4'
    have hlen : ¬ vals.length ≠ r.toJs.nWires := by rw [hlen]; simp [R1csFile.toJs]
    simp only [jsDecrypt, jsDecap, wasmDecap, g3, Res.ok_bind, h2, h4, if_neg hlen, g4', Res.ofOption, hd, g6 .js hl]
  · intro hbad
    cases hx : jsDecrypt S data (.ok wtns) combined with
    | error e => exact ⟨e, rfl⟩
    | ok m' =>
      exfalso
      -- read the circuit back as `r` itself, whatever file gave the same parsed circuit
      obtain ⟨ρ, ct, key, p, g1, -, g3, g4, -, -⟩ := h.parts hf hs hw
      obtain ⟨p', k, k1, k2⟩ := js_decrypt_decap hx
      rw [g3] at k1; cases k1
      unfold jsDecap wasmDecap at k2
      rw [Res.ok_bind, h2, Res.ok_bind, h4, Res.ok_bind] at k2
      split_ifs at k2 with hne
      · cases k2
      · have g4' := g4 []
        rw [List.append_nil] at g4'
        rw [g4', Res.ofOption, Res.ok_bind] at k2
        obtain ⟨ky, k2, -⟩ := Res.bind_eq_ok.1 k2
        exact hbad ⟨not_not.1 hne, enforced (t' := .js) hf hf g1 k2⟩

/-- **C77** (CLI to CLI, exactly) — with the circuit the message was encrypted for, `zkenc decrypt` writes exactly the message if the witness satisfies the
circuit and carries the public values of the unbroken run of wires that were given values; otherwise it fails and changes no file. -/
theorem C77_cli_to_cli_exactly (fs fs' : FS) (circuit sym input message output : Path) (r : R1csFile) (symtab : AMap Nat)
    (entries : List (Str × Json)) (hfiles : CliFiles S fs circuit sym input r symtab entries) (m : Bytes) (hm : fs message = some m)
    (incl : Bool) (ρ : Rand Fr) (nonce : Bytes) (hn : nonce.length = 12)
    (hj : incl = true → ∀ j, fs input = some j → j.length < 2 ^ 32)
    (henc : (encryptCommand S circuit sym input message output incl ρ nonce).exec fs = (fs', .ok ()))
    (hwf : WellFormed r) (hs : CtFits r) (hpriv : r.nPubIn + 1 < r.nWires) (hna : NoAlias symtab (some r.nPubIn) entries)
    (fs₂ : FS) (circuit₂ witness ciphertext output₂ : Path) (data wdata : Bytes) (vals : List Fr)
    (hdata : fs₂ circuit₂ = some data) (hcirc : cliParseR1cs S.lim data = .ok r)
    (hct : fs₂ ciphertext = fs' output) (hwd : fs₂ witness = some wdata) (hwit : CliWitness wdata vals) :
    (Accepted r vals ∧ CliEnforced symtab r.nPubIn entries vals →
      (decryptCommand S circuit₂ witness ciphertext output₂).exec fs₂ = (fs₂.set output₂ m, .ok ())) ∧
    (¬ (Accepted r vals ∧ CliEnforced symtab r.nPubIn entries vals) →
      ∃ e, (decryptCommand S circuit₂ witness ciphertext output₂).exec fs₂ = (fs₂, .error e)) := by
  obtain ⟨w, symText, combined, h1, h2, rfl, hse⟩ := cli_sealed hfiles hm hn hj henc
  rw [FS.set_same] at hct
  obtain ⟨a, b⟩ := sealed_exactly_cli (output := output₂) hse hwf.fits hs (fun i hi => C40_cli_bound S.hash _ _ _ w h2 i (by omega))
    (cli_missing hwf hpriv rfl h2) hdata hcirc hwd hwit hct hse.message_le
  exact ⟨fun ⟨x, y⟩ => a ⟨x, cli_run_of_enforced h1 h2 hna y⟩, fun hbad => b fun ⟨x, y⟩ => hbad ⟨x, cli_enforced h1 h2 hna (by omega) y⟩⟩

/-- **C77** (CLI to JS, exactly). -/
theorem C77_cli_to_js_exactly (fs fs' : FS) (circuit sym input message output : Path) (r : R1csFile) (symtab : AMap Nat)
    (entries : List (Str × Json)) (hfiles : CliFiles S fs circuit sym input r symtab entries) (m : Bytes) (hm : fs message = some m)
    (incl : Bool) (ρ : Rand Fr) (nonce : Bytes) (hn : nonce.length = 12)
    (hj : incl = true → ∀ j, fs input = some j → j.length < 2 ^ 32)
    (henc : (encryptCommand S circuit sym input message output incl ρ nonce).exec fs = (fs', .ok ()))
    (hwf : WellFormed r) (hs : CtFits r) (hpriv : r.nPubIn + 1 < r.nWires) (hna : NoAlias symtab (some r.nPubIn) entries)
    (data : Bytes) (hdata : fs circuit = some data) (hd : data.length < 2 ^ 31) (combined : Bytes) (hct : fs' output = some combined)
    (wtns : Bytes) (vals : List Fr) (hwit : jsParseWtns wtns = .ok vals) (hl : m.length ≤ S.cipher.maxDec .js) :
    (vals.length = r.nWires ∧ Accepted r vals ∧ CliEnforced symtab r.nPubIn entries vals → jsDecrypt S data (.ok wtns) combined = .ok m) ∧
    (¬ (vals.length = r.nWires ∧ Accepted r vals ∧ CliEnforced symtab r.nPubIn entries vals) →
      ∃ e, jsDecrypt S data (.ok wtns) combined = .error e) := by
  obtain ⟨w, symText, combined', h1, h2, rfl, hse⟩ := cli_sealed hfiles hm hn hj henc
  rw [FS.set_same] at hct
  cases hct
  obtain ⟨data', g1, g2⟩ := hfiles.circuit
  rw [hdata] at g1; cases g1
  obtain ⟨a, b⟩ := sealed_exactly_js hse hwf.fits hs (fun i hi => C40_cli_bound S.hash _ _ _ w h2 i (by omega)) (cli_missing hwf hpriv rfl h2)
    (C23_js_agrees hd g2) hwit hl
  exact ⟨fun ⟨l, x, y⟩ => a ⟨l, x, cli_run_of_enforced h1 h2 hna y⟩, fun hbad => b fun ⟨l, x, y⟩ => hbad ⟨l, x, cli_enforced h1 h2 hna (by omega) y⟩⟩

/-- **C77** (JS to CLI, exactly). -/
theorem C77_js_to_cli_exactly (data : Bytes) (hd : data.length < 2 ^ 31) (r : R1csFile) (hr : cliParseR1cs S.lim data = .ok r) (sym : Str)
    (inputs : List (Str × JsVal)) (hna : JsNoAlias (jsParseSymFile sym) inputs) (hmax : JsSmall (jsParseSymFile sym) inputs) (m : Bytes)
    (incl : Bool) (ρ : Rand Fr) (nonce : Bytes) (hn : nonce.length = 12)
    (hj : incl = true → ∀ s, S.stringify inputs = .ok s → (utf8Enc s).length < 2 ^ 32)
    (combined key : Bytes) (henc : jsEncrypt S data sym inputs m incl ρ nonce = .ok (combined, key))
    (hwf : WellFormed r) (hs : CtFits r) (hpriv : r.nPubOut + r.nPubIn + 1 < r.nWires)
    (fs : FS) (circuit witness ciphertext output : Path) (wdata : Bytes) (vals : List Fr)
    (hdata : fs circuit = some data) (hct : fs ciphertext = some combined) (hwd : fs witness = some wdata)
    (hwit : CliWitness wdata vals) (hl : m.length ≤ S.cipher.maxDec .cli) :
    (Accepted r vals ∧ JsEnforced (jsParseSymFile sym) (r.nPubOut + r.nPubIn) inputs vals →
      (decryptCommand S circuit witness ciphertext output).exec fs = (fs.set output m, .ok ())) ∧
    (¬ (Accepted r vals ∧ JsEnforced (jsParseSymFile sym) (r.nPubOut + r.nPubIn) inputs vals) →
      ∃ e, (decryptCommand S circuit witness ciphertext output).exec fs = (fs, .error e)) := by
  obtain ⟨w, hw, hse⟩ := js_sealed (C23_js_agrees hd hr) hwf.fits hn hj henc
  obtain ⟨a, b⟩ := sealed_exactly_cli (output := output) hse hwf.fits hs (fun i hi => js_beyond hw i hi) (js_missing hwf hpriv hw) hdata hr hwd hwit hct hl
  exact ⟨fun ⟨x, y⟩ => a ⟨x, js_run_of_enforced hna hmax hw y⟩, fun hbad => b fun ⟨x, y⟩ => hbad ⟨x, js_enforced hna hmax hw y⟩⟩

/-- **C77** (JS to JS, exactly). -/
theorem C77_js_to_js_exactly (data : Bytes) (r : R1csFile) (hr : jsParseR1cs data = .ok r.toJs) (sym : Str) (inputs : List (Str × JsVal))
    (hna : JsNoAlias (jsParseSymFile sym) inputs) (hmax : JsSmall (jsParseSymFile sym) inputs) (m : Bytes) (incl : Bool) (ρ : Rand Fr)
    (nonce : Bytes) (hn : nonce.length = 12) (hj : incl = true → ∀ s, S.stringify inputs = .ok s → (utf8Enc s).length < 2 ^ 32)
    (combined key : Bytes) (henc : jsEncrypt S data sym inputs m incl ρ nonce = .ok (combined, key))
    (hwf : WellFormed r) (hs : CtFits r) (hpriv : r.nPubOut + r.nPubIn + 1 < r.nWires)
    (wtns : Bytes) (vals : List Fr) (hwit : jsParseWtns wtns = .ok vals) :
    (vals.length = r.nWires ∧ Accepted r vals ∧ JsEnforced (jsParseSymFile sym) (r.nPubOut + r.nPubIn) inputs vals →
      jsDecrypt S data (.ok wtns) combined = .ok m) ∧
    (¬ (vals.length = r.nWires ∧ Accepted r vals ∧ JsEnforced (jsParseSymFile sym) (r.nPubOut + r.nPubIn) inputs vals) →
      ∃ e, jsDecrypt S data (.ok wtns) combined = .error e) := by
  obtain ⟨w, hw, hse⟩ := js_sealed hr hwf.fits hn hj henc
  obtain ⟨a, b⟩ := sealed_exactly_js hse hwf.fits hs (fun i hi => js_beyond hw i hi) (js_missing hwf hpriv hw) hr hwit hse.message_le
  exact ⟨fun ⟨l, x, y⟩ => a ⟨l, x, js_run_of_enforced hna hmax hw y⟩, fun hbad => b fun ⟨l, x, y⟩ => hbad ⟨l, x, js_enforced hna hmax hw y⟩⟩

end Zkenc.Props
