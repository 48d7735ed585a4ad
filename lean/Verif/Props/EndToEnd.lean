import Verif.Proofs.EndToEnd
/-!
# C47, C48, C49, C46 (decryption): encrypting and decrypting whole messages
-/

namespace Zkenc.Props

open Zkenc Zkenc.Spec Zkenc.InputSpec

variable {G1 G2 GT : Type} [AddCommGroup G1] [Module Fr G1] [AddCommGroup G2] [Module Fr G2] [AddCommGroup GT] [Module Fr GT]
  (S : Sys G1 G2 GT)

/-! ## CLI -/

theorem CliFiles.assign {S : Sys G1 G2 GT} {fs : FS} {circuit sym input : Path} {r : R1csFile} {symtab : AMap Nat}
    {entries : List (Str × Json)} (hfiles : CliFiles S fs circuit sym input r symtab entries) {ρ : Rand Fr} {fs' : FS}
    {k : Bytes → Key → Bytes → Cmd} (h : (cliEncapPart S circuit sym input ρ k).exec fs = (fs', .ok ())) :
    ∃ w symText jsonB ct key, parseSymFile symText = .ok symtab ∧ cliAssign S.hash r.nPubIn symText (.obj entries) = .ok w ∧
      fs input = some jsonB ∧ encap S.P S.dom (cliCircuit r w) ρ = .ok (ct, key) ∧
      (k (encCiphertext S.c1 S.c2 ct) key jsonB).exec fs = (fs', .ok ()) := by
  obtain ⟨data, r', symB, symText, jsonB, jsonText, json, w, ct, key, h1, h2, h3, h4, h5, h6, h7, h8, h9, h10⟩ := encapPart_ok S h
  obtain ⟨data', g1, g2⟩ := hfiles.circuit
  obtain ⟨b, s, g3, g4, g5⟩ := hfiles.sym
  obtain ⟨b', s', g6, g7, g8⟩ := hfiles.input
  rw [h1] at g1; cases g1
  rw [h2] at g2; cases g2
  rw [h3] at g3; cases g3
  rw [h4] at g4; cases g4
  rw [h5] at g6; cases g6
  rw [h6] at g7; cases g7
  rw [h7] at g8; cases g8
  exact ⟨w, symText.toList, jsonB, ct, key, g5, h8, h5, h9, h10⟩

theorem cli_sealed {S : Sys G1 G2 GT} {fs fs' : FS} {circuit sym input message output : Path} {r : R1csFile} {symtab : AMap Nat}
    {entries : List (Str × Json)} (hfiles : CliFiles S fs circuit sym input r symtab entries) {m : Bytes}
    (hm : fs message = some m) {incl : Bool} {ρ : Rand Fr} {nonce : Bytes} (hn : nonce.length = 12)
    (hj : incl = true → ∀ j, fs input = some j → j.length < 2 ^ 32)
    (h : (encryptCommand S circuit sym input message output incl ρ nonce).exec fs = (fs', .ok ())) :
    ∃ w symText combined, parseSymFile symText = .ok symtab ∧ cliAssign S.hash r.nPubIn symText (.obj entries) = .ok w ∧
      fs' = fs.set output combined ∧ Sealed S .cli r w m combined := by
  obtain ⟨w, symText, jsonB, ct, key, h1, h2, h3, h4, h5⟩ := CliFiles.assign hfiles h
  simp only [exec_readFile_ok, exec_lift_ok, exec_writeFile] at h5
  obtain ⟨m', hm', enc, he, h5⟩ := h5
  rw [hm] at hm'; cases hm'
  simp only [Cmd.exec, Prod.mk.injEq, and_true] at h5
  refine ⟨w, symText, _, h1, h2, h5.symm, ρ, ct, key, enc, nonce, incl, _, hn, h4, he, ?_, rfl⟩
  intro hi
  rw [if_pos hi]
  exact hj hi jsonB h3

/-- **C47** (when does encryption succeed) — with a readable circuit, symbol table, input object and message, encryption fails exactly if
some value of the input object is not a field element, or the random `δ` is zero, or the message exceeds the library limit; otherwise
it writes the output file and nothing else. -/
theorem C47_encrypt_outcome (fs : FS) (circuit sym input message output : Path) (r : R1csFile) (symtab : AMap Nat)
    (entries : List (Str × Json)) (hfiles : CliFiles S fs circuit sym input r symtab entries) (m : Bytes) (hm : fs message = some m)
    (incl : Bool) (ρ : Rand Fr) (nonce : Bytes) (hn : nonce.length = 12) :
    (AllDenote entries ∧ ρ.delta ≠ 0 ∧ m.length ≤ S.cipher.maxEnc .cli →
      ∃ b, (encryptCommand S circuit sym input message output incl ρ nonce).exec fs = (fs.set output b, .ok ())) ∧
    (¬ (AllDenote entries ∧ ρ.delta ≠ 0 ∧ m.length ≤ S.cipher.maxEnc .cli) →
      ∃ e, (encryptCommand S circuit sym input message output incl ρ nonce).exec fs = (fs, .error e)) := by
  constructor
  · rintro ⟨ha, hδ, hl⟩
    obtain ⟨data, g1, g2⟩ := hfiles.circuit
    obtain ⟨b, s, g3, g4, g5⟩ := hfiles.sym
    obtain ⟨b', s', g6, g7, g8⟩ := hfiles.input
    obtain ⟨mi, hmi⟩ := (C38_cli_accepts_iff (.obj entries)).1.2 ⟨entries, rfl, ha⟩
    obtain ⟨ct, key, henc⟩ := (C07_encap_outcome_circom S.P S.dom .cli r
      (cliWires (inputSignals (S.hash.ord symtab) (some r.nPubIn)) (S.hash.ord mi)) ρ).2 hδ
    obtain ⟨enc, he, -⟩ := (C41_encrypt_outcome S.cipher .cli key.bytes nonce m hn).1 ⟨key.len, hl⟩
    refine ⟨combine incl (encCiphertext S.c1 S.c2 ct) (if incl then b' else []) enc, ?_⟩
    unfold encryptCommand
    rw [encapPart_of S g1 g2 g3 g4 g6 g7 g8 (by simp only [cliAssign, g5, hmi, Res.ok_bind]) henc]
    simp only [Cmd.readFile, Cmd.exec, hm, he, Cmd.lift, Cmd.writeFile, if_true]
  · intro hbad
    have hrun := run_exec (encryptCommand S circuit sym input message output incl ρ nonce) fs
    rcases hx : (encryptCommand S circuit sym input message output incl ρ nonce).exec fs with ⟨fs', e | u⟩
    · rw [hx] at hrun
      rcases (lastWrite_encrypt S circuit sym input message output incl ρ nonce).runs hrun with ⟨rfl, -⟩ | ⟨b, n, h1, -, -⟩
      · exact ⟨e, rfl⟩
      · rw [hx] at h1; simp at h1
    · exfalso
      apply hbad
      obtain ⟨w, symText, jsonB, ct, key, h1, h2, h3, h4, h5⟩ := CliFiles.assign hfiles hx
      simp only [exec_readFile_ok, exec_lift_ok, exec_writeFile] at h5
      obtain ⟨m', hm', enc, he, h5⟩ := h5
      rw [hm] at hm'; cases hm'
      refine ⟨?_, ?_, ?_⟩
      · unfold cliAssign at h2
        obtain ⟨st, -, h2⟩ := Res.bind_eq_ok.1 h2
        obtain ⟨mi, hmi, -⟩ := Res.bind_eq_ok.1 h2
        obtain ⟨e', he', ha⟩ := (C38_cli_accepts_iff (.obj entries)).1.1 ⟨mi, hmi⟩
        cases he'
        exact ha
      · intro hδ
        have := (C07_encap_outcome_circom S.P S.dom .cli r w ρ).1 hδ
        rw [Tool.circuit] at this
        rw [this] at h4
        cases h4
      · by_contra hc
        obtain ⟨e, he'⟩ := (C41_encrypt_outcome S.cipher .cli key.bytes nonce m hn).2 (by omega)
        rw [he'] at he
        cases he

/-- Opening on the CLI side. -/
theorem cli_open {S : Sys G1 G2 GT} {t : Tool} {r : R1csFile} {w : Nat → Option Fr} {m combined : Bytes} (h : Sealed S t r w m combined)
    (hwf : WellFormed r) (hs : CtFits r) (hw : ∀ i, r.nPubOut + r.nPubIn < i → w i = none) (hmiss : SomeWireMissing r w)
    {fs : FS} {circuit witness ciphertext output : Path} {data wdata : Bytes} (h1 : fs circuit = some data)
    (h2 : cliParseR1cs S.lim data = .ok r) (h3 : fs witness = some wdata) {vals : List Fr} (h4 : CliWitness wdata vals)
    (hv : Witness r vals) (hag : ∀ i x, 1 ≤ i → i ≤ r.nPubOut + r.nPubIn → w i = some x → vals[i]? = some x)
    (hc : fs ciphertext = some combined) (hl : m.length ≤ S.cipher.maxDec .cli) :
    (decryptCommand S circuit witness ciphertext output).exec fs = (fs.set output m, .ok ()) := by
  obtain ⟨ρ, ct, key, p, g1, g2, -, g4, -, g6⟩ := h.parts hwf.fits hs hw
  obtain ⟨wf, h4, h5⟩ := h4
  have hd := decap_of_witness S t .cli r hwf w hmiss ρ ct key g1 vals hv hag
  have g4' := g4 []
  rw [List.append_nil] at g4'
  unfold decryptCommand
  simp only [Cmd.readFile, Cmd.exec, hc, g2, Cmd.lift]
  rw [decapPart_exec S h1 h2 h3 h4 h5 (fun _ => rfl) g4' hd]
  simp only [g6 .cli hl, exec_writeFile, Cmd.exec]

/-- **C47** — CLI round trip. If `zkenc encrypt` succeeded on a circuit with at least one wire beyond the public inputs, then `zkenc decrypt`
with the same circuit, the written ciphertext and a witness file that holds a satisfying assignment with the given public values
writes exactly the message, and nothing else. (Without the hypothesis `hpriv` the claim is false: see C02.) -/
theorem C47_roundtrip (fs fs' : FS) (circuit sym input message output : Path) (r : R1csFile) (symtab : AMap Nat)
    (entries : List (Str × Json)) (hfiles : CliFiles S fs circuit sym input r symtab entries) (m : Bytes) (hm : fs message = some m)
    (incl : Bool) (ρ : Rand Fr) (nonce : Bytes) (hn : nonce.length = 12)
    (hj : incl = true → ∀ j, fs input = some j → j.length < 2 ^ 32)
    (henc : (encryptCommand S circuit sym input message output incl ρ nonce).exec fs = (fs', .ok ()))
    (hwf : WellFormed r) (hs : CtFits r) (hpriv : r.nPubIn + 1 < r.nWires)
    (fs₂ : FS) (circuit₂ witness ciphertext output₂ : Path) (data wdata : Bytes) (vals : List Fr)
    (hdata : fs₂ circuit₂ = some data) (hcirc : cliParseR1cs S.lim data = .ok r)
    (hct : fs₂ ciphertext = fs' output) (hwd : fs₂ witness = some wdata) (hwit : CliWitness wdata vals) (hv : Witness r vals)
    (hag : CliAgrees symtab r.nPubIn entries vals) :
    (decryptCommand S circuit₂ witness ciphertext output₂).exec fs₂ = (fs₂.set output₂ m, .ok ()) := by
  obtain ⟨w, symText, combined, h1, h2, rfl, hse⟩ := cli_sealed hfiles hm hn hj henc
  rw [FS.set_same] at hct
  exact cli_open hse hwf hs (fun i hi => C40_cli_bound S.hash _ _ _ w h2 i (by omega)) (cli_missing hwf hpriv rfl h2) hdata hcirc hwd hwit
    hv (fun i x _ _ hx => cli_agrees_wires h1 h2 hag hv.one i x hx) hct hse.message_le

/-- **C47** (never a wrong message) — whatever circuit and witness file are used, if `zkenc decrypt` succeeds on a ciphertext written by
`zkenc encrypt`, it wrote the original message. -/
theorem C47_decrypt_sound (fs fs' : FS) (circuit sym input message output : Path) (r : R1csFile) (symtab : AMap Nat)
    (entries : List (Str × Json)) (hfiles : CliFiles S fs circuit sym input r symtab entries) (m : Bytes) (hm : fs message = some m)
    (incl : Bool) (ρ : Rand Fr) (nonce : Bytes) (hn : nonce.length = 12)
    (hj : incl = true → ∀ j, fs input = some j → j.length < 2 ^ 32)
    (henc : (encryptCommand S circuit sym input message output incl ρ nonce).exec fs = (fs', .ok ()))
    (hwf : WellFormed r) (hs : CtFits r) (hpriv : r.nPubIn + 1 < r.nWires)
    (fs₂ fs₃ : FS) (circuit₂ witness ciphertext output₂ : Path) (hct : fs₂ ciphertext = fs' output)
    (hdec : (decryptCommand S circuit₂ witness ciphertext output₂).exec fs₂ = (fs₃, .ok ())) :
    fs₃ = fs₂.set output₂ m := by
  obtain ⟨w, symText, combined, h1, h2, rfl, hse⟩ := cli_sealed hfiles hm hn hj henc
  rw [FS.set_same] at hct
  obtain ⟨ρ', ct, key, p, g1, g2, -, g4, -, g6⟩ := hse.parts hwf.fits hs (fun i hi => C40_cli_bound S.hash _ _ _ w h2 i (by omega))
  unfold decryptCommand at hdec
  simp only [exec_readFile_ok, exec_lift_ok] at hdec
  obtain ⟨c, hc, p', hp, hdec⟩ := hdec
  rw [hct] at hc; cases hc
  rw [g2] at hp; cases hp
  obtain ⟨data, r', wdata, wf, vals, ct', key', -, -, -, -, -, k7, k8, k9⟩ := decapPart_ok S (ctB := p.witnessCt) (fun _ => rfl) hdec
  have g4' := g4 []
  rw [List.append_nil, k7] at g4'
  cases g4'
  have hk := (C10_unique_key S.P S.dom .cli r hwf.fits w (cli_missing hwf hpriv rfl h2) ρ' ct key g1 _ _ _ _ k8 k8).1
  subst hk
  simp only [exec_lift_ok, exec_writeFile] at k9
  obtain ⟨m', hm', k9⟩ := k9
  rw [g6 .cli hse.message_le] at hm'
  cases hm'
  simp only [Cmd.exec, Prod.mk.injEq, and_true] at k9
  exact k9.symm

/-! ## JS -/

theorem js_sealed {S : Sys G1 G2 GT} {data : Bytes} {r : R1csFile} (hr : jsParseR1cs data = .ok r.toJs) (hf : PublicFits r) {sym : Str}
    {inputs : List (Str × JsVal)} {m : Bytes} {incl : Bool} {ρ : Rand Fr} {nonce : Bytes} (hn : nonce.length = 12)
    (hj : incl = true → ∀ s, S.stringify inputs = .ok s → (utf8Enc s).length < 2 ^ 32) {combined key : Bytes}
    (h : jsEncrypt S data sym inputs m incl ρ nonce = .ok (combined, key)) :
    ∃ w, jsAssign (r.nPubOut + r.nPubIn) sym inputs = .ok w ∧ Sealed S .js r w m combined := by
  unfold jsEncrypt at h
  obtain ⟨⟨ctB, kB⟩, h1, h⟩ := Res.bind_eq_ok.1 h
  obtain ⟨enc, h2, h⟩ := Res.bind_eq_ok.1 h
  obtain ⟨pub, h3, h⟩ := Res.bind_eq_ok.1 h
  cases h
  unfold jsEncap at h1
  obtain ⟨wtns, h4, h1⟩ := Res.bind_eq_ok.1 h1
  unfold wasmEncap at h1
  rw [hr, Res.ok_bind] at h1
  obtain ⟨vals, h5, h1⟩ := Res.bind_eq_ok.1 h1
  obtain ⟨⟨ct, k⟩, h6, h1⟩ := Res.bind_eq_ok.1 h1
  cases h1
  have hnp : r.toJs.nPublicInputs = r.nPubOut + r.nPubIn := nPublicInputs_eq hf
  rw [hnp] at h6
  refine ⟨_, by rw [jsAssign, h4, Res.ok_bind, h5, Res.ok_bind], ρ, ct, k, enc, nonce, incl, pub, hn, h6, h2, ?_, rfl⟩
  intro hi
  rw [if_pos hi] at h3
  obtain ⟨s, hs, h3⟩ := Res.bind_eq_ok.1 h3
  cases h3
  exact hj hi s hs

/-- Opening on the JS side. -/
theorem js_open {S : Sys G1 G2 GT} {t : Tool} {r : R1csFile} {w : Nat → Option Fr} {m combined : Bytes} (h : Sealed S t r w m combined)
    (hwf : WellFormed r) (hs : CtFits r) (hw : ∀ i, r.nPubOut + r.nPubIn < i → w i = none) (hmiss : SomeWireMissing r w)
    {data wtns : Bytes} (h2 : jsParseR1cs data = .ok r.toJs) {vals : List Fr} (h4 : jsParseWtns wtns = .ok vals)
    (hv : Witness r vals) (hag : ∀ i x, 1 ≤ i → i ≤ r.nPubOut + r.nPubIn → w i = some x → vals[i]? = some x)
    (hl : m.length ≤ S.cipher.maxDec .js) : jsDecrypt S data (.ok wtns) combined = .ok m := by
  obtain ⟨ρ, ct, key, p, g1, -, g3, g4, -, g6⟩ := h.parts hwf.fits hs hw
  have hd := decap_of_witness S t .js r hwf w hmiss ρ ct key g1 vals hv hag
  rw [Tool.circuit] at hd
  have g4' := g4 []
  rw [List.append_nil] at g4'
  have hlen : ¬ vals.length ≠ r.toJs.nWires := by rw [hv.len]; simp [R1csFile.toJs]
  simp only [jsDecrypt, jsDecap, wasmDecap, g3, Res.ok_bind, h2, h4, if_neg hlen, g4', Res.ofOption, hd, g6 .js hl]

/-- Two wires missing for JS: everything beyond the public wires. -/
theorem js_missing {sym : Str} {inputs : List (Str × JsVal)} {w : WireMap} {r : R1csFile} (hwf : WellFormed r)
    (hp : r.nPubOut + r.nPubIn + 1 < r.nWires) (hw : jsAssign (r.nPubOut + r.nPubIn) sym inputs = .ok w) : SomeWireMissing r w :=
  ⟨r.nPubOut + r.nPubIn + 1, by omega, by rw [hwf.nAlloc]; exact hp, js_beyond hw _ (by omega)⟩

/-- **C48** (JS to JS). If JS `encrypt` succeeded on a circuit with a private wire, `decrypt` with the same circuit and a witness that
satisfies it with the given public values returns exactly the message. -/
theorem C48_js_to_js (data : Bytes) (r : R1csFile) (hr : jsParseR1cs data = .ok r.toJs) (sym : Str) (inputs : List (Str × JsVal))
    (hna : JsNoAlias (jsParseSymFile sym) inputs) (hmax : JsSmall (jsParseSymFile sym) inputs) (m : Bytes) (incl : Bool) (ρ : Rand Fr)
    (nonce : Bytes) (hn : nonce.length = 12) (hj : incl = true → ∀ s, S.stringify inputs = .ok s → (utf8Enc s).length < 2 ^ 32)
    (combined key : Bytes) (henc : jsEncrypt S data sym inputs m incl ρ nonce = .ok (combined, key))
    (hwf : WellFormed r) (hs : CtFits r) (hpriv : r.nPubOut + r.nPubIn + 1 < r.nWires)
    (wtns : Bytes) (vals : List Fr) (hwit : jsParseWtns wtns = .ok vals) (hv : Witness r vals)
    (hag : JsAgrees (jsParseSymFile sym) (r.nPubOut + r.nPubIn) inputs vals) :
    jsDecrypt S data (.ok wtns) combined = .ok m := by
  obtain ⟨w, hw, hse⟩ := js_sealed hr hwf.fits hn hj henc
  exact js_open hse hwf hs (fun i hi => js_beyond hw i hi) (js_missing hwf hpriv hw) hr hwit hv
    (fun i x h1 _ hx => js_agrees_wires hna hmax hw hag i x h1 hx) hse.message_le

/-- **C48** (JS to CLI). -/
theorem C48_js_to_cli (data : Bytes) (hd : data.length < 2 ^ 31) (r : R1csFile) (hr : cliParseR1cs S.lim data = .ok r) (sym : Str)
    (inputs : List (Str × JsVal)) (hna : JsNoAlias (jsParseSymFile sym) inputs) (hmax : JsSmall (jsParseSymFile sym) inputs) (m : Bytes)
    (incl : Bool) (ρ : Rand Fr) (nonce : Bytes) (hn : nonce.length = 12)
    (hj : incl = true → ∀ s, S.stringify inputs = .ok s → (utf8Enc s).length < 2 ^ 32)
    (combined key : Bytes) (henc : jsEncrypt S data sym inputs m incl ρ nonce = .ok (combined, key))
    (hwf : WellFormed r) (hs : CtFits r) (hpriv : r.nPubOut + r.nPubIn + 1 < r.nWires)
    (fs : FS) (circuit witness ciphertext output : Path) (wdata : Bytes) (vals : List Fr)
    (hdata : fs circuit = some data) (hct : fs ciphertext = some combined) (hwd : fs witness = some wdata)
    (hwit : CliWitness wdata vals) (hv : Witness r vals)
    (hag : JsAgrees (jsParseSymFile sym) (r.nPubOut + r.nPubIn) inputs vals) (hl : m.length ≤ S.cipher.maxDec .cli) :
    (decryptCommand S circuit witness ciphertext output).exec fs = (fs.set output m, .ok ()) := by
  obtain ⟨w, hw, hse⟩ := js_sealed (C23_js_agrees hd hr) hwf.fits hn hj henc
  exact cli_open hse hwf hs (fun i hi => js_beyond hw i hi) (js_missing hwf hpriv hw) hdata hr hwd hwit hv
    (fun i x h1 _ hx => js_agrees_wires hna hmax hw hag i x h1 hx) hct hl

/-- **C48** (CLI to JS). -/
theorem C48_cli_to_js (fs fs' : FS) (circuit sym input message output : Path) (r : R1csFile) (symtab : AMap Nat)
    (entries : List (Str × Json)) (hfiles : CliFiles S fs circuit sym input r symtab entries) (m : Bytes) (hm : fs message = some m)
    (incl : Bool) (ρ : Rand Fr) (nonce : Bytes) (hn : nonce.length = 12)
    (hj : incl = true → ∀ j, fs input = some j → j.length < 2 ^ 32)
    (henc : (encryptCommand S circuit sym input message output incl ρ nonce).exec fs = (fs', .ok ()))
    (hwf : WellFormed r) (hs : CtFits r) (hpriv : r.nPubIn + 1 < r.nWires)
    (data : Bytes) (hdata : fs circuit = some data) (hd : data.length < 2 ^ 31) (combined : Bytes) (hct : fs' output = some combined)
    (wtns : Bytes) (vals : List Fr) (hwit : jsParseWtns wtns = .ok vals) (hv : Witness r vals)
    (hag : CliAgrees symtab r.nPubIn entries vals) (hl : m.length ≤ S.cipher.maxDec .js) :
    jsDecrypt S data (.ok wtns) combined = .ok m := by
  obtain ⟨w, symText, combined', h1, h2, rfl, hse⟩ := cli_sealed hfiles hm hn hj henc
  rw [FS.set_same] at hct
  cases hct
  obtain ⟨data', g1, g2⟩ := hfiles.circuit
  rw [hdata] at g1; cases g1
  exact js_open hse hwf hs (fun i hi => C40_cli_bound S.hash _ _ _ w h2 i (by omega)) (cli_missing hwf hpriv rfl h2)
    (C23_js_agrees hd g2) hwit hv (fun i x _ _ hx => cli_agrees_wires h1 h2 hag hv.one i x hx) hl

/-! ## C49: anyone can decrypt -/

theorem attack_opens {S : Sys G1 G2 GT} {t : Tool} {r : R1csFile} {w : Nat → Option Fr} {m combined : Bytes}
    (h : Sealed S t r w m combined) (hf : PublicFits r) (hs : CtFits r) (hw : ∀ i, r.nPubOut + r.nPubIn < i → w i = none)
    (hl : m.length ≤ S.cipher.maxDec .cli) : openWithoutWitness S combined = .ok m := by
  obtain ⟨ρ, ct, key, p, g1, g2, -, g4, g5, g6⟩ := h.parts hf hs hw
  have g4' := g4 []
  rw [List.append_nil] at g4'
  unfold openWithoutWitness
  rw [g2, Res.ok_bind, g4']
  simp only [Res.ofOption, Res.ok_bind, g5, g6 .cli hl]

/-- **C49** (CLI) — every ciphertext written by `zkenc encrypt` is opened by one fixed procedure that needs neither circuit nor witness:
for every circuit (satisfiable or not, with or without private wires) and all inputs. -/
theorem C49_cli_opened_by_anyone (fs fs' : FS) (circuit sym input message output : Path) (r : R1csFile) (symtab : AMap Nat)
    (entries : List (Str × Json)) (hfiles : CliFiles S fs circuit sym input r symtab entries) (m : Bytes) (hm : fs message = some m)
    (incl : Bool) (ρ : Rand Fr) (nonce : Bytes) (hn : nonce.length = 12)
    (hj : incl = true → ∀ j, fs input = some j → j.length < 2 ^ 32)
    (henc : (encryptCommand S circuit sym input message output incl ρ nonce).exec fs = (fs', .ok ()))
    (hf : PublicFits r) (hs : CtFits r) :
    ∃ combined, fs' output = some combined ∧ openWithoutWitness S combined = .ok m := by
  obtain ⟨w, symText, combined, h1, h2, rfl, hse⟩ := cli_sealed hfiles hm hn hj henc
  exact ⟨combined, FS.set_same _ _ _, attack_opens hse hf hs (fun i hi => C40_cli_bound S.hash _ _ _ w h2 i (by omega)) hse.message_le⟩

/-- **C49** (JS). -/
theorem C49_js_opened_by_anyone (data : Bytes) (r : R1csFile) (hr : jsParseR1cs data = .ok r.toJs) (sym : Str)
    (inputs : List (Str × JsVal)) (m : Bytes) (incl : Bool) (ρ : Rand Fr) (nonce : Bytes) (hn : nonce.length = 12)
    (hj : incl = true → ∀ s, S.stringify inputs = .ok s → (utf8Enc s).length < 2 ^ 32)
    (combined key : Bytes) (henc : jsEncrypt S data sym inputs m incl ρ nonce = .ok (combined, key)) (hf : PublicFits r) (hs : CtFits r)
    (hl : m.length ≤ S.cipher.maxDec .cli) : openWithoutWitness S combined = .ok m := by
  obtain ⟨w, hw, hse⟩ := js_sealed hr hf hn hj henc
  exact attack_opens hse hf hs (fun i hi => js_beyond hw i hi) hl

/-- Every outcome of the JS parser is of the form used in the theorems above. -/
theorem toJs_surjective (j : JsR1cs) : ∃ r : R1csFile, r.toJs = j :=
  ⟨⟨j.fieldSize, [], j.nWires, j.nPubOut, j.nPubIn, 0, 0, j.nConstraints, j.constraints, []⟩, rfl⟩

/-! ## C46: the container is not authenticated -/

/-- **C46** (CLI) — exchanging, adding or removing the embedded public input changes nothing about decryption, whatever the parts are and
whatever circuit and witness are used: same result, same output. -/
theorem C46_cli_decrypt (incl incl' : Bool) (w p p' enc : Bytes) (hw : w.length < 2 ^ 32) (hp : p.length < 2 ^ 32)
    (hp' : p'.length < 2 ^ 32) (fs : FS) (circuit witness ciphertext ciphertext' output : Path)
    (h : fs ciphertext = some (combine incl w p enc)) (h' : fs ciphertext' = some (combine incl' w p' enc)) :
    (decryptCommand S circuit witness ciphertext output).exec fs = (decryptCommand S circuit witness ciphertext' output).exec fs := by
  obtain ⟨q, q', h1, h2, -, -, h5, h6⟩ := C46_parts_unchanged incl incl' w p p' enc hw hp hp'
  unfold decryptCommand
  simp only [Cmd.readFile, Cmd.exec, h, h', h1, h2, Cmd.lift, h5, h6]

/-- **C46** (JS). -/
theorem C46_js_decrypt (incl incl' : Bool) (w p p' enc : Bytes) (hw : w.length < 2 ^ 32) (hp : p.length < 2 ^ 32)
    (hp' : p'.length < 2 ^ 32) (r1cs : Bytes) (wit : Res Bytes) :
    jsDecrypt S r1cs wit (combine incl w p enc) = jsDecrypt S r1cs wit (combine incl' w p' enc) := by
  obtain ⟨q, q', -, -, h3, h4, h5, h6⟩ := C46_parts_unchanged incl incl' w p p' enc hw hp hp'
  simp only [jsDecrypt, h3, h4, Res.ok_bind, h5, h6]

end Zkenc.Props
