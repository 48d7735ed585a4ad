import Verif.Props.WitnessLength
import Verif.Props.EndToEndExample
/-!
# C77: whoever opens a ciphertext with any circuit has the public values it was made for

The converse of the round trips C47, C48 and C55: not only does a suitable witness open a ciphertext, every witness that opens it satisfies the circuit used
for opening and carries the public values given by the maker of the ciphertext, on every wire of the unbroken run 1, 2, 3, … of public wires that were given
values (values beyond the first gap are not enforced: C40, C54).
-/

namespace Zkenc.Spec

open Zkenc Zkenc.InputSpec

/-- The CLI input object gives wire `i` a value. -/
def CliSupplies (symtab : AMap Nat) (n : Nat) (entries : List (Str × Json)) (i : Nat) : Prop :=
  ∃ name x, Resolves symtab (some n) name i ∧ Gives entries name x

/-- The witness has the values that the input object gives to the public signals of the unbroken run of wires 1, 2, 3, … that are given values (CLI). -/
def CliEnforced (symtab : AMap Nat) (n : Nat) (entries : List (Str × Json)) (vals : List Fr) : Prop :=
  ∀ j, 1 ≤ j → (∀ i, 1 ≤ i → i ≤ j → CliSupplies symtab n entries i) →
    ∀ name x, Resolves symtab (some n) name j → Gives entries name x → vals[j]? = some x

/-- The same for JS; a value counts as the integer in its text, modulo `2^256`. -/
def JsEnforced (symtab : AMap Nat) (n : Nat) (inputs : List (Str × JsVal)) (vals : List Fr) : Prop :=
  ∀ j, 1 ≤ j → j ≤ n → (∀ i, 1 ≤ i → i ≤ j → JsSupplies symtab inputs i) →
    ∀ name v s z, Resolves symtab none name j → JsGives inputs name v → v.toStr = .ok s → jsBigInt s = some z →
      vals[j]? = some (((z % 2 ^ 256).toNat : Nat) : Fr)

/-- The witness values satisfy all constraints of the circuit (wire 0 counts as one whatever the witness says: C74). -/
def Accepted (r : R1csFile) (vals : List Fr) : Prop := ∃ val, Valuation r val ∧ Assigns r (fullWires vals) val ∧ Satisfies r.constraints val

end Zkenc.Spec

namespace Zkenc.Props

open Zkenc Zkenc.Spec Zkenc.InputSpec

variable {G1 G2 GT : Type} [AddCommGroup G1] [Module Fr G1] [AddCommGroup G2] [Module Fr G2] [AddCommGroup GT] [Module Fr GT]
  (S : Sys G1 G2 GT)

/-- Opening enforces the unbroken run of assigned public wires. -/
theorem enforced {S : Sys G1 G2 GT} {t t' : Tool} {r r₂ : R1csFile} (hf : PublicFits r) (hf₂ : PublicFits r₂) {w : Nat → Option Fr} {ρ : Rand Fr}
    {ct : Ciphertext Fr G1 G2} {key k : Key} (henc : encap S.P S.dom (t.circuit r w) ρ = .ok (ct, key)) {vals : List Fr}
    (hdec : decap S.P (t'.circuit r₂ (fullWires vals)) ct = .ok k) :
    Accepted r₂ vals ∧ ∀ j, 1 ≤ j → j ≤ r.nPubOut + r.nPubIn → (∀ i, 1 ≤ i → i ≤ j → w i ≠ none) → vals[j]? = w j := by
  obtain ⟨val, g1, g2, g3, g4, g5⟩ := C04_C05_decap_sound S.P t' r₂ hf₂ (fullWires vals) ct k hdec
  obtain ⟨b1, b2, b3⟩ := C08_bound_public_inputs S.P S.dom t r hf w ρ ct key henc
  refine ⟨⟨val, g1, g2, g3⟩, fun j hj hjn hrun => ?_⟩
  have hlen : j ≤ ct.publicInputs.length := by
    by_contra hc
    exact hrun (ct.publicInputs.length + 1) (by omega) (by omega) (b3 (by omega))
  obtain ⟨i, rfl⟩ : ∃ i, j = i + 1 := ⟨j - 1, by omega⟩
  have h1 : fullWires vals (i + 1) = some (val (i + 1)) := g2 (i + 1) (by omega) (by omega)
  rw [b1 i (by omega), g4 i (by omega), ← h1]
  rfl

theorem cli_enforced {n : Nat} {h : HashOrder} {sym : Str} {symtab : AMap Nat} {entries : List (Str × Json)} {w : WireMap} {m : Nat} {vals : List Fr}
    (hsym : parseSymFile sym = .ok symtab) (hw : cliAssign h n sym (.obj entries) = .ok w) (hna : NoAlias symtab (some n) entries) (hnm : n ≤ m)
    (he : ∀ j, 1 ≤ j → j ≤ m → (∀ i, 1 ≤ i → i ≤ j → w i ≠ none) → vals[j]? = w j) : CliEnforced symtab n entries vals := by
  have hwires := ((C38_cli_wires h n sym entries w hsym hna).1 hw).2
  intro j hj hrun name x hr hg
  rw [he j hj (le_trans (hr.2 n rfl) hnm)]
  · exact (hwires j x).2 (.inl ⟨name, hr, hg⟩)
  · intro i h1 h2 hn
    obtain ⟨name', x', hr', hg'⟩ := hrun i h1 h2
    rw [(hwires i x').2 (.inl ⟨name', hr', hg'⟩)] at hn
    cases hn

theorem js_enforced {n : Nat} {sym : Str} {inputs : List (Str × JsVal)} {w : WireMap} {vals : List Fr}
    (hna : JsNoAlias (jsParseSymFile sym) inputs) (hmax : JsSmall (jsParseSymFile sym) inputs) (hw : jsAssign n sym inputs = .ok w)
    (he : ∀ j, 1 ≤ j → j ≤ n → (∀ i, 1 ≤ i → i ≤ j → w i ≠ none) → vals[j]? = w j) : JsEnforced (jsParseSymFile sym) n inputs vals := by
  obtain ⟨zs, hz, hend, h3⟩ := jsAssign_ok n sym inputs hna w hw
  have hl : zs.length < 2 ^ 25 := hmax.run_lt fun k hk => by
    obtain ⟨name, v, s, g1, g2, -⟩ := hz k hk
    exact ⟨name, v, g1, g2⟩
  have hwi := h3 (by omega)
  intro j hj hjn hrun name v s z hr hg ht hb
  have hjl : j ≤ zs.length := by
    by_contra hc
    obtain ⟨name', v', hr', hg'⟩ := hrun (zs.length + 1) (by omega) (by omega)
    exact hend name' v' hr' hg'
  obtain ⟨i, rfl⟩ : ∃ i, j = i + 1 := ⟨j - 1, by omega⟩
  have hat : ∀ k, k ≤ i → w (k + 1) = (zs[k]?).map fun v => (((v % 2 ^ 256).toNat : Nat) : Fr) := by
    intro k hk
    rw [hwi, if_pos (by omega)]
    simp only [List.map_cons, List.getElem?_cons_succ, List.getElem?_map]
  rw [he (i + 1) hj hjn, hat i le_rfl, List.getElem?_eq_getElem (by omega)]
  · obtain ⟨name', v', s', hr', hg', ht', hb'⟩ := hz i (by omega)
    have := hna name name' (i + 1) v v' hr hr' hg hg'
    rw [ht, ht'] at this
    cases this
    rw [hb] at hb'
    cases hb'
    rfl
  · intro k h1 h2 hn
    obtain ⟨k', rfl⟩ : ∃ k', k = k' + 1 := ⟨k - 1, by omega⟩
    rw [hat k' (by omega), List.getElem?_eq_getElem (by omega)] at hn
    cases hn

/-! ## What a successful opening says -/

theorem cli_decrypt_decap {S : Sys G1 G2 GT} {fs fs' : FS} {circuit witness ciphertext output : Path} {combined : Bytes}
    (hc : fs ciphertext = some combined) (h : (decryptCommand S circuit witness ciphertext output).exec fs = (fs', .ok ())) :
    ∃ p data r wdata vals ct key, splitCli combined = .ok p ∧ fs circuit = some data ∧ cliParseR1cs S.lim data = .ok r ∧ fs witness = some wdata ∧
      CliWitness wdata vals ∧ decCiphertext S.c1 S.c2 p.witnessCt = some ct ∧ decap S.P (Tool.cli.circuit r (fullWires vals)) ct = .ok key := by
  unfold decryptCommand at h
  simp only [exec_readFile_ok, exec_lift_ok] at h
  obtain ⟨c, hc', p, hp, h⟩ := h
  rw [hc] at hc'; cases hc'
  obtain ⟨data, r, wdata, wf, vals, ct, key, k1, k2, k3, k4, k5, k7, k8, -⟩ := decapPart_ok S (ctB := p.witnessCt) (fun _ => rfl) h
  exact ⟨p, data, r, wdata, vals, ct, key, hp, k1, k2, k3, ⟨wf, k4, k5⟩, k7, k8⟩

theorem cli_decap_decap {S : Sys G1 G2 GT} {fs fs' : FS} {circuit witness ciphertext key : Path} {ctB : Bytes}
    (hc : fs ciphertext = some ctB) (h : (decapCommand S circuit witness ciphertext key).exec fs = (fs', .ok ())) :
    ∃ data r wdata vals ct ky, fs circuit = some data ∧ cliParseR1cs S.lim data = .ok r ∧ fs witness = some wdata ∧
      CliWitness wdata vals ∧ decCiphertext S.c1 S.c2 ctB = some ct ∧ decap S.P (Tool.cli.circuit r (fullWires vals)) ct = .ok ky := by
  obtain ⟨data, r, wdata, wf, vals, ct, ky, k1, k2, k3, k4, k5, k7, k8, -⟩ := decapPart_ok S (ctB := ctB)
    (fun k => by simp only [Cmd.readFile, Cmd.exec, hc]) h
  exact ⟨data, r, wdata, vals, ct, ky, k1, k2, k3, ⟨wf, k4, k5⟩, k7, k8⟩

theorem js_decap_decap {S : Sys G1 G2 GT} {data ctB k : Bytes} {wit : Res Bytes} (h : jsDecap S data wit ctB = .ok k) :
    ∃ wtns r vals ct ky, wit = .ok wtns ∧ jsParseR1cs data = .ok (R1csFile.toJs r) ∧ jsParseWtns wtns = .ok vals ∧ vals.length = r.nWires ∧
      decCiphertext S.c1 S.c2 ctB = some ct ∧ decap S.P (Tool.js.circuit r (fullWires vals)) ct = .ok ky := by
  unfold jsDecap at h
  obtain ⟨wtns, hwit, hd⟩ := Res.bind_eq_ok.1 h
  clear h
  subst hwit
  unfold wasmDecap at hd
  obtain ⟨j, h1, h⟩ := Res.bind_eq_ok.1 hd
  obtain ⟨vals, h2, h⟩ := Res.bind_eq_ok.1 h
  obtain ⟨r, rfl⟩ := toJs_surjective j
  split_ifs at h with hne
  · cases h
  · obtain ⟨c, h3, h⟩ := Res.bind_eq_ok.1 h
    obtain ⟨ky, h4, h⟩ := Res.bind_eq_ok.1 h
    exact ⟨wtns, r, vals, c, ky, rfl, h1, h2, not_not.1 hne, ofOption_eq_ok.1 h3, h4⟩

theorem js_decrypt_decap {S : Sys G1 G2 GT} {data combined m : Bytes} {wit : Res Bytes} (h : jsDecrypt S data wit combined = .ok m) :
    ∃ p k, splitJs combined = .ok p ∧ jsDecap S data wit p.witnessCt = .ok k := by
  unfold jsDecrypt at h
  obtain ⟨p, h1, h⟩ := Res.bind_eq_ok.1 h
  obtain ⟨k, h2, -⟩ := Res.bind_eq_ok.1 h
  exact ⟨p, k, h1, h2⟩

theorem sealed_enforced_cli {S : Sys G1 G2 GT} {t : Tool} {r : R1csFile} {w : Nat → Option Fr} {m combined : Bytes} (h : Sealed S t r w m combined)
    (hf : PublicFits r) (hs : CtFits r) (hw : ∀ i, r.nPubOut + r.nPubIn < i → w i = none) {fs fs' : FS} {circuit witness ciphertext output : Path}
    (hc : fs ciphertext = some combined) (hdec : (decryptCommand S circuit witness ciphertext output).exec fs = (fs', .ok ())) :
    ∃ data r₂ wdata vals, fs circuit = some data ∧ cliParseR1cs S.lim data = .ok r₂ ∧ fs witness = some wdata ∧ CliWitness wdata vals ∧
      (PublicFits r₂ → Accepted r₂ vals ∧
        ∀ j, 1 ≤ j → j ≤ r.nPubOut + r.nPubIn → (∀ i, 1 ≤ i → i ≤ j → w i ≠ none) → vals[j]? = w j) := by
  obtain ⟨ρ, ct, key, p, g1, g2, -, g4, -, -⟩ := h.parts hf hs hw
  obtain ⟨p', data, r₂, wdata, vals, ct', key', k1, k2, k3, k4, k5, k6, k7⟩ := cli_decrypt_decap hc hdec
  rw [g2] at k1; cases k1
  have g4' := g4 []
  rw [List.append_nil, k6] at g4'
  cases g4'
  exact ⟨data, r₂, wdata, vals, k2, k3, k4, k5, fun hf₂ => enforced hf hf₂ g1 k7⟩

theorem sealed_enforced_js {S : Sys G1 G2 GT} {t : Tool} {r : R1csFile} {w : Nat → Option Fr} {m combined : Bytes} (h : Sealed S t r w m combined)
    (hf : PublicFits r) (hs : CtFits r) (hw : ∀ i, r.nPubOut + r.nPubIn < i → w i = none) {data m' : Bytes} {wit : Res Bytes}
    (hdec : jsDecrypt S data wit combined = .ok m') :
    ∃ wtns r₂ vals, wit = .ok wtns ∧ jsParseR1cs data = .ok (R1csFile.toJs r₂) ∧ jsParseWtns wtns = .ok vals ∧ vals.length = r₂.nWires ∧
      (PublicFits r₂ → Accepted r₂ vals ∧
        ∀ j, 1 ≤ j → j ≤ r.nPubOut + r.nPubIn → (∀ i, 1 ≤ i → i ≤ j → w i ≠ none) → vals[j]? = w j) := by
  obtain ⟨ρ, ct, key, p, g1, -, g3, g4, -, -⟩ := h.parts hf hs hw
  obtain ⟨p', k, k1, k2⟩ := js_decrypt_decap hdec
  rw [g3] at k1; cases k1
  obtain ⟨wtns, r₂, vals, ct', ky, h1, h2, h3, h4, h5, h6⟩ := js_decap_decap k2
  have g4' := g4 []
  rw [List.append_nil, h5] at g4'
  cases g4'
  exact ⟨wtns, r₂, vals, h1, h2, h3, h4, fun hf₂ => enforced hf hf₂ g1 h6⟩

theorem Encapped.dec {S : Sys G1 G2 GT} {t : Tool} {r : R1csFile} {w : Nat → Option Fr} {ctB k : Bytes} (h : Encapped S t r w ctB k) (hf : PublicFits r)
    (hw : ∀ i, r.nPubOut + r.nPubIn < i → w i = none) :
    ∃ ρ ct key, encap S.P S.dom (t.circuit r w) ρ = .ok (ct, key) ∧ decCiphertext S.c1 S.c2 ctB = some ct := by
  obtain ⟨ρ, ct, key, h1, rfl, rfl⟩ := h
  have := C16_roundtrip S.c1 S.c2 ct (ct_size S t r hf w hw ρ ct key h1).2 []
  rw [List.append_nil] at this
  exact ⟨ρ, ct, key, h1, this⟩

/-! ## Messages -/

/-- **C77** (CLI to CLI) — if `zkenc decrypt`, with whatever circuit and witness file, succeeds on a ciphertext written by `zkenc encrypt`, then the witness
satisfies that circuit and carries the public values given at encryption. -/
theorem C77_cli_to_cli (fs fs' : FS) (circuit sym input message output : Path) (r : R1csFile) (symtab : AMap Nat)
    (entries : List (Str × Json)) (hfiles : CliFiles S fs circuit sym input r symtab entries) (m : Bytes) (hm : fs message = some m)
    (incl : Bool) (ρ : Rand Fr) (nonce : Bytes) (hn : nonce.length = 12)
    (hj : incl = true → ∀ j, fs input = some j → j.length < 2 ^ 32)
    (henc : (encryptCommand S circuit sym input message output incl ρ nonce).exec fs = (fs', .ok ()))
    (hf : PublicFits r) (hs : CtFits r) (hna : NoAlias symtab (some r.nPubIn) entries)
    (fs₂ fs₃ : FS) (circuit₂ witness ciphertext output₂ : Path) (hct : fs₂ ciphertext = fs' output)
    (hdec : (decryptCommand S circuit₂ witness ciphertext output₂).exec fs₂ = (fs₃, .ok ())) :
    ∃ data r₂ wdata vals, fs₂ circuit₂ = some data ∧ cliParseR1cs S.lim data = .ok r₂ ∧ fs₂ witness = some wdata ∧ CliWitness wdata vals ∧
      (PublicFits r₂ → Accepted r₂ vals ∧ CliEnforced symtab r.nPubIn entries vals) := by
  obtain ⟨w, symText, combined, h1, h2, rfl, hse⟩ := cli_sealed hfiles hm hn hj henc
  rw [FS.set_same] at hct
  obtain ⟨data, r₂, wdata, vals, k1, k2, k3, k4, k5⟩ := sealed_enforced_cli hse hf hs (fun i hi => C40_cli_bound S.hash _ _ _ w h2 i (by omega)) hct hdec
  exact ⟨data, r₂, wdata, vals, k1, k2, k3, k4, fun hf₂ => ⟨(k5 hf₂).1, cli_enforced h1 h2 hna (by omega) (k5 hf₂).2⟩⟩

/-- **C77** (CLI to JS). -/
theorem C77_cli_to_js (fs fs' : FS) (circuit sym input message output : Path) (r : R1csFile) (symtab : AMap Nat)
    (entries : List (Str × Json)) (hfiles : CliFiles S fs circuit sym input r symtab entries) (m : Bytes) (hm : fs message = some m)
    (incl : Bool) (ρ : Rand Fr) (nonce : Bytes) (hn : nonce.length = 12)
    (hj : incl = true → ∀ j, fs input = some j → j.length < 2 ^ 32)
    (henc : (encryptCommand S circuit sym input message output incl ρ nonce).exec fs = (fs', .ok ()))
    (hf : PublicFits r) (hs : CtFits r) (hna : NoAlias symtab (some r.nPubIn) entries)
    (data combined m' : Bytes) (wit : Res Bytes) (hct : fs' output = some combined) (hdec : jsDecrypt S data wit combined = .ok m') :
    ∃ wtns r₂ vals, wit = .ok wtns ∧ jsParseR1cs data = .ok (R1csFile.toJs r₂) ∧ jsParseWtns wtns = .ok vals ∧ vals.length = r₂.nWires ∧
      (PublicFits r₂ → Accepted r₂ vals ∧ CliEnforced symtab r.nPubIn entries vals) := by
  obtain ⟨w, symText, combined', h1, h2, rfl, hse⟩ := cli_sealed hfiles hm hn hj henc
  rw [FS.set_same] at hct
  cases hct
  obtain ⟨wtns, r₂, vals, k1, k2, k3, k4, k5⟩ := sealed_enforced_js hse hf hs (fun i hi => C40_cli_bound S.hash _ _ _ w h2 i (by omega)) hdec
  exact ⟨wtns, r₂, vals, k1, k2, k3, k4, fun hf₂ => ⟨(k5 hf₂).1, cli_enforced h1 h2 hna (by omega) (k5 hf₂).2⟩⟩

/-- **C77** (JS to CLI). -/
theorem C77_js_to_cli (data : Bytes) (r : R1csFile) (hr : jsParseR1cs data = .ok r.toJs) (sym : Str) (inputs : List (Str × JsVal))
    (hna : JsNoAlias (jsParseSymFile sym) inputs) (hmax : JsSmall (jsParseSymFile sym) inputs) (m : Bytes) (incl : Bool) (ρ : Rand Fr)
    (nonce : Bytes) (hn : nonce.length = 12) (hj : incl = true → ∀ s, S.stringify inputs = .ok s → (utf8Enc s).length < 2 ^ 32)
    (combined key : Bytes) (henc : jsEncrypt S data sym inputs m incl ρ nonce = .ok (combined, key)) (hf : PublicFits r) (hs : CtFits r)
    (fs₂ fs₃ : FS) (circuit₂ witness ciphertext output₂ : Path) (hct : fs₂ ciphertext = some combined)
    (hdec : (decryptCommand S circuit₂ witness ciphertext output₂).exec fs₂ = (fs₃, .ok ())) :
    ∃ data r₂ wdata vals, fs₂ circuit₂ = some data ∧ cliParseR1cs S.lim data = .ok r₂ ∧ fs₂ witness = some wdata ∧ CliWitness wdata vals ∧
      (PublicFits r₂ → Accepted r₂ vals ∧ JsEnforced (jsParseSymFile sym) (r.nPubOut + r.nPubIn) inputs vals) := by
  obtain ⟨w, hw, hse⟩ := js_sealed hr hf hn hj henc
  obtain ⟨data, r₂, wdata, vals, k1, k2, k3, k4, k5⟩ := sealed_enforced_cli hse hf hs (fun i hi => js_beyond hw i hi) hct hdec
  exact ⟨data, r₂, wdata, vals, k1, k2, k3, k4, fun hf₂ => ⟨(k5 hf₂).1, js_enforced hna hmax hw (k5 hf₂).2⟩⟩

/-- **C77** (JS to JS). -/
theorem C77_js_to_js (data : Bytes) (r : R1csFile) (hr : jsParseR1cs data = .ok r.toJs) (sym : Str) (inputs : List (Str × JsVal))
    (hna : JsNoAlias (jsParseSymFile sym) inputs) (hmax : JsSmall (jsParseSymFile sym) inputs) (m : Bytes) (incl : Bool) (ρ : Rand Fr)
    (nonce : Bytes) (hn : nonce.length = 12) (hj : incl = true → ∀ s, S.stringify inputs = .ok s → (utf8Enc s).length < 2 ^ 32)
    (combined key : Bytes) (henc : jsEncrypt S data sym inputs m incl ρ nonce = .ok (combined, key)) (hf : PublicFits r) (hs : CtFits r)
    (data₂ m' : Bytes) (wit : Res Bytes) (hdec : jsDecrypt S data₂ wit combined = .ok m') :
    ∃ wtns r₂ vals, wit = .ok wtns ∧ jsParseR1cs data₂ = .ok (R1csFile.toJs r₂) ∧ jsParseWtns wtns = .ok vals ∧ vals.length = r₂.nWires ∧
      (PublicFits r₂ → Accepted r₂ vals ∧ JsEnforced (jsParseSymFile sym) (r.nPubOut + r.nPubIn) inputs vals) := by
  obtain ⟨w, hw, hse⟩ := js_sealed hr hf hn hj henc
  obtain ⟨wtns, r₂, vals, k1, k2, k3, k4, k5⟩ := sealed_enforced_js hse hf hs (fun i hi => js_beyond hw i hi) hdec
  exact ⟨wtns, r₂, vals, k1, k2, k3, k4, fun hf₂ => ⟨(k5 hf₂).1, js_enforced hna hmax hw (k5 hf₂).2⟩⟩

/-! ## Keys -/

/-- **C77** (keys, CLI encap) — the same for a key obtained, by either tool, from a ciphertext file written by `zkenc encap`. -/
theorem C77_cli_encap (fs fs' : FS) (circuit sym input ciphertext key : Path) (hne : ciphertext ≠ key) (r : R1csFile) (symtab : AMap Nat)
    (entries : List (Str × Json)) (hfiles : CliFiles S fs circuit sym input r symtab entries) (ρ : Rand Fr)
    (henc : (encapCommand S circuit sym input ciphertext key ρ).exec fs = (fs', .ok ()))
    (hf : PublicFits r) (hna : NoAlias symtab (some r.nPubIn) entries) :
    (∀ fs₂ fs₃ circuit₂ witness ciphertext₂ key₂, fs₂ ciphertext₂ = fs' ciphertext →
      (decapCommand S circuit₂ witness ciphertext₂ key₂).exec fs₂ = (fs₃, .ok ()) →
      ∃ data r₂ wdata vals, fs₂ circuit₂ = some data ∧ cliParseR1cs S.lim data = .ok r₂ ∧ fs₂ witness = some wdata ∧ CliWitness wdata vals ∧
        (PublicFits r₂ → Accepted r₂ vals ∧ CliEnforced symtab r.nPubIn entries vals)) ∧
    (∀ data wit ctB k, fs' ciphertext = some ctB → jsDecap S data wit ctB = .ok k →
      ∃ wtns r₂ vals, wit = .ok wtns ∧ jsParseR1cs data = .ok (R1csFile.toJs r₂) ∧ jsParseWtns wtns = .ok vals ∧ vals.length = r₂.nWires ∧
        (PublicFits r₂ → Accepted r₂ vals ∧ CliEnforced symtab r.nPubIn entries vals)) := by
  obtain ⟨w, symText, ctB, k, h1, h2, rfl, hse⟩ := cli_encapped hfiles henc
  obtain ⟨ρ', ct, ky, e1, e2⟩ := hse.dec hf (fun i hi => C40_cli_bound S.hash _ _ _ w h2 i (by omega))
  rw [FS.set_other _ hne, FS.set_same]
  constructor
  · intro fs₂ fs₃ circuit₂ witness ciphertext₂ key₂ hct hdec
    obtain ⟨data, r₂, wdata, vals, ct', ky', k1, k2, k3, k4, k5, k6⟩ := cli_decap_decap hct hdec
    rw [e2] at k5; cases k5
    exact ⟨data, r₂, wdata, vals, k1, k2, k3, k4, fun hf₂ => ⟨(enforced hf hf₂ e1 k6).1, cli_enforced h1 h2 hna (by omega) (enforced hf hf₂ e1 k6).2⟩⟩
  · intro data wit ctB' k' hct hdec
    cases hct
    obtain ⟨wtns, r₂, vals, ct', ky', k1, k2, k3, k4, k5, k6⟩ := js_decap_decap hdec
    rw [e2] at k5; cases k5
    exact ⟨wtns, r₂, vals, k1, k2, k3, k4, fun hf₂ => ⟨(enforced hf hf₂ e1 k6).1, cli_enforced h1 h2 hna (by omega) (enforced hf hf₂ e1 k6).2⟩⟩

/-- **C77** (keys, JS encap) — the same for a key obtained, by either tool, from a ciphertext returned by JS `encap`. -/
theorem C77_js_encap (data : Bytes) (r : R1csFile) (hr : jsParseR1cs data = .ok r.toJs) (sym : Str) (inputs : List (Str × JsVal))
    (hna : JsNoAlias (jsParseSymFile sym) inputs) (hmax : JsSmall (jsParseSymFile sym) inputs) (ρ : Rand Fr)
    (ctB k : Bytes) (henc : jsEncap S data sym inputs ρ = .ok (ctB, k)) (hf : PublicFits r) :
    (∀ fs₂ fs₃ circuit₂ witness ciphertext₂ key₂, fs₂ ciphertext₂ = some ctB →
      (decapCommand S circuit₂ witness ciphertext₂ key₂).exec fs₂ = (fs₃, .ok ()) →
      ∃ data r₂ wdata vals, fs₂ circuit₂ = some data ∧ cliParseR1cs S.lim data = .ok r₂ ∧ fs₂ witness = some wdata ∧ CliWitness wdata vals ∧
        (PublicFits r₂ → Accepted r₂ vals ∧ JsEnforced (jsParseSymFile sym) (r.nPubOut + r.nPubIn) inputs vals)) ∧
    (∀ data₂ wit k', jsDecap S data₂ wit ctB = .ok k' →
      ∃ wtns r₂ vals, wit = .ok wtns ∧ jsParseR1cs data₂ = .ok (R1csFile.toJs r₂) ∧ jsParseWtns wtns = .ok vals ∧ vals.length = r₂.nWires ∧
        (PublicFits r₂ → Accepted r₂ vals ∧ JsEnforced (jsParseSymFile sym) (r.nPubOut + r.nPubIn) inputs vals)) := by
  obtain ⟨w, hw, hse⟩ := js_encapped hr hf henc
  obtain ⟨ρ', ct, ky, e1, e2⟩ := hse.dec hf (fun i hi => js_beyond hw i hi)
  constructor
  · intro fs₂ fs₃ circuit₂ witness ciphertext₂ key₂ hct hdec
    obtain ⟨data, r₂, wdata, vals, ct', ky', k1, k2, k3, k4, k5, k6⟩ := cli_decap_decap hct hdec
    rw [e2] at k5; cases k5
    exact ⟨data, r₂, wdata, vals, k1, k2, k3, k4, fun hf₂ => ⟨(enforced hf hf₂ e1 k6).1, js_enforced hna hmax hw (enforced hf hf₂ e1 k6).2⟩⟩
  · intro data₂ wit k' hdec
    obtain ⟨wtns, r₂, vals, ct', ky', k1, k2, k3, k4, k5, k6⟩ := js_decap_decap hdec
    rw [e2] at k5; cases k5
    exact ⟨wtns, r₂, vals, k1, k2, k3, k4, fun hf₂ => ⟨(enforced hf hf₂ e1 k6).1, js_enforced hna hmax hw (enforced hf hf₂ e1 k6).2⟩⟩

/-- The hypotheses of `C77_js_to_js` in the concrete case `y = x²`, `y = 9`: the message can be opened, and whoever opens it, with whatever circuit, has a
witness with `y = 9`. -/
example : ∃ b k, jsEncrypt Ex.S Ex.sqData Ex.sym Ex.inputs [1, 2, 3] false Ex.ρ Ex.nonce = .ok (b, k) ∧
    jsDecrypt Ex.S Ex.sqData (.ok Ex.wtns) b = .ok [1, 2, 3] ∧
    ∀ data wit m, jsDecrypt Ex.S data wit b = .ok m → ∃ wtns r vals, wit = .ok wtns ∧ jsParseR1cs data = .ok (R1csFile.toJs r) ∧
      jsParseWtns wtns = .ok vals ∧ (PublicFits r → Accepted r vals ∧ vals[1]? = some 9) := by
  obtain ⟨b, k, hb, h1, -⟩ := Ex.js_run false
  refine ⟨b, k, hb, h1, fun data wit m hd => ?_⟩
  obtain ⟨wtns, r, vals, g1, g2, g3, -, g5⟩ := C77_js_to_js Ex.S Ex.sqData Ex.sq Ex.sqData_js Ex.sym Ex.inputs Ex.js_noAlias Ex.js_small [1, 2, 3] false
    Ex.ρ Ex.nonce rfl (by simp) b k hb Ex.sq_wf.fits Ex.sq_ct data m wit hd
  refine ⟨wtns, r, vals, g1, g2, g3, fun hf => ⟨(g5 hf).1, ?_⟩⟩
  have hr : Resolves (jsParseSymFile Ex.sym) none ['y'] 1 := by
    obtain ⟨m, -, h2, h3⟩ := Ex.sym_parse
    refine ⟨?_, by simp⟩
    rw [h3, Ex.main_y, h2]
    simp
  have hg : JsGives Ex.inputs ['y'] (.num 9) := ⟨_, List.mem_singleton.2 rfl, .scalar (by simp) (by simp)⟩
  have := (g5 hf).2 1 le_rfl (by simp [Ex.sq]) (fun i h1 h2 => by
    obtain rfl : i = 1 := by omega
    exact ⟨['y'], .num 9, hr, hg⟩) ['y'] (.num 9) (intDec 9) 9 hr hg rfl Ex.nine_text
  rw [this]
  simp

end Zkenc.Props
