import Verif.Props.EndToEnd
/-!
# C55: encap then decap through files and byte arrays, all tool pairs
-/

namespace Zkenc.Props

open Zkenc Zkenc.Spec Zkenc.InputSpec

variable {G1 G2 GT : Type} [AddCommGroup G1] [Module Fr G1] [AddCommGroup G2] [Module Fr G2] [AddCommGroup GT] [Module Fr GT]
  (S : Sys G1 G2 GT)

/-- `ctB`, `k` are the bytes that tool `t` returns when the circuit `r` gets the wire assignment `w`. -/
def Encapped (S : Sys G1 G2 GT) (t : Tool) (r : R1csFile) (w : Nat → Option Fr) (ctB k : Bytes) : Prop :=
  ∃ ρ ct key, encap S.P S.dom (t.circuit r w) ρ = .ok (ct, key) ∧ ctB = encCiphertext S.c1 S.c2 ct ∧ k = key.bytes

theorem cli_encapped {S : Sys G1 G2 GT} {fs fs' : FS} {circuit sym input ciphertext key : Path} {r : R1csFile} {symtab : AMap Nat}
    {entries : List (Str × Json)} (hfiles : CliFiles S fs circuit sym input r symtab entries) {ρ : Rand Fr}
    (h : (encapCommand S circuit sym input ciphertext key ρ).exec fs = (fs', .ok ())) :
    ∃ w symText ctB k, parseSymFile symText = .ok symtab ∧ cliAssign S.hash r.nPubIn symText (.obj entries) = .ok w ∧
      fs' = (fs.set ciphertext ctB).set key k ∧ Encapped S .cli r w ctB k := by
  obtain ⟨w, symText, jsonB, ct, ky, h1, h2, h3, h4, h5⟩ := CliFiles.assign hfiles h
  simp only [exec_writeFile, Cmd.exec, Prod.mk.injEq, and_true] at h5
  exact ⟨w, symText, _, _, h1, h2, h5.symm, ρ, ct, ky, h4, rfl, rfl⟩

theorem js_encapped {S : Sys G1 G2 GT} {data : Bytes} {r : R1csFile} (hr : jsParseR1cs data = .ok r.toJs) (hf : PublicFits r) {sym : Str}
    {inputs : List (Str × JsVal)} {ρ : Rand Fr} {ctB k : Bytes} (h : jsEncap S data sym inputs ρ = .ok (ctB, k)) :
    ∃ w, jsAssign (r.nPubOut + r.nPubIn) sym inputs = .ok w ∧ Encapped S .js r w ctB k := by
  unfold jsEncap at h
  obtain ⟨wtns, h4, h⟩ := Res.bind_eq_ok.1 h
  unfold wasmEncap at h
  rw [hr, Res.ok_bind] at h
  obtain ⟨vals, h5, h⟩ := Res.bind_eq_ok.1 h
  obtain ⟨⟨ct, k⟩, h6, h⟩ := Res.bind_eq_ok.1 h
  cases h
  have hnp : r.toJs.nPublicInputs = r.nPubOut + r.nPubIn := nPublicInputs_eq hf
  rw [hnp] at h6
  exact ⟨_, by rw [jsAssign, h4, Res.ok_bind, h5, Res.ok_bind], ρ, ct, k, h6, rfl, rfl⟩

theorem Encapped.opens {S : Sys G1 G2 GT} {t : Tool} {r : R1csFile} {w : Nat → Option Fr} {ctB k : Bytes} (h : Encapped S t r w ctB k)
    (hwf : WellFormed r) (hw : ∀ i, r.nPubOut + r.nPubIn < i → w i = none) (hmiss : SomeWireMissing r w) {vals : List Fr}
    (hv : Witness r vals) (hag : ∀ i x, 1 ≤ i → i ≤ r.nPubOut + r.nPubIn → w i = some x → vals[i]? = some x) (t' : Tool) :
    ∃ ct key, decCiphertext S.c1 S.c2 ctB = some ct ∧ decap S.P (t'.circuit r (fullWires vals)) ct = .ok key ∧ k = key.bytes := by
  obtain ⟨ρ, ct, key, h1, rfl, rfl⟩ := h
  have := C16_roundtrip S.c1 S.c2 ct (ct_size S t r hwf.fits w hw ρ ct key h1).2 []
  rw [List.append_nil] at this
  exact ⟨ct, key, this, decap_of_witness S t t' r hwf w hmiss ρ ct key h1 vals hv hag, rfl⟩

/-- Opening on the CLI side. -/
theorem Encapped.cli {S : Sys G1 G2 GT} {t : Tool} {r : R1csFile} {w : Nat → Option Fr} {ctB k : Bytes} (h : Encapped S t r w ctB k)
    (hwf : WellFormed r) (hw : ∀ i, r.nPubOut + r.nPubIn < i → w i = none) (hmiss : SomeWireMissing r w) {vals : List Fr}
    (hv : Witness r vals) (hag : ∀ i x, 1 ≤ i → i ≤ r.nPubOut + r.nPubIn → w i = some x → vals[i]? = some x)
    {fs : FS} {circuit witness ciphertext key : Path} {data wdata : Bytes} (h1 : fs circuit = some data)
    (h2 : cliParseR1cs S.lim data = .ok r) (h3 : fs witness = some wdata) (h4 : CliWitness wdata vals) (h5 : fs ciphertext = some ctB) :
    (decapCommand S circuit witness ciphertext key).exec fs = (fs.set key k, .ok ()) := by
  obtain ⟨ct, ky, g1, g2, rfl⟩ := h.opens hwf hw hmiss hv hag .cli
  obtain ⟨wf, g3, g4⟩ := h4
  unfold decapCommand
  rw [decapPart_exec S h1 h2 h3 g3 g4 (fun k => by simp only [Cmd.readFile, Cmd.exec, h5]) g1 g2]
  simp only [exec_writeFile, Cmd.exec]

/-- Opening on the JS side. -/
theorem Encapped.js {S : Sys G1 G2 GT} {t : Tool} {r : R1csFile} {w : Nat → Option Fr} {ctB k : Bytes} (h : Encapped S t r w ctB k)
    (hwf : WellFormed r) (hw : ∀ i, r.nPubOut + r.nPubIn < i → w i = none) (hmiss : SomeWireMissing r w) {vals : List Fr}
    (hv : Witness r vals) (hag : ∀ i x, 1 ≤ i → i ≤ r.nPubOut + r.nPubIn → w i = some x → vals[i]? = some x)
    {data wtns : Bytes} (h2 : jsParseR1cs data = .ok r.toJs) (h4 : jsParseWtns wtns = .ok vals) :
    jsDecap S data (.ok wtns) ctB = .ok k := by
  obtain ⟨ct, ky, g1, g2, rfl⟩ := h.opens hwf hw hmiss hv hag .js
  rw [Tool.circuit] at g2
  have hlen : ¬ vals.length ≠ r.toJs.nWires := by rw [hv.len]; simp [R1csFile.toJs]
  simp only [jsDecap, wasmDecap, Res.ok_bind, h2, h4, if_neg hlen, g1, Res.ofOption, g2]

/-- **C55** (CLI to CLI) — after a successful `zkenc encap` to two different files, `zkenc decap` with the same circuit, the ciphertext file and
a satisfying witness with the given public values writes a key file equal to the one `encap` wrote. -/
theorem C55_cli_to_cli (fs fs' : FS) (circuit sym input ciphertext key : Path) (hne : ciphertext ≠ key) (r : R1csFile) (symtab : AMap Nat)
    (entries : List (Str × Json)) (hfiles : CliFiles S fs circuit sym input r symtab entries) (ρ : Rand Fr)
    (henc : (encapCommand S circuit sym input ciphertext key ρ).exec fs = (fs', .ok ()))
    (hwf : WellFormed r) (hpriv : r.nPubIn + 1 < r.nWires)
    (fs₂ : FS) (circuit₂ witness ciphertext₂ key₂ : Path) (data wdata : Bytes) (vals : List Fr)
    (hdata : fs₂ circuit₂ = some data) (hcirc : cliParseR1cs S.lim data = .ok r)
    (hct : fs₂ ciphertext₂ = fs' ciphertext) (hwd : fs₂ witness = some wdata) (hwit : CliWitness wdata vals) (hv : Witness r vals)
    (hag : CliAgrees symtab r.nPubIn entries vals) :
    ∃ k, fs' key = some k ∧ k.length = 32 ∧ (decapCommand S circuit₂ witness ciphertext₂ key₂).exec fs₂ = (fs₂.set key₂ k, .ok ()) := by
  obtain ⟨w, symText, ctB, k, h1, h2, rfl, hse⟩ := cli_encapped hfiles henc
  rw [FS.set_other _ hne, FS.set_same] at hct
  refine ⟨k, FS.set_same _ _ _, ?_, ?_⟩
  · obtain ⟨_, _, ky, _, _, rfl⟩ := hse; exact ky.len
  · exact hse.cli hwf (fun i hi => C40_cli_bound S.hash _ _ _ w h2 i (by omega)) (cli_missing hwf hpriv rfl h2) hv
      (fun i x _ _ hx => cli_agrees_wires h1 h2 hag hv.one i x hx) hdata hcirc hwd hwit hct

/-- **C55** (CLI to JS). -/
theorem C55_cli_to_js (fs fs' : FS) (circuit sym input ciphertext key : Path) (hne : ciphertext ≠ key) (r : R1csFile) (symtab : AMap Nat)
    (entries : List (Str × Json)) (hfiles : CliFiles S fs circuit sym input r symtab entries) (ρ : Rand Fr)
    (henc : (encapCommand S circuit sym input ciphertext key ρ).exec fs = (fs', .ok ()))
    (hwf : WellFormed r) (hpriv : r.nPubIn + 1 < r.nWires)
    (data : Bytes) (hdata : fs circuit = some data) (hd : data.length < 2 ^ 31) (ctB : Bytes) (hct : fs' ciphertext = some ctB)
    (wtns : Bytes) (vals : List Fr) (hwit : jsParseWtns wtns = .ok vals) (hv : Witness r vals)
    (hag : CliAgrees symtab r.nPubIn entries vals) :
    ∃ k, fs' key = some k ∧ jsDecap S data (.ok wtns) ctB = .ok k := by
  obtain ⟨w, symText, ctB', k, h1, h2, rfl, hse⟩ := cli_encapped hfiles henc
  rw [FS.set_other _ hne, FS.set_same] at hct
  cases hct
  obtain ⟨data', g1, g2⟩ := hfiles.circuit
  rw [hdata] at g1; cases g1
  exact ⟨k, FS.set_same _ _ _, hse.js hwf (fun i hi => C40_cli_bound S.hash _ _ _ w h2 i (by omega)) (cli_missing hwf hpriv rfl h2) hv
      (fun i x _ _ hx => cli_agrees_wires h1 h2 hag hv.one i x hx) (C23_js_agrees hd g2) hwit⟩

/-- **C55** (JS to JS). -/
theorem C55_js_to_js (data : Bytes) (r : R1csFile) (hr : jsParseR1cs data = .ok r.toJs) (sym : Str) (inputs : List (Str × JsVal))
    (hna : JsNoAlias (jsParseSymFile sym) inputs) (hmax : JsSmall (jsParseSymFile sym) inputs) (ρ : Rand Fr)
    (ctB k : Bytes) (henc : jsEncap S data sym inputs ρ = .ok (ctB, k))
    (hwf : WellFormed r) (hpriv : r.nPubOut + r.nPubIn + 1 < r.nWires)
    (wtns : Bytes) (vals : List Fr) (hwit : jsParseWtns wtns = .ok vals) (hv : Witness r vals)
    (hag : JsAgrees (jsParseSymFile sym) (r.nPubOut + r.nPubIn) inputs vals) :
    jsDecap S data (.ok wtns) ctB = .ok k ∧ k.length = 32 := by
  obtain ⟨w, hw, hse⟩ := js_encapped hr hwf.fits henc
  refine ⟨hse.js hwf (fun i hi => js_beyond hw i hi) (js_missing hwf hpriv hw) hv
    (fun i x h1 _ hx => js_agrees_wires hna hmax hw hag i x h1 hx) hr hwit, ?_⟩
  obtain ⟨_, _, ky, _, _, rfl⟩ := hse
  exact ky.len

/-- **C55** (JS to CLI). -/
theorem C55_js_to_cli (data : Bytes) (hd : data.length < 2 ^ 31) (r : R1csFile) (hr : cliParseR1cs S.lim data = .ok r) (sym : Str)
    (inputs : List (Str × JsVal)) (hna : JsNoAlias (jsParseSymFile sym) inputs) (hmax : JsSmall (jsParseSymFile sym) inputs) (ρ : Rand Fr)
    (ctB k : Bytes) (henc : jsEncap S data sym inputs ρ = .ok (ctB, k))
    (hwf : WellFormed r) (hpriv : r.nPubOut + r.nPubIn + 1 < r.nWires)
    (fs : FS) (circuit witness ciphertext key : Path) (wdata : Bytes) (vals : List Fr)
    (hdata : fs circuit = some data) (hct : fs ciphertext = some ctB) (hwd : fs witness = some wdata)
    (hwit : CliWitness wdata vals) (hv : Witness r vals)
    (hag : JsAgrees (jsParseSymFile sym) (r.nPubOut + r.nPubIn) inputs vals) :
    (decapCommand S circuit witness ciphertext key).exec fs = (fs.set key k, .ok ()) := by
  obtain ⟨w, hw, hse⟩ := js_encapped (C23_js_agrees hd hr) hwf.fits henc
  exact hse.cli hwf (fun i hi => js_beyond hw i hi) (js_missing hwf hpriv hw) hv
    (fun i x h1 _ hx => js_agrees_wires hna hmax hw hag i x h1 hx) hdata hr hwd hwit hct

/-- **C55** (no key without witness) — `zkenc decap` succeeds, on whatever ciphertext, only with a witness file that gives every wire of the
circuit a value such that all constraints hold; the key file is the only change. -/
theorem C55_cli_decap_sound (fs fs' : FS) (circuit witness ciphertext key : Path)
    (h : (decapCommand S circuit witness ciphertext key).exec fs = (fs', .ok ())) :
    ∃ data r wdata vals k, fs circuit = some data ∧ cliParseR1cs S.lim data = .ok r ∧ fs witness = some wdata ∧ CliWitness wdata vals ∧
      fs' = fs.set key k ∧ k.length = 32 ∧
      (PublicFits r → ∃ val, Valuation r val ∧ Assigns r (fullWires vals) val ∧ Satisfies r.constraints val) := by
  cases hc : fs ciphertext with
  | none =>
    unfold decapCommand cliDecapPart at h
    simp only [exec_readFile_ok, exec_lift_ok] at h
    obtain ⟨_, _, _, _, _, _, _, _, _, _, _, h, _⟩ := h
    rw [hc] at h; cases h
  | some ctB =>
    obtain ⟨data, r, wdata, wf, vals, ct, ky, h1, h2, h3, h4, h5, -, h8, h9⟩ := decapPart_ok S (ctB := ctB)
      (fun k => by simp only [Cmd.readFile, Cmd.exec, hc]) h
    simp only [exec_writeFile, Cmd.exec, Prod.mk.injEq, and_true] at h9
    refine ⟨data, r, wdata, vals, ky.bytes, h1, h2, h3, ⟨wf, h4, h5⟩, h9.symm, ky.len, fun hf => ?_⟩
    obtain ⟨val, g1, g2, g3, -, -⟩ := C04_C05_decap_sound S.P .cli r hf (fullWires vals) ct ky h8
    exact ⟨val, g1, g2, g3⟩

end Zkenc.Props
