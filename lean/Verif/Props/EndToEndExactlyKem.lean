import Verif.Props.EndToEndExactly
/-!
# C77: exactly which witnesses recover a key

The statements of `EndToEndExactly`, for `encap` and `decap`.
-/

namespace Zkenc.Props

open Zkenc Zkenc.Spec Zkenc.InputSpec

variable {G1 G2 GT : Type} [AddCommGroup G1] [Module Fr G1] [AddCommGroup G2] [Module Fr G2] [AddCommGroup GT] [Module Fr GT]
  (S : Sys G1 G2 GT)

theorem encapped_exactly_cli {S : Sys G1 G2 GT} {t : Tool} {r : R1csFile} {w : Nat → Option Fr} {ctB k : Bytes} (h : Encapped S t r w ctB k)
    (hf : PublicFits r) (hw : ∀ i, r.nPubOut + r.nPubIn < i → w i = none) (hmiss : SomeWireMissing r w)
    {fs : FS} {circuit witness ciphertext key : Path} {data wdata : Bytes} (h1 : fs circuit = some data)
    (h2 : cliParseR1cs S.lim data = .ok r) (h3 : fs witness = some wdata) {vals : List Fr} (h4 : CliWitness wdata vals)
    (hc : fs ciphertext = some ctB) :
    (Accepted r vals ∧ RunAgrees (r.nPubOut + r.nPubIn) w vals →
      (decapCommand S circuit witness ciphertext key).exec fs = (fs.set key k, .ok ())) ∧
    (¬ (Accepted r vals ∧ RunAgrees (r.nPubOut + r.nPubIn) w vals) →
      ∃ e, (decapCommand S circuit witness ciphertext key).exec fs = (fs, .error e)) := by
  obtain ⟨ρ, ct, ky, g1, rfl, rfl⟩ := h
  have g2 : decCiphertext S.c1 S.c2 (encCiphertext S.c1 S.c2 ct) = some ct := by
    have := C16_roundtrip S.c1 S.c2 ct (ct_size S t r hf w hw ρ ct ky g1).2 []
    rwa [List.append_nil] at this
  constructor
  · rintro ⟨ha, hr⟩
    obtain ⟨wf, h4, h5⟩ := h4
    have hd := decap_of_accepted (tDec := .cli) hf hmiss g1 ha hr
    unfold decapCommand
    rw [decapPart_exec S h1 h2 h3 h4 h5 (fun k => by simp only [Cmd.readFile, Cmd.exec, hc]) g2 hd]
    simp only [exec_writeFile, Cmd.exec]
  · intro hbad
    have hrun := run_exec (decapCommand S circuit witness ciphertext key) fs
    rcases hx : (decapCommand S circuit witness ciphertext key).exec fs with ⟨fs', e | u⟩
    · rw [hx] at hrun
      rcases (lastWrite_decap S circuit witness ciphertext key).runs hrun with ⟨rfl, -⟩ | ⟨b, n, h1, -, -⟩
      · exact ⟨e, rfl⟩
      · rw [hx] at h1; simp at h1
    · exfalso
      obtain ⟨data', r₂, wdata', vals', ct', ky', k1, k2, k3, k4, k5, k6⟩ := cli_decap_decap hc hx
      rw [h1] at k1; cases k1
      rw [h2] at k2; cases k2
      rw [h3] at k3; cases k3
      rw [g2] at k5; cases k5
      obtain ⟨wf, a1, a2⟩ := h4
      obtain ⟨wf', b1, b2⟩ := k4
      rw [a1] at b1; cases b1
      rw [a2] at b2; cases b2
      exact hbad (enforced hf hf g1 k6)

theorem encapped_exactly_js {S : Sys G1 G2 GT} {t : Tool} {r : R1csFile} {w : Nat → Option Fr} {ctB k : Bytes} (h : Encapped S t r w ctB k)
    (hf : PublicFits r) (hw : ∀ i, r.nPubOut + r.nPubIn < i → w i = none) (hmiss : SomeWireMissing r w)
    {data wtns : Bytes} (h2 : jsParseR1cs data = .ok r.toJs) {vals : List Fr} (h4 : jsParseWtns wtns = .ok vals) :
    (vals.length = r.nWires ∧ Accepted r vals ∧ RunAgrees (r.nPubOut + r.nPubIn) w vals → jsDecap S data (.ok wtns) ctB = .ok k) ∧
    (¬ (vals.length = r.nWires ∧ Accepted r vals ∧ RunAgrees (r.nPubOut + r.nPubIn) w vals) →
      ∃ e, jsDecap S data (.ok wtns) ctB = .error e) := by
  obtain ⟨ρ, ct, ky, g1, rfl, rfl⟩ := h
  have g2 : decCiphertext S.c1 S.c2 (encCiphertext S.c1 S.c2 ct) = some ct := by
    have := C16_roundtrip S.c1 S.c2 ct (ct_size S t r hf w hw ρ ct ky g1).2 []
    rwa [List.append_nil] at this
  constructor
  · rintro ⟨hlen, ha, hr⟩
    have hd := decap_of_accepted (tDec := .js) hf hmiss g1 ha hr
    rw [Tool.circuit] at hd
    have hlen : ¬ vals.length ≠ r.toJs.nWires := by rw [hlen]; simp [R1csFile.toJs]
    simp only [jsDecap, wasmDecap, Res.ok_bind, h2, h4, if_neg hlen, g2, Res.ofOption, hd]
  · intro hbad
    cases hx : jsDecap S data (.ok wtns) (encCiphertext S.c1 S.c2 ct) with
    | error e => exact ⟨e, rfl⟩
    | ok m' =>
      exfalso
      unfold jsDecap wasmDecap at hx
      rw [Res.ok_bind, h2, Res.ok_bind, h4, Res.ok_bind] at hx
      split_ifs at hx with hne
      · cases hx
      · rw [g2, Res.ofOption, Res.ok_bind] at hx
        obtain ⟨ky', hx, -⟩ := Res.bind_eq_ok.1 hx
        exact hbad ⟨not_not.1 hne, enforced (t' := .js) hf hf g1 hx⟩

/-- **C77** (keys, CLI encap, exactly) — with the circuit a key was made for, `zkenc decap` writes exactly that key if the witness satisfies the circuit and
carries the public values of the unbroken run of wires that were given values, otherwise it fails and changes no file; JS `decap` returns exactly that key or
throws, and in addition wants the number of values of the circuit. -/
theorem C77_cli_encap_exactly (fs fs' : FS) (circuit sym input ciphertext key : Path) (hne : ciphertext ≠ key) (r : R1csFile) (symtab : AMap Nat)
    (entries : List (Str × Json)) (hfiles : CliFiles S fs circuit sym input r symtab entries) (ρ : Rand Fr)
    (henc : (encapCommand S circuit sym input ciphertext key ρ).exec fs = (fs', .ok ()))
    (hwf : WellFormed r) (hpriv : r.nPubIn + 1 < r.nWires) (hna : NoAlias symtab (some r.nPubIn) entries) :
    ∃ ctB k, fs' ciphertext = some ctB ∧ fs' key = some k ∧
    (∀ fs₂ circuit₂ witness ciphertext₂ key₂ data wdata vals, fs₂ circuit₂ = some data → cliParseR1cs S.lim data = .ok r →
      fs₂ ciphertext₂ = some ctB → fs₂ witness = some wdata → CliWitness wdata vals →
      (Accepted r vals ∧ CliEnforced symtab r.nPubIn entries vals →
        (decapCommand S circuit₂ witness ciphertext₂ key₂).exec fs₂ = (fs₂.set key₂ k, .ok ())) ∧
      (¬ (Accepted r vals ∧ CliEnforced symtab r.nPubIn entries vals) →
        ∃ e, (decapCommand S circuit₂ witness ciphertext₂ key₂).exec fs₂ = (fs₂, .error e))) ∧
    (∀ data wtns vals, jsParseR1cs data = .ok r.toJs → jsParseWtns wtns = .ok vals →
      (vals.length = r.nWires ∧ Accepted r vals ∧ CliEnforced symtab r.nPubIn entries vals → jsDecap S data (.ok wtns) ctB = .ok k) ∧
      (¬ (vals.length = r.nWires ∧ Accepted r vals ∧ CliEnforced symtab r.nPubIn entries vals) →
        ∃ e, jsDecap S data (.ok wtns) ctB = .error e)) := by
  obtain ⟨w, symText, ctB, k, h1, h2, rfl, hse⟩ := cli_encapped hfiles henc
  have hw : ∀ i, r.nPubOut + r.nPubIn < i → w i = none := fun i hi => C40_cli_bound S.hash _ _ _ w h2 i (by omega)
  have hmiss := cli_missing hwf hpriv rfl h2
  have hiff : ∀ vals, CliEnforced symtab r.nPubIn entries vals ↔ RunAgrees (r.nPubOut + r.nPubIn) w vals :=
    fun vals => ⟨cli_run_of_enforced h1 h2 hna, cli_enforced h1 h2 hna (by omega)⟩
  refine ⟨ctB, k, by rw [FS.set_other _ hne, FS.set_same], FS.set_same _ _ _, ?_, ?_⟩
  · intro fs₂ circuit₂ witness ciphertext₂ key₂ data wdata vals a1 a2 a3 a4 a5
    rw [hiff]
    exact encapped_exactly_cli hse hwf.fits hw hmiss a1 a2 a4 a5 a3
  · intro data wtns vals a1 a2
    rw [hiff]
    exact encapped_exactly_js hse hwf.fits hw hmiss a1 a2

/-- **C77** (keys, JS encap, exactly). -/
theorem C77_js_encap_exactly (data : Bytes) (r : R1csFile) (hr : jsParseR1cs data = .ok r.toJs) (sym : Str) (inputs : List (Str × JsVal))
    (hna : JsNoAlias (jsParseSymFile sym) inputs) (hmax : JsSmall (jsParseSymFile sym) inputs) (ρ : Rand Fr)
    (ctB k : Bytes) (henc : jsEncap S data sym inputs ρ = .ok (ctB, k)) (hwf : WellFormed r) (hpriv : r.nPubOut + r.nPubIn + 1 < r.nWires) :
    (∀ fs₂ circuit₂ witness ciphertext₂ key₂ data₂ wdata vals, fs₂ circuit₂ = some data₂ → cliParseR1cs S.lim data₂ = .ok r →
      fs₂ ciphertext₂ = some ctB → fs₂ witness = some wdata → CliWitness wdata vals →
      (Accepted r vals ∧ JsEnforced (jsParseSymFile sym) (r.nPubOut + r.nPubIn) inputs vals →
        (decapCommand S circuit₂ witness ciphertext₂ key₂).exec fs₂ = (fs₂.set key₂ k, .ok ())) ∧
      (¬ (Accepted r vals ∧ JsEnforced (jsParseSymFile sym) (r.nPubOut + r.nPubIn) inputs vals) →
        ∃ e, (decapCommand S circuit₂ witness ciphertext₂ key₂).exec fs₂ = (fs₂, .error e))) ∧
    (∀ wtns vals, jsParseWtns wtns = .ok vals →
      (vals.length = r.nWires ∧ Accepted r vals ∧ JsEnforced (jsParseSymFile sym) (r.nPubOut + r.nPubIn) inputs vals →
        jsDecap S data (.ok wtns) ctB = .ok k) ∧
      (¬ (vals.length = r.nWires ∧ Accepted r vals ∧ JsEnforced (jsParseSymFile sym) (r.nPubOut + r.nPubIn) inputs vals) →
        ∃ e, jsDecap S data (.ok wtns) ctB = .error e)) := by
  obtain ⟨w, hw, hse⟩ := js_encapped hr hwf.fits henc
  have hb : ∀ i, r.nPubOut + r.nPubIn < i → w i = none := fun i hi => js_beyond hw i hi
  have hmiss := js_missing hwf hpriv hw
  have hiff : ∀ vals, JsEnforced (jsParseSymFile sym) (r.nPubOut + r.nPubIn) inputs vals ↔ RunAgrees (r.nPubOut + r.nPubIn) w vals :=
    fun vals => ⟨js_run_of_enforced hna hmax hw, js_enforced hna hmax hw⟩
  constructor
  · intro fs₂ circuit₂ witness ciphertext₂ key₂ data₂ wdata vals a1 a2 a3 a4 a5
    rw [hiff]
    exact encapped_exactly_cli hse hwf.fits hb hmiss a1 a2 a4 a5 a3
  · intro wtns vals a2
    rw [hiff]
    exact encapped_exactly_js hse hwf.fits hb hmiss hr a2

/-- A concrete case of both halves: for the circuit `x² = y` and the public input `y = 9`, JS `decap` returns the key with the witness of `3² = 9`, and fails
with the witness of `2² = 4`. -/
example : ∃ ct k wtns₂, jsEncap Ex.S Ex.sqData Ex.sym Ex.inputs Ex.ρ = .ok (ct, k) ∧ jsDecap Ex.S Ex.sqData (.ok Ex.wtns) ct = .ok k ∧
    jsParseWtns wtns₂ = .ok [1, 4, 2] ∧ ∃ e, jsDecap Ex.S Ex.sqData (.ok wtns₂) ct = .error e := by
  obtain ⟨ct, k, h1, h2, -⟩ := Ex.js_kem_run
  refine ⟨ct, k, serializeWitnessSimple [1, 4, 2], h1, h2, by rw [C30_roundtrip _ (by decide)]; simp, ?_⟩
  refine ((C77_js_encap_exactly Ex.S Ex.sqData Ex.sq Ex.sqData_js Ex.sym Ex.inputs Ex.js_noAlias Ex.js_small Ex.ρ ct k h1 Ex.sq_wf (by simp [Ex.sq])).2 _ [1, 4, 2]
    (by rw [C30_roundtrip _ (by decide)]; simp)).2 ?_
  rintro ⟨-, -, h⟩
  obtain ⟨m, -, g2, g3⟩ := Ex.sym_parse
  have hr : Resolves (jsParseSymFile Ex.sym) none ['y'] 1 := ⟨by rw [g3, Ex.main_y, g2]; simp, by simp⟩
  have hg : JsGives Ex.inputs ['y'] (.num 9) := ⟨(['y'], .num 9), by simp [Ex.inputs], .scalar (by simp) (by simp)⟩
  have hs : ∀ i, 1 ≤ i → i ≤ 1 → JsSupplies (jsParseSymFile Ex.sym) Ex.inputs i := by
    intro i a b
    obtain rfl : i = 1 := by omega
    exact ⟨_, _, hr, hg⟩
  have := h 1 le_rfl (by simp [Ex.sq]) hs _ _ _ 9 hr hg rfl Ex.nine_text
  have e : (4 : Fr) = ((9 : Nat) : Fr) := by simpa using this
  have e' : ((4 : Nat) : Fr) = ((9 : Nat) : Fr) := by exact_mod_cast e
  rw [ZMod.natCast_eq_natCast_iff'] at e'
  revert e'
  decide

end Zkenc.Props
