import Verif.Props.JsErrors
import Verif.Props.ComposeExactly
/-!
# Property theorems C97: what the receiver of a message is told
-/

namespace Zkenc.Props

open Zkenc Spec InputSpec CalcSpec ContainerSpec ErrorSpec

section
variable {σ : Type} {G1 G2 GT : Type} [AddCommGroup G1] [Module Fr G1] [AddCommGroup G2] [Module Fr G2] [AddCommGroup GT] [Module Fr GT]
  (M : JsTexts) (N : JsNums) (S : Sys G1 G2 GT)

/-- **C97** (no key) — outer format right, circuit file and witness readable, but no key comes out: what is thrown is a string. The handler of the API reference
ends in a `TypeError`, that of the guide prints nothing, the playground shows its fallback text. -/
theorem C97_no_key (r1cs b : Bytes) (wasm : Res (CircuitWasm σ)) (inputs : List (Str × JsVal)) (p : Parts) (hb : Layout b p ∨ Overrun b p)
    (wtns : Bytes) (hw : calculateWitness N wasm inputs = .ok wtns) (r : JsR1cs) (hr : jsParseR1cs r1cs = .ok r) (vals : List Fr)
    (hv : jsParseWtns wtns = .ok vals) (hno : ∀ k, jsDecapApi N S r1cs wasm p.witnessCt inputs ≠ .ok k) :
    ∃ s, decryptT M N S true r1cs wasm b inputs = .error (.text s) ∧
      documentedReport (decryptT M N S true r1cs wasm b inputs) = .typeError ∧
      guideReport (decryptT M N S true r1cs wasm b inputs) = .silent ∧
      playgroundText (.text s) = some ("❌ Decryption failed: ".toList ++ "Invalid witness or corrupted ciphertext".toList) := by
  have hs := ((C44_js_iff b).1 p).2 hb
  have hT := (calculateWitnessT_ok M N wasm inputs wtns).2 hw
  have hD : ∃ e, wasmDecap S r1cs wtns p.witnessCt = .error (.err e) := by
    have hno' : ∀ k, wasmDecap S r1cs wtns p.witnessCt ≠ .ok k := by
      intro k hk
      refine hno k ?_
      unfold jsDecapApi jsDecap
      rw [hw, Res.ok_bind]
      exact hk
    unfold wasmDecap at hno' ⊢
    rw [hr, Res.ok_bind, hv, Res.ok_bind] at hno' ⊢
    split
    · exact ⟨_, rfl⟩
    rename_i hl
    rw [if_neg hl] at hno'
    cases hd : decCiphertext S.c1 S.c2 p.witnessCt with
    | none => exact ⟨_, rfl⟩
    | some c =>
      rw [hd, Res.ofOption, Res.ok_bind] at hno'
      rw [Res.ofOption, Res.ok_bind]
      cases hk : decap S.P (jsCircuit r (fullWires vals)) c with
      | ok k =>
        rw [hk, Res.ok_bind] at hno'
        exact absurd rfl (hno' _)
      | error f =>
        have := C06_graceful S.P (jsCircuit r (fullWires vals)) c
        rw [hk] at this
        cases f with
        | err e => exact ⟨e, rfl⟩
        | panic => exact absurd this (by simp [Graceful])
        | hang => exact absurd this (by simp [Graceful])
  obtain ⟨e, hD⟩ := hD
  have h : decryptT M N S true r1cs wasm b inputs = .error (.text (M.rust e)) := by
    unfold decryptT decapT
    rw [hs]
    dsimp only
    rw [if_neg (by decide), hT]
    dsimp only
    rw [hD]
    rfl
  rw [h]
  exact ⟨_, rfl, rfl, rfl, rfl⟩

theorem sealed_key_js {S : Sys G1 G2 GT} {t : Tool} {r : R1csFile} {w : Nat → Option Fr} {m combined : Bytes} (h : Sealed S t r w m combined)
    (hf : PublicFits r) (hs : CtFits r) (hw : ∀ i, r.nPubOut + r.nPubIn < i → w i = none)
    {data wtns : Bytes} (h2 : jsParseR1cs data = .ok r.toJs) {vals : List Fr} (h4 : jsParseWtns wtns = .ok vals) :
    ∃ p, splitJs combined = .ok p ∧ ∀ k, jsDecap S data (.ok wtns) p.witnessCt = .ok k →
      vals.length = r.nWires ∧ Accepted r vals ∧ RunAgrees (r.nPubOut + r.nPubIn) w vals := by
  obtain ⟨ρ, ct, key, p, g1, -, g3, g4, -, -⟩ := h.parts hf hs hw
  refine ⟨p, g3, fun k k2 => ?_⟩
  unfold jsDecap wasmDecap at k2
  rw [Res.ok_bind, h2, Res.ok_bind, h4, Res.ok_bind] at k2
  split_ifs at k2 with hne
  · cases k2
  · have g4' := g4 []
    rw [List.append_nil] at g4'
    rw [g4', Res.ofOption, Res.ok_bind] at k2
    obtain ⟨ky, k2, -⟩ := Res.bind_eq_ok.1 k2
    exact ⟨not_not.1 hne, enforced (t' := .js) hf hf g1 k2⟩

variable {x : CircuitWasm σ} {r : R1csFile} {declared : List (Str × List Nat)} {N}

/-- **C97** (what the receiver is told) — JS `encrypt` for `pub`, then `decrypt` with any input object that gives values to the signals the sender bound, inside the handler of
the API reference. Right object: the message. An object the circuit accepts but with other values than the sender's: the handler ends in a `TypeError` (the guide's
handler prints nothing). An object the circuit refuses: "Decryption failed:" and a message, or no answer if the circuit's program does not end. No case
prints "Witness does not satisfy circuit constraints". -/
theorem C97_receiver_is_told (data : Bytes) (hr : jsParseR1cs data = .ok r.toJs) (sym : Str) (pub : List (Str × JsVal))
    (hna : JsNoAlias (jsParseSymFile sym) pub) (hmax : JsSmall (jsParseSymFile sym) pub) (m : Bytes) (incl : Bool) (ρ : Rand Fr)
    (nonce : Bytes) (hn : nonce.length = 12) (hj : incl = true → ∀ s, S.stringify pub = .ok s → (utf8Enc s).length < 2 ^ 32)
    (combined key : Bytes) (henc : jsEncrypt S data sym pub m incl ρ nonce = .ok (combined, key))
    (hwf : WellFormed r) (hs : CtFits r) (hpriv : r.nPubOut + r.nPubIn + 1 < r.nWires) (hsmall : r.nWires < 2 ^ 26 - 8)
    (hc : Compiled x r (jsParseSymFile sym) declared)
    (full : List (Str × JsVal)) (hg : JsGivesBound N declared (jsParseSymFile sym) (r.nPubOut + r.nPubIn) pub full) (hp : PlainTexts M (.ok x) full) :
    let accepted := ∃ w, calculateWitness N (.ok x) full = .ok w
    let same := JsSameBound N declared (jsParseSymFile sym) (r.nPubOut + r.nPubIn) pub full
    let told := documentedReport (decryptT M N S true data (.ok x) combined full)
    (accepted ∧ same → told = .success m) ∧
    (accepted ∧ ¬ same → told = .typeError ∧ guideReport (decryptT M N S true data (.ok x) combined full) = .silent) ∧
    (¬ accepted → (∃ t, told = .failed t) ∨ told = .silent) := by
  intro accepted same told
  have h94 := C94_js_to_js (N := N) S data hr sym pub hna hmax m incl ρ nonce hn hj combined key henc hwf hs hpriv hsmall hc full hg
  obtain ⟨w, hw, hse⟩ := js_sealed hr hwf.fits hn hj henc
  refine ⟨fun h => ?_, ?_, fun h => ?_⟩
  · have := ((C97_same_calls M N S data combined (.ok x) full m).2).2 (h94.1 h)
    show documentedReport (decryptT M N S true data (.ok x) combined full) = _
    rw [this]
    rfl
  · rintro ⟨⟨wtns, hwt⟩, hns⟩
    obtain ⟨vals, h1, -, h3, h4⟩ := js_same_iff hc hsmall hwt hg
    obtain ⟨p, hsp, hkey⟩ := sealed_key_js hse hwf.fits hs (fun i hi => js_beyond hw i hi) hr h1
    have hno : ∀ k, jsDecapApi N S data (.ok x) p.witnessCt full ≠ .ok k := by
      intro k hk
      unfold jsDecapApi at hk
      rw [hwt] at hk
      obtain ⟨-, -, hag⟩ := hkey k hk
      exact hns (h4.1 (js_enforced hna hmax hw hag))
    obtain ⟨s, -, e1, e2, -⟩ := C97_no_key M N S data combined (.ok x) full p (((C44_js_iff combined).1 p).1 hsp) wtns hwt r.toJs hr vals h1 hno
    exact ⟨e1, e2⟩
  · obtain ⟨ρ', ct, ky, p, -, -, g3, -, -, -⟩ := hse.parts hwf.fits hs (fun i hi => js_beyond hw i hi)
    rcases decryptT_kinds M N S true data combined (.ok x) full hp p g3 with ⟨e, h1, h2, -⟩ | ⟨s, -, h2⟩ | ⟨m', h1, -⟩
    · have := documented_plain e h2
      rw [← h1] at this
      exact this
    · obtain ⟨-, wt, -, hwt, -⟩ := h2
      exact absurd ⟨wt, hwt⟩ h
    · have := ((C97_same_calls M N S data combined (.ok x) full m').2).1 h1
      obtain ⟨e, he⟩ := h94.2 (fun hh => h hh.1)
      rw [he] at this
      cases this

end

end Zkenc.Props
