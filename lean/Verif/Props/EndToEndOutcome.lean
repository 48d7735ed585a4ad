import Verif.Props.EndToEndKem
/-!
# When encapsulation and encryption succeed: C55 (encap), C48 (JS encrypt)
-/

namespace Zkenc.Props

open Zkenc Zkenc.Spec Zkenc.InputSpec

variable {G1 G2 GT : Type} [AddCommGroup G1] [Module Fr G1] [AddCommGroup G2] [Module Fr G2] [AddCommGroup GT] [Module Fr GT]
  (S : Sys G1 G2 GT)

theorem JsVal.toStr_isOk (v : JsVal) : (∃ s, v.toStr = .ok s) ↔ v ≠ .null ∧ v ≠ .undef := by
  cases v <;> simp [JsVal.toStr, Res.fail]

/-- The witness bytes exist exactly for usable objects. -/
theorem jsEncapWitness_usable (sym : Str) (inputs : List (Str × JsVal)) (hna : JsNoAlias (jsParseSymFile sym) inputs)
    (hmax : JsSmall (jsParseSymFile sym) inputs) :
    (∃ b, jsEncapWitness sym inputs = .ok b) ↔ JsUsable (jsParseSymFile sym) inputs := by
  constructor
  · rintro ⟨b, hb⟩
    obtain ⟨h1, zs, -, h3, h4⟩ := (C38_js_witness sym inputs hna b).1 hb
    refine ⟨h1, ?_⟩
    intro i hi hrun name v s hr hg hs
    have hle : i ≤ zs.length := by
      by_contra hc
      obtain ⟨n, v, g1, g2⟩ := hrun (zs.length + 1) (by omega) (by omega)
      exact h4 n v g1 g2
    obtain ⟨n', v', s', g1, g2, g3, g4⟩ := h3 (i - 1) (by omega)
    rw [Nat.sub_add_cancel hi] at g1
    have := hna name n' i v v' hr g1 hg g2
    rw [hs, g3] at this
    cases this
    exact ⟨_, g4⟩
  · intro h
    have hex : ∃ n, ¬ JsSupplies (jsParseSymFile sym) inputs (n + 1) := by
      obtain ⟨i, h1, -, h3⟩ := hmax
      exact ⟨i - 1, by rwa [Nat.sub_add_cancel h1]⟩
    classical
    obtain ⟨n, hn, hmin⟩ : ∃ n, ¬ JsSupplies (jsParseSymFile sym) inputs (n + 1) ∧
        ∀ j, j < n → JsSupplies (jsParseSymFile sym) inputs (j + 1) :=
      ⟨Nat.find hex, Nat.find_spec hex, fun j hj => by
        have := Nat.find_min hex hj
        exact not_not.1 this⟩
    have hz : ∀ k : Fin n, ∃ z : Int, ∃ name v s, Resolves (jsParseSymFile sym) none name (k.1 + 1) ∧ JsGives inputs name v ∧
        v.toStr = .ok s ∧ jsBigInt s = some z := by
      intro k
      obtain ⟨name, v, h1, h2⟩ := hmin k.1 k.2
      obtain ⟨s, hs⟩ := (JsVal.toStr_isOk v).2 (h.not_null name v _ h1 h2)
      obtain ⟨z, hz⟩ := h.integer (k.1 + 1) (by omega) (fun j hj hj' => by
        have := hmin (j - 1) (by omega)
        rwa [Nat.sub_add_cancel hj] at this) name v s h1 h2 hs
      exact ⟨z, name, v, s, h1, h2, hs, hz⟩
    choose f hf using hz
    refine ⟨_, (C38_js_witness sym inputs hna _).2 ⟨h.not_null, List.ofFn f, rfl, ?_, ?_⟩⟩
    · intro k hk
      rw [List.length_ofFn] at hk
      rw [List.getElem_ofFn]
      exact hf ⟨k, hk⟩
    · intro name v h1 h2
      rw [List.length_ofFn] at h1
      exact hn ⟨name, v, h1, h2⟩

/-- The witness bytes JS makes are read back. -/
theorem jsEncapWitness_parses (sym : Str) (inputs : List (Str × JsVal)) (hna : JsNoAlias (jsParseSymFile sym) inputs)
    (hmax : JsSmall (jsParseSymFile sym) inputs) (b : Bytes) (hb : jsEncapWitness sym inputs = .ok b) : ∃ vals, jsParseWtns b = .ok vals := by
  obtain ⟨-, zs, rfl, h3, -⟩ := (C38_js_witness sym inputs hna b).1 hb
  refine ⟨_, C30_roundtrip _ ?_⟩
  have : zs.length < 2 ^ 25 := hmax.run_lt fun k hk => by
    obtain ⟨name, v, s, g1, g2, -⟩ := h3 k hk
    exact ⟨name, v, g1, g2⟩
  rw [List.length_cons]
  omega

/-- **C55** (when does JS `encap` succeed) — on a readable circuit, exactly if the input object is usable and the random `δ` is not zero;
the result is then a ciphertext and a 32-byte key. -/
theorem C55_js_encap_outcome (data : Bytes) (r : R1csFile) (hr : jsParseR1cs data = .ok r.toJs) (sym : Str)
    (inputs : List (Str × JsVal)) (hna : JsNoAlias (jsParseSymFile sym) inputs) (hmax : JsSmall (jsParseSymFile sym) inputs) (ρ : Rand Fr) :
    (JsUsable (jsParseSymFile sym) inputs ∧ ρ.delta ≠ 0 → ∃ ct k, jsEncap S data sym inputs ρ = .ok (ct, k) ∧ k.length = 32) ∧
    (¬ (JsUsable (jsParseSymFile sym) inputs ∧ ρ.delta ≠ 0) → ∃ e, jsEncap S data sym inputs ρ = .error e) := by
  constructor
  · rintro ⟨hu, hδ⟩
    obtain ⟨b, hb⟩ := (jsEncapWitness_usable sym inputs hna hmax).2 hu
    obtain ⟨vals, hv⟩ := jsEncapWitness_parses sym inputs hna hmax b hb
    obtain ⟨ct, k, hk⟩ := (C07_encap_outcome_circom S.P S.dom .js r (wasmEncapWires r.toJs.nPublicInputs vals) ρ).2 hδ
    rw [Tool.circuit] at hk
    exact ⟨_, _, by simp only [jsEncap, wasmEncap, hb, hr, hv, Res.ok_bind, hk]; rfl, k.len⟩
  · intro hbad
    cases hx : jsEncap S data sym inputs ρ with
    | error e => exact ⟨e, rfl⟩
    | ok res =>
      exfalso
      obtain ⟨ctB, k⟩ := res
      apply hbad
      unfold jsEncap at hx
      obtain ⟨b, hb, hx⟩ := Res.bind_eq_ok.1 hx
      refine ⟨(jsEncapWitness_usable sym inputs hna hmax).1 ⟨b, hb⟩, fun hδ => ?_⟩
      unfold wasmEncap at hx
      rw [hr, Res.ok_bind] at hx
      obtain ⟨vals, -, hx⟩ := Res.bind_eq_ok.1 hx
      obtain ⟨_, hx, -⟩ := Res.bind_eq_ok.1 hx
      have := (C07_encap_outcome_circom S.P S.dom .js r (wasmEncapWires r.toJs.nPublicInputs vals) ρ).1 hδ
      rw [Tool.circuit] at this
      rw [this] at hx
      cases hx

/-- **C48** (when does JS `encrypt` succeed) — on a readable circuit, exactly if the input object is usable, the random `δ` is not zero, the message
is within the limit of WebCrypto and, if the public input is to be included, `JSON.stringify` does not throw. -/
theorem C48_encrypt_outcome (data : Bytes) (r : R1csFile) (hr : jsParseR1cs data = .ok r.toJs) (sym : Str)
    (inputs : List (Str × JsVal)) (hna : JsNoAlias (jsParseSymFile sym) inputs) (hmax : JsSmall (jsParseSymFile sym) inputs)
    (m : Bytes) (incl : Bool) (ρ : Rand Fr) (nonce : Bytes) (hn : nonce.length = 12) :
    (∃ ct k, jsEncrypt S data sym inputs m incl ρ nonce = .ok (ct, k)) ↔
      JsUsable (jsParseSymFile sym) inputs ∧ ρ.delta ≠ 0 ∧ m.length ≤ S.cipher.maxEnc .js ∧
      (incl = true → ∃ s, S.stringify inputs = .ok s) := by
  have hout := C55_js_encap_outcome S data r hr sym inputs hna hmax ρ
  constructor
  · rintro ⟨ct, k, h⟩
    unfold jsEncrypt at h
    obtain ⟨⟨ctB, key⟩, h1, h⟩ := Res.bind_eq_ok.1 h
    obtain ⟨enc, h2, h⟩ := Res.bind_eq_ok.1 h
    obtain ⟨pub, h3, h⟩ := Res.bind_eq_ok.1 h
    have hud : JsUsable (jsParseSymFile sym) inputs ∧ ρ.delta ≠ 0 := by
      by_contra hc
      obtain ⟨e, he⟩ := hout.2 hc
      rw [he] at h1; cases h1
    refine ⟨hud.1, hud.2, ?_, ?_⟩
    · by_contra hc
      obtain ⟨e, he⟩ := (C41_encrypt_outcome S.cipher .js key nonce m hn).2 (by omega)
      rw [he] at h2; cases h2
    · rintro rfl
      rw [if_pos rfl] at h3
      obtain ⟨s, hs, -⟩ := Res.bind_eq_ok.1 h3
      exact ⟨s, hs⟩
  · rintro ⟨hu, hδ, hm, hs⟩
    obtain ⟨ctB, key, h1, hk⟩ := hout.1 ⟨hu, hδ⟩
    obtain ⟨enc, h2, -⟩ := (C41_encrypt_outcome S.cipher .js key nonce m hn).1 ⟨hk, hm⟩
    unfold jsEncrypt
    cases incl with
    | false => exact ⟨_, _, by simp only [h1, h2, Res.ok_bind, Bool.false_eq_true, if_false]; rfl⟩
    | true =>
      obtain ⟨s, hs⟩ := hs rfl
      exact ⟨_, _, by simp only [h1, h2, hs, Res.ok_bind, if_true]; rfl⟩

/-- **C55** (when does `zkenc encap` succeed) — with a readable circuit, symbol table and input object, exactly if every value of the object is
a field element and the random `δ` is not zero; it then writes the ciphertext and the key, otherwise nothing. -/
theorem C55_cli_encap_outcome (fs : FS) (circuit sym input ciphertext key : Path) (r : R1csFile) (symtab : AMap Nat)
    (entries : List (Str × Json)) (hfiles : CliFiles S fs circuit sym input r symtab entries) (ρ : Rand Fr) :
    (AllDenote entries ∧ ρ.delta ≠ 0 → ∃ ct k, k.length = 32 ∧
      (encapCommand S circuit sym input ciphertext key ρ).exec fs = ((fs.set ciphertext ct).set key k, .ok ())) ∧
    (¬ (AllDenote entries ∧ ρ.delta ≠ 0) →
      ∃ e, (encapCommand S circuit sym input ciphertext key ρ).exec fs = (fs, .error e)) := by
  obtain ⟨data, g1, g2⟩ := hfiles.circuit
  obtain ⟨b, s, g3, g4, g5⟩ := hfiles.sym
  obtain ⟨b', s', g6, g7, g8⟩ := hfiles.input
  constructor
  · rintro ⟨ha, hδ⟩
    obtain ⟨mi, hmi⟩ := (C38_cli_accepts_iff (.obj entries)).1.2 ⟨entries, rfl, ha⟩
    obtain ⟨ct, ky, henc⟩ := (C07_encap_outcome_circom S.P S.dom .cli r
      (cliWires (inputSignals (S.hash.ord symtab) (some r.nPubIn)) (S.hash.ord mi)) ρ).2 hδ
    refine ⟨encCiphertext S.c1 S.c2 ct, ky.bytes, ky.len, ?_⟩
    unfold encapCommand
    rw [encapPart_of S g1 g2 g3 g4 g6 g7 g8 (by simp only [cliAssign, g5, hmi, Res.ok_bind]) henc]
    simp only [exec_writeFile, Cmd.exec]
  · intro hbad
    unfold encapCommand cliEncapPart
    simp only [Cmd.readFile, Cmd.readText, Cmd.exec, g1, g2, g3, g4, g5, g6, g7, g8, Cmd.lift, Res.ofOption, Res.ok_bind]
    cases hmi : cliInputs (.obj entries) with
    | error e => exact ⟨e, rfl⟩
    | ok mi =>
      obtain ⟨e', he', ha⟩ := (C38_cli_accepts_iff (.obj entries)).1.1 ⟨mi, hmi⟩
      cases he'
      have hδ : ρ.delta = 0 := by
        by_contra hc
        exact hbad ⟨ha, hc⟩
      have := (C07_encap_outcome_circom S.P S.dom .cli r
        (cliWires (inputSignals (S.hash.ord symtab) (some r.nPubIn)) (S.hash.ord mi)) ρ).1 hδ
      rw [Tool.circuit] at this
      refine ⟨.panic, ?_⟩
      simp only [Cmd.exec, g1, g2, this]

end Zkenc.Props
