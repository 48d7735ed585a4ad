import Verif.Proofs.CliErrors
/-!
# Property theorems C104: exit status and error report of the CLI
-/

namespace Zkenc.Props

open Zkenc Spec InputSpec ContainerSpec CliErrorSpec CliErr

variable {G1 G2 GT : Type} [AddCommGroup G1] [Module Fr G1] [AddCommGroup G2] [Module Fr G2] [AddCommGroup GT] [Module Fr GT]
  (S : Sys G1 G2 GT)

/-- **C104** (`zkenc decap`) — whatever the files contain: how the command ends. -/
theorem C104_decap (ρ : Rand Fr) (nonce : Bytes) (fs : FS) (circuit witness ciphertext key : Path) (hf : ∀ r, IsCircuit S fs circuit r → PublicFits r)
    (e : Ending) :
    ending ((cliMainE S ρ nonce (.decap circuit witness ciphertext key)).exec fs).2 = some e ↔ DecapEnds S fs circuit witness ciphertext e := by
  change Fin (decapCommandE S circuit witness ciphertext key) fs e ↔ _
  unfold decapCommandE DecapEnds
  cases h1 : fs ciphertext with
  | none =>
    have hno : ¬ ∃ b c, (none : Option Bytes) = some b ∧ decCiphertext S.c1 S.c2 b = some c := by rintro ⟨b, c, h, -⟩; cases h
    have : ∀ e, Fin (cliDecapPartE S circuit witness (fun k => Cmd.readFile ciphertext "Failed to read ciphertext file" k) "Failed to deserialize ciphertext"
        fun key' => Cmd.writeFile key key'.bytes "Failed to write key file" (.done (.ok ()))) fs e ↔
        Ends (loadChecks S fs circuit witness ++ [(∃ b, (none : Option Bytes) = some b, reports "Failed to read ciphertext file"),
          (False, reports "Failed to deserialize ciphertext")]) e := by
      apply load_ends
      intro data r vals _ _ _ e
      rw [fin_read_none h1]
      simp [Ends]
    rw [this]
    constructor
    · intro h
      exact ⟨fun b c hb => (by cases hb), fun _ => h⟩
    · intro h
      exact h.2 hno
  | some b =>
    have hg : ∀ (k : Bytes → Cmd) e, Fin ((fun k => Cmd.readFile ciphertext "Failed to read ciphertext file" k) k) fs e ↔ Fin (k b) fs e :=
      fun k e => fin_read_some h1 e
    cases hc : decCiphertext S.c1 S.c2 b with
    | none =>
      have hno : ¬ ∃ b' c, some b = some b' ∧ decCiphertext S.c1 S.c2 b' = some c := by
        rintro ⟨b', c, h, h'⟩
        cases h
        rw [hc] at h'
        cases h'
      have : ∀ e, Fin (cliDecapPartE S circuit witness (fun k => Cmd.readFile ciphertext "Failed to read ciphertext file" k) "Failed to deserialize ciphertext"
          fun key' => Cmd.writeFile key key'.bytes "Failed to write key file" (.done (.ok ()))) fs e ↔
          Ends (loadChecks S fs circuit witness ++ [(∃ b', some b = some b', reports "Failed to read ciphertext file"),
            (False, reports "Failed to deserialize ciphertext")]) e := by
        apply load_ends
        intro data r vals _ _ _ e
        rw [fin_read_some h1, fin_lift_err (m := "Failed to deserialize ciphertext") (by rw [hc]; rfl)]
        simp [Ends]
      rw [this]
      constructor
      · intro h
        refine ⟨fun b' c hb hc' => ?_, fun _ => h⟩
        cases hb
        rw [hc] at hc'
        cases hc'
      · intro h
        exact h.2 hno
    | some c =>
      rw [decap_ends (rest := []) hf hg hc]
      · rw [List.append_nil]
        constructor
        · intro h
          refine ⟨fun b' c' hb hc' => ?_, fun hn => absurd ⟨b, c, rfl, hc⟩ hn⟩
          cases hb
          rw [hc] at hc'
          cases hc'
          exact h
        · intro h
          exact h.1 b c rfl hc
      · intro r vals key _ _ e
        rw [fin_write]
        exact fin_done_ok _ e

/-- Two ways to cut off the witness part are the same. -/
theorem header_unique {f f' : UInt8} {lw lw' w w' r r' : Bytes} (h : f :: (lw ++ (w ++ r)) = f' :: (lw' ++ (w' ++ r'))) (hl : lw.length = 4)
    (hl' : lw'.length = 4) (he : beNat lw = w.length) (he' : beNat lw' = w'.length) : f = f' ∧ lw = lw' ∧ w = w' ∧ r = r' := by
  rw [List.cons.injEq] at h
  obtain ⟨h1, h2⟩ := List.append_inj h.2 (by rw [hl, hl'])
  subst h1
  obtain ⟨h3, h4⟩ := List.append_inj h2 (by rw [← he, ← he'])
  exact ⟨h.1, rfl, h3, h4⟩

theorem splitCli_ends {b : Bytes} (h : ∀ p, ¬ Layout b p) {k : Parts → Cmd} {fs : FS} (e : Ending) :
    Fin (Cmd.lift (splitCli b) k) fs e ↔ Ends (containerChecks b) e := by
  revert e
  unfold containerChecks
  apply step
  · intro h5
    rcases header_cases b with hb | ⟨f, lw, r, rfl, hlw, hlt⟩ | ⟨f, lw, w, r, rfl, hlw, hle⟩
    · omega
    · apply step
      · rintro ⟨f', lw', w', r', he, hl', hb'⟩
        exfalso
        rw [List.cons.injEq] at he
        obtain ⟨h1, h2⟩ := List.append_inj he.2 (by rw [hlw, hl'])
        subst h1
        rw [h2, List.length_append, hb'] at hlt
        omega
      · intro _ e
        exact fin_lift_err (split_overrun_w hlw hlt).1 fs e
    · apply step
      · intro _
        by_cases hf1 : f = 1
        · subst hf1
          apply step
          · intro hn
            apply step
            · rintro ⟨p, hp⟩
              exact absurd hp (h p)
            · intro _ e
              rcases rest_cases r with h4 | ⟨lp, q, rfl, hlp, hq⟩ | ⟨lp, q, m, rfl, hlp, hq⟩
              · exact absurd ⟨lw, w, r, rfl, hlw, hle, h4⟩ hn
              · refine fin_lift_err ?_ fs e
                rw [(split_public hlw hle hlp).1, if_pos hq]
                rfl
              · exact absurd (Layout.withPublic w q m lw lp hlw hlp hle hq) (h _)
          · intro hn e
            rw [Classical.not_not] at hn
            obtain ⟨lw', w', r', he, hl', hb', h4⟩ := hn
            obtain ⟨-, -, -, rfl⟩ := header_unique he hlw hl' hle hb'
            exact fin_lift_err (split_short_public hlw hle h4).1 fs e
        · exact absurd (Layout.without f hf1 w r lw hlw hle) (h _)
      · intro hn e
        exact absurd ⟨f, lw, w, r, rfl, hlw, hle⟩ hn
  · intro h5 e
    exact fin_lift_err (split_short b (by omega)).1 fs e

/-- **C104** (`zkenc decrypt`) — whatever the files contain: how the command ends. -/
theorem C104_decrypt (ρ : Rand Fr) (nonce : Bytes) (fs : FS) (circuit witness ciphertext output : Path)
    (hf : ∀ r, IsCircuit S fs circuit r → PublicFits r) (e : Ending) :
    ending ((cliMainE S ρ nonce (.decrypt circuit witness ciphertext output)).exec fs).2 = some e ↔ DecryptEnds S fs circuit witness ciphertext e := by
  change Fin (decryptCommandE S circuit witness ciphertext output) fs e ↔ _
  unfold decryptCommandE DecryptEnds
  cases h1 : fs ciphertext with
  | none =>
    rw [fin_read_none h1]
    constructor
    · intro h
      exact ⟨fun _ => h, fun b hb => (by cases hb), fun b p hb => (by cases hb), fun b p c hb => (by cases hb)⟩
    · intro h
      exact h.1 rfl
  | some b =>
    rw [fin_read_some h1]
    by_cases hl : ∃ p, Layout b p
    · obtain ⟨p, hp⟩ := hl
      have hsp := ((C44_cli_iff b).1 p).2 hp
      have huniq : ∀ p', Layout b p' → p' = p := by
        intro p' hp'
        have := ((C44_cli_iff b).1 p').2 hp'
        rw [hsp] at this
        cases this
        rfl
      rw [fin_lift_ok hsp]
      cases hc : decCiphertext S.c1 S.c2 p.witnessCt with
      | none =>
        rw [decap_ends_none (ctB := p.witnessCt) (fun _ _ => Iff.rfl) hc]
        constructor
        · intro h
          refine ⟨fun hn => (by cases hn), fun b' hb hno => ?_, fun b' p' hb hp' _ => h, fun b' p' c hb hp' hc' => ?_⟩
          · cases hb
            exact absurd hp (hno p)
          · cases hb
            rw [huniq p' hp', hc] at hc'
            cases hc'
        · intro h
          exact h.2.2.1 b p rfl hp hc
      | some c =>
        have := fun e => decap_ends (witness := witness) (ctMsg := "Failed to deserialize witness ciphertext") (k := fun key =>
          Cmd.lift ((decryptGcm S.cipher .cli key.bytes p.encrypted).context "Message decryption failed") fun m =>
          Cmd.writeFile output m "Failed to write decrypted file" (.done (.ok ()))) (getCt := fun k => k p.witnessCt)
          (rest := [(∀ r vals key, Receives S fs circuit witness r vals → decap S.P (cliCircuit r (fullWires vals)) c = .ok key →
            ∃ m, decryptGcm S.cipher .cli key.bytes p.encrypted = .ok m, reports "Message decryption failed")])
          hf (ctB := p.witnessCt) (fun _ _ => Iff.rfl) hc ?_ e
        · rw [this]
          constructor
          · intro h
            refine ⟨fun hn => (by cases hn), fun b' hb hno => ?_, fun b' p' hb hp' hc' => ?_, fun b' p' c' hb hp' hc' => ?_⟩
            · cases hb
              exact absurd hp (hno p)
            · cases hb
              rw [huniq p' hp', hc] at hc'
              cases hc'
            · cases hb
              rw [huniq p' hp'] at hc' ⊢
              rw [hc] at hc'
              cases hc'
              exact h
          · intro h
            exact h.2.2.2 b p c rfl hp hc
        · intro r vals key hr hk
          apply step
          · intro hall e
            obtain ⟨m, hm⟩ := hall r vals key hr hk
            rw [fin_lift_ok (context_ok hm _), fin_write]
            exact fin_done_ok _ e
          · intro hn e
            cases hd : decryptGcm S.cipher .cli key.bytes p.encrypted with
            | ok m =>
              refine absurd (fun r' vals' key' hr' hk' => ?_) hn
              obtain ⟨rfl, rfl⟩ := receives_unique hr hr'
              rw [hk] at hk'
              cases hk'
              exact ⟨m, hd⟩
            | error f =>
              obtain ⟨m, hm⟩ := (C41_decrypt_iff S.cipher .cli key.bytes p.encrypted).2 (fun m h => by rw [hd] at h; cases h)
              rw [hd] at hm
              cases hm
              exact fin_lift_err rfl fs e
    · rw [splitCli_ends (fun p hp => hl ⟨p, hp⟩)]
      constructor
      · intro h
        refine ⟨fun hn => (by cases hn), fun b' hb _ => ?_, fun b' p hb hp _ => ?_, fun b' p c hb hp => ?_⟩
        · cases hb
          exact h
        · cases hb
          exact absurd ⟨p, hp⟩ hl
        · cases hb
          exact absurd ⟨p, hp⟩ hl
      · intro h
        exact h.2.1 b rfl (fun p hp => hl ⟨p, hp⟩)

theorem isText_unique {fs : FS} {p : Path} {s s' : Str} (h : IsText fs p s) (h' : IsText fs p s') : s = s' := by
  obtain ⟨b, t, h1, h2, rfl⟩ := h
  obtain ⟨b', t', h3, h4, rfl⟩ := h'
  rw [h1] at h3
  cases h3
  rw [h2] at h4
  cases h4
  rfl

theorem fin_text_some {p : Path} {m : String} {k : Bytes → Str → Cmd} {fs : FS} {b : Bytes} {t : String} (h : fs p = some b) (h' : utf8Dec b = some t)
    (e : Ending) : Fin (Cmd.readText p m k) fs e ↔ Fin (k b t.toList) fs e := by
  unfold Cmd.readText
  rw [fin_read_some h, fin_lift_ok (a := t) (by rw [h']; rfl)]

theorem fin_text_none {p : Path} {m : String} {k : Bytes → Str → Cmd} {fs : FS} (h : ¬ ∃ s, IsText fs p s) (e : Ending) :
    Fin (Cmd.readText p m k) fs e ↔ e = reports m := by
  unfold Cmd.readText
  cases h1 : fs p with
  | none => exact fin_read_none h1 e
  | some b =>
    rw [fin_read_some h1]
    refine fin_lift_err ?_ fs e
    apply ofOption_none
    cases h2 : utf8Dec b with
    | none => rfl
    | some t => exact absurd ⟨t.toList, b, t, h1, h2, rfl⟩ h

/-- Up to the encapsulated key. -/
theorem encap_ends {fs : FS} {circuit sym input : Path} {ρ : Rand Fr} {k : Bytes → Key → Bytes → Cmd} {rest : List (Prop × Ending)}
    (hok : ∀ ct key json, key.bytes.length = 32 → ∀ e, Fin (k ct key json) fs e ↔ Ends rest e) :
    ∀ e, Fin (cliEncapPartE S circuit sym input ρ k) fs e ↔ Ends (encapChecks S fs circuit sym input ρ ++ rest) e := by
  simp only [encapChecks, List.cons_append, List.nil_append]
  unfold cliEncapPartE
  apply step
  · rintro ⟨r, data, h1, h2⟩
    have c1 := fun e => fin_read_some (m := "Failed to load R1CS circuit") (k := fun data =>
      Cmd.lift ((cliParseR1cs S.lim data).context "Failed to load R1CS circuit") fun r1cs =>
      Cmd.readText sym "Failed to read symbol file" fun _ symText =>
      Cmd.lift ((parseSymFile symText).context "Failed to parse symbol file") fun wireMap =>
      let sig := inputSignals (S.hash.ord wireMap) (some r1cs.nPubIn)
      Cmd.readText input "Failed to read input JSON file" fun jsonBytes jsonText =>
      Cmd.lift ((Res.ofOption (S.serdeParse jsonText) "Invalid JSON" >>= cliInputs).context "Failed to parse input JSON") fun inputs =>
      let witness := cliWires sig (S.hash.ord inputs)
      Cmd.readFile circuit "Failed to create circuit" fun data' =>
      Cmd.lift ((cliParseR1cs S.lim data').context "Failed to create circuit") fun r1cs' =>
      Cmd.lift ((encap S.P S.dom (cliCircuit r1cs' witness) ρ).contextDebug "Encap failed: ") fun res =>
      k (encCiphertext S.c1 S.c2 res.1) res.2 jsonBytes) h1 e
    simp only [fin_lift_ok (context_ok h2 _)] at c1
    simp only [c1]
    apply step
    · rintro ⟨s, b, t, h3, h4, rfl⟩
      simp only [fin_text_some h3 h4]
      apply step
      · rintro ⟨s', symtab, hs', h5⟩
        cases isText_unique ⟨b, t, h3, h4, rfl⟩ hs'
        simp only [fin_lift_ok (context_ok h5 _)]
        apply step
        · rintro ⟨s', b', t', h6, h7, rfl⟩
          simp only [fin_text_some h6 h7]
          apply step
          · rintro ⟨s', hs'', entries, h8, h9⟩
            cases isText_unique ⟨b', t', h6, h7, rfl⟩ hs''
            obtain ⟨m, hm⟩ := ((C38_cli_accepts_iff (.obj entries)).1).2 ⟨entries, rfl, h9⟩
            have h10 : (Res.ofOption (S.serdeParse t'.toList) "Invalid JSON" >>= cliInputs) = .ok m := by rw [h8]; exact hm
            simp only [fin_lift_ok (context_ok h10 _)]
            have c2 := fun e => fin_read_some (m := "Failed to create circuit") (k := fun data' =>
              Cmd.lift ((cliParseR1cs S.lim data').context "Failed to create circuit") fun r1cs' =>
              Cmd.lift ((encap S.P S.dom (cliCircuit r1cs' (cliWires (inputSignals (S.hash.ord symtab) (some r.nPubIn)) (S.hash.ord m))) ρ).contextDebug
                "Encap failed: ") fun res => k (encCiphertext S.c1 S.c2 res.1) res.2 b') h1 e
            simp only [fin_lift_ok (context_ok h2 _)] at c2
            simp only [c2]
            obtain ⟨hd0, hd1⟩ := C07_encap_outcome_circom S.P S.dom .cli r (cliWires (inputSignals (S.hash.ord symtab) (some r.nPubIn)) (S.hash.ord m)) ρ
            rw [Tool.circuit_eq] at hd0 hd1
            apply step
            · intro hd
              obtain ⟨ct, key, hk⟩ := hd1 hd
              intro e
              rw [fin_lift_ok (a := (ct, key)) (by rw [hk]; rfl)]
              exact hok _ _ _ key.len e
            · intro hd e
              rw [Classical.not_not] at hd
              exact fin_lift_panic (by rw [hd0 hd]; rfl) fs e
          · intro hn e
            have : ∃ m, (Res.ofOption (S.serdeParse t'.toList) "Invalid JSON" >>= cliInputs) = .error (.err m) := by
              cases hp : S.serdeParse t'.toList with
              | none => exact ⟨_, rfl⟩
              | some j =>
                obtain ⟨hi, hor⟩ := C38_cli_accepts_iff j
                rcases hor with h | h
                · obtain ⟨entries, rfl, hall⟩ := hi.1 h
                  exact absurd ⟨t'.toList, ⟨b', t', h6, h7, rfl⟩, entries, hp, hall⟩ hn
                · exact h
            obtain ⟨m, hm⟩ := this
            exact fin_lift_err (context_err hm _) fs e
        · intro hn e
          exact fin_text_none hn e
      · intro hn e
        rcases C36_cli_total t.toList with ⟨m, h⟩ | h
        · exact absurd ⟨t.toList, m, ⟨b, t, h3, h4, rfl⟩, h⟩ hn
        · exact fin_lift_err (context_err h _) fs e
    · intro hn e
      exact fin_text_none hn e
  · intro hn e
    cases h1 : fs circuit with
    | none => exact fin_read_none h1 e
    | some data =>
      rw [fin_read_some h1]
      rcases r1cs_cases S.lim data with ⟨r, h⟩ | ⟨m, h⟩
      · exact absurd ⟨r, data, h1, h⟩ hn
      · exact fin_lift_err (context_err h _) fs e

/-- **C104** (`zkenc encap`) — whatever the files contain: how the command ends. -/
theorem C104_encap (ρ : Rand Fr) (nonce : Bytes) (fs : FS) (circuit sym input ciphertext key : Path) (e : Ending) :
    ending ((cliMainE S ρ nonce (.encap circuit sym input ciphertext key)).exec fs).2 = some e ↔ Ends (encapChecks S fs circuit sym input ρ) e := by
  change Fin (encapCommandE S circuit sym input ciphertext key ρ) fs e ↔ _
  unfold encapCommandE
  rw [encap_ends S (rest := []), List.append_nil]
  intro ct key json _ e
  rw [fin_write, fin_write]
  exact fin_done_ok _ e

/-- **C104** (`zkenc encrypt`) — whatever the files contain: how the command ends. -/
theorem C104_encrypt (ρ : Rand Fr) (nonce : Bytes) (hn : nonce.length = 12) (fs : FS) (circuit sym input message output : Path) (noPub : Bool) (e : Ending) :
    ending ((cliMainE S ρ nonce (.encrypt circuit sym input message output noPub)).exec fs).2 = some e ↔
      Ends (encryptChecks S fs circuit sym input message ρ) e := by
  change Fin (encryptCommandE S circuit sym input message output (!noPub) ρ nonce) fs e ↔ _
  unfold encryptCommandE encryptChecks
  refine encap_ends S (fun ct key json hk => ?_) e
  apply step
  · rintro ⟨m, h1⟩
    simp only [fin_read_some h1]
    obtain ⟨h2, h3⟩ := C41_encrypt_outcome S.cipher .cli key.bytes nonce m hn
    apply step
    · rintro ⟨m', h1', hm⟩
      rw [h1] at h1'
      cases h1'
      obtain ⟨out, ho, -⟩ := h2 ⟨hk, hm⟩
      intro e
      rw [fin_lift_ok (context_ok ho _), fin_write]
      exact fin_done_ok _ e
    · intro hno e
      obtain ⟨m', h⟩ := h3 (fun h => hno ⟨m, h1, h.2⟩)
      exact fin_lift_err (context_err h _) fs e
  · intro hno e
    cases h1 : fs message with
    | none => exact fin_read_none h1 e
    | some m => exact absurd ⟨m, h1⟩ hno

end Zkenc.Props
