import Verif.Props.CliErrors
import Verif.Props.EndToEndExactly
/-!
# Property theorems C104: what a receiver with the circuit of the sender is told
-/

namespace Zkenc.CliErrorSpec

open Zkenc Spec

/-- What a receiver with the circuit of the sender is told about the witness; `Agrees` says that it has the values that the sender fixed. -/
def receiverChecks (r : R1csFile) (vals : List Fr) (Agrees : Prop) : List (Prop × Ending) :=
  [(¬ SomeWireMissing r (fullWires vals), reports "Decap failed: SynthesisError(\"AssignmentMissing\")"),
   (Accepted r vals, reports "Decap failed: InvalidWitness"),
   (Agrees, reports "Decap failed: InvalidPublicInputs")]

end Zkenc.CliErrorSpec

namespace Zkenc.Props

open Zkenc Spec InputSpec ContainerSpec CliErrorSpec CliErr

variable {G1 G2 GT : Type} [AddCommGroup G1] [Module Fr G1] [AddCommGroup G2] [Module Fr G2] [AddCommGroup GT] [Module Fr GT]
  (S : Sys G1 G2 GT)

theorem ends_congr {P P' : Prop} {f : Ending} {l l' : List (Prop × Ending)} (h : P ↔ P') (hl : ∀ e, Ends l e ↔ Ends l' e) (e : Ending) :
    Ends ((P, f) :: l) e ↔ Ends ((P', f) :: l') e := by simp only [Ends, h, hl]

theorem queries_ne {S : Sys G1 G2 GT} {t : Tool} {r : R1csFile} {w : Nat → Option Fr} {ρ : Rand Fr} {ct : Ciphertext Fr G1 G2} {key : Key}
    (h : encap S.P S.dom (t.circuit r w) ρ = .ok (ct, key)) : ct.encapKey.rU ≠ [] ∧ ct.encapKey.rV ≠ [] ∧ ct.encapKey.phiDelta ≠ [] := by
  have hδ : ¬ ((t.circuit r w (CS.new Fr)).1.numVars ≠ 0 ∧ ρ.delta = 0) := by
    intro hc
    rw [encap_panic _ _ _ _ hc] at h
    simp at h
  rw [encap_eq _ _ _ _ hδ] at h
  simp only [Except.ok.injEq, Prod.mk.injEq] at h
  obtain ⟨hct, -⟩ := h
  have hpos : (t.circuit r w (CS.new Fr)).1.numVars ≠ 0 := by
    have := (cliCircuit_inst r w).2
    rw [Tool.circuit_eq]
    unfold CS.numVars
    omega
  refine ⟨?_, ?_, ?_⟩
  all_goals
    intro he
    apply hpos
    have := congrArg List.length he
    rw [← hct] at this
    simpa [encapCt] using this

/-- The public values named by the ciphertext are those of the unbroken run of given wires. -/
theorem carries_iff {S : Sys G1 G2 GT} {t : Tool} {r : R1csFile} (hf : PublicFits r) {w : Nat → Option Fr} {ρ : Rand Fr} {ct : Ciphertext Fr G1 G2}
    {key : Key} (h : encap S.P S.dom (t.circuit r w) ρ = .ok (ct, key)) (vals : List Fr) :
    Carries r vals ct ↔ RunAgrees (r.nPubOut + r.nPubIn) w vals := by
  obtain ⟨b1, b2, b3⟩ := C08_bound_public_inputs S.P S.dom t r hf w ρ ct key h
  constructor
  · intro hc j h1 h2 hrun
    have hlt : j - 1 < ct.publicInputs.length := by
      by_contra hn
      have := b3 (by omega)
      exact hrun _ (by omega) (by omega) this
    obtain ⟨i, rfl⟩ : ∃ i, j = i + 1 := ⟨j - 1, by omega⟩
    have hi : i < ct.publicInputs.length := by omega
    rw [(hc i _ (List.getElem?_eq_getElem hi)).2, b1 i hi]
  · intro hag i x hx
    obtain ⟨hi, hx⟩ := List.getElem?_eq_some_iff.1 hx
    have hj := hag (i + 1) (by omega) (by omega) fun k k1 k2 hn => by
      obtain ⟨k', rfl⟩ : ∃ k', k = k' + 1 := ⟨k - 1, by omega⟩
      rw [b1 k' (by omega)] at hn
      cases hn
    rw [b1 i hi, hx] at hj
    refine ⟨?_, hj⟩
    have := nPublicInputs_eq hf
    unfold R1csFile.nAlloc
    omega

theorem sealed_ends {S : Sys G1 G2 GT} {t : Tool} {r : R1csFile} {w : Nat → Option Fr} {m combined : Bytes} (h : Sealed S t r w m combined)
    (hf : PublicFits r) (hs : CtFits r) (hw : ∀ i, r.nPubOut + r.nPubIn < i → w i = none) (hmiss : SomeWireMissing r w)
    {fs : FS} {circuit witness ciphertext output : Path} {data wdata : Bytes} (h1 : fs circuit = some data)
    (h2 : cliParseR1cs S.lim data = .ok r) (h3 : fs witness = some wdata) {vals : List Fr} (h4 : CliWitness wdata vals)
    (hc : fs ciphertext = some combined) (hl : m.length ≤ S.cipher.maxDec .cli) (e : Ending) :
    Fin (decryptCommandE S circuit witness ciphertext output) fs e ↔
      Ends (receiverChecks r vals (RunAgrees (r.nPubOut + r.nPubIn) w vals)) e := by
  obtain ⟨ρ, ct, key, p, g1, g2, -, g4, -, g6⟩ := h.parts hf hs hw
  have g4' := g4 []
  rw [List.append_nil] at g4'
  have hr : Receives S fs circuit witness r vals := ⟨⟨data, h1, h2⟩, wdata, h3, h4⟩
  obtain ⟨wf, h4, h5⟩ := h4
  unfold decryptCommandE
  rw [fin_read_some hc, fin_lift_ok g2]
  unfold cliDecapPartE
  rw [fin_read_some h1, fin_lift_ok (context_ok h2 _), fin_read_some h3, fin_lift_ok (context_ok h4 _), fin_lift_ok (context_ok h5 _),
    fin_lift_ok (a := ct) (by rw [g4']; rfl), fin_read_some h1, fin_lift_ok (context_ok h2 _), key_ends (rest := []) hf hr]
  · have hu : ∀ {P : R1csFile → List Fr → Prop}, (∀ r' vals', Receives S fs circuit witness r' vals' → P r' vals') ↔ P r vals := by
      intro P
      refine ⟨fun h => h _ _ hr, fun h r' vals' h' => ?_⟩
      obtain ⟨rfl, rfl⟩ := receives_unique hr h'
      exact h
    simp only [keyChecks, List.append_nil, hu, receiverChecks]
    refine ends_congr Iff.rfl (ends_congr Iff.rfl (ends_congr (carries_iff hf g1 vals) fun e => ?_)) e
    simp [Ends, queries_ne g1]
  · intro key' hk e
    have hen := enforced (t' := .cli) hf hf g1 hk
    have hd := decap_of_accepted (tDec := .cli) hf hmiss g1 hen.1 hen.2
    rw [Tool.circuit] at hd
    rw [hd] at hk
    cases hk
    rw [fin_lift_ok (context_ok (g6 .cli hl) _), fin_write]
    exact fin_done_ok _ e

/-- An unchanged file, with any circuit: only the circuit and the witness can be at fault. -/
theorem sealed_any {S : Sys G1 G2 GT} {t : Tool} {r : R1csFile} {w : Nat → Option Fr} {m combined : Bytes} (h : Sealed S t r w m combined)
    (hf : PublicFits r) (hs : CtFits r) (hw : ∀ i, r.nPubOut + r.nPubIn < i → w i = none) (hmiss : SomeWireMissing r w)
    {fs : FS} {circuit witness ciphertext output : Path} (hf₂ : ∀ r₂, IsCircuit S fs circuit r₂ → PublicFits r₂)
    (hc : fs ciphertext = some combined) (hl : m.length ≤ S.cipher.maxDec .cli) :
    ∃ ct ρ key, encap S.P S.dom (t.circuit r w) ρ = .ok (ct, key) ∧ ∀ e, Fin (decryptCommandE S circuit witness ciphertext output) fs e ↔
      Ends (loadChecks S fs circuit witness ++ keyChecks S fs circuit witness ct) e := by
  obtain ⟨ρ, ct, key, p, g1, g2, -, g4, -, g6⟩ := h.parts hf hs hw
  have g4' := g4 []
  rw [List.append_nil] at g4'
  refine ⟨ct, ρ, key, g1, fun e => ?_⟩
  unfold decryptCommandE
  rw [fin_read_some hc, fin_lift_ok g2, decap_ends (rest := []) hf₂ (ctB := p.witnessCt) (fun _ _ => Iff.rfl) g4', List.append_nil]
  intro r₂ vals key' hr hk e
  obtain rfl : key' = key := (C10_unique_key S.P S.dom t r hf w hmiss ρ ct key g1 _ _ _ _ hk hk).1
  rw [fin_lift_ok (context_ok (g6 .cli hl) _), fin_write]
  exact fin_done_ok _ e

theorem ends_mem {l : List (Prop × Ending)} {e : Ending} (h : Ends l e) : e = ⟨0, none⟩ ∨ e ∈ l.map (fun c => c.2) := by
  induction l with
  | nil => exact .inl h
  | cons c l ih =>
    rcases h with ⟨-, h⟩ | ⟨-, h⟩
    · rcases ih h with h | h
      · exact .inl h
      · exact .inr (List.mem_cons_of_mem _ h)
    · exact .inr (by rw [h]; exact List.mem_cons_self)

/-- What can be reported about an unchanged file. -/
theorem sealed_never {S : Sys G1 G2 GT} {t : Tool} {r : R1csFile} {w : Nat → Option Fr} {m combined : Bytes} (h : Sealed S t r w m combined)
    (hf : PublicFits r) (hs : CtFits r) (hw : ∀ i, r.nPubOut + r.nPubIn < i → w i = none) (hmiss : SomeWireMissing r w)
    {fs : FS} {circuit witness ciphertext output : Path} (hf₂ : ∀ r₂, IsCircuit S fs circuit r₂ → PublicFits r₂)
    (hc : fs ciphertext = some combined) (hl : m.length ≤ S.cipher.maxDec .cli) (e : Ending)
    (he : Fin (decryptCommandE S circuit witness ciphertext output) fs e) :
    e = ⟨0, none⟩ ∨ e = panics ∨ e ∈ ["Failed to load R1CS circuit", "Failed to load witness file", "Failed to convert witness to field elements",
      "Decap failed: SynthesisError(\"AssignmentMissing\")", "Decap failed: InvalidWitness", "Decap failed: InvalidPublicInputs"].map reports := by
  obtain ⟨ct, ρ, key, -, h⟩ := sealed_any (witness := witness) (output := output) h hf hs hw hmiss hf₂ hc hl
  rw [h] at he
  rcases ends_mem he with he | he
  · exact .inl he
  · right
    simp only [loadChecks, keyChecks, List.cons_append, List.nil_append, List.map_cons, List.map_nil, List.mem_cons, List.not_mem_nil, or_false] at he
    simp only [List.map_cons, List.map_nil, List.mem_cons, List.not_mem_nil, or_false]
    rcases he with h | h | h | h | h | h | h | h
    · exact .inr (.inl h)
    · exact .inl h
    · exact .inr (.inr (.inl h))
    · exact .inr (.inr (.inr (.inl h)))
    · exact .inr (.inr (.inr (.inr (.inl h))))
    · exact .inr (.inr (.inr (.inr (.inr (.inl h)))))
    · exact .inr (.inr (.inr (.inr (.inr (.inr h)))))
    · exact .inr (.inr (.inr (.inr (.inr (.inl h)))))

/-- **C104** (CLI to CLI) — with the circuit the message was encrypted for: how `zkenc decrypt` ends, for every witness file. -/
theorem C104_receiver_cli (fs fs' : FS) (circuit sym input message output : Path) (r : R1csFile) (symtab : AMap Nat)
    (entries : List (Str × Json)) (hfiles : CliFiles S fs circuit sym input r symtab entries) (m : Bytes) (hm : fs message = some m)
    (incl : Bool) (ρ : Rand Fr) (nonce : Bytes) (hn : nonce.length = 12)
    (hj : incl = true → ∀ j, fs input = some j → j.length < 2 ^ 32)
    (henc : (encryptCommand S circuit sym input message output incl ρ nonce).exec fs = (fs', .ok ()))
    (hwf : WellFormed r) (hs : CtFits r) (hpriv : r.nPubIn + 1 < r.nWires) (hna : NoAlias symtab (some r.nPubIn) entries)
    (ρ₂ : Rand Fr) (nonce₂ : Bytes) (fs₂ : FS) (circuit₂ witness ciphertext output₂ : Path) (data wdata : Bytes) (vals : List Fr)
    (hdata : fs₂ circuit₂ = some data) (hcirc : cliParseR1cs S.lim data = .ok r)
    (hct : fs₂ ciphertext = fs' output) (hwd : fs₂ witness = some wdata) (hwit : CliWitness wdata vals) (e : Ending) :
    ending ((cliMainE S ρ₂ nonce₂ (.decrypt circuit₂ witness ciphertext output₂)).exec fs₂).2 = some e ↔
      Ends (receiverChecks r vals (CliEnforced symtab r.nPubIn entries vals)) e := by
  obtain ⟨w, symText, combined, h1, h2, rfl, hse⟩ := cli_sealed hfiles hm hn hj henc
  rw [FS.set_same] at hct
  change Fin (decryptCommandE S circuit₂ witness ciphertext output₂) fs₂ e ↔ _
  rw [sealed_ends hse hwf.fits hs (fun i hi => C40_cli_bound S.hash _ _ _ w h2 i (by omega)) (cli_missing hwf hpriv rfl h2) hdata hcirc hwd hwit hct hse.message_le]
  exact ends_congr Iff.rfl (ends_congr Iff.rfl (ends_congr ⟨cli_enforced h1 h2 hna (by omega), cli_run_of_enforced h1 h2 hna⟩ fun _ => Iff.rfl)) e

/-- **C104** (JS to CLI) — the same for a message encrypted with the JS library. -/
theorem C104_receiver_js (data : Bytes) (hd : data.length < 2 ^ 31) (r : R1csFile) (hr : cliParseR1cs S.lim data = .ok r) (sym : Str)
    (inputs : List (Str × JsVal)) (hna : JsNoAlias (jsParseSymFile sym) inputs) (hmax : JsSmall (jsParseSymFile sym) inputs) (m : Bytes)
    (incl : Bool) (ρ : Rand Fr) (nonce : Bytes) (hn : nonce.length = 12)
    (hj : incl = true → ∀ s, S.stringify inputs = .ok s → (utf8Enc s).length < 2 ^ 32)
    (combined key : Bytes) (henc : jsEncrypt S data sym inputs m incl ρ nonce = .ok (combined, key))
    (hwf : WellFormed r) (hs : CtFits r) (hpriv : r.nPubOut + r.nPubIn + 1 < r.nWires)
    (ρ₂ : Rand Fr) (nonce₂ : Bytes) (fs : FS) (circuit witness ciphertext output : Path) (wdata : Bytes) (vals : List Fr)
    (hdata : fs circuit = some data) (hct : fs ciphertext = some combined) (hwd : fs witness = some wdata)
    (hwit : CliWitness wdata vals) (hl : m.length ≤ S.cipher.maxDec .cli) (e : Ending) :
    ending ((cliMainE S ρ₂ nonce₂ (.decrypt circuit witness ciphertext output)).exec fs).2 = some e ↔
      Ends (receiverChecks r vals (JsEnforced (jsParseSymFile sym) (r.nPubOut + r.nPubIn) inputs vals)) e := by
  obtain ⟨w, hw, hse⟩ := js_sealed (C23_js_agrees hd hr) hwf.fits hn hj henc
  change Fin (decryptCommandE S circuit witness ciphertext output) fs e ↔ _
  rw [sealed_ends hse hwf.fits hs (fun i hi => js_beyond hw i hi) (js_missing hwf hpriv hw) hdata hr hwd hwit hct hl]
  exact ends_congr Iff.rfl (ends_congr Iff.rfl (ends_congr ⟨js_enforced hna hmax hw, js_run_of_enforced hna hmax hw⟩ fun _ => Iff.rfl)) e

/-- **C104** (unchanged files, CLI) — a file written by `zkenc encrypt` that was not changed: with whatever circuit and witness it is decrypted, only the circuit file or
the witness is reported. So "Message decryption failed", "Invalid ciphertext: …" and "Failed to deserialize witness ciphertext" mean a changed file. -/
theorem C104_intact_cli (fs fs' : FS) (circuit sym input message output : Path) (r : R1csFile) (symtab : AMap Nat)
    (entries : List (Str × Json)) (hfiles : CliFiles S fs circuit sym input r symtab entries) (m : Bytes) (hm : fs message = some m)
    (incl : Bool) (ρ : Rand Fr) (nonce : Bytes) (hn : nonce.length = 12)
    (hj : incl = true → ∀ j, fs input = some j → j.length < 2 ^ 32)
    (henc : (encryptCommand S circuit sym input message output incl ρ nonce).exec fs = (fs', .ok ()))
    (hwf : WellFormed r) (hs : CtFits r) (hpriv : r.nPubIn + 1 < r.nWires)
    (ρ₂ : Rand Fr) (nonce₂ : Bytes) (fs₂ : FS) (circuit₂ witness ciphertext output₂ : Path) (hf₂ : ∀ r₂, IsCircuit S fs₂ circuit₂ r₂ → PublicFits r₂)
    (hct : fs₂ ciphertext = fs' output) (e : Ending)
    (he : ending ((cliMainE S ρ₂ nonce₂ (.decrypt circuit₂ witness ciphertext output₂)).exec fs₂).2 = some e) :
    e = ⟨0, none⟩ ∨ e = panics ∨ e ∈ ["Failed to load R1CS circuit", "Failed to load witness file", "Failed to convert witness to field elements",
      "Decap failed: SynthesisError(\"AssignmentMissing\")", "Decap failed: InvalidWitness", "Decap failed: InvalidPublicInputs"].map reports := by
  obtain ⟨w, symText, combined, h1, h2, rfl, hse⟩ := cli_sealed hfiles hm hn hj henc
  rw [FS.set_same] at hct
  exact sealed_never hse hwf.fits hs (fun i hi => C40_cli_bound S.hash _ _ _ w h2 i (by omega)) (cli_missing hwf hpriv rfl h2) hf₂ hct hse.message_le e he

/-- **C104** (unchanged files, JS) — the same for a file made by the JS library. -/
theorem C104_intact_js (data : Bytes) (r : R1csFile) (hr : jsParseR1cs data = .ok r.toJs) (sym : Str)
    (inputs : List (Str × JsVal)) (m : Bytes) (incl : Bool) (ρ : Rand Fr) (nonce : Bytes) (hn : nonce.length = 12)
    (hj : incl = true → ∀ s, S.stringify inputs = .ok s → (utf8Enc s).length < 2 ^ 32)
    (combined key : Bytes) (henc : jsEncrypt S data sym inputs m incl ρ nonce = .ok (combined, key))
    (hwf : WellFormed r) (hs : CtFits r) (hpriv : r.nPubOut + r.nPubIn + 1 < r.nWires)
    (ρ₂ : Rand Fr) (nonce₂ : Bytes) (fs : FS) (circuit witness ciphertext output : Path) (hf₂ : ∀ r₂, IsCircuit S fs circuit r₂ → PublicFits r₂)
    (hct : fs ciphertext = some combined) (hl : m.length ≤ S.cipher.maxDec .cli) (e : Ending)
    (he : ending ((cliMainE S ρ₂ nonce₂ (.decrypt circuit witness ciphertext output)).exec fs).2 = some e) :
    e = ⟨0, none⟩ ∨ e = panics ∨ e ∈ ["Failed to load R1CS circuit", "Failed to load witness file", "Failed to convert witness to field elements",
      "Decap failed: SynthesisError(\"AssignmentMissing\")", "Decap failed: InvalidWitness", "Decap failed: InvalidPublicInputs"].map reports := by
  obtain ⟨w, hw, hse⟩ := js_sealed hr hwf.fits hn hj henc
  exact sealed_never hse hwf.fits hs (fun i hi => js_beyond hw i hi) (js_missing hwf hpriv hw) hf₂ hct hl e he

end Zkenc.Props
