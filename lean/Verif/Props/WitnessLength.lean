import Verif.Props.EndToEndKem
/-!
# C74: which values of a witness matter

JS `decap` and `decrypt` insist on as many values as the circuit has wires; the CLI ignores surplus values. Both tools ignore the value of wire 0.
-/

namespace Zkenc

section
variable {F : Type}

theorem allocInputs_wires {w w' : Nat → Option F} : ∀ (is : List Nat) (cs : CS F) (vm : VarMap), (∀ i ∈ is, w i = w' i) →
    allocInputs w is cs vm = allocInputs w' is cs vm
  | [], _, _, _ => rfl
  | i :: is, cs, vm, h => by
    have hi : w i = w' i := h i (List.mem_cons_self ..)
    simp only [allocInputs, hi]
    rcases cs.newInput (w' i) with ⟨cs', e | v⟩
    · rfl
    · exact allocInputs_wires is cs' _ fun j hj => h j (List.mem_cons_of_mem _ hj)

theorem allocWitnesses_wires {w w' : Nat → Option F} : ∀ (is : List Nat) (cs : CS F) (vm : VarMap), (∀ i ∈ is, w i = w' i) →
    allocWitnesses w is cs vm = allocWitnesses w' is cs vm
  | [], _, _, _ => rfl
  | i :: is, cs, vm, h => by
    have hi : w i = w' i := h i (List.mem_cons_self ..)
    simp only [allocWitnesses, hi]
    rcases cs.newWitness (w' i) with ⟨cs', e | v⟩
    · rfl
    · exact allocWitnesses_wires is cs' _ fun j hj => h j (List.mem_cons_of_mem _ hj)

/-- A circuit only looks at the wires it has. -/
theorem cliCircuit_wires [Add F] [NatCast F] {r : R1csFile} (hf : Spec.PublicFits r) {w w' : Nat → Option F}
    (h : ∀ i, 1 ≤ i → i < r.nAlloc → w i = w' i) : cliCircuit r w = cliCircuit r w' := by
  have hn : r.nPublicInputs = r.nPubOut + r.nPubIn := Nat.mod_eq_of_lt (by unfold Spec.PublicFits at hf; omega)
  have hm : (r.nPublicInputs + 1) % 2 ^ 32 = r.nPublicInputs + 1 := Nat.mod_eq_of_lt (by unfold Spec.PublicFits at hf; omega)
  unfold R1csFile.nAlloc at h
  funext cs
  unfold cliCircuit
  simp only [hm]
  rw [allocInputs_wires (w := w) (w' := w') (wiresIncl r.nPublicInputs)]
  · rcases allocInputs w' (wiresIncl r.nPublicInputs) cs VarMap.init with ⟨cs', e | vm⟩
    · rfl
    · simp only
      rw [allocWitnesses_wires (w := w) (w' := w')]
      intro i hi
      simp only [wiresExcl, List.mem_range'_1] at hi
      exact h i (by omega) (by omega)
  · intro i hi
    simp only [wiresIncl, List.mem_range'_1] at hi
    exact h i (by omega) (by omega)

end

namespace Props

open Zkenc Zkenc.Spec Zkenc.InputSpec

variable {G1 G2 GT : Type} [AddCommGroup G1] [Module Fr G1] [AddCommGroup G2] [Module Fr G2] [AddCommGroup GT] [Module Fr GT]
  (S : Sys G1 G2 GT)

/-- **C74** (JS, wrong number of values) — whatever the ciphertext, JS `decap` and `decrypt` return nothing if the number of witness values is
not the number of wires of the circuit. -/
theorem C74_js_count (data wtns ct : Bytes) (r : JsR1cs) (hr : jsParseR1cs data = .ok r) (vals : List Fr) (hw : jsParseWtns wtns = .ok vals)
    (hne : vals.length ≠ r.nWires) :
    jsDecap S data (.ok wtns) ct = Res.fail "Witness size mismatch" ∧ ∀ m, jsDecrypt S data (.ok wtns) ct ≠ .ok m := by
  have hd : ∀ c, jsDecap S data (.ok wtns) c = Res.fail "Witness size mismatch" := by
    intro c
    simp only [jsDecap, wasmDecap, Res.ok_bind, hr, hw, if_pos hne]
  refine ⟨hd ct, fun m h => ?_⟩
  unfold jsDecrypt at h
  obtain ⟨p, -, h⟩ := Res.bind_eq_ok.1 h
  obtain ⟨k, h, -⟩ := Res.bind_eq_ok.1 h
  rw [hd] at h
  cases h

/-- **C55** (no key without witness, JS) — JS `decap` succeeds, on whatever ciphertext, only if the circuit and the witness can be read and the witness
has exactly one value per wire and satisfies all constraints; the key has 32 bytes. -/
theorem C55_js_decap_sound (data ct k : Bytes) (wit : Res Bytes) (h : jsDecap S data wit ct = .ok k) :
    ∃ wtns r vals, wit = .ok wtns ∧ jsParseR1cs data = .ok r ∧ jsParseWtns wtns = .ok vals ∧ vals.length = r.nWires ∧ k.length = 32 ∧
      ∀ r', r = R1csFile.toJs r' → PublicFits r' →
        ∃ val, Valuation r' val ∧ Assigns r' (fullWires vals) val ∧ Satisfies r'.constraints val := by
  unfold jsDecap at h
  obtain ⟨wtns, hwit, hd⟩ := Res.bind_eq_ok.1 h
  clear h
  subst hwit
  unfold wasmDecap at hd
  rename' hd => h
  obtain ⟨r, h1, h⟩ := Res.bind_eq_ok.1 h
  obtain ⟨vals, h2, h⟩ := Res.bind_eq_ok.1 h
  split_ifs at h with hne
  · cases h
  · obtain ⟨c, -, h⟩ := Res.bind_eq_ok.1 h
    obtain ⟨ky, h3, h⟩ := Res.bind_eq_ok.1 h
    cases h
    refine ⟨wtns, r, vals, rfl, h1, h2, not_not.1 hne, ky.len, ?_⟩
    rintro r' rfl hf
    obtain ⟨val, g1, g2, g3, -, -⟩ := C04_C05_decap_sound S.P .js r' hf (fullWires vals) c ky h3
    exact ⟨val, g1, g2, g3⟩

theorem cliDecapPart_values {fs gs : FS} {circuit witness : Path} (hc : fs circuit = gs circuit) {data wdata wdata' : Bytes} {r : R1csFile}
    (hdata : fs circuit = some data) (hr : cliParseR1cs S.lim data = .ok r) (hf : PublicFits r) {vals vals' : List Fr}
    (hw : fs witness = some wdata) (hw' : gs witness = some wdata') (hv : CliWitness wdata vals) (hv' : CliWitness wdata' vals')
    (hag : ∀ i, 1 ≤ i → i < r.nAlloc → vals[i]? = vals'[i]?) {g : (Bytes → Cmd) → Cmd} {ct : Option Bytes} {msg : String}
    (hg : ∀ k, (g k).exec fs = ct.elim (fs, Res.fail msg) fun b => (k b).exec fs)
    (hg' : ∀ k, (g k).exec gs = ct.elim (gs, Res.fail msg) fun b => (k b).exec gs) :
    (∃ key, ∀ k, (cliDecapPart S circuit witness g k).exec fs = (k key).exec fs ∧ (cliDecapPart S circuit witness g k).exec gs = (k key).exec gs) ∨
    ∃ e, ∀ k, (cliDecapPart S circuit witness g k).exec fs = (fs, .error e) ∧ (cliDecapPart S circuit witness g k).exec gs = (gs, .error e) := by
  obtain ⟨wf, a1, a2⟩ := hv
  obtain ⟨wf', b1, b2⟩ := hv'
  have e : cliCircuit r (fullWires vals) = cliCircuit r (fullWires vals') := cliCircuit_wires hf hag
  have hdata' : gs circuit = some data := hc ▸ hdata
  simp only [cliDecapPart, Cmd.readFile, Cmd.exec, hdata, hdata', hr, hw, hw', a1, a2, b1, b2, hg, hg', Cmd.lift]
  cases ct with
  | none => exact .inr ⟨_, fun k => ⟨rfl, rfl⟩⟩
  | some ctB =>
    simp only [Option.elim_some]
    cases Res.ofOption (decCiphertext S.c1 S.c2 ctB) "Failed to deserialize ciphertext" with
    | error x => exact .inr ⟨x, fun k => ⟨rfl, rfl⟩⟩
    | ok c =>
      simp only [Cmd.exec, hdata, hdata', hr, e]
      cases decap S.P (cliCircuit r (fullWires vals')) c with
      | error x => exact .inr ⟨x, fun k => ⟨rfl, rfl⟩⟩
      | ok key => exact .inl ⟨key, fun k => ⟨rfl, rfl⟩⟩

/-- **C74** (CLI, values that do not matter) — `zkenc decap` and `zkenc decrypt` treat two witness files alike, on whatever ciphertext, if they have the same
values for the wires of the circuit other than wire 0: surplus values and the value of wire 0 make no difference, neither to the result nor to the file
written. -/
theorem C74_cli_ignored_values (fs gs : FS) (circuit witness ciphertext output : Path) (hc : fs circuit = gs circuit)
    (hct : fs ciphertext = gs ciphertext) (data wdata wdata' : Bytes) (r : R1csFile) (hdata : fs circuit = some data)
    (hr : cliParseR1cs S.lim data = .ok r) (hf : PublicFits r) (vals vals' : List Fr) (hw : fs witness = some wdata)
    (hw' : gs witness = some wdata') (hv : CliWitness wdata vals) (hv' : CliWitness wdata' vals')
    (hag : ∀ i, 1 ≤ i → i < r.nAlloc → vals[i]? = vals'[i]?) :
    (∀ e, (decapCommand S circuit witness ciphertext output).exec fs = (fs, .error e) ↔
      (decapCommand S circuit witness ciphertext output).exec gs = (gs, .error e)) ∧
    (∀ k, (decapCommand S circuit witness ciphertext output).exec fs = (fs.set output k, .ok ()) ↔
      (decapCommand S circuit witness ciphertext output).exec gs = (gs.set output k, .ok ())) ∧
    (∀ e, (decryptCommand S circuit witness ciphertext output).exec fs = (fs, .error e) ↔
      (decryptCommand S circuit witness ciphertext output).exec gs = (gs, .error e)) ∧
    (∀ m, (decryptCommand S circuit witness ciphertext output).exec fs = (fs.set output m, .ok ()) ↔
      (decryptCommand S circuit witness ciphertext output).exec gs = (gs.set output m, .ok ())) := by
  have inj : ∀ (f : FS) (b b' : Bytes), f.set output b = f.set output b' ↔ b = b' := by
    intro f b b'
    refine ⟨fun h => ?_, fun h => h ▸ rfl⟩
    have := congrFun h output
    rw [FS.set_same, FS.set_same] at this
    exact Option.some.inj this
  have hA : ((∃ b, (decapCommand S circuit witness ciphertext output).exec fs = (fs.set output b, .ok ()) ∧
        (decapCommand S circuit witness ciphertext output).exec gs = (gs.set output b, .ok ())) ∨
      ∃ e, (decapCommand S circuit witness ciphertext output).exec fs = (fs, .error e) ∧
        (decapCommand S circuit witness ciphertext output).exec gs = (gs, .error e)) := by
    unfold decapCommand
    rcases cliDecapPart_values S hc hdata hr hf hw hw' hv hv' hag (ct := fs ciphertext) (msg := "Failed to read ciphertext file")
      (g := fun k => Cmd.readFile ciphertext "Failed to read ciphertext file" k)
      (fun k => by simp only [Cmd.readFile, Cmd.exec]; cases fs ciphertext <;> rfl)
      (fun k => by rw [hct]; simp only [Cmd.readFile, Cmd.exec]; cases gs ciphertext <;> rfl) with ⟨key, h⟩ | ⟨e, h⟩
    · refine .inl ⟨key.bytes, ?_⟩
      rw [(h _).1, (h _).2]
      simp only [exec_writeFile, Cmd.exec, and_self]
    · exact .inr ⟨e, (h _).1, (h _).2⟩
  have hB : ((∃ b, (decryptCommand S circuit witness ciphertext output).exec fs = (fs.set output b, .ok ()) ∧
        (decryptCommand S circuit witness ciphertext output).exec gs = (gs.set output b, .ok ())) ∨
      ∃ e, (decryptCommand S circuit witness ciphertext output).exec fs = (fs, .error e) ∧
        (decryptCommand S circuit witness ciphertext output).exec gs = (gs, .error e)) := by
    unfold decryptCommand
    cases hb : fs ciphertext with
    | none =>
      rw [hb] at hct
      simp only [Cmd.readFile, Cmd.exec, hb, ← hct]
      exact .inr ⟨_, rfl, rfl⟩
    | some b =>
      rw [hb] at hct
      simp only [Cmd.readFile, Cmd.exec, hb, ← hct]
      cases splitCli b with
      | error e => exact .inr ⟨e, rfl, rfl⟩
      | ok p =>
        simp only [Cmd.lift]
        rcases cliDecapPart_values S hc hdata hr hf hw hw' hv hv' hag (ct := some p.witnessCt) (msg := "")
          (g := fun k => k p.witnessCt) (fun k => rfl) (fun k => rfl) with ⟨key, h⟩ | ⟨e, h⟩
        · rw [(h _).1, (h _).2]
          cases decryptGcm S.cipher .cli key.bytes p.encrypted with
          | error e => exact .inr ⟨e, rfl, rfl⟩
          | ok m => exact .inl ⟨m, by simp only [exec_writeFile, Cmd.exec, and_self]⟩
        · exact .inr ⟨e, (h _).1, (h _).2⟩
  refine ⟨?_, ?_, ?_, ?_⟩
  all_goals intro x
  all_goals first
    | (rcases hA with ⟨b, h1, h2⟩ | ⟨e, h1, h2⟩ <;> rw [h1, h2] <;> simp [inj])
    | (rcases hB with ⟨b, h1, h2⟩ | ⟨e, h1, h2⟩ <;> rw [h1, h2] <;> simp [inj])

/-- **C74** (JS, the value of wire 0) — JS `decap` and `decrypt` treat two witnesses with the right number of values alike if they differ only in the value of
wire 0. -/
theorem C74_js_wire_zero (data wtns wtns' ct : Bytes) (r : R1csFile) (hr : jsParseR1cs data = .ok r.toJs) (hf : PublicFits r)
    (hpub : r.nPubOut + r.nPubIn < r.nWires) (vals : List Fr) (x y : Fr)
    (hw : jsParseWtns wtns = .ok (x :: vals)) (hw' : jsParseWtns wtns' = .ok (y :: vals)) :
    jsDecap S data (.ok wtns) ct = jsDecap S data (.ok wtns') ct ∧ jsDecrypt S data (.ok wtns) ct = jsDecrypt S data (.ok wtns') ct := by
  have e : jsCircuit r.toJs (fullWires (x :: vals)) = jsCircuit r.toJs (fullWires (y :: vals)) := by
    have e' : cliCircuit r (fullWires (x :: vals)) = cliCircuit r (fullWires (y :: vals)) := by
      refine cliCircuit_wires hf fun i hi _ => ?_
      obtain ⟨j, rfl⟩ : ∃ j, i = j + 1 := ⟨i - 1, by omega⟩
      rfl
    rw [jsCircuit_eq_cli, jsCircuit_eq_cli, e']
  have hd : ∀ c, jsDecap S data (.ok wtns) c = jsDecap S data (.ok wtns') c := by
    intro c
    simp only [jsDecap, wasmDecap, Res.ok_bind, hr, hw, hw', e, List.length_cons]
  refine ⟨hd ct, ?_⟩
  simp only [jsDecrypt, hd]

end Props

end Zkenc
