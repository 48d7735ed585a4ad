import Verif.Props.Parallel
/-!
# C66: `encrypt` and `decrypt` when the circuit file changes between the two readings
-/

namespace Zkenc.Props

open Zkenc

variable {G1 G2 GT : Type} [AddCommGroup G1] [Module Fr G1] [AddCommGroup G2] [Module Fr G2] [AddCommGroup GT] [Module Fr GT]
  (S : Sys G1 G2 GT)

/-- **C66** (decrypt) — as for `decap`: the first content of the circuit file only has to be readable and well-formed; the result is that of an
undisturbed run with the second content. -/
theorem C66_decrypt_second_circuit (c w ct out : Path) (d₁ : Bytes) (r₁ : R1csFile)
    (hd₁ : cliParseR1cs S.lim d₁ = .ok r₁) (d₂ : Bytes) (r₂ : R1csFile) (hd₂ : cliParseR1cs S.lim d₂ = .ok r₂)
    (ow oct : Option Bytes) (rest : Cmd) (fs : FS)
    (h : Sees (decryptCommand S c w ct out) [(ct, oct), (c, some d₁), (w, ow), (c, some d₂)] rest)
    (hfc : fs c = some d₂) (hfw : fs w = ow) (hfct : fs ct = oct) : (decryptCommand S c w ct out).exec fs = rest.exec fs := by
  refine sees_exec (c := (decryptCommand S c w ct out)) (seen := [(ct, oct), (c, some d₂), (w, ow), (c, some d₂)])
    (c' := rest) ?_ fs ?_
  · unfold decryptCommand cliDecapPart Cmd.readFile at h ⊢
    cases h with
    | read h =>
      refine .read ?_
      cases oct with
      | none => cases h
      | some combined =>
      simp only at h ⊢
      cases hp : splitCli combined with
      | error e => rw [hp] at h; cases h
      | ok p =>
      rw [hp] at h
      simp only [Cmd.lift] at h ⊢
      cases h with
      | read h =>
        refine .read ?_
        simp only [hd₁] at h
        simp only [hd₂]
        exact h
  · intro e he
    simp only [List.mem_cons, List.not_mem_nil, or_false] at he
    rcases he with rfl | rfl | rfl | rfl
    · exact hfct
    · exact hfc
    · exact hfw
    · exact hfc

/-- **C66** (encrypt mixes the two contents) — as for `encap`: which public inputs are used comes from the first content of the circuit file, the
constraints from the second; the public input that is embedded is the text of the input file as it was read, once. -/
theorem C66_encrypt_mixes (c s i mp out : Path) (incl : Bool) (ρ : Rand Fr) (nonce : Bytes) (d₁ d₂ sb ib m : Bytes) (rest : Cmd) (fs fs' : FS)
    (h : Sees (encryptCommand S c s i mp out incl ρ nonce) [(c, some d₁), (s, some sb), (i, some ib), (c, some d₂), (mp, some m)] rest)
    (hok : rest.exec fs = (fs', .ok ())) :
    ∃ r₁ r₂ st it json w ct key enc, cliParseR1cs S.lim d₁ = .ok r₁ ∧ cliParseR1cs S.lim d₂ = .ok r₂ ∧ utf8Dec sb = some st ∧
      utf8Dec ib = some it ∧ S.serdeParse it.toList = some json ∧ cliAssign S.hash r₁.nPubIn st.toList json = .ok w ∧
      encap S.P S.dom (cliCircuit r₂ w) ρ = .ok (ct, key) ∧ encryptGcm S.cipher .cli key.bytes nonce m = .ok enc ∧
      fs' = fs.set out (combine incl (encCiphertext S.c1 S.c2 ct) (if incl then ib else []) enc) := by
  unfold encryptCommand cliEncapPart Cmd.readText Cmd.readFile at h
  cases h with
  | read h =>
  simp only at h
  cases h1 : cliParseR1cs S.lim d₁ with
  | error e => rw [h1] at h; cases h
  | ok r₁ =>
  rw [h1] at h
  simp only [Cmd.lift] at h
  cases h with
  | read h =>
  simp only at h
  cases h2 : utf8Dec sb with
  | none => rw [h2] at h; cases h
  | some st =>
  rw [h2] at h
  simp only [Res.ofOption] at h
  cases h3 : parseSymFile st.toList with
  | error e => rw [h3] at h; cases h
  | ok wm =>
  rw [h3] at h
  cases h with
  | read h =>
  simp only at h
  cases h4 : utf8Dec ib with
  | none => rw [h4] at h; cases h
  | some it =>
  rw [h4] at h
  simp only at h
  cases h5 : S.serdeParse it.toList with
  | none => rw [h5] at h; cases h
  | some json =>
  rw [h5] at h
  simp only [Res.ok_bind] at h
  cases h6 : cliInputs json with
  | error e => rw [h6] at h; cases h
  | ok inputs =>
  rw [h6] at h
  cases h with
  | read h =>
  simp only at h
  cases h7 : cliParseR1cs S.lim d₂ with
  | error e => rw [h7] at h; cases h
  | ok r₂ =>
  rw [h7] at h
  simp only at h
  refine ⟨r₁, r₂, st, it, json, cliWires (inputSignals (S.hash.ord wm) (some r₁.nPubIn)) (S.hash.ord inputs), ?_⟩
  cases h8 : encap S.P S.dom (cliCircuit r₂ (cliWires (inputSignals (S.hash.ord wm) (some r₁.nPubIn)) (S.hash.ord inputs))) ρ with
  | error e => rw [h8] at h; cases h
  | ok res =>
  rw [h8] at h
  obtain ⟨ct, key⟩ := res
  cases h with
  | read h =>
  simp only at h
  cases h9 : encryptGcm S.cipher .cli key.bytes nonce m with
  | error e =>
    rw [h9] at h
    cases h
    simp [Cmd.exec] at hok
  | ok enc =>
  rw [h9] at h
  cases h
  rw [exec_writeFile] at hok
  simp only [Cmd.exec, Prod.mk.injEq, and_true] at hok
  refine ⟨ct, key, enc, rfl, rfl, rfl, rfl, h5, ?_, rfl, h9, hok.symm⟩
  simp only [cliAssign, h3, h6, Res.ok_bind]

end Zkenc.Props
