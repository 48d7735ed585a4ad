import Verif.Props.ReadMore
import Verif.Props.AppliedCommands
/-!
# C66: concrete cases for `encrypt` and `decrypt`
-/

namespace Zkenc.Props

open Zkenc Zkenc.Spec Zkenc.InputSpec

namespace Ex

/-- `encrypt` while another process replaces the circuit file. -/
theorem enc_sees : ∃ b rest, Sees (encryptCommand S ['c'] ['s'] ['i'] ['m'] ['o'] true ρ nonce)
      [(['c'], some (sqData ++ [0])), (['s'], some (utf8Enc sym)), (['i'], some (utf8Enc inputText)), (['c'], some sqData),
        (['m'], some [1, 2, 3])] rest ∧ rest.exec fs = (fs.set ['o'] b, .ok ()) := by
  obtain ⟨b, h, -⟩ := cli_run
  obtain ⟨m, hm, -⟩ := sym_parse
  unfold encryptCommand at h ⊢
  obtain ⟨data, r, sb, jb, st, jt, json, w, c, key, h1, h2, h3, h4, h5, h6, h7, h8, h9, h10⟩ := encapPart_ok S h
  cases h1
  cases h3
  cases h5
  rw [show cliParseR1cs S.lim sqData = .ok sq from sqData_cli] at h2
  cases h2
  unfold cliAssign at h8
  obtain ⟨wm, h11, h12⟩ := Res.bind_eq_ok.1 h8
  obtain ⟨inputs, h13, h14⟩ := Res.bind_eq_ok.1 h12
  cases h14
  simp only [exec_readFile_ok, exec_lift_ok] at h10
  obtain ⟨mb, hmb, enc, henc, hw⟩ := h10
  cases hmb
  refine ⟨b, _, ?_, hw⟩
  refine .read ?_
  simp only [show cliParseR1cs S.lim (sqData ++ [0]) = .ok sq from sqData0_cli, Cmd.lift]
  refine .read ?_
  simp only [h4, Res.ofOption, h11, Cmd.lift]
  refine .read ?_
  simp only [h6, h7, Res.ofOption, Res.ok_bind, h13, Cmd.lift]
  refine .read ?_
  simp only [show cliParseR1cs S.lim sqData = .ok sq from sqData_cli, h9, Cmd.lift]
  refine .read ?_
  simp only [henc, Cmd.lift]
  exact .nil _

example : ∃ b r₁ r₂, cliParseR1cs S.lim (sqData ++ [0]) = .ok r₁ ∧ cliParseR1cs S.lim sqData = .ok r₂ ∧
    ∃ ct key enc w, encap S.P S.dom (cliCircuit r₂ w) ρ = .ok (ct, key) ∧ fs.set ['o'] b =
      fs.set ['o'] (combine true (encCiphertext S.c1 S.c2 ct) (utf8Enc inputText) enc) := by
  obtain ⟨b, rest, h, hok⟩ := enc_sees
  obtain ⟨r₁, r₂, st, it, json, w, ct, key, enc, g1, g2, -, -, -, -, g7, -, g9⟩ := C66_encrypt_mixes S _ _ _ _ _ _ _ _ _ _ _ _ _ _ _ _ h hok
  exact ⟨b, r₁, r₂, g1, g2, ct, key, enc, w, g7, g9⟩

/-- `decrypt` while another process replaces the circuit file. -/
example : ∃ b rest, Sees (decryptCommand S ['c'] ['w'] ['o'] ['d'])
      [(['o'], some b), (['c'], some (sqData ++ [0])), (['w'], some wtns), (['c'], some sqData)] rest ∧
    (decryptCommand S ['c'] ['w'] ['o'] ['d']).exec (fs.set ['o'] b) = rest.exec (fs.set ['o'] b) ∧
    rest.exec (fs.set ['o'] b) = ((fs.set ['o'] b).set ['d'] [1, 2, 3], .ok ()) := by
  obtain ⟨b, -, h, -⟩ := cli_run
  have h' := h
  unfold decryptCommand at h
  simp only [exec_readFile_ok, exec_lift_ok] at h
  obtain ⟨c, hc', p, hp, h⟩ := h
  have hcb : c = b := by simpa [FS.set] using hc'.symm
  subst hcb
  obtain ⟨data, r, wdata, wf', vs, ct, key, g1, g2, g3, g4, g5, g6, g7, g8⟩ := decapPart_ok S (ctB := p.witnessCt) (fun _ => rfl) h
  cases g1
  cases g3
  rw [show cliParseR1cs S.lim sqData = .ok sq from sqData_cli] at g2
  cases g2
  simp only [exec_lift_ok] at g8
  obtain ⟨mb, hmb, -⟩ := g8
  have hs : Sees (decryptCommand S ['c'] ['w'] ['o'] ['d'])
      [(['o'], some c), (['c'], some (sqData ++ [0])), (['w'], some wtns), (['c'], some sqData)]
      (Cmd.writeFile ['d'] mb "Failed to write decrypted file" (.done (.ok ()))) := by
    refine .read ?_
    simp only [hp, Cmd.lift]
    refine .read ?_
    simp only [show cliParseR1cs S.lim (sqData ++ [0]) = .ok sq from sqData0_cli, Cmd.lift]
    refine .read ?_
    simp only [g4, g5, g6, Res.ofOption, Cmd.lift]
    refine .read ?_
    simp only [show cliParseR1cs S.lim sqData = .ok sq from sqData_cli, g7, hmb, Cmd.lift]
    exact .nil _
  have e := C66_decrypt_second_circuit S _ _ _ _ _ sq sqData0_cli _ sq sqData_cli _ _ _ (fs.set ['o'] c) hs rfl rfl rfl
  exact ⟨c, _, hs, e, e ▸ h'⟩

end Ex

end Zkenc.Props
