import Verif.Props.Printing
import Verif.Props.AppliedCommands
import Verif.Props.SudokuProgram
/-!
# C98 on a concrete circuit, and a forged completion message
-/

namespace Zkenc.Props

open Zkenc Zkenc.Spec Zkenc.PrintSpec Zkenc.InputSpec Zkenc.ContainerSpec

section

variable {G1 G2 GT : Type} [AddCommGroup G1] [Module Fr G1] [AddCommGroup G2] [Module Fr G2] [AddCommGroup GT] [Module Fr GT]
  (S : Sys G1 G2 GT)

/-- **C98** (a failing run that shows the message of success) — there is a file for which `decrypt`, without a circuit, a witness and an output, shows the same last two lines as after a
success, and then fails, leaving all files as they were. -/
theorem C98_forged_completion (circuit witness ciphertext output : Path) (hne : circuit ≠ ciphertext) (ρ : Rand Fr) (nonce : Bytes) :
    ∃ (b : Bytes) (before after : Str) (e : Fault), ∀ fs : FS, fs = (fun p => if p = ciphertext then some b else none) →
      (pMain S ρ nonce (.decrypt circuit witness ciphertext output)).exec fs =
        (fs, before ++ text [num "   ✅ Decrypted message saved (" 5 " bytes)", "\n✨ Decryption complete!".toList] ++ after, .error e) := by
  refine ⟨combine true [] (utf8Enc (text [[], num "   ✅ Decrypted message saved (" 5 " bytes)", "\n✨ Decryption complete!".toList])) [],
    text (decryptHead 1 0) ++ ("   - Public input: ".toList ++ ['\n']),
    text [[], num "   - Encrypted message: " 0 " bytes", "\n🔓 Step 2: Running Decap...".toList, "📂 Loading R1CS circuit...".toList], .err "Failed to load R1CS circuit",
    fun fs hfs => ?_⟩
  · have hfc : fs ciphertext = some (combine true [] (utf8Enc (text [[], num "   ✅ Decrypted message saved (" 5 " bytes)", "\n✨ Decryption complete!".toList])) []) := by
      rw [hfs]; simp
    have hfr : fs circuit = none := by rw [hfs]; simp [hne]
    unfold pMain
    rw [decrypt_layout S circuit witness ciphertext output fs _ _ hfc (combine_layout true _ _ _ (by simp) fun _ => ?_)]
    · simp only [if_true, PCmd.println, PCmd.exec, lossy_enc S, pDecryptRest, PCmd.readFile, hfr, Res.fail]
      refine Prod.ext rfl (Prod.ext ?_ rfl)
      simp only [decryptHead, text_cons, text_nil, List.append_assoc, List.cons_append, List.nil_append, num, showNat, List.length_nil, String.toList_empty,
        show (1 : UInt8).toNat = 1 from rfl, List.append_nil]
    · refine lt_of_le_of_lt (utf8Enc_le _) ?_
      decide

end

namespace Ex

/-- The program with its output does what the command does. -/
theorem pmain_exec {a : Args} {fs' : FS} {g : FS} (h : (cliMain S ρ nonce a).exec g = (fs', .ok ())) : ∃ out, (pMain S ρ nonce a).exec g = (fs', out, .ok ()) := by
  rw [(C98_same_program S a ρ nonce g g none).1, Prod.mk.injEq] at h
  exact ⟨_, Prod.ext h.1 (Prod.ext rfl h.2)⟩

theorem enc_printed : ∃ b out, (pMain S ρ nonce (.encrypt ['c'] ['s'] ['i'] ['m'] ['o'] false)).exec fs = (fs.set ['o'] b, out, .ok ()) ∧
    (decryptCommand S ['c'] ['w'] ['o'] ['d']).exec (fs.set ['o'] b) = ((fs.set ['o'] b).set ['d'] [1, 2, 3], .ok ()) := by
  obtain ⟨b, h1, h2, -⟩ := cli_run
  obtain ⟨out, h⟩ := pmain_exec (a := .encrypt ['c'] ['s'] ['i'] ['m'] ['o'] false) h1
  exact ⟨b, out, h, h2⟩

/-- The input `{"y": 9}` gives one value. -/
theorem one_name {names : List Str} (h1 : names.Nodup) (h2 : ∀ n, n ∈ names ↔ ∃ x, Gives entries n x) : names.length = 1 := by
  have hg : Gives entries ['y'] 9 := ⟨_, List.mem_singleton.2 rfl, [], .int 9, .here _, by simp [NotArr], rfl, by
    have := Denotes.nat (9 : Int) (by norm_num) (by norm_num)
    simpa using this⟩
  have hn : ∀ m ∈ names, m = ['y'] := by
    intro m hm
    obtain ⟨x', hg'⟩ := (h2 m).1 hm
    exact (gives hg').1
  match names, h1, hn, (h2 ['y']).2 ⟨9, hg⟩ with
  | [], _, _, h => cases h
  | [_], _, _, _ => rfl
  | a :: b :: l, h1, hn, _ => exact absurd ((hn a (by simp)).trans (hn b (by simp)).symm) (by simp at h1; exact h1.1.1)

/-- What `encrypt` and then `decrypt` show. -/
theorem shown : ∃ (w e : Bytes) (out : Str), w.length < 2 ^ 32 ∧ (pMain S ρ nonce (.encrypt ['c'] ['s'] ['i'] ['m'] ['o'] false)).exec fs =
      (fs.set ['o'] (combine true w (utf8Enc inputText) e), encryptText 1 1 3 1 w.length 3 (combine true w (utf8Enc inputText) e).length true, .ok ()) ∧
    (pMain S ρ nonce (.decrypt ['c'] ['w'] ['o'] ['d'])).exec (fs.set ['o'] (combine true w (utf8Enc inputText) e)) =
      ((fs.set ['o'] (combine true w (utf8Enc inputText) e)).set ['d'] [1, 2, 3], out, .ok ()) ∧
    out = decryptText 1 (some inputText) 1 1 3 w.length 3 := by
  obtain ⟨symtab, b, hf, hag, h1, h2, h3, hb, hj⟩ := cli_encrypted true
  obtain ⟨b', l, hl1, hl2, hl3⟩ := C87_cli_encrypt S _ _ _ _ _ _ _ _ _ _ hf h2 _ _ rfl rfl true ρ nonce rfl hb sq_wf.fits (by simp [sq])
  rw [FS.set_same] at hl1
  cases hl1
  have hl4 : l ≤ 1 := by simpa [sq] using hl3.le
  rw [inputText_len] at hl2
  obtain ⟨out, h⟩ := pmain_exec (a := .encrypt ['c'] ['s'] ['i'] ['m'] ['o'] false) hb
  obtain ⟨names, m, inp, ct, enc, n1, n2, hm, hi, ho, rfl⟩ := C98_encrypt_text S _ _ _ _ _ _ _ _ rfl _ _ _ _ _ _ hf h
  cases hm
  have : utf8Enc inputText = inp := by simpa [fs] using hi
  subst this
  rw [FS.set_same] at ho
  cases ho
  simp only [Bool.not_false, Bool.false_eq_true, if_false] at hl2 h hb
  have hw : ct.length < 2 ^ 32 := by
    rw [C43_length] at hl2
    simp at hl2
    omega
  rw [one_name n1 n2] at h
  have hd := C47_roundtrip S fs _ ['c'] ['s'] ['i'] ['m'] ['o'] sq symtab entries hf [1, 2, 3] rfl true ρ nonce rfl hj hb sq_wf sq_ct
      (by simp [sq]) (fs.set ['o'] (combine true ct (utf8Enc inputText) enc)) ['c'] ['w'] ['o'] ['d'] sqData wtns vals rfl sqData_cli rfl rfl wtns_cli vals_witness hag
  obtain ⟨out, hd⟩ := pmain_exec (a := .decrypt ['c'] ['w'] ['o'] ['d']) hd
  refine ⟨ct, enc, out, hw, h, hd, ?_⟩
  obtain ⟨m, hm, ho⟩ := C98_decrypt_text S _ _ _ _ _ _ _ _ _ _ _ _ _ rfl sqData_cli rfl _ wtns_cli rfl _
    (combine_layout true ct (utf8Enc inputText) enc hw fun _ => by rw [inputText_len]; norm_num) (some inputText) rfl hd
  rw [FS.set_same] at hm
  cases hm
  exact ho

/-- Every run of `encrypt`, also an interrupted one, shows a part of this text; if it is all of it, the file is written. -/
example : ∃ b text, ∀ fs' out o, PRun (pMain S ρ nonce (.encrypt ['c'] ['s'] ['i'] ['m'] ['o'] false)) fs fs' out o →
    out <+: text ∧ (o = some (.ok ()) → out = text) ∧ (out = text → fs' = fs.set ['o'] b) := by
  obtain ⟨w, e, out, -, h1, -⟩ := shown
  refine ⟨combine true w (utf8Enc inputText) e, encryptText 1 1 3 1 w.length 3 (combine true w (utf8Enc inputText) e).length true, fun fs' out o h => ?_⟩
  have := C98_initial_part S _ _ _ _ _ _ _ h
  rw [h1] at this
  exact ⟨this.1, this.2.1, this.2.2 rfl⟩

/-- What `encap` and then `decap` show. -/
example : ∃ ct k, (pMain S ρ nonce (.encap ['c'] ['s'] ['i'] ['o'] ['k'])).exec fs = ((fs.set ['o'] ct).set ['k'] k, encapText 1 1 3 1 ct.length, .ok ()) ∧
    (pMain S ρ nonce (.decap ['c'] ['w'] ['o'] ['d'])).exec ((fs.set ['o'] ct).set ['k'] k) = (((fs.set ['o'] ct).set ['k'] k).set ['d'] k, decapText 1 1 3 3 ct.length, .ok ()) := by
  obtain ⟨symtab, hf, hag⟩ := files
  obtain ⟨ct, k, hk, hb⟩ := cap_run
  obtain ⟨out, h⟩ := pmain_exec (a := .encap ['c'] ['s'] ['i'] ['o'] ['k']) hb
  obtain ⟨names, ct', n1, n2, h1, rfl⟩ := C98_encap_text S _ _ _ _ _ (by decide) _ _ _ _ _ _ _ _ hf h
  have : ct = ct' := by simpa [FS.set] using h1
  subst this
  rw [one_name n1 n2] at h
  obtain ⟨k', g1, -, g2⟩ := C55_cli_to_cli S _ _ _ _ _ _ _ (by decide) _ _ _ hf ρ hb sq_wf (by simp [sq]) ((fs.set ['o'] ct).set ['k'] k) ['c'] ['w'] ['o'] ['d'] sqData wtns vals rfl
    sqData_cli rfl rfl wtns_cli vals_witness hag
  rw [FS.set_same] at g1
  cases g1
  obtain ⟨out, g2⟩ := pmain_exec (a := .decap ['c'] ['w'] ['o'] ['d']) g2
  refine ⟨ct, k, h, ?_⟩
  rw [g2, C98_decap_text S _ _ _ _ _ _ _ _ _ _ _ _ _ rfl sqData_cli rfl _ wtns_cli rfl g2]
  rfl

/-- Another message of the same length and other random choices: no difference to be seen. -/
example (ρ' : Rand Fr) (nonce' : Bytes) (h : nonce'.length = 12) : SameUpToEnd
    ((pMain S ρ nonce (.encrypt ['c'] ['s'] ['i'] ['m'] ['o'] false)).exec fs).2.1
    ((pMain S ρ' nonce' (.encrypt ['c'] ['s'] ['i'] ['m'] ['o'] false)).exec (fs.set ['m'] [7, 8, 9])).2.1 :=
  C98_encrypt_shows S _ _ _ _ _ _ _ _ _ _ rfl h fs (fs.set ['m'] [7, 8, 9]) _ _ _ _ _ _ rfl rfl rfl (fun m₁ m₂ h1 h2 => by
    have h1 : [1, 2, 3] = m₁ := by simpa [fs] using h1
    have h2 : [7, 8, 9] = m₂ := by simpa [FS.set] using h2
    rw [← h1, ← h2]; rfl) (prun_exec _ _) (prun_exec _ _)

/-- Another key. -/
example (ρ' : Rand Fr) : SameUpToEnd ((pMain S ρ nonce (.encap ['c'] ['s'] ['i'] ['o'] ['k'])).exec fs).2.1
    ((pMain S ρ' nonce (.encap ['c'] ['s'] ['i'] ['o'] ['k'])).exec fs).2.1 :=
  C98_encap_shows S _ _ _ _ _ _ _ _ _ fs fs _ _ _ _ _ _ rfl rfl rfl (prun_exec _ _) (prun_exec _ _)

/-- The right witness and one for another number. -/
example (b : Bytes) : SameUpToEnd ((pMain S ρ nonce (.decap ['c'] ['w'] ['o'] ['k'])).exec (fs.set ['o'] b)).2.1
    ((pMain S ρ nonce (.decap ['c'] ['w'] ['o'] ['k'])).exec ((fs.set ['w'] wtns16).set ['o'] b)).2.1 := by
  refine C98_decap_shows S _ _ _ _ _ _ _ _ (fs.set ['o'] b) ((fs.set ['w'] wtns16).set ['o'] b) _ _ _ _ _ _ rfl (fun d₁ d₂ w₁ w₂ h1 h2 h3 h4 => ?_) (fun c₁ c₂ h1 h2 => by
    rw [FS.set_same] at h1 h2; cases h1; cases h2; rfl) (prun_exec _ _) (prun_exec _ _)
  have h1 : wtns = d₁ := by simpa [FS.set, fs] using h1
  have h2 : wtns16 = d₂ := by simpa [FS.set] using h2
  subst h1 h2
  obtain ⟨x, hx, hv⟩ := wtns_cli
  obtain ⟨x', hx', hv'⟩ := wtnsOf_cli 1 16 4
  change cliParseWtns wtns16 = _ at hx'
  rw [hx] at h3; cases h3
  rw [hx'] at h4; cases h4
  rw [← wtns_count hx hv, ← wtns_count hx' hv']
  rfl

/-- The same for `decrypt`, and with another message in the file. -/
example (w e w' e' : Bytes) (hw : w.length < 2 ^ 32) (hww : w.length = w'.length) (he : e.length = e'.length) : SameUpToEnd
    ((pMain S ρ nonce (.decrypt ['c'] ['w'] ['o'] ['d'])).exec (fs.set ['o'] (combine true w (utf8Enc inputText) e))).2.1
    ((pMain S ρ nonce (.decrypt ['c'] ['w'] ['o'] ['d'])).exec ((fs.set ['w'] wtns16).set ['o'] (combine true w' (utf8Enc inputText) e'))).2.1 := by
  refine C98_decrypt_shows S _ _ _ _ _ _ _ _ (fs.set ['o'] (combine true w (utf8Enc inputText) e)) ((fs.set ['w'] wtns16).set ['o'] (combine true w' (utf8Enc inputText) e')) _ _ _ _ _ _ rfl (fun d₁ d₂ w₁ w₂ h1 h2 h3 h4 => ?_) _ _ rfl rfl _ _
    (combine_layout true w _ e hw fun _ => by rw [inputText_len]; norm_num)
    (combine_layout true w' _ e' (by omega) fun _ => by rw [inputText_len]; norm_num) rfl rfl hww he (prun_exec _ _) (prun_exec _ _)
  have h1 : wtns = d₁ := by simpa [FS.set, fs] using h1
  have h2 : wtns16 = d₂ := by simpa [FS.set] using h2
  subst h1 h2
  obtain ⟨x, hx, hv⟩ := wtns_cli
  obtain ⟨x', hx', hv'⟩ := wtnsOf_cli 1 16 4
  change cliParseWtns wtns16 = _ at hx'
  rw [hx] at h3; cases h3
  rw [hx'] at h4; cases h4
  rw [← wtns_count hx hv, ← wtns_count hx' hv']
  rfl

/-- The mark is shown by the complete runs, so the theorems about it say something. -/
example : ∃ b out out', PRun (pMain S ρ nonce (.encrypt ['c'] ['s'] ['i'] ['m'] ['o'] false)) fs (fs.set ['o'] b) out (some (.ok ())) ∧ '✨' ∈ out ∧
    PRun (pMain S ρ nonce (.decrypt ['c'] ['w'] ['o'] ['d'])) (fs.set ['o'] b) ((fs.set ['o'] b).set ['d'] [1, 2, 3]) out' (some (.ok ())) ∧ '✨' ∈ out' ∧
    (cliMain S ρ nonce (.encrypt ['c'] ['s'] ['i'] ['m'] ['o'] false)).exec fs = (fs.set ['o'] b, .ok ()) ∧
    (cliMain S ρ nonce (.decrypt ['c'] ['w'] ['o'] ['d'])).exec (fs.set ['o'] b) = ((fs.set ['o'] b).set ['d'] [1, 2, 3], .ok ()) := by
  obtain ⟨w, e, out, hw, h1, h2, rfl⟩ := shown
  have r1 := prun_exec (pMain S ρ nonce (.encrypt ['c'] ['s'] ['i'] ['m'] ['o'] false)) fs
  rw [h1] at r1
  have r2 := prun_exec (pMain S ρ nonce (.decrypt ['c'] ['w'] ['o'] ['d'])) (fs.set ['o'] (combine true w (utf8Enc inputText) e))
  rw [h2] at r2
  have m1 : '✨' ∈ encryptText 1 1 3 1 w.length 3 (combine true w (utf8Enc inputText) e).length true := by
    simp only [encryptText, text, List.mem_flatMap]
    refine ⟨"\n✨ Encryption complete! Public inputs are embedded in the ciphertext.".toList, by simp, by decide⟩
  have m2 : '✨' ∈ decryptText 1 (some inputText) 1 1 3 w.length 3 := by
    simp only [decryptText, decryptTail, text, List.mem_flatMap]
    refine ⟨"\n✨ Decryption complete!".toList, by simp, by decide⟩
  refine ⟨_, _, _, r1, m1, r2, m2, C98_encrypt_mark S _ _ _ _ _ _ _ _ _ _ _ _ r1 m1, C98_decrypt_mark S _ _ _ _ _ _ _ _ _ _ (fun b q p hb hq hp => ?_) r2 m2⟩
  rw [FS.set_same] at hb
  cases hb
  have := C44_layout_unique _ _ _ hq (combine_layout true w (utf8Enc inputText) e hw fun _ => by rw [inputText_len]; norm_num)
  subst this
  cases hp
  exact ⟨inputText, rfl, by decide⟩

/-- A text with control characters for the terminal. -/
example (w enc : Bytes) (hw : w.length < 2 ^ 32) (t : Str) (ht : t = [Char.ofNat 27, '[', '2', 'J']) :
    text (decryptHead 1 w.length ++ ["   - Public input: ".toList ++ t]) <+:
      ((pMain S ρ nonce (.decrypt ['c'] ['w'] ['o'] ['d'])).exec ((fs.set ['o'] (combine true w (utf8Enc t) enc)).set ['p'] (combine false w [] enc))).2.1 := by
  refine (C98_shows_text S t w enc hw ?_ _ _ _ ['p'] _ _ _ _ (by simp [FS.set]) (FS.set_same _ _ _)).1
  subst ht
  exact lt_of_le_of_lt (utf8Enc_le _) (by simp)

/-- A run that is stopped before it shows anything. -/
example (fs' : FS) (o : Option (Res Unit)) (h : PRun (pMain S ρ nonce (.decap ['c'] ['w'] ['o'] ['k'])) fs fs' [] o) : fs' = fs ∧
    PRun (pMain S ρ nonce (.decap ['c'] ['w'] ['o'] ['k'])) fs fs [] none := ⟨C98_silent_run S _ _ _ _ _ _ h, .crash _ _⟩

end Ex

end Zkenc.Props
