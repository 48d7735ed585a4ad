import Verif.Proofs.PrintingCmp
import Verif.Props.EndToEnd
import Verif.Props.Sizes
/-!
# C98: what the CLI prints

`pMain` is the program with its `println!`s, `PRun c fs fs' out o` a run of it (with I/O errors, a vanishing reader of the output, and crashes)
that prints `out`.
-/

namespace Zkenc.Props

open Zkenc Zkenc.Spec Zkenc.PrintSpec Zkenc.InputSpec Zkenc.ContainerSpec

variable {G1 G2 GT : Type} [AddCommGroup G1] [Module Fr G1] [AddCommGroup G2] [Module Fr G2] [AddCommGroup GT] [Module Fr GT]
  (S : Sys G1 G2 GT)

/-- **C98** (the same program) — what the program does to files and how it ends is as in all other theorems about the CLI: the error-free runs and
the sets of all runs agree. -/
theorem C98_same_program (a : Args) (ρ : Rand Fr) (nonce : Bytes) (fs fs' : FS) (o : Option (Res Unit)) :
    (cliMain S ρ nonce a).exec fs = (((pMain S ρ nonce a).exec fs).1, ((pMain S ρ nonce a).exec fs).2.2) ∧
    (Run (cliMain S ρ nonce a) fs fs' o ↔ ∃ out, PRun (pMain S ρ nonce a) fs fs' out o) := by
  rw [← silent_main]
  exact ⟨exec_silent _ _, fun h => h.toPRun, fun ⟨_, h⟩ => h.toRun⟩

/-- **C98** (output of interrupted runs) — every run prints an initial part of what the error-free run prints, and all of it if it reports success; and if
the error-free run succeeds and a run has printed all its text, then the files are as after the error-free run. -/
theorem C98_initial_part (a : Args) (ρ : Rand Fr) (nonce : Bytes) (fs fs' : FS) (out : Str) (o : Option (Res Unit))
    (h : PRun (pMain S ρ nonce a) fs fs' out o) :
    out <+: ((pMain S ρ nonce a).exec fs).2.1 ∧ (o = some (.ok ()) → out = ((pMain S ρ nonce a).exec fs).2.1) ∧
    (((pMain S ρ nonce a).exec fs).2.2 = .ok () → out = ((pMain S ρ nonce a).exec fs).2.1 → fs' = ((pMain S ρ nonce a).exec fs).1) := by
  obtain ⟨h1, h2⟩ := (stops_main S ρ nonce a).runs h
  refine ⟨h1, h2, EndsPrinted.runs ?_ h⟩
  cases a with
  | encap c s i ct k =>
    unfold pMain pEncap pLoad
    repeat first
      | exact EndsPrinted.lastLine
      | apply EndsPrinted.println
      | apply EndsPrinted.writeFile
      | (apply EndsPrinted.readFile; intro _)
      | (apply EndsPrinted.readText; intro _ _)
      | (apply EndsPrinted.lift; intro _)
  | decap c w ct k =>
    unfold pMain pDecap
    repeat first
      | exact EndsPrinted.lastLine
      | apply EndsPrinted.println
      | apply EndsPrinted.writeFile
      | (apply EndsPrinted.readFile; intro _)
      | (apply EndsPrinted.lift; intro _)
  | encrypt c s i m o np =>
    unfold pMain pEncrypt pLoad
    repeat first
      | exact EndsPrinted.lastLine
      | apply EndsPrinted.println
      | apply EndsPrinted.writeFile
      | (apply EndsPrinted.readFile; intro _)
      | (apply EndsPrinted.readText; intro _ _)
      | (apply EndsPrinted.lift; intro _)
  | decrypt c w ct o =>
    have rest : ∀ w' enc, EndsPrinted (pDecryptRest S c w o w' enc) := by
      intro w' enc
      unfold pDecryptRest
      repeat first
        | exact EndsPrinted.lastLine
        | apply EndsPrinted.println
        | apply EndsPrinted.writeFile
        | (apply EndsPrinted.readFile; intro _)
        | (apply EndsPrinted.lift; intro _)
    unfold pMain pDecrypt
    refine .println <| .readFile fun _ => .lift fun h => .println <| .println ?_
    split
    · exact .lift fun _ => .println <| .lift fun _ => rest _ _
    · exact .lift fun _ => rest _ _

/-! ## The text of a successful run -/

/-- The values in an input object, counted as the CLI counts them. -/
theorem count_inputs {entries : List (Str × Json)} {m : AMap Fr} (h : cliInputs (.obj entries) = .ok m) :
    ∃ names : List Str, names.Nodup ∧ (∀ n, n ∈ names ↔ ∃ x, Gives entries n x) ∧ m.length = names.length := by
  obtain ⟨-, rfl⟩ := (cliInputs_ok_iff entries m).1 h
  refine ⟨_, AMap.nodup_foldl _ (fun m w hm => AMap.nodup_insert hm _ _) _ _ (by simp [AMap.Nodup]), fun n => ?_, (List.length_map _).symm⟩
  have key : ∀ (l : List (Str × Fr)) (m : AMap Fr), n ∈ (l.foldl (fun m e => AMap.insert m e.1 e.2) m).map Prod.fst ↔
      n ∈ m.map Prod.fst ∨ ∃ x, (n, x) ∈ l := by
    intro l
    induction l with
    | nil => simp
    | cons e l ih =>
      intro m
      rw [List.foldl_cons, ih, AMap.keys_insert]
      constructor
      · rintro ((rfl | h) | ⟨x, h⟩)
        · exact .inr ⟨e.2, by simp⟩
        · exact .inl h
        · exact .inr ⟨x, by simp [h]⟩
      · rintro (h | ⟨x, h⟩)
        · exact .inl (.inr h)
        · rcases List.mem_cons.1 h with rfl | h
          · exact .inl (.inl rfl)
          · exact .inr ⟨x, h⟩
  rw [key]
  simp only [gives_iff, List.map_nil, List.not_mem_nil, false_or]

theorem load_text {circuit sym input : Path} {k : R1csFile → AMap Nat → AMap Fr → Bytes → PCmd} {fs fs' : FS} {out : Str} {r : R1csFile}
    {symtab : AMap Nat} {entries : List (Str × Json)} (hfiles : CliFiles S fs circuit sym input r symtab entries)
    (h : (pLoad S circuit sym input k).exec fs = (fs', out, .ok ())) :
    ∃ names : List Str, names.Nodup ∧ (∀ n, n ∈ names ↔ ∃ x, Gives entries n x) ∧ ∃ data inputs json t, fs circuit = some data ∧
      cliParseR1cs S.lim data = .ok r ∧ fs input = some json ∧
      (k r (inputSignals (S.hash.ord symtab) (some r.nPubIn)) inputs json).exec fs = (fs', t, .ok ()) ∧
      out = text (loading r.nConstraints r.nPubIn r.nWires names.length) ++ t := by
  obtain ⟨data, g1, g2⟩ := hfiles.circuit
  obtain ⟨b, s, g3, g4, g5⟩ := hfiles.sym
  obtain ⟨b', s', g6, g7, g8⟩ := hfiles.input
  unfold pLoad at h
  simp only [pexec_println_ok, pexec_readFile_ok, pexec_readText_ok, pexec_lift_ok] at h
  obtain ⟨t1, ⟨b1, hb1, r1, hr1, t2, ⟨t3, ⟨t4, ⟨t5, ⟨b2, s2, hb2, hs2, st, hst, t6, ⟨b3, s3, hb3, hs3, inp, hinp, t7, h, rfl⟩, rfl⟩, rfl⟩, rfl⟩, rfl⟩, rfl⟩, rfl⟩ := h
  rw [g1] at hb1; cases hb1
  rw [g2] at hr1; cases hr1
  rw [g3] at hb2; cases hb2
  rw [g4] at hs2; cases hs2
  rw [g5] at hst; cases hst
  rw [g6] at hb3; cases hb3
  rw [g7] at hs3; cases hs3
  rw [g8] at hinp
  obtain ⟨names, n1, n2, n3⟩ := count_inputs (m := inp) hinp
  refine ⟨names, n1, n2, data, inp, b', t7, g1, g2, g6, h, ?_⟩
  simp only [loading, text_cons, text_nil, num, showNat, n3, List.append_assoc, List.cons_append, List.nil_append, List.append_nil,
    String.toList_empty]

/-- **C98** (text of `encap`) — the output of a successful `zkenc encap` is the text of the specification with: the three numbers of the circuit's header, the number of
different names given values in the input file, and the size of the ciphertext file. -/
theorem C98_encap_text (circuit sym input ciphertext key : Path) (hne : ciphertext ≠ key) (ρ : Rand Fr) (nonce : Bytes) (fs fs' : FS) (out : Str)
    (r : R1csFile) (symtab : AMap Nat) (entries : List (Str × Json)) (hfiles : CliFiles S fs circuit sym input r symtab entries)
    (h : (pMain S ρ nonce (.encap circuit sym input ciphertext key)).exec fs = (fs', out, .ok ())) :
    ∃ (names : List Str) (ct : Bytes), names.Nodup ∧ (∀ n, n ∈ names ↔ ∃ x, Gives entries n x) ∧ fs' ciphertext = some ct ∧
      out = encapText r.nConstraints r.nPubIn r.nWires names.length ct.length := by
  unfold pMain pEncap at h
  obtain ⟨names, n1, n2, data, inputs, json, t, g1, g2, g3, h', rfl⟩ := load_text S hfiles h
  clear h
  rename' h' => h
  simp only [pexec_println_ok, pexec_readFile_ok, pexec_lift_ok, pexec_writeFile, pexec_done_ok] at h
  obtain ⟨t1, ⟨d, hd, r', hr', res, hres, t2, ⟨t3, ⟨t4, ⟨t5, ⟨rfl, rfl⟩, rfl⟩, rfl⟩, rfl⟩, rfl⟩, rfl⟩ := h
  refine ⟨names, _, n1, n2, by rw [FS.set_other _ hne, FS.set_same], ?_⟩
  simp only [encapText, loading, text_cons, text_nil, num, showNat, res.2.len, List.append_assoc, List.cons_append, List.nil_append]

/-- **C98** (text of `encrypt`). -/
theorem C98_encrypt_text (circuit sym input message output : Path) (noPublic : Bool) (ρ : Rand Fr) (nonce : Bytes) (hn : nonce.length = 12) (fs fs' : FS)
    (out : Str) (r : R1csFile) (symtab : AMap Nat) (entries : List (Str × Json)) (hfiles : CliFiles S fs circuit sym input r symtab entries)
    (h : (pMain S ρ nonce (.encrypt circuit sym input message output noPublic)).exec fs = (fs', out, .ok ())) :
    ∃ (names : List Str) (m inp ct enc : Bytes), names.Nodup ∧ (∀ n, n ∈ names ↔ ∃ x, Gives entries n x) ∧ fs message = some m ∧ fs input = some inp ∧
      fs' output = some (combine (!noPublic) ct (if noPublic then [] else inp) enc) ∧
      out = encryptText r.nConstraints r.nPubIn r.nWires names.length ct.length m.length (combine (!noPublic) ct (if noPublic then [] else inp) enc).length
        (!noPublic) := by
  unfold pMain pEncrypt at h
  rw [pexec_println_ok] at h
  obtain ⟨t0, h, rfl⟩ := h
  obtain ⟨names, n1, n2, data, inputs, json, t, g1, g2, g3, h', rfl⟩ := load_text S hfiles h
  clear h
  rename' h' => h
  simp only [pexec_println_ok, pexec_readFile_ok, pexec_lift_ok, pexec_writeFile, pexec_done_ok] at h
  obtain ⟨d, hd, r', hr', res, hres, t1, ⟨t2, ⟨m, hm, t3, ⟨enc, henc, t4, ⟨t5, ⟨t6, ⟨t7, ⟨rfl, rfl⟩, rfl⟩, rfl⟩, rfl⟩, rfl⟩, rfl⟩, rfl⟩, rfl⟩ := h
  refine ⟨names, m, json, encCiphertext S.c1 S.c2 res.1, enc, n1, n2, hm, g3, ?_, ?_⟩
  · rw [FS.set_same]
    cases noPublic <;> rfl
  · have he : (if (!noPublic) = true then json else []) = (if noPublic = true then [] else json) := by cases noPublic <;> rfl
    rw [he]
    simp only [encryptText, loading, text_cons, text_nil, num, showNat, gcm_length hn henc, List.append_assoc, List.cons_append, List.nil_append]

theorem allFr_length {bs : List Bytes} {xs : List Fr} (h : allFr bs = some xs) : xs.length = bs.length := by
  induction bs generalizing xs with
  | nil => cases h; rfl
  | cons b bs ih =>
    simp only [allFr] at h
    split at h
    · cases h
    · split at h
      · cases h
      · rename_i h2
        cases h
        simp [ih h2]

theorem wtns_count {wdata : Bytes} {wf : WitnessFile} (h : cliParseWtns wdata = .ok wf) {vals : List Fr} (hv : wf.toFieldElements = .ok vals) :
    vals.length = wf.nWitness := by
  have h1 : wf.assignments.length = wf.nWitness := by
    unfold cliParseWtns at h
    simp only [Res.bind_eq_ok] at h
    obtain ⟨⟨mg, p1⟩, -, h⟩ := h
    split at h
    · cases h
    simp only [Res.bind_eq_ok] at h
    obtain ⟨⟨v, p2⟩, -, h⟩ := h
    split at h
    · cases h
    simp only [Res.bind_eq_ok] at h
    obtain ⟨⟨ns, p3⟩, -, ⟨st, p4⟩, -, h⟩ := h
    split at h
    · cases h
    split at h
    · cases h
    split at h
    · cases h
    cases h
    simp
  rw [← h1]
  exact allFr_length (ofOption_eq_ok.1 hv)

/-- **C98** (text of `decap`) — … with the number of values in the witness file and the size of the ciphertext file. -/
theorem C98_decap_text (circuit witness ciphertext key : Path) (ρ : Rand Fr) (nonce : Bytes) (fs fs' : FS) (out : Str) (data wdata ct : Bytes) (r : R1csFile)
    (hc : fs circuit = some data) (hr : cliParseR1cs S.lim data = .ok r) (hw : fs witness = some wdata) (vals : List Fr) (hv : CliWitness wdata vals)
    (hct : fs ciphertext = some ct) (h : (pMain S ρ nonce (.decap circuit witness ciphertext key)).exec fs = (fs', out, .ok ())) :
    out = decapText r.nConstraints r.nPubIn r.nWires vals.length ct.length := by
  obtain ⟨wf, hwf, hvals⟩ := hv
  unfold pMain pDecap at h
  simp only [pexec_println_ok, pexec_readFile_ok, pexec_lift_ok, pexec_writeFile, pexec_done_ok, hc, hw, hct, Option.some.injEq, exists_eq_left', hr, hwf,
    Except.ok.injEq] at h
  obtain ⟨t1, ⟨t2, ⟨t3, ⟨t4, ⟨t5, ⟨t6, ⟨vs, hvs, t7, ⟨c, -, t8, ⟨t9, ⟨k, hk, t10, ⟨t11, ⟨-, rfl⟩, rfl⟩, rfl⟩, rfl⟩, rfl⟩, rfl⟩, rfl⟩, rfl⟩, rfl⟩, rfl⟩, rfl⟩, rfl⟩ := h
  simp only [decapText, text_cons, text_nil, num, showNat, k.len, wtns_count hwf hvals, List.append_assoc, List.cons_append, List.nil_append,
    String.toList_empty]

theorem slice_len {b : Bytes} {i n : Nat} (h : i + n ≤ b.length) : (slice b i n).length = n := by
  simp [slice]; omega

theorem idxRange_len {b w : Bytes} {i j : Nat} (h : idxRange b i j = .ok w) (hij : i ≤ j) : w.length = j - i := by
  unfold idxRange at h
  split at h
  · rename_i hc
    cases h
    exact slice_len (by omega)
  · cases h

/-- The beginning of `decrypt` on a file with the documented layout. -/
theorem decrypt_layout (circuit witness ciphertext output : Path) (fs : FS) (b : Bytes) (q : Parts) (hb : fs ciphertext = some b) (hq : Layout b q) :
    (pDecrypt S circuit witness ciphertext output).exec fs =
      (PCmd.println "\uFFFD Step 1: Parsing combined ciphertext...".toList <| .println ("   - Flag: ".toList ++ showNat q.flag.toNat) <|
        .println ("   - Witness ciphertext: ".toList ++ showNat q.witnessCt.length ++ " bytes".toList) <|
        match q.publicInput with
        | some p => .println ("   - Public input: ".toList ++ rustLossy S p) (pDecryptRest S circuit witness output q.witnessCt q.encrypted)
        | none => pDecryptRest S circuit witness output q.witnessCt q.encrypted).exec fs := by
  have h := ((C44_cli_iff b).1 q).2 hq
  rw [splitCli_eq, Res.bind_eq_ok] at h
  obtain ⟨⟨f, n, w⟩, h1, h2⟩ := h
  have hn : w.length = n := by
    unfold splitHead at h1
    split at h1
    · cases h1
    simp only [Res.bind_eq_ok] at h1
    obtain ⟨f', -, n', -, h1⟩ := h1
    split at h1
    · cases h1
    simp only [Res.bind_eq_ok] at h1
    obtain ⟨w', hw', h1⟩ := h1
    cases h1
    rw [idxRange_len hw' (by omega)]
    omega
  unfold pDecrypt
  simp only [PCmd.println, PCmd.readFile, PCmd.exec, hb, h1, PCmd.lift]
  simp only at h2
  split at h2
  · rename_i hf
    simp only [Res.bind_eq_ok] at h2
    obtain ⟨p, hp, m, hm, h2⟩ := h2
    cases h2
    simp only [if_pos hf, PCmd.lift, hp, hm, hn, PCmd.exec]
  · rename_i hf
    simp only [Res.bind_eq_ok] at h2
    obtain ⟨m, hm, h2⟩ := h2
    cases h2
    simp only [if_neg hf, PCmd.lift, hm, hn]

theorem lossy_enc (t : Str) : rustLossy S (utf8Enc t) = t := by
  unfold rustLossy utf8Enc
  rw [utf8Dec_enc]
  simp

theorem gcm_open_length {c : Cipher} {t : Tool} {key data m : Bytes} (h : decryptGcm c t key data = .ok m) : data.length = m.length + 28 := by
  obtain ⟨h1, -, h3, h4⟩ := ((C41_decrypt_iff c t key data).1 m).1 h
  rw [h4, List.length_append, gcmSeal_length, List.length_take]
  omega

theorem rest_text {circuit witness output : Path} {w enc : Bytes} {fs fs' : FS} {out : Str} {data wdata : Bytes} {r : R1csFile}
    (hc : fs circuit = some data) (hr : cliParseR1cs S.lim data = .ok r) (hw : fs witness = some wdata) {vals : List Fr} (hv : CliWitness wdata vals)
    (h : (pDecryptRest S circuit witness output w enc).exec fs = (fs', out, .ok ())) :
    ∃ m, fs' output = some m ∧ out = text (decryptTail r.nConstraints r.nPubIn vals.length m.length) := by
  obtain ⟨wf, hwf, hvals⟩ := hv
  unfold pDecryptRest at h
  simp only [pexec_println_ok, pexec_readFile_ok, pexec_lift_ok, pexec_writeFile, pexec_done_ok, hc, hw, Option.some.injEq, exists_eq_left', hr, hwf,
    Except.ok.injEq] at h
  obtain ⟨t1, ⟨t2, ⟨t3, ⟨t4, ⟨t5, ⟨t6, ⟨t7, ⟨vs, hvs, c, -, k, hk, t8, ⟨t9, ⟨m, hm, t10, ⟨t11, ⟨rfl, rfl⟩, rfl⟩, rfl⟩, rfl⟩, rfl⟩, rfl⟩, rfl⟩, rfl⟩, rfl⟩, rfl⟩, rfl⟩, rfl⟩ := h
  refine ⟨m, FS.set_same _ _ _, ?_⟩
  simp only [decryptTail, text_cons, text_nil, num, showNat, gcm_open_length hm, wtns_count hwf hvals, List.append_assoc, List.cons_append, List.nil_append,
    String.toList_empty]

/-- **C98** (text of `decrypt`) — … with the flag, the size of the witness ciphertext and, if there is one, the public input of the file being decrypted, and the size of
the message. -/
theorem C98_decrypt_text (circuit witness ciphertext output : Path) (ρ : Rand Fr) (nonce : Bytes) (fs fs' : FS) (out : Str) (data wdata b : Bytes) (r : R1csFile)
    (hc : fs circuit = some data) (hr : cliParseR1cs S.lim data = .ok r) (hw : fs witness = some wdata) (vals : List Fr) (hv : CliWitness wdata vals)
    (hct : fs ciphertext = some b) (q : Parts) (hq : Layout b q) (pub : Option Str) (hpub : q.publicInput = pub.map utf8Enc)
    (h : (pMain S ρ nonce (.decrypt circuit witness ciphertext output)).exec fs = (fs', out, .ok ())) :
    ∃ m, fs' output = some m ∧ out = decryptText q.flag.toNat pub r.nConstraints r.nPubIn vals.length q.witnessCt.length m.length := by
  unfold pMain at h
  rw [decrypt_layout S circuit witness ciphertext output fs b q hct hq] at h
  cases pub with
  | none =>
    simp only [hpub, Option.map_none, pexec_println_ok] at h
    obtain ⟨t1, ⟨t2, ⟨t3, h, rfl⟩, rfl⟩, rfl⟩ := h
    obtain ⟨m, h1, rfl⟩ := rest_text S hc hr hw hv h
    exact ⟨m, h1, by simp only [decryptText, decryptHead, decryptTail, text_cons, text_nil, num, showNat, List.append_assoc, List.cons_append, List.nil_append, String.toList_empty]⟩
  | some t =>
    simp only [hpub, Option.map_some, pexec_println_ok] at h
    obtain ⟨t1, ⟨t2, ⟨t3, ⟨t4, h, rfl⟩, rfl⟩, rfl⟩, rfl⟩ := h
    obtain ⟨m, h1, rfl⟩ := rest_text S hc hr hw hv h
    exact ⟨m, h1, by simp only [decryptText, decryptHead, decryptTail, text_cons, text_nil, num, showNat, lossy_enc S, List.append_assoc, List.cons_append, List.nil_append, String.toList_empty]⟩

/-! ## What the output does not show -/

theorem ct_length_indep (c : Circuit Fr) (ρ₁ ρ₂ : Rand Fr) (r₁ r₂ : Ciphertext Fr G1 G2 × Key) (h₁ : encap S.P S.dom c ρ₁ = .ok r₁) (h₂ : encap S.P S.dom c ρ₂ = .ok r₂) :
    (encCiphertext S.c1 S.c2 r₁.1).length = (encCiphertext S.c1 S.c2 r₂.1).length := by
  have key : ∀ (ρ : Rand Fr) (r : Ciphertext Fr G1 G2 × Key), encap S.P S.dom c ρ = .ok r →
      (encCiphertext S.c1 S.c2 r.1).length = 200 + 128 * ((c (CS.new Fr)).1.numInst + (c (CS.new Fr)).1.numWit) + 32 * ((c (CS.new Fr)).1.inst.drop 1).length := by
    intro ρ r h
    obtain ⟨-, -, -, -, e⟩ := C15_shape S.P S.dom S.c1 S.c2 S.c1_size S.c2_size c ρ r.1 r.2 h _ rfl
    rw [e]
    by_cases hp : (c (CS.new Fr)).1.numVars ≠ 0 ∧ ρ.delta = 0
    · rw [encap_panic _ _ _ _ hp] at h; cases h
    · rw [encap_eq _ _ _ _ hp] at h; cases h; rfl
  rw [key ρ₁ r₁ h₁, key ρ₂ r₂ h₂]

theorem load_cmp {circuit sym input : Path} {k₁ k₂ : R1csFile → AMap Nat → AMap Fr → Bytes → PCmd} {fs₁ fs₂ : FS} (hc : fs₁ circuit = fs₂ circuit)
    (hs : fs₁ sym = fs₂ sym) (hi : fs₁ input = fs₂ input)
    (h : ∀ r st inp json, CmpOut (k₁ r st inp json) fs₁ (k₂ r st inp json) fs₂) : CmpOut (pLoad S circuit sym input k₁) fs₁ (pLoad S circuit sym input k₂) fs₂ := by
  unfold pLoad
  refine .println rfl <| .readFile fun d₁ d₂ e1 e2 => ?_
  rw [hc, e2] at e1; cases e1
  refine .lift fun r₁ r₂ e1 e2 => ?_
  rw [e1] at e2; cases e2
  refine .println rfl <| .println rfl <| .println rfl <| .println rfl <| .readText fun b₁ b₂ s₁ s₂ e1 e2 e3 e4 => ?_
  rw [hs, e2] at e1; cases e1
  rw [e3] at e4; cases e4
  refine .lift fun r₁ r₂ e1 e2 => ?_
  rw [e1] at e2; cases e2
  refine .println rfl <| .readText fun b₁ b₂ s₁ s₂ e1 e2 e3 e4 => ?_
  rw [hi, e2] at e1; cases e1
  rw [e3] at e4; cases e4
  refine .lift fun r₁ r₂ e1 e2 => ?_
  rw [e1] at e2; cases e2
  exact .println rfl <| h _ _ _ _

theorem encap_cmp {circuit : Path} {sig : AMap Nat} {inputs : AMap Fr} {ρ₁ ρ₂ : Rand Fr} {k₁ k₂ : Ciphertext Fr G1 G2 × Key → PCmd} {fs₁ fs₂ : FS}
    (hc : fs₁ circuit = fs₂ circuit)
    (h : ∀ res₁ res₂, (encCiphertext S.c1 S.c2 res₁.1).length = (encCiphertext S.c1 S.c2 res₂.1).length → CmpOut (k₁ res₁) fs₁ (k₂ res₂) fs₂) :
    CmpOut (PCmd.readFile circuit "Failed to create circuit" fun data' => PCmd.lift (cliParseR1cs S.lim data') fun r1cs' =>
        PCmd.lift (encap S.P S.dom (cliCircuit r1cs' (cliWires sig (S.hash.ord inputs))) ρ₁) k₁) fs₁
      (PCmd.readFile circuit "Failed to create circuit" fun data' => PCmd.lift (cliParseR1cs S.lim data') fun r1cs' =>
        PCmd.lift (encap S.P S.dom (cliCircuit r1cs' (cliWires sig (S.hash.ord inputs))) ρ₂) k₂) fs₂ := by
  refine .readFile fun d₁ d₂ e1 e2 => ?_
  rw [hc, e2] at e1; cases e1
  refine .lift fun r₁ r₂ e1 e2 => ?_
  rw [e1] at e2; cases e2
  exact .lift fun res₁ res₂ e1 e2 => h _ _ (ct_length_indep S _ _ _ _ _ e1 e2)

/-- **C98** (`encap` shows nothing of the key) — two runs on the same circuit, symbol and input files, with any random choices — so with any keys —, show the same text; at
most one of them ends sooner. This holds with I/O errors and crashes, too. -/
theorem C98_encap_shows (circuit sym input ciphertext key : Path) (ρ₁ ρ₂ : Rand Fr) (n₁ n₂ : Bytes) (fs₁ fs₂ fs₁' fs₂' : FS) (out₁ out₂ : Str)
    (o₁ o₂ : Option (Res Unit)) (hc : fs₁ circuit = fs₂ circuit) (hs : fs₁ sym = fs₂ sym) (hi : fs₁ input = fs₂ input)
    (h₁ : PRun (pMain S ρ₁ n₁ (.encap circuit sym input ciphertext key)) fs₁ fs₁' out₁ o₁)
    (h₂ : PRun (pMain S ρ₂ n₂ (.encap circuit sym input ciphertext key)) fs₂ fs₂' out₂ o₂) : SameUpToEnd out₁ out₂ := by
  refine CmpOut.runs (stops_main S _ _ _) (stops_main S _ _ _) ?_ h₁ h₂
  unfold pMain pEncap
  refine load_cmp S hc hs hi fun r st inp json => .println rfl <| encap_cmp S hc fun res₁ res₂ hl => ?_
  refine .println rfl <| .writeFile <| .println (by rw [hl]) <| .println rfl <| .writeFile <| .println (by rw [res₁.2.len, res₂.2.len]) .done

/-- **C98** (`encrypt` shows nothing of the message but its length) — two runs on the same circuit, symbol and input files, with any random choices and any two messages
of the same length. -/
theorem C98_encrypt_shows (circuit sym input message output : Path) (noPublic : Bool) (ρ₁ ρ₂ : Rand Fr) (n₁ n₂ : Bytes) (hn₁ : n₁.length = 12) (hn₂ : n₂.length = 12)
    (fs₁ fs₂ fs₁' fs₂' : FS) (out₁ out₂ : Str) (o₁ o₂ : Option (Res Unit)) (hc : fs₁ circuit = fs₂ circuit) (hs : fs₁ sym = fs₂ sym)
    (hi : fs₁ input = fs₂ input) (hm : ∀ m₁ m₂, fs₁ message = some m₁ → fs₂ message = some m₂ → m₁.length = m₂.length)
    (h₁ : PRun (pMain S ρ₁ n₁ (.encrypt circuit sym input message output noPublic)) fs₁ fs₁' out₁ o₁)
    (h₂ : PRun (pMain S ρ₂ n₂ (.encrypt circuit sym input message output noPublic)) fs₂ fs₂' out₂ o₂) : SameUpToEnd out₁ out₂ := by
  refine CmpOut.runs (stops_main S _ _ _) (stops_main S _ _ _) ?_ h₁ h₂
  unfold pMain pEncrypt
  refine .println rfl <| load_cmp S hc hs hi fun r st inp json => encap_cmp S hc fun res₁ res₂ hl => ?_
  refine .println (by rw [hl]) <| .println rfl <| .readFile fun m₁ m₂ e1 e2 => ?_
  have hml := hm m₁ m₂ e1 e2
  refine .println (by rw [hml]) <| .lift fun enc₁ enc₂ e1 e2 => ?_
  have hel : enc₁.length = enc₂.length := by rw [gcm_length hn₁ e1, gcm_length hn₂ e2, hml]
  exact .println (by rw [hel]) <| .println rfl <| .writeFile <| .println (by rw [C43_length, C43_length, hl, hel]) <| .println rfl .done

/-- **C98** (`decap` shows nothing of the witness but its length) — two runs with the same circuit file, any two witness files with the same number of values, and any two
ciphertext files of the same length. -/
theorem C98_decap_shows (circuit witness ciphertext key : Path) (ρ₁ ρ₂ : Rand Fr) (n₁ n₂ : Bytes) (fs₁ fs₂ fs₁' fs₂' : FS) (out₁ out₂ : Str)
    (o₁ o₂ : Option (Res Unit)) (hc : fs₁ circuit = fs₂ circuit)
    (hw : ∀ d₁ d₂ w₁ w₂, fs₁ witness = some d₁ → fs₂ witness = some d₂ → cliParseWtns d₁ = .ok w₁ → cliParseWtns d₂ = .ok w₂ → w₁.nWitness = w₂.nWitness)
    (hct : ∀ c₁ c₂, fs₁ ciphertext = some c₁ → fs₂ ciphertext = some c₂ → c₁.length = c₂.length)
    (h₁ : PRun (pMain S ρ₁ n₁ (.decap circuit witness ciphertext key)) fs₁ fs₁' out₁ o₁)
    (h₂ : PRun (pMain S ρ₂ n₂ (.decap circuit witness ciphertext key)) fs₂ fs₂' out₂ o₂) : SameUpToEnd out₁ out₂ := by
  refine CmpOut.runs (stops_main S _ _ _) (stops_main S _ _ _) ?_ h₁ h₂
  unfold pMain pDecap
  refine .println rfl <| .readFile fun d₁ d₂ e1 e2 => ?_
  rw [hc, e2] at e1; cases e1
  refine .lift fun r₁ r₂ e1 e2 => ?_
  rw [e1] at e2; cases e2
  refine .println rfl <| .println rfl <| .println rfl <| .println rfl <| .readFile fun d₁ d₂ e1 e2 => .lift fun w₁ w₂ e3 e4 => ?_
  have hl := hw d₁ d₂ w₁ w₂ e1 e2 e3 e4
  refine .println (by rw [hl]) <| .lift fun v₁ v₂ _ _ => .println rfl <| .readFile fun c₁ c₂ e1 e2 => ?_
  have hcl := hct c₁ c₂ e1 e2
  refine .lift fun ct₁ ct₂ _ _ => .println (by rw [hcl]) <| .println rfl <| .readFile fun d₁ d₂ _ _ => .lift fun r₁ r₂ _ _ => .lift fun k₁ k₂ _ _ => ?_
  exact .println rfl <| .writeFile <| .println (by rw [k₁.len, k₂.len]) .done

theorem rest_cmp {circuit witness output : Path} {w₁ w₂ enc₁ enc₂ : Bytes} {fs₁ fs₂ : FS} (hc : fs₁ circuit = fs₂ circuit)
    (hw : ∀ d₁ d₂ w₁ w₂, fs₁ witness = some d₁ → fs₂ witness = some d₂ → cliParseWtns d₁ = .ok w₁ → cliParseWtns d₂ = .ok w₂ → w₁.nWitness = w₂.nWitness)
    (he : enc₁.length = enc₂.length) : CmpOut (pDecryptRest S circuit witness output w₁ enc₁) fs₁ (pDecryptRest S circuit witness output w₂ enc₂) fs₂ := by
  unfold pDecryptRest
  refine .println (by rw [he]) <| .println rfl <| .println rfl <| .readFile fun d₁ d₂ e1 e2 => ?_
  rw [hc, e2] at e1; cases e1
  refine .lift fun r₁ r₂ e1 e2 => ?_
  rw [e1] at e2; cases e2
  refine .println rfl <| .println rfl <| .println rfl <| .readFile fun d₁ d₂ e1 e2 => .lift fun w₁ w₂ e3 e4 => ?_
  have hl := hw d₁ d₂ w₁ w₂ e1 e2 e3 e4
  refine .println (by rw [hl]) <| .lift fun v₁ v₂ _ _ => .lift fun c₁ c₂ _ _ => .readFile fun _ _ _ _ => .lift fun _ _ _ _ => .lift fun k₁ k₂ _ _ => ?_
  refine .println rfl <| .println rfl <| .lift fun m₁ m₂ e1 e2 => .writeFile ?_
  have hm : m₁.length = m₂.length := by have := gcm_open_length e1; have := gcm_open_length e2; omega
  exact .println (by rw [hm]) <| .println rfl .done

/-- **C98** (`decrypt` shows nothing of the witness and the message but their lengths) — two runs with the same circuit file, any two witness files with the same number of
values, and any two ciphertext files with the same flag, public input and sizes. -/
theorem C98_decrypt_shows (circuit witness ciphertext output : Path) (ρ₁ ρ₂ : Rand Fr) (n₁ n₂ : Bytes) (fs₁ fs₂ fs₁' fs₂' : FS) (out₁ out₂ : Str)
    (o₁ o₂ : Option (Res Unit)) (hc : fs₁ circuit = fs₂ circuit)
    (hw : ∀ d₁ d₂ w₁ w₂, fs₁ witness = some d₁ → fs₂ witness = some d₂ → cliParseWtns d₁ = .ok w₁ → cliParseWtns d₂ = .ok w₂ → w₁.nWitness = w₂.nWitness)
    (b₁ b₂ : Bytes) (hb₁ : fs₁ ciphertext = some b₁) (hb₂ : fs₂ ciphertext = some b₂) (q₁ q₂ : Parts) (hq₁ : Layout b₁ q₁) (hq₂ : Layout b₂ q₂)
    (hflag : q₁.flag = q₂.flag) (hpub : q₁.publicInput = q₂.publicInput) (hct : q₁.witnessCt.length = q₂.witnessCt.length)
    (henc : q₁.encrypted.length = q₂.encrypted.length)
    (h₁ : PRun (pMain S ρ₁ n₁ (.decrypt circuit witness ciphertext output)) fs₁ fs₁' out₁ o₁)
    (h₂ : PRun (pMain S ρ₂ n₂ (.decrypt circuit witness ciphertext output)) fs₂ fs₂' out₂ o₂) : SameUpToEnd out₁ out₂ := by
  refine CmpOut.runs (stops_main S _ _ _) (stops_main S _ _ _) ?_ h₁ h₂
  unfold pMain CmpOut
  rw [decrypt_layout S circuit witness ciphertext output fs₁ b₁ q₁ hb₁ hq₁, decrypt_layout S circuit witness ciphertext output fs₂ b₂ q₂ hb₂ hq₂]
  refine CmpOut.println rfl <| .println (by rw [hflag]) <| .println (by rw [hct]) ?_
  rw [hpub]
  cases q₂.publicInput with
  | none => exact rest_cmp S hc hw henc
  | some p => exact .println rfl <| rest_cmp S hc hw henc

/-! ## The mark of completion -/

theorem digits_no_mark (n : Nat) : '✨' ∉ showNat n := by
  intro h
  have := Nat.isDigit_of_mem_toDigits (by norm_num) (by norm_num) h
  revert this
  decide

theorem mark_load {fs : FS} {p circuit sym input : Path} {k : R1csFile → AMap Nat → AMap Fr → Bytes → PCmd} (h : ∀ a b c d, LateMark '✨' p fs (k a b c d)) :
    LateMark '✨' p fs (pLoad S circuit sym input k) := by
  unfold pLoad
  refine .println (by decide) (by decide) <| .readFile fun _ _ => .lift fun _ _ => ?_
  refine .println (by simp only [List.mem_append, digits_no_mark, or_false]; decide) (by decide) ?_
  refine .println (by simp only [List.mem_append, digits_no_mark, or_false]; decide) (by decide) ?_
  refine .println (by simp only [List.mem_append, digits_no_mark, or_false]; decide) (by decide) ?_
  refine .println (by decide) (by decide) <| .readText fun _ _ => .lift fun _ _ => ?_
  refine .println (by decide) (by decide) <| .readText fun _ _ => .lift fun _ _ => ?_
  refine .println (by simp only [List.mem_append, digits_no_mark, or_false]; decide) (by decide) ?_
  exact h _ _ _ _

/-- **C98** (the mark of completion, `encrypt`) — if a run of `encrypt` has shown the character `✨`, however it ended, then the output file is complete: the file system is
that of the error-free run, which succeeds. -/
theorem C98_encrypt_mark (circuit sym input message output : Path) (noPublic : Bool) (ρ : Rand Fr) (nonce : Bytes) (fs fs' : FS) (out : Str)
    (o : Option (Res Unit)) (h : PRun (pMain S ρ nonce (.encrypt circuit sym input message output noPublic)) fs fs' out o) (hmark : '✨' ∈ out) :
    (cliMain S ρ nonce (.encrypt circuit sym input message output noPublic)).exec fs = (fs', .ok ()) := by
  have hl : LateMark '✨' output fs (pMain S ρ nonce (.encrypt circuit sym input message output noPublic)) := by
    unfold pMain pEncrypt
    refine .println (by decide) (by decide) <| mark_load S fun _ _ _ _ => .readFile fun _ _ => .lift fun _ _ => .lift fun _ _ => ?_
    refine .println (by simp only [List.mem_append, digits_no_mark, or_false]; decide) (by decide) ?_
    refine .println (by decide) (by decide) <| .readFile fun _ _ => ?_
    refine .println (by simp only [List.mem_append, digits_no_mark, or_false]; decide) (by decide) <| .lift fun _ _ => ?_
    refine .println (by simp only [List.mem_append, digits_no_mark, or_false]; decide) (by decide) ?_
    refine .println (by decide) (by decide) <| .writeFile ?_
    exact .print _ _ <| .print _ _ .done
  obtain ⟨b, e1, e2, rfl⟩ := hl.runs h hmark
  rw [(C98_same_program S _ ρ nonce fs fs o).1, e1, e2]

/-- **C98** (the mark of completion, `decrypt`) — the same for `decrypt`, if the public input in the file does not contain that character. -/
theorem C98_decrypt_mark (circuit witness ciphertext output : Path) (ρ : Rand Fr) (nonce : Bytes) (fs fs' : FS) (out : Str) (o : Option (Res Unit))
    (hpub : ∀ b q p, fs ciphertext = some b → Layout b q → q.publicInput = some p → ∃ t, p = utf8Enc t ∧ '✨' ∉ t)
    (h : PRun (pMain S ρ nonce (.decrypt circuit witness ciphertext output)) fs fs' out o) (hmark : '✨' ∈ out) :
    (cliMain S ρ nonce (.decrypt circuit witness ciphertext output)).exec fs = (fs', .ok ()) := by
  have rest : ∀ w enc, LateMark '✨' output fs (pDecryptRest S circuit witness output w enc) := by
    intro w enc
    unfold pDecryptRest
    refine .println (by simp only [List.mem_append, digits_no_mark, or_false]; decide) (by decide) ?_
    refine .println (by decide) (by decide) <| .println (by decide) (by decide) <| .readFile fun _ _ => .lift fun _ _ => ?_
    refine .println (by simp only [List.mem_append, digits_no_mark, or_false]; decide) (by decide) ?_
    refine .println (by simp only [List.mem_append, digits_no_mark, or_false]; decide) (by decide) ?_
    refine .println (by decide) (by decide) <| .readFile fun _ _ => .lift fun _ _ => ?_
    refine .println (by simp only [List.mem_append, digits_no_mark, or_false]; decide) (by decide) ?_
    refine .lift fun _ _ => .lift fun _ _ => .readFile fun _ _ => .lift fun _ _ => .lift fun _ _ => ?_
    refine .println (by decide) (by decide) <| .println (by decide) (by decide) <| .lift fun _ _ => .writeFile ?_
    exact .print _ _ <| .print _ _ .done
  have hl : LateMark '✨' output fs (pMain S ρ nonce (.decrypt circuit witness ciphertext output)) := by
    unfold pMain pDecrypt
    refine .println (by decide) (by decide) <| .readFile fun b hb => .lift fun x hx => ?_
    refine .println (by simp only [List.mem_append, digits_no_mark, or_false]; decide) (by decide) ?_
    refine .println (by simp only [List.mem_append, digits_no_mark, or_false]; decide) (by decide) ?_
    split
    · rename_i hf
      refine .lift fun y hy => ?_
      have hm : ∃ m, idxRange b (5 + x.2.1 + 4 + y.1) b.length = .ok m := by
        unfold splitPublic at hy
        split at hy
        · cases hy
        rw [Res.bind_eq_ok] at hy
        obtain ⟨n, -, hy⟩ := hy
        split at hy
        · cases hy
        rw [Res.bind_eq_ok] at hy
        obtain ⟨p, -, hy⟩ := hy
        cases hy
        exact ⟨_, by rw [idxRange, if_pos (by omega)]⟩
      obtain ⟨m, hm⟩ := hm
      have hs : splitCli b = .ok ⟨x.1, x.2.2, some y.2, m⟩ := by
        rw [splitCli_eq, hx, Res.ok_bind, if_pos hf, hy, Res.ok_bind, hm, Res.ok_bind]
      obtain ⟨t, ht, hn⟩ := hpub b _ y.2 hb (((C44_cli_iff b).1 _).1 hs) rfl
      refine .println ?_ (by decide) <| .lift fun _ _ => rest _ _
      rw [ht, lossy_enc S]
      simp only [List.mem_append, hn, or_false]
      decide
    · exact .lift fun _ _ => rest _ _
  obtain ⟨b, e1, e2, rfl⟩ := hl.runs h hmark
  rw [(C98_same_program S _ ρ nonce fs fs o).1, e1, e2]

/-! ## Text in the file -/

/-- **C98** (text in the ciphertext file is shown as it is) — whatever the sender, or anyone who can change the file, puts in the place of the public input is shown, character by
character, before anything else is read or checked: for every text and whatever the circuit and witness are, the output begins with it. How the run ends, and what it writes, is as
without it. -/
theorem C98_shows_text (t : Str) (w enc : Bytes) (hw : w.length < 2 ^ 32) (ht : (utf8Enc t).length < 2 ^ 32) (circuit witness ciphertext plain output : Path)
    (ρ : Rand Fr) (nonce : Bytes) (fs : FS) (hct : fs ciphertext = some (combine true w (utf8Enc t) enc)) (hplain : fs plain = some (combine false w [] enc)) :
    text (decryptHead 1 w.length ++ ["   - Public input: ".toList ++ t]) <+:
      ((pMain S ρ nonce (.decrypt circuit witness ciphertext output)).exec fs).2.1 ∧
    ((pMain S ρ nonce (.decrypt circuit witness ciphertext output)).exec fs).1 = ((pMain S ρ nonce (.decrypt circuit witness plain output)).exec fs).1 ∧
    ((pMain S ρ nonce (.decrypt circuit witness ciphertext output)).exec fs).2.2 = ((pMain S ρ nonce (.decrypt circuit witness plain output)).exec fs).2.2 := by
  have hc := C46_cli_decrypt S true false w (utf8Enc t) [] enc hw ht (by simp) fs circuit witness ciphertext plain output hct hplain
  have e1 := (C98_same_program S (.decrypt circuit witness ciphertext output) ρ nonce fs fs none).1
  have e2 := (C98_same_program S (.decrypt circuit witness plain output) ρ nonce fs fs none).1
  change (decryptCommand S circuit witness ciphertext output).exec fs = _ at e1
  change (decryptCommand S circuit witness plain output).exec fs = _ at e2
  rw [e1, e2, Prod.mk.injEq] at hc
  refine ⟨?_, hc.1, hc.2⟩
  unfold pMain
  rw [decrypt_layout S circuit witness ciphertext output fs _ _ hct (combine_layout true w (utf8Enc t) enc hw fun _ => ht)]
  simp only [if_true, PCmd.println, PCmd.exec, lossy_enc S, decryptHead, text_cons, text_nil, List.cons_append, List.nil_append, num, showNat, List.append_assoc,
    String.toList_empty, show (1 : UInt8).toNat = 1 from rfl]
  refine (List.prefix_append_right_inj _).2 ?_
  simp only [List.cons_prefix_cons, true_and, List.prefix_append_right_inj, List.nil_prefix]

/-- **C98** (a run without output changes nothing) — a run that ends before it has shown anything leaves all files as they were. -/
theorem C98_silent_run (a : Args) (ρ : Rand Fr) (nonce : Bytes) (fs fs' : FS) (o : Option (Res Unit)) (h : PRun (pMain S ρ nonce a) fs fs' [] o) : fs' = fs := by
  have key : ∀ (s : Str) (k : PCmd), PRun (.println s k) fs fs' [] o → fs' = fs := by
    intro s k h
    unfold PCmd.println at h
    generalize hs : s ++ ['\n'] = t at h
    generalize hout : ([] : Str) = out at h
    cases h with
    | crash => rfl
    | print h =>
      have := congrArg List.length hout
      rw [← hs] at this
      simp at this
    | printFails n => rfl
  cases a <;> exact key _ _ h

end Zkenc.Props
