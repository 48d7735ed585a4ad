import Verif.Props.Container
import Verif.Props.Crypto
import Verif.Props.Gcm
import Verif.Props.Curve
import Verif.Props.Sym
import Verif.Props.WasmInit
import Verif.Props.WtnsParseJs
import Verif.Props.R1csParseJs
import Verif.Props.Serialize
import Verif.Props.Serializable
import Verif.Props.TestFixture
import Verif.Props.WitnessCalc
import Verif.Props.WitnessCalcJs
import Verif.Props.Circom
import Verif.Props.JsonGrammar
import Verif.Props.JsonText
import Verif.Props.AppliedEndToEnd
/-!
# The theorems about formats, ciphers and initialisation, applied

Concrete byte strings, keys, files and schedules that meet the hypotheses.
-/

namespace Zkenc.Props

open Zkenc Zkenc.Spec Zkenc.ContainerSpec GcmSpec

namespace Ex

/-! ### Container -/

/-- C43, C44, C45 on a container with public input `[123, 125]`. -/
example (p : Parts) (h : Layout (Zkenc.combine true [5, 6] [123, 125] [7]) p) : p = ⟨1, [5, 6], some [123, 125], [7]⟩ :=
  C44_layout_unique _ _ _ h (by
    have : Zkenc.combine true [5, 6] [123, 125] [7] = 1 :: ([0, 0, 0, 2] ++ ([5, 6] ++ ([0, 0, 0, 2] ++ ([123, 125] ++ [7])))) := by decide
    rw [this]
    exact .withPublic [5, 6] [123, 125] [7] [0, 0, 0, 2] [0, 0, 0, 2] rfl rfl (by decide) (by decide))

example (incl : Bool) (w p m : Bytes) (hw : w.length < 2 ^ 32) (hp : incl = true → p.length < 2 ^ 32) (h : Zkenc.combine true [5, 6] [123, 125] [7] = Zkenc.combine incl w p m) :
    incl = true ∧ w = [5, 6] ∧ m = [7] ∧ p = [123, 125] := by
  obtain ⟨h1, h2, h3, h4⟩ := C43_injective true incl [5, 6] w [123, 125] p [7] m (by simp) (by simp) hw hp h
  exact ⟨h1.symm, h2.symm, h3.symm, (h4 rfl).symm⟩

example : ∃ q, splitCli (Zkenc.combine true [5, 6] (List.replicate (2 ^ 32) 65) [7]) = .ok q ∧ splitJs (Zkenc.combine true [5, 6] (List.replicate (2 ^ 32) 65) [7]) = .ok q ∧
    q.encrypted ≠ [7] := C43_overflow _ _ _ (by simp) (by rw [List.length_replicate])

example : getPublicInput (fun b => b.map fun x => Char.ofNat x.toNat) (fun s => if s = ['{', '}'] then some 0 else none) (Zkenc.combine true [5, 6] [123, 125] [7]) = .ok 0 :=
  C45_returns _ _ _ _ _ (by simp) (by simp) _ (by decide)

/-! ### AES-GCM and CTR -/

def key32 : Bytes := List.replicate 32 9

theorem gcm_out (m : Bytes) (hm : m.length ≤ 2 ^ 36) : encryptGcm toyBlock .cli key32 nonce m = .ok (nonce ++ gcmSeal toyBlock key32 nonce m) := by
  unfold encryptGcm
  rw [if_neg (by simp [key32]), if_neg (by change ¬ (2 ^ 36 < m.length); omega)]

/-- C41: short data and keys; a changed tag; equal messages. -/
example (tag : Bytes) (ht : tag.length = 16) (hne : tag ≠ (nonce ++ gcmSeal toyBlock key32 nonce [1, 2, 3]).drop ((nonce ++ gcmSeal toyBlock key32 nonce [1, 2, 3]).length - 16)) :
    (∃ e, decryptGcm toyBlock .js [1] (List.replicate 40 0) = .error (.err e)) ∧ (∃ e, decryptGcm toyBlock .js key32 (List.replicate 27 0) = .error (.err e)) ∧
    (∃ e, decryptGcm toyBlock .js key32 ((nonce ++ gcmSeal toyBlock key32 nonce [1, 2, 3]).take ((nonce ++ gcmSeal toyBlock key32 nonce [1, 2, 3]).length - 16) ++ tag) =
      .error (.err e)) ∧
    ∀ d', decryptGcm toyBlock .cli key32 d' = .ok [1, 2, 3] → d'.take 12 = nonce → d' = nonce ++ gcmSeal toyBlock key32 nonce [1, 2, 3] := by
  have h := gcm_out [1, 2, 3] (by simp)
  refine ⟨C41_rejects_short _ _ _ _ (.inl (by simp)), C41_rejects_short _ _ _ _ (.inr (by simp)), C41_tag_checked toyBlock .cli .js key32 nonce [1, 2, 3] _ tag rfl h ht hne, ?_⟩
  intro d' hd' hn
  refine (C41_injective toyBlock .js .cli key32 _ d' [1, 2, 3] (C41_roundtrip toyBlock .cli .js key32 nonce [1, 2, 3] _ rfl h (by change 3 ≤ 2 ^ 36; norm_num)) hd' ?_).symm
  rw [hn]
  rfl

/-- C42: flipping bits in a CTR ciphertext. -/
example : ∃ body, encryptCtr toyBlock key32 (nonce ++ [0, 0, 0, 0]) [1, 2, 3] = .ok ((nonce ++ [0, 0, 0, 0]) ++ body) ∧
    decryptCtr toyBlock key32 ((nonce ++ [0, 0, 0, 0]) ++ xorBytes body [255, 0, 1]) = .ok (xorBytes [1, 2, 3] [255, 0, 1]) := by
  have h : encryptCtr toyBlock key32 (nonce ++ [0, 0, 0, 0]) [1, 2, 3] =
      .ok ((nonce ++ [0, 0, 0, 0]) ++ applyKeystream (ctrBlock toyBlock key32 (nonce ++ [0, 0, 0, 0])) [1, 2, 3]) := by
    unfold encryptCtr
    rw [if_neg (by simp [key32])]
  obtain ⟨h1, h2⟩ := C42_roundtrip toyBlock key32 _ _ _ (by rfl) h
  refine ⟨_, h, C42_malleable toyBlock key32 _ _ [255, 0, 1] _ rfl ?_ h1⟩
  rw [List.length_append] at h2
  have : (nonce ++ [0, 0, 0, 0]).length = 16 := rfl
  simp only [List.length_cons, List.length_nil] at h2 ⊢
  omega

/-- C72: counters, forgeries, nonce reuse. -/
example : (nonce ++ u32be (2 + 5) ≠ nonce ++ [0, 0, 0, 1]) ∧
    (∃ s : Finset GF128, s.card ≤ 2 ∧ ∀ (c : Cipher) (t t' : Tool) (key m m' : Bytes), decryptGcm c t key (List.replicate 28 0) = .ok m →
      decryptGcm c t' key (List.replicate 28 0 ++ [1]) = .ok m' → elem (c.E key (List.replicate 16 0)) ∈ s) ∧
    (∃ s : Finset GF128, s.card ≤ 2 ∧ elem (toyBlock.E key32 (List.replicate 16 0)) ∈ s) := by
  refine ⟨(C72_counters nonce rfl 5 6 (by norm_num) (by norm_num)).2.1, ?_, ?_⟩
  · obtain ⟨s, h1, h2⟩ := C72_tampering (List.replicate 28 0) (List.replicate 28 0 ++ [1]) (by decide) (by decide) (by simp) (by simp)
    exact ⟨s, h1.trans (by decide), h2⟩
  · have e1 := gcm_out [1, 2, 3] (by simp)
    have e2 := gcm_out [1, 2, 4] (by simp)
    have l1 : (nonce ++ gcmSeal toyBlock key32 nonce [1, 2, 3]).length = 31 := by decide +kernel
    have l2 : (nonce ++ gcmSeal toyBlock key32 nonce [1, 2, 4]).length = 31 := by decide +kernel
    obtain ⟨s, h1, h2⟩ := C72_nonce_reuse nonce _ _ rfl (by rw [l1]; norm_num) (by rw [l2]; norm_num)
    refine ⟨s, h1.trans (by rw [l1, l2]; decide), h2 toyBlock .cli .cli key32 [1, 2, 3] [1, 2, 4] (by decide) e1 e2⟩

/-- C72: forging with the hash key. -/
example (tag tag' : Bytes) (ct : Bytes) (ht : tag.length = 16) (ht' : tag'.length = 16) (h : gcmSeal toyBlock key32 nonce [1, 2, 3] = ct ++ tag) :
    (∃ m', decryptGcm toyBlock .js key32 (nonce ++ [7, 7, 7, 7] ++ tag') = .ok m') ↔
      elem tag' = elem tag + ghash (elem (toyBlock.E key32 (List.replicate 16 0))) ct + ghash (elem (toyBlock.E key32 (List.replicate 16 0))) [7, 7, 7, 7] := by
  refine C72_forging toyBlock .cli .js key32 nonce ct tag [1, 2, 3] rfl ht ?_ _ (by change 4 ≤ 2 ^ 36; norm_num) tag' ht'
  have := C41_roundtrip toyBlock .cli .cli key32 nonce [1, 2, 3] _ rfl (gcm_out [1, 2, 3] (by simp)) (by change 3 ≤ 2 ^ 36; norm_num)
  rwa [h, ← List.append_assoc] at this

/-! ### Points -/

/-- C70 for the ciphertext of `y = x²` over the real curve encodings: alternatives exist, and both tools treat them alike. -/
example (wit : Res Bytes) : ∃ ct k, encap bnSys.P bnSys.dom (Tool.cli.circuit sq fun i => if i = 1 then some 9 else none) ρ = .ok (ct, k) ∧
    ∃ b', b' ≠ encCiphertext bnSys.c1 bnSys.c2 ct ∧
      jsDecap bnSys sqData wit (encCiphertext bnSys.c1 bnSys.c2 ct) = jsDecap bnSys sqData wit b' ∧
      (let fs' := (fs.set ['o'] (encCiphertext bnSys.c1 bnSys.c2 ct)).set ['O'] b'
       (decapCommand bnSys ['c'] ['w'] ['o'] ['k']).exec fs' = (decapCommand bnSys ['c'] ['w'] ['O'] ['k']).exec fs') := by
  obtain ⟨ct, k, h⟩ := (C07_encap_outcome_circom bnSys.P bnSys.dom .cli sq (fun i => if i = 1 then some (9 : Fr) else none) ρ).2 delta_ne
  have hs := ct_size bnSys .cli sq (by decide) (fun i => if i = 1 then some (9 : Fr) else none) (fun i hi => by
    simp only [sq] at hi
    exact if_neg (by omega)) ρ ct k h
  have hlen : (encCiphertext bnSys.c1 bnSys.c2 ct).length < 2 ^ 32 := by
    have := hs.1
    simp only [sq] at this
    omega
  obtain ⟨f, hinj, ⟨n, hn⟩, hf⟩ := C70_documented_malleable bnSys.P bnSys.dom .cli sq (by decide) _ ⟨2, by norm_num, by decide, rfl⟩ ρ ct k h hs.2
  have h1 : 1 < fqModulus := by decide
  obtain ⟨n', hn'⟩ : ∃ n' : Fin fqModulus, n' ≠ n := by
    by_cases h0 : n = ⟨0, by omega⟩
    · exact ⟨⟨1, h1⟩, by rw [h0]; simp⟩
    · exact ⟨⟨0, by omega⟩, fun hc => h0 hc.symm⟩
  have hne : f n' ≠ encCiphertext bnSys.c1 bnSys.c2 ct := fun hc => hn' (hinj (hc.trans hn.symm))
  have hdec : decCiphertext bnSys.c1 bnSys.c2 (encCiphertext bnSys.c1 bnSys.c2 ct) = decCiphertext bnSys.c1 bnSys.c2 (f n') := by
    have e1 : decCiphertext bnSys.c1 bnSys.c2 (f n') = some ct := (hf n').2
    have e2 : decCiphertext bnSys.c1 bnSys.c2 (f n) = some ct := (hf n).2
    rw [e1, ← e2, hn]
    rfl
  have hlen' : (f n').length < 2 ^ 32 := by rw [(hf n').1]; exact hlen
  refine ⟨ct, k, h, f n', hne, (C70_js_only_decoded bnSys _ _ hdec hlen hlen' false [] [] (by simp) sqData wit).1, ?_⟩
  exact (C70_cli_only_decoded bnSys _ _ hdec hlen hlen' false [] [] (by simp) _ ['c'] ['w'] ['o'] ['O'] ['k']).1 rfl rfl

/-- C70: the encoding of a ciphertext without identity points is unique. -/
example : ∃! b, IsCtEncoding b ⟨⟨g1Gen, g2Gen, g2Gen, [g1Gen, g1Gen], [g2Gen, g2Gen], [g1Gen, g1Gen], []⟩, [9]⟩ := by
  have hfit : Fits64 (⟨⟨g1Gen, g2Gen, g2Gen, [g1Gen, g1Gen], [g2Gen, g2Gen], [g1Gen, g1Gen], []⟩, [9]⟩ : Ciphertext Fr G1Point G2Point) := by
    simp [Fits64]
  have h0 := C16_roundtrip g1Codec g2Codec _ hfit []
  obtain ⟨e, t, he, -⟩ := (C70_accepted_iff _ _).1 h0
  exact ⟨e, he, fun b hb => C70_unique_without_identity _ (by simp [NoIdentity, g1Gen_ne, g2Gen_ne]) _ _ hb he⟩

/-! ### Serialized ciphertexts -/

/-- C15, C16, C17 for the ciphertext of `y = x²`: no shorter string is read, and no other ciphertext has the same bytes. -/
example : ∃ ct k, encap S.P S.dom (Tool.cli.circuit sq fun i => if i = 1 then some 9 else none) ρ = .ok (ct, k) ∧
    (∀ m, m = (Tool.cli.circuit sq (fun i => if i = 1 then some (9 : Fr) else none) (CS.new Fr)).1.numInst +
        (Tool.cli.circuit sq (fun i => if i = 1 then some (9 : Fr) else none) (CS.new Fr)).1.numWit →
      (encCiphertext frCodec toyCodec2 ct).length = 200 + 128 * m + 32 * ct.publicInputs.length) ∧
    (∀ n, n < (encCiphertext frCodec toyCodec2 ct).length → decCiphertext frCodec toyCodec2 ((encCiphertext frCodec toyCodec2 ct).take n) = none) ∧
    (∀ t, decCiphertext frCodec toyCodec2 (encCiphertext frCodec toyCodec2 ct ++ t) = some ct) ∧
    (∀ ct', Fits64 ct' → encCiphertext frCodec toyCodec2 ct ++ [] = encCiphertext frCodec toyCodec2 ct' ++ [] → ct = ct') := by
  obtain ⟨ct, k, h⟩ := (C07_encap_outcome_circom S.P S.dom .cli sq (fun i => if i = 1 then some (9 : Fr) else none) ρ).2 delta_ne
  have hs := ct_size S .cli sq (by decide) (fun i => if i = 1 then some (9 : Fr) else none) (fun i hi => by
    simp only [sq] at hi
    exact if_neg (by omega)) ρ ct k h
  refine ⟨ct, k, h, fun m hm => (C15_shape S.P S.dom frCodec toyCodec2 rfl rfl _ ρ ct k h m hm).2.2.2.2, fun n hn => C17_truncation_rejected frCodec toyCodec2 ct hs.2 n hn, fun t => ?_, fun ct' h' he => C16_injective frCodec toyCodec2 ct ct' hs.2 h' _ _ he⟩
  exact C17_extension frCodec toyCodec2 _ t ct (by have := C16_roundtrip frCodec toyCodec2 ct hs.2 []; rwa [List.append_nil] at this)

/-- C19. -/
example (t : Bytes) : fromBincode (toBincode Props.sq.toSerializable ++ t) = some Props.sq.toSerializable := by
  refine C19_bincode_roundtrip _ ⟨by decide, by decide, by decide, by decide, ?_⟩ t
  intro l hl
  simp [R1csFile.toSerializable] at hl

/-- A test case with a label, a witness and a description. -/
def tcase : STestCase := ⟨⟨32, [1, 2], 3, 0, 1, 1, 1, [⟨[⟨2, [1]⟩], [⟨2, [1]⟩], [⟨1, [1]⟩]⟩], some [(1, "main.y"), (0, "é")]⟩, ⟨[(0, [1]), (2, [3]), (1, [9])]⟩, "sq",
  some "square"⟩

theorem tcase_typed : tcase.Typed := by
  refine ⟨⟨by decide, by decide, by decide, by decide, ?_⟩, by decide, by decide, by decide, by decide, ?_⟩
  · intro l hl
    simp only [tcase, Option.some.injEq] at hl
    subst hl
    exact ⟨by decide, by decide, by decide⟩
  · intro s hs
    simp only [tcase, Option.some.injEq] at hs
    subst hs
    decide

/-- C90. -/
example (t : Bytes) : testCaseFromBincode (testCaseToBincode tcase ++ t) = some tcase := (C90_bincode tcase tcase_typed).1 t

/-! ### Symbol files -/

/-- C35: `main.a` occurs twice, the last line counts; both tools read the same table. -/
example : ∃ m, parseSymFile (SymSpec.text [.entry ⟨['1'], 1, ['0'], ['a']⟩, .entry ⟨['2'], 7, ['0'], ['a']⟩]) = .ok m ∧ m.get ['a'] = some 7 ∧
    jsParseSymFile (SymSpec.text [.entry ⟨['1'], 1, ['0'], ['a']⟩, .entry ⟨['2'], 7, ['0'], ['a']⟩]) = m := by
  obtain ⟨m, h1, h2⟩ := C35_last_wins (is := [.entry ⟨['1'], 1, ['0'], ['a']⟩, .entry ⟨['2'], 7, ['0'], ['a']⟩]) (by simp) (by
    intro i hi
    simp only [List.mem_cons, List.not_mem_nil, or_false] at hi
    rcases hi with rfl | rfl <;> refine ⟨?_, ?_, ?_, ?_, ?_, ?_⟩ <;> first | decide | norm_num)
  refine ⟨m, h1, ?_, C35_tools_agree ?_ h1⟩
  · rw [h2]
    decide
  · have : SymSpec.text [.entry ⟨['1'], 1, ['0'], ['a']⟩, .entry ⟨['2'], 7, ['0'], ['a']⟩] = ['1', ',', '1', ',', '0', ',', 'a', '\n', '2', ',', '7', ',', '0', ',', 'a'] := by
      simp [SymSpec.text, SymSpec.Item.text, intDec, natDec, digChar]
    unfold SymSpec.PlainWs
    rw [this]
    decide

/-- C36: `1, 7x,0,a` is wire 7 in JS, `1,x7,0,a` is skipped. -/
example : jsSymLine ['1', ',', ' ', '7', 'x', ',', '0', ',', 'a'] = some (['a'], 7) ∧ jsSymLine ['1', ',', 'x', '7', ',', '0', ',', 'a'] = none := by
  refine ⟨?_, C36_js_skips ['1'] ['x', '7'] ['0'] ['a'] (by decide) (by decide)⟩
  have := C36_js_reads_prefix ['1'] [' '] ['7'] ['x'] ['0'] ['a'] (by decide) (by decide) (by decide) (by decide) (line := ['1', ',', ' ', '7', 'x', ',', '0', ',', 'a']) (by decide)
  rw [this]
  decide

/-! ### `.wtns` and `.r1cs` -/

/-- C26: a value equal to the modulus. -/
example : ∃ m, (⟨leBytes 32 frModulus, 1, [leBytes 32 frModulus]⟩ : WitnessFile).toFieldElements = .error (.err m) :=
  C26_noncanonical_rejected _ (leBytes 32 frModulus) (by simp) (.inr (by rw [List.take_of_length_le (by simp), leNat_leBytes_of_lt frModulus_lt]))

/-- C24: a section of type 2 whose announced length is at least 2^63 panics. -/
example : cliParseWtns ([119, 116, 110, 115, 2, 0, 0, 0, 1, 0, 0, 0, 2, 0, 0, 0, 0, 0, 0, 0, 0, 0, 0, 128]) = .error .panic :=
  (C24_wtns_panic_iff _ (by decide) (by decide) (by decide)).2 ⟨0, 12, by decide, .first, by decide, by decide, by decide +kernel⟩

/-- C24: without data section. -/
example : ∃ m, cliParseWtns (WtnsFormat.fileBytes ⟨leBytes 32 frModulus, [leBytes 32 7]⟩ [.header] ++ []) = .error (.err m) :=
  C24_wtns_missing_section [] ⟨by simp, by simp, by simp, by simp⟩ ⟨by simp, by simp, by simp⟩ (.inr (.inl (by simp)))

/-- C28: data section first: never returns — by `C28_hangs`, and `C28_hang_cause` finds the cause. -/
example : jsParseWtns [119, 116, 110, 115, 2, 0, 0, 0, 1, 0, 0, 0, 2, 0, 0, 0, 4, 0, 0, 0, 0, 0, 0, 0, 1, 1, 1, 1] = .error .hang ∧
    ∃ k pos, k < 1 ∧ WtnsFormat.JsSectionAt [119, 116, 110, 115, 2, 0, 0, 0, 1, 0, 0, 0, 2, 0, 0, 0, 4, 0, 0, 0, 0, 0, 0, 0, 1, 1, 1, 1] k pos 0 := by
  have h := C28_hangs [119, 116, 110, 115, 2, 0, 0, 0, 1, 0, 0, 0, 2, 0, 0, 0, 4, 0, 0, 0, 0, 0, 0, 0, 1, 1, 1, 1] (by decide) (by decide) (by decide) (by decide)
    (k := 0) (by decide) .first (by decide) (by decide) (by decide) (fun j p m hj => absurd hj (by omega))
  have hh : jsParseWtns [119, 116, 110, 115, 2, 0, 0, 0, 1, 0, 0, 0, 2, 0, 0, 0, 4, 0, 0, 0, 0, 0, 0, 0, 1, 1, 1, 1] = .error .hang := h _
  obtain ⟨-, k, pos, h1, h2, -⟩ := C28_hang_cause _ (by decide) hh
  exact ⟨hh, k, pos, h1, h2⟩

example : jsParseWtns [114, 49, 99, 115] = .error (.err "Invalid witness file: wrong magic") ∧ jsParseWtns [119, 116, 110, 115, 2, 0, 0, 0, 1] = .error .panic :=
  ⟨C28_bad_magic _ (by decide), C28_preamble_cut_panics _ (by decide) (by decide) (by decide)⟩

/-- C29: the value `p` is 0 for JS and an error for the CLI. -/
example : (∃ v, jsParseWtns (WtnsFormat.fileBytes ⟨leBytes 32 frModulus, [leBytes 32 frModulus]⟩ ([WtnsFormat.Sec.header] ++ WtnsFormat.Sec.data :: []) ++ []) = .ok [v]) ∧
    ∃ m, (do let w ← cliParseWtns (WtnsFormat.fileBytes ⟨leBytes 32 frModulus, [leBytes 32 frModulus]⟩ ([WtnsFormat.Sec.header] ++ WtnsFormat.Sec.data :: []) ++ []); w.toFieldElements) = .error (.err m) := by
  have h := C29_tools_compared (c := ⟨leBytes 32 frModulus, [leBytes 32 frModulus]⟩) (pre := [.header]) (post := []) [] ⟨by simp, by simp, by simp, by simp⟩ (by simp) (by simp)
    ⟨by simp, by simp, by simp⟩ (by simp) (by simp) (by simp) (by simp [WtnsFormat.fileBytes, WtnsFormat.Sec.bytes, WtnsFormat.Sec.payload])
  exact ⟨⟨_, h.1⟩, h.2.2 ⟨_, List.mem_singleton.2 rfl, (leNat_leBytes_of_lt frModulus_lt).ge⟩⟩

/-- C30. -/
example : ∃ xs, jsParseWtns (serializeWitnessSimple [1, 9, 3]) = .ok xs ∧ xs.map (fun x => (x.val : Int)) = [1, 9, 3] :=
  C30_canonical _ (by simp) (by
    intro v hv
    have : (3 : Int) < frModulus ∧ (9 : Int) < frModulus ∧ (1 : Int) < frModulus := by decide
    simp only [List.mem_cons, List.not_mem_nil, or_false] at hv
    rcases hv with rfl | rfl | rfl <;> exact ⟨by norm_num, by tauto⟩)

/-- C24: the example file without its last four bytes (the last label) is an error; C23: both readers agree. -/
example : (∀ r j, cliParseR1cs (2 ^ 62) sqData = .ok r → jsParseR1cs sqData = .ok j → j = r.toJs) :=
  fun _ _ h1 h2 => C23_both_ok_agree (by rw [sqData_len]; norm_num) h1 h2

example : ∃ m, cliParseR1cs (2 ^ 62) ((R1csFormat.fileBytes exSecs).take 30) = .error (.err m) := by
  refine (C24_r1cs_truncation (lim := 2 ^ 62) (k := 30) exR1cs_fits exSecs_fit exSecs_describe (by
    simp [R1csFormat.fileBytes, exSecs, R1csFormat.secBytes, R1csFormat.constraintsBytes, R1csFormat.headerBytes, R1csFormat.labelsBytes, exR1cs, R1csFormat.cstrBytes, R1csFormat.lcBytes])
    (by simp [R1csFormat.fileBytes, exSecs, R1csFormat.secBytes, R1csFormat.constraintsBytes, R1csFormat.headerBytes, R1csFormat.labelsBytes, exR1cs, R1csFormat.cstrBytes, R1csFormat.lcBytes])).2 ?_
  rintro ⟨-, h⟩
  have := (h (exSecs.take 4) (3, R1csFormat.labelsBytes exR1cs) [] rfl).1
  simp [R1csFormat.fileBytes, exSecs, R1csFormat.secBytes, R1csFormat.constraintsBytes, R1csFormat.headerBytes, R1csFormat.labelsBytes, exR1cs, R1csFormat.cstrBytes, R1csFormat.lcBytes] at this

/-- C25: a section length that leads to the last four bytes of the address space. -/
example : jsParseR1cs ([114, 49, 99, 115, 1, 0, 0, 0, 2, 0, 0, 0, 7, 0, 0, 0, 228, 255, 255, 255, 0, 0, 0, 0]) = .error .panic :=
  C25_js_panics (by decide) (by decide) (by decide) (by decide) (j := 1) (by decide) (.next .first (by decide)) (by decide +kernel)

/-- C74: two values for three wires. -/
example (ct : Bytes) : jsDecap S sqData (.ok (serializeWitnessSimple [1, 9])) ct = Res.fail "Witness size mismatch" :=
  (C74_js_count S sqData _ ct _ sqData_js _ (C30_roundtrip [1, 9] (by simp)) (by simp [sq, R1csFile.toJs])).1

/-- C32. -/
example : ((Tool.cli.circuit sq fun i => vals[i]?) (CS.new Fr)).2 = .ok () ∧ ((Tool.cli.circuit sq fun i => vals[i]?) (CS.new Fr)).1.isSatisfied = true := by
  obtain ⟨h1, h2⟩ := C32_synthesis_faithful .cli sq sq_wf.fits (fun i => vals[i]?) (fun i => vals.getD i 0) ⟨rfl, by
    intro i hi
    have : 3 ≤ i := hi
    match i, this with
    | i + 3, _ => rfl⟩ (by
    intro i _ hi
    have : i < 3 := hi
    interval_cases i <;> rfl)
  exact ⟨h1, h2.2 vals_witness.sat⟩

/-! ### Witness calculator -/

/-- C53. -/
example (N : JsNums) : ∃ zs, flatArray N (.arr ([[1, 2, 3], [4, 5, 6]].map fun r => .arr (r.map .bigint))) = .ok zs ∧ zs[1 * 3 + 2]? = some 6 := by
  obtain ⟨zs, h1, -, h3⟩ := C53_row_major N [[1, 2, 3], [4, 5, 6]] 3 (by simp)
  exact ⟨zs, h1, h3 1 2 (by simp) (by simp)⟩

/-- C60. -/
example : rawWtnsBin ⟨8, fun _ => 0, 2 ^ 27, fun _ _ => 0⟩ ≠ calcWtnsBin ⟨8, fun _ => 0, 2 ^ 27, fun _ _ => 0⟩ := C60_original_limit _ rfl rfl

/-! ### JSON text -/

/-- C81, C57 on the input file. -/
example : ∃ t x, JsonSpec.Text inputText t ∧ JsonSpec.JsMeans D t x ∧ JsonSpec.Same D (.obj entries) x ∧ ∀ t' x', JsonSpec.Text inputText t' → JsonSpec.JsMeans D t' x' → t' = t ∧ x' = x := by
  obtain ⟨x, hx, hs⟩ := C57_same_text D id (fun _ => List.Perm.refl _) inputText (.obj entries) input_serde
  obtain ⟨t, ht, hm⟩ := (C81_js D inputText x).1 hx
  exact ⟨t, x, ht, hm, hs, fun t' x' h1 h2 => C81_unambiguous D inputText t' t h1 ht x' x h2 hm⟩

/-! ### Initialisation -/

/-- A successful schedule: calls 0 and 1 start, the initializer finishes, call 0 runs. -/
theorem init_ok : ∃ s, InitReachable s ∧ s.initialized = true ∧ s.pc 0 = .running ∧ s.pc 1 = .waiting ∧ s.pc 2 = .idle := by
  have s1 : InitStep InitState.start _ := .call (c := 0) rfl
  have s2 : InitStep (InitState.start.enter 0) _ := .call (c := 1) rfl
  have s3 : InitStep ((InitState.start.enter 0).enter 1) _ := .settle true rfl
  have s4 : InitStep (((InitState.start.enter 0).enter 1).settle true) _ := .resume (c := 0) rfl rfl
  have s5 : InitStep ((((InitState.start.enter 0).enter 1).settle true).move 0 .returned) _ := .go (c := 0) rfl
  exact ⟨_, (((((Relation.ReflTransGen.single s1).tail s2).tail s3).tail s4).tail s5), rfl, rfl, rfl, rfl⟩

/-- A failing one. -/
theorem init_fail : ∃ s, InitReachable s ∧ s.promise = some .rejected ∧ s.pc 0 = .waiting ∧ s.pc 2 = .idle := by
  have s1 : InitStep InitState.start _ := .call (c := 0) rfl
  have s3 : InitStep (InitState.start.enter 0) _ := .settle false rfl
  exact ⟨_, ((Relation.ReflTransGen.single s1).tail s3), rfl, rfl, rfl⟩

/-- C51. -/
example : ∃ s, InitReachable s ∧ s.invocations = 1 ∧ s.promise = some .resolved ∧ (s.enter 2).initialized = true ∧ ∀ c, (s.enter 2).pc c ≠ .failed := by
  obtain ⟨s, h, hi, h0, h1, h2⟩ := init_ok
  have h3 := C51_success_sticky h hi (.single (.call h2))
  exact ⟨s, h, (C51_at_most_once h).2 ⟨0, by rw [h0]; simp⟩, (C51_runs_only_initialized h h0).2, h3.1, h3.2.2⟩

example : ∃ s, InitReachable s ∧ s.promise = some .rejected ∧ (s.enter 2).invocations = 1 ∧ ∀ c, (s.enter 2).pc c ≠ .running := by
  obtain ⟨s, h, hf, -, h2⟩ := init_fail
  have h3 := C51_failure_sticky h hf (.single (.call h2))
  exact ⟨s, h, hf, h3.1, h3.2.2⟩

end Ex

end Zkenc.Props
