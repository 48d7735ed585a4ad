import Verif.Props.JsErrorsEncrypt
import Verif.Props.JsErrorsExample
import Verif.Props.InputOrderExample
/-!
# Concrete cases for C103
-/

namespace Zkenc.Props

open Zkenc Zkenc.Spec Zkenc.InputSpec Zkenc.ContainerSpec CalcSpec JsonSpec ErrorSpec

namespace Ex

/-- One value for `y`. -/
def justY (v : JsVal) : List (Str × JsVal) := [(['y'], v)]

theorem justY_gives {v w : JsVal} (hv : (∀ l, v ≠ .arr l) ∧ ∀ l, v ≠ .obj l) {name : Str} (h : JsGives (justY v) name w) : name = ['y'] ∧ w = v := by
  rw [← C101_values] at h
  cases v <;> simp_all [justY, valuesInOrder, valuesOf, valuesUnder]

theorem justY_self {v : JsVal} (hv : (∀ l, v ≠ .arr l) ∧ ∀ l, v ≠ .obj l) : JsGives (justY v) ['y'] v := by
  rw [← C101_values]
  cases v <;> simp_all [justY, valuesInOrder, valuesOf, valuesUnder]

theorem justY_small {v : JsVal} (hv : (∀ l, v ≠ .arr l) ∧ ∀ l, v ≠ .obj l) : JsSmall (jsParseSymFile sym) (justY v) := by
  refine .of_lt fun name w i hr hg => ?_
  rw [(justY_gives hv hg).1] at hr
  rw [js_resolves hr]; norm_num

/-- A null: the engine's `TypeError`, whatever the circuit file. -/
theorem null_run (data m : Bytes) (incl : Bool) : encryptT texts S true data sym (justY .null) m incl ρ nonce = .error (.error (texts.engine "TypeError")) :=
  (C103_encrypt texts S true data sym (justY .null) m incl ρ nonce).1 _
    ((C103_encap texts S data sym (justY .null) (justY_small (by simp)) ρ).2.1 ⟨['y'], .null, 1, y_resolves, justY_self (by simp), .inl rfl⟩)

theorem letter_no_null : ¬ HasNull (jsParseSymFile sym) (justY (.str ['a'])) := by
  rintro ⟨name, v, i, -, hg, hv⟩
  rw [(justY_gives (by simp) hg).2] at hv
  simp at hv

theorem letter_unusable : ¬ JsUsableLast (jsParseSymFile sym) (justY (.str ['a'])) := by
  intro h
  have hc : JsCounts (jsParseSymFile sym) (justY (.str ['a'])) 1 (.str ['a']) :=
    ⟨[], ['y'], [], by simp [justY, valuesInOrder, valuesOf, valuesUnder], y_resolves, by simp⟩
  obtain ⟨z, hz⟩ := h.2 1 le_rfl (fun j h1 h2 => by
    rw [show j = 1 by omega]
    exact ⟨['y'], _, y_resolves, justY_self (by simp)⟩) _ ['a'] hc rfl
  rw [show jsBigInt ['a'] = none by decide +kernel] at hz
  cases hz

/-- A value that is no integer: the engine's `SyntaxError`, whatever the circuit file. -/
theorem letter_run (data m : Bytes) (incl : Bool) : encryptT texts S true data sym (justY (.str ['a'])) m incl ρ nonce = .error (.error (texts.engine "SyntaxError")) :=
  (C103_encrypt texts S true data sym _ m incl ρ nonce).1 _ ((C103_encap texts S data sym _ (justY_small (by simp)) ρ).2.2.1 letter_no_null letter_unusable)

/-- An empty circuit file: a string, and the pages show nothing of it. -/
theorem empty_run (m : Bytes) (incl : Bool) : ∃ t, encryptT texts S true [] sym inputs m incl ρ nonce = .error t ∧
    pageText t = some "Encryption failed".toList ∧ guideWorkerText t = some "Unknown error".toList ∧ apiWorkerText t = some none := by
  obtain ⟨e, he⟩ : ∃ e, jsParseR1cs [] = .error (.err e) := ⟨_, rfl⟩
  have h := (C103_encrypt texts S true [] sym inputs m incl ρ nonce).1 _ (((C103_encap texts S [] sym inputs js_small ρ).2.2.2 nine_usable_last).1 e he)
  exact ⟨_, h, (C103_page texts S [] sym inputs js_small m incl ρ nonce rfl _ h).1 ⟨nine_usable_last, e, he⟩⟩

/-- The usable inputs of `y = x²`: the call succeeds. -/
theorem good_run : ∃ ct k b, encapT texts S true sqData sym inputs ρ = .ok (ct, k) ∧ encryptT texts S true sqData sym inputs [1, 2, 3] true ρ nonce = .ok (b, k) ∧
    jsEncrypt S sqData sym inputs [1, 2, 3] true ρ nonce = .ok (b, k) := by
  obtain ⟨ct, k, h, -⟩ := (((C103_encap texts S sqData sym inputs js_small ρ).2.2.2 nine_usable_last).2.2 _ sqData_js).2 delta_ne
  obtain ⟨b, hb⟩ := (C103_encrypt_outcome texts S rfl true sqData sym inputs [1, 2, 3] true ρ nonce ct k h).2.2 (by change 3 ≤ 2 ^ 36; norm_num) (by simp [inputs, HasBigFields, HasBig])
  exact ⟨ct, k, b, h, hb, ((C103_same texts S sqData sym inputs [1, 2, 3] true ρ nonce (b, k)).2).1 hb⟩

/-- A `BigInt` that is to be embedded. -/
theorem bigint_run : encryptT texts S true sqData sym (justY (.bigint 9)) [1, 2, 3] true ρ nonce = .error (.error (texts.engine "TypeError")) ∧
    ∃ b k, encryptT texts S true sqData sym (justY (.bigint 9)) [1, 2, 3] false ρ nonce = .ok (b, k) := by
  have hu : JsUsableLast (jsParseSymFile sym) (justY (.bigint 9)) := by
    refine ⟨fun name v i hr hg => by rw [(justY_gives (by simp) hg).2]; simp, fun i _ _ v s hc hs => ?_⟩
    obtain ⟨name, -, hg⟩ := (C101_counts _ _ _).2.1 v hc
    rw [(justY_gives (by simp) hg).2] at hs
    cases hs
    exact ⟨9, by decide +kernel⟩
  obtain ⟨ct, k, h, -⟩ := (((C103_encap texts S sqData sym _ (justY_small (by simp)) ρ).2.2.2 hu).2.2 _ sqData_js).2 delta_ne
  have hm : ([1, 2, 3] : Bytes).length ≤ S.cipher.maxEnc .js := by change 3 ≤ 2 ^ 36; norm_num
  refine ⟨(C103_encrypt_outcome texts S rfl true sqData sym _ [1, 2, 3] true ρ nonce ct k h).2.1 hm rfl (by simp [justY, HasBigFields, HasBig]), ?_⟩
  obtain ⟨b, hb⟩ := (C103_encrypt_outcome texts S rfl true sqData sym _ [1, 2, 3] false ρ nonce ct k h).2.2 hm (by simp)
  exact ⟨b, k, hb⟩

/-- `getPublicInput`: four bytes; five bytes of a file without public input; a broken file, which `decrypt` calls invalid, is "not included" here. -/
theorem public_run : getPublicInputT texts S [0, 0, 0, 0] = .error (.error "Invalid ciphertext: too short".toList) ∧
    getPublicInputT texts S [0, 0, 0, 0, 0] = .error (.error
      "Public inputs are not included in this ciphertext. Use encrypt() with includePublicInput: true to embed public inputs.".toList) ∧
    getPublicInputT texts S [7, 255, 255, 255, 255] = .error (.error
      "Public inputs are not included in this ciphertext. Use encrypt() with includePublicInput: true to embed public inputs.".toList) ∧
    BrokenFile [7, 255, 255, 255, 255] ∧
    getPublicInputT texts S [1, 255, 255, 255, 255] = .error (.error "Invalid ciphertext: length mismatch".toList) := by
  refine ⟨(C103_public_messages texts S _).1.2 (by simp), (C103_public_messages texts S _).2.1.2 ⟨0, [0, 0, 0, 0], rfl, by decide, le_rfl⟩,
    (C103_public_messages texts S _).2.1.2 ⟨7, [255, 255, 255, 255], rfl, by decide, le_rfl⟩, ?_,
    (C103_public_messages texts S _).2.2.1.2 ⟨[255, 255, 255, 255], [], rfl, rfl, by decide⟩⟩
  intro p
  have h := (C44_js_iff [7, 255, 255, 255, 255]).1 p
  have e : ∃ m, splitJs [7, 255, 255, 255, 255] = Res.fail m := ⟨_, rfl⟩
  obtain ⟨m, e⟩ := e
  rw [e] at h
  simp only [Res.fail, reduceCtorEq, false_iff, not_or] at h
  exact h

/-- The worker of the API reference, for a receiver with another square. -/
theorem worker_run : ∃ b k t, jsEncrypt S sqData sym inputs [1, 2, 3] false ρ nonce = .ok (b, k) ∧
    decryptT texts smallNums S true sqData (.ok sqWasm) b (other 16 ['4']) = .error t ∧ apiWorkerText t = some none := by
  obtain ⟨b, k, hb, -, hd2⟩ := exactly false
  obtain ⟨e, he⟩ := hd2 ['4']
  have h94 := C94_js_to_js (N := smallNums) S sqData sqData_js sym inputs js_noAlias js_small [1, 2, 3] false ρ nonce rfl
    (fun _ s hs => stringify_len s hs) b k hb sq_wf sq_ct (by simp [sq]) (by simp [sq]) sq_compiled (other 16 ['4']) (gives_bound 16 ['4'])
  have a16 := sq_accepts 16 4 ['4'] (by norm_num) (by norm_num) (by norm_num) (by norm_num) (by norm_num) (str_int _ _ (by decide))
  have h := C97_receiver_is_told (N := smallNums) texts S sqData sqData_js sym inputs js_noAlias js_small [1, 2, 3] false ρ nonce rfl
    (fun _ s hs => stringify_len s hs) b k hb sq_wf sq_ct (by simp [sq]) (by simp [sq]) sq_compiled (other 16 ['4']) (gives_bound 16 ['4']) (sq_plain _ _)
  have s16 : ¬ JsSameBound smallNums [(['y'], []), (['x'], [])] (jsParseSymFile sym) (sq.nPubOut + sq.nPubIn) inputs (other 16 ['4']) := by
    intro hs
    rw [h94.1 ⟨a16, hs⟩] at he
    cases he
  have told := (h.2.1 ⟨a16, s16⟩).1
  cases ht : decryptT texts smallNums S true sqData (.ok sqWasm) b (other 16 ['4']) with
  | ok m => rw [ht] at told; cases told
  | error t =>
    refine ⟨b, k, t, hb, ht, (C103_workers_decrypt texts S smallNums true sqData b (.ok sqWasm) _ (sq_plain _ _) t ht).1.2 ?_⟩
    exact (C97_documented_handler texts smallNums S true sqData b (.ok sqWasm) _ (sq_plain _ _)).2.2.1 told

end Ex

end Zkenc.Props
