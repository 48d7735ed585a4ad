import Verif.Props.JsErrorsFlow
import Verif.Props.AppliedCompose
/-!
# Concrete cases for C97

The witness program of `y = x²` (`Ex.sqWasm`), the circuit file `Ex.sqData` and the inputs `{ y: 9, x: "3" }` of `Verif/Props/ComposeExample.lean`.
-/

namespace Zkenc.Props

open Zkenc Zkenc.Spec Zkenc.InputSpec CalcSpec ContainerSpec ErrorSpec

namespace Ex

/-- Texts of the JS engine and of the wasm module. -/
def texts : JsTexts := ⟨fun m => if m = "unreachable" then "unreachable".toList else "Cannot convert undefined or null to object".toList, fun m => m.toList⟩

theorem texts_engine (m : String) : Plain (texts.engine m) := by
  unfold texts
  dsimp only
  split <;> exact ⟨by decide +kernel, by decide +kernel⟩

theorem sqDone_err {s : Option Nat × Option Nat} {m : String} (h : sqDone s = .error (.err m)) : m = "Assert Failed." := by
  unfold sqDone at h
  split at h
  · split at h
    · cases h
    · cases h; rfl
  · cases h

theorem sq_messages {s : Option Nat × Option Nat} {l : List Nat} {a b i : Nat} {m : String} (h : sqWasm.setInput s l a b i = .error (.err m)) : Plain m.toList := by
  have : m = "Input signal array access exceeds the size." ∨ m = "Signal already set." ∨ m = "Signal not found." ∨ m = "Assert Failed." := by
    simp only [sqWasm] at h
    split at h
    · cases h; exact .inl rfl
    split at h
    · split at h
      · cases h; exact .inr (.inl rfl)
      · exact .inr (.inr (.inr (sqDone_err h)))
    split at h
    · split at h
      · cases h; exact .inr (.inl rfl)
      · exact .inr (.inr (.inr (sqDone_err h)))
    · cases h; exact .inr (.inr (.inl rfl))
  rcases this with rfl | rfl | rfl | rfl <;> exact ⟨by decide +kernel, by decide +kernel⟩

/-- No text from outside contains the words the handlers look for. -/
theorem sq_plain (v w : JsVal) : PlainTexts texts (.ok sqWasm) [(['y'], v), (['x'], w)] where
  names := by
    intro e he
    simp only [List.mem_cons, List.not_mem_nil, or_false] at he
    have hy : Plain ['y'] := ⟨by decide +kernel, by decide +kernel⟩
    have hx : Plain ['x'] := ⟨by decide +kernel, by decide +kernel⟩
    rcases he with rfl | rfl
    · exact hy
    · exact hx
  engine := texts_engine
  load := nofun
  init := by
    rintro x s m h1 h2
    cases h1
    cases h2
  circuit := by
    rintro x s l a b i m h1 h2
    cases h1
    exact sq_messages h2

/-- A file of four bytes. -/
theorem short_broken : BrokenFile [0, 0, 0, 0] := by
  intro p
  have h := (C44_js_iff [0, 0, 0, 0]).1 p
  have e : splitJs [0, 0, 0, 0] = Res.fail "Invalid ciphertext: too short" := rfl
  rw [e] at h
  simp only [Res.fail, reduceCtorEq, false_iff, not_or] at h
  exact h

/-- Five zero bytes: flag, and a witness part of length zero. -/
theorem empty_layout : Layout [0, 0, 0, 0, 0] ⟨0, [], none, []⟩ := .without 0 (by decide) [] [] [0, 0, 0, 0] rfl rfl

theorem small_limbs (z : Int) (h1 : 0 ≤ z) (h2 : z < 100) : fromArray32 (limbs 8 (z % (frModulus : Int)).toNat).reverse = z.toNat := by
  have h3 : (100 : Int) < frModulus := by exact_mod_cast (by decide : 100 < frModulus)
  rw [Int.emod_eq_of_lt h1 (by omega)]
  refine fromArray32_limbs 8 z.toNat ?_
  have : z.toNat < 100 := by omega
  exact lt_of_lt_of_le this (by norm_num)

/-- What the program does with `{ y, x }`, given what it does with each. -/
theorem sq_accepts (y x : Int) (t : Str) (hy : 0 ≤ y) (hy' : y < 100) (hx : 0 ≤ x) (hx' : x < 100) (hsq : y = x * x) (ht : IsInt smallNums (.str t) x) :
    ∃ w, calculateWitness smallNums (.ok sqWasm) (other y t) = .ok w := by
  have hp : sqWasm.toCalcInst.prime ≠ 0 := by rw [sqWasm_prime]; decide
  have h9 : List.Forall₂ (IsInt smallNums) (CalcSpec.leaves (.num y)) [y] := .cons (by
    have := IsInt.num (N := smallNums) y
    rwa [smallNums.big_small _ (by omega)] at this) .nil
  have h3 : List.Forall₂ (IsInt smallNums) (CalcSpec.leaves (.str t)) [x] := .cons ht .nil
  have hsz : ∀ k : Str, (k = ['y'] ∨ k = ['x']) → sqWasm.signalSize ((nameHash k).toNat / 2 ^ 32) ((nameHash k).toNat % 2 ^ 32) = 1 := by
    intro k hk
    simp only [sqWasm]
    rw [Nat.div_add_mod', if_pos]
    rcases hk with rfl | rfl
    · exact Or.inl rfl
    · exact Or.inr rfl
  have hset : ∀ (z : Int) (k : Str) (s : Option Nat × Option Nat), perform sqWasm.toCalcInst [⟨nameHash k, 0, z⟩] s =
      (sqWasm.setInput s (limbs 8 (z % (frModulus : Int)).toNat) ((nameHash k).toNat / 2 ^ 32) ((nameHash k).toNat % 2 ^ 32) 0) := by
    intro z k s
    have : ∀ r : Res (Option Nat × Option Nat), (r >>= fun s' => .ok s') = r := by intro r; cases r <;> rfl
    simp only [perform, sqWasm_prime]
    exact this _
  have hv := small_limbs
  have hsy : (sqWasm.setInput (none, none) (limbs 8 (y % (frModulus : Int)).toNat) ((nameHash ['y']).toNat / 2 ^ 32) ((nameHash ['y']).toNat % 2 ^ 32) 0)
      = .ok (some y.toNat, none) := by
    have := hv y hy hy'
    simp only [sqWasm]
    rw [Nat.div_add_mod', if_neg (by simp), if_pos rfl, this]
    rfl
  have hsx : (sqWasm.setInput (some y.toNat, none) (limbs 8 (x % (frModulus : Int)).toNat) ((nameHash ['x']).toNat / 2 ^ 32) ((nameHash ['x']).toNat % 2 ^ 32) 0)
      = .ok (some y.toNat, some x.toNat) := by
    have := hv x hx hx'
    simp only [sqWasm]
    rw [Nat.div_add_mod', if_neg (by simp), if_neg (fun h => hash_ne (UInt64.toNat_inj.1 h).symm), if_pos rfl, this]
    simp only [Option.isSome_none, Bool.false_eq_true, if_false, sqDone]
    rw [if_pos]
    have : y.toNat = x.toNat * x.toNat := by
      zify
      rw [Int.toNat_of_nonneg hy, Int.toNat_of_nonneg hx, hsq]
    rw [this, Nat.cast_mul]
  have hd := (C53_accepts_iff (N := smallNums) hp false (other y t) (none, none) (some y.toNat, some x.toNat)).2 ⟨(none, none), rfl, [[y], [x]],
    .cons ⟨h9, hsz _ (Or.inl rfl)⟩ (.cons ⟨h3, hsz _ (Or.inr rfl)⟩ .nil), ?_, by simp [sqWasm]⟩
  · exact ⟨_, by unfold calculateWitness; rw [Res.ok_bind]; exact (congrArg (· >>= _) hd).trans rfl⟩
  · change perform sqWasm.toCalcInst ([⟨nameHash ['y'], 0, y⟩] ++ [⟨nameHash ['x'], 0, x⟩]) (none, none) = _
    rw [perform_append, hset, hsy, Res.ok_bind, hset, hsx]

theorem str_int (t : Str) (z : Int) (h : jsBigInt t = some z) : IsInt smallNums (.str t) z := .str _ _ h

theorem num_int (z : Int) (h0 : 0 ≤ z) (h : z < 100) : IsInt smallNums (.num z) z := by
  have := IsInt.num (N := smallNums) z
  rwa [smallNums.big_small _ (by omega)] at this

/-- What the receiver is told: the right object, an object for another number, and an object that breaks the circuit's own assertion. -/
example (incl : Bool) : ∃ b k, jsEncrypt S sqData sym inputs [1, 2, 3] incl ρ nonce = .ok (b, k) ∧
    documentedReport (decryptT texts smallNums S true sqData (.ok sqWasm) b (other 9 ['3'])) = .success [1, 2, 3] ∧
    documentedReport (decryptT texts smallNums S true sqData (.ok sqWasm) b (other 16 ['4'])) = .typeError ∧
    guideReport (decryptT texts smallNums S true sqData (.ok sqWasm) b (other 16 ['4'])) = .silent ∧
    documentedReport (decryptT texts smallNums S true sqData (.ok sqWasm) b (other 9 ['4'])) = .failed "Error setting signal x[0]: Error: Assert Failed.".toList := by
  obtain ⟨b, k, hb, hd1, hd2⟩ := exactly incl
  have h := fun n t => C97_receiver_is_told (N := smallNums) texts S sqData sqData_js sym inputs js_noAlias js_small [1, 2, 3] incl ρ nonce rfl
    (fun _ s hs => stringify_len s hs) b k hb sq_wf sq_ct (by simp [sq]) (by simp [sq]) sq_compiled (other n t) (gives_bound n t) (sq_plain _ _)
  have a9 := sq_accepts 9 3 ['3'] (by norm_num) (by norm_num) (by norm_num) (by norm_num) (by norm_num) (str_int _ _ (by decide))
  have a16 := sq_accepts 16 4 ['4'] (by norm_num) (by norm_num) (by norm_num) (by norm_num) (by norm_num) (str_int _ _ (by decide))
  have h94 := fun n t => C94_js_to_js (N := smallNums) S sqData sqData_js sym inputs js_noAlias js_small [1, 2, 3] incl ρ nonce rfl
    (fun _ s hs => stringify_len s hs) b k hb sq_wf sq_ct (by simp [sq]) (by simp [sq]) sq_compiled (other n t) (gives_bound n t)
  have s9 : JsSameBound smallNums [(['y'], []), (['x'], [])] (jsParseSymFile sym) (sq.nPubOut + sq.nPubIn) inputs (other 9 ['3']) := by
    by_contra hn
    obtain ⟨e, he⟩ := (h94 9 ['3']).2 fun hh => hn hh.2
    rw [hd1] at he
    cases he
  have s16 : ¬ JsSameBound smallNums [(['y'], []), (['x'], [])] (jsParseSymFile sym) (sq.nPubOut + sq.nPubIn) inputs (other 16 ['4']) := by
    intro hs
    obtain ⟨e, he⟩ := hd2 ['4']
    rw [(h94 16 ['4']).1 ⟨a16, hs⟩] at he
    cases he
  have r16 := (h 16 ['4']).2.1 ⟨a16, s16⟩
  refine ⟨b, k, hb, (h 9 ['3']).1 ⟨a9, s9⟩, r16.1, r16.2, ?_⟩
  obtain ⟨p, hp⟩ : ∃ p, splitJs b = .ok p := by
    cases hs : splitJs b with
    | ok p => exact ⟨p, rfl⟩
    | error e =>
      exfalso
      unfold jsDecryptApi jsDecrypt at hd1
      rw [hs] at hd1
      cases hd1
  have hprime : sqWasm.toCalcInst.prime ≠ 0 := by rw [sqWasm_prime]; decide
  have hsz : ∀ k : Str, (k = ['y'] ∨ k = ['x']) → sqWasm.signalSize ((nameHash k).toNat / 2 ^ 32) ((nameHash k).toNat % 2 ^ 32) = 1 := by
    intro k hk
    simp only [sqWasm]
    rw [Nat.div_add_mod', if_pos]
    rcases hk with rfl | rfl
    · exact Or.inl rfl
    · exact Or.inr rfl
  have hset : ∀ (z : Int) (k : Str) (s : Option Nat × Option Nat), perform sqWasm.toCalcInst [⟨nameHash k, 0, z⟩] s =
      (sqWasm.setInput s (limbs 8 (z % (frModulus : Int)).toNat) ((nameHash k).toNat / 2 ^ 32) ((nameHash k).toNat % 2 ^ 32) 0) := by
    intro z k s
    have : ∀ r : Res (Option Nat × Option Nat), (r >>= fun s' => .ok s') = r := by intro r; cases r <;> rfl
    simp only [perform, sqWasm_prime]
    exact this _
  have hr := C97_circuit_refuses texts smallNums S sqData b sqWasm [(['y'], .num 9)] [] ['x'] (.str ['4']) (sq_plain _ _) p (((C44_js_iff b).1 p).1 hp) hprime
    (none, none) (some 9, none) rfl [[9]] (.cons ⟨.cons (num_int 9 (by norm_num) (by norm_num)) .nil, hsz _ (.inl rfl)⟩ .nil) [] [] 4
    (.cons (str_int _ _ (by decide)) .nil) (hsz _ (.inr rfl)) (by
      change perform sqWasm.toCalcInst [⟨nameHash ['y'], 0, 9⟩] (none, none) = _
      rw [hset]
      have := small_limbs 9 (by norm_num) (by norm_num)
      simp only [sqWasm]
      rw [Nat.div_add_mod', if_neg (by simp), if_pos rfl, this]
      rfl) "Assert Failed." (by
      change perform sqWasm.toCalcInst [⟨nameHash ['x'], 0, 4⟩] (some 9, none) = _
      rw [hset]
      have := small_limbs 4 (by norm_num) (by norm_num)
      simp only [sqWasm]
      rw [Nat.div_add_mod', if_neg (by simp), if_neg (fun h => hash_ne (UInt64.toNat_inj.1 h).symm), if_pos rfl, this]
      simp only [Option.isSome_none, Bool.false_eq_true, if_false, sqDone]
      rw [if_neg]
      · rfl
      · have h7 := fr_ne 7 (by decide) (by decide)
        intro hc
        apply h7
        have hc : (9 : Fr) = 4 * 4 := by exact_mod_cast hc
        push_cast
        linear_combination -hc)
  refine hr.2.1.trans (congrArg Report.failed ?_)
  decide +kernel

/-- The calls are those of the other properties; files with a broken outer format; a file whose inner part is damaged. -/
example : documentedReport (decryptT texts smallNums S true sqData (.ok sqWasm) [0, 0, 0, 0] full) = .corrupted ∧
    guideReport (decryptT texts smallNums S true sqData (.ok sqWasm) [0, 0, 0, 0] full) = .corrupted ∧
    documentedReport (decryptT texts smallNums S true sqData (.ok sqWasm) [0, 0, 0, 0, 0] full) = .typeError ∧
    guideReport (decryptT texts smallNums S true sqData (.ok sqWasm) [0, 0, 0, 0, 0] full) = .silent ∧
    ∃ s, decryptT texts smallNums S true sqData (.ok sqWasm) [0, 0, 0, 0, 0] full = .error (.text s) := by
  obtain ⟨w, hw⟩ := full_ok
  obtain ⟨vals, h1, -, h3, -⟩ := js_same_iff (N := smallNums) sq_compiled (by simp [sq]) hw (gives_bound 9 ['3'])
  have hd : decCiphertext S.c1 S.c2 [] = none := rfl
  obtain ⟨s, e1, e2, e3, -⟩ := C97_damage_inside texts smallNums S sqData [0, 0, 0, 0, 0] (.ok sqWasm) full ⟨0, [], none, []⟩ (.inl empty_layout) w hw sq.toJs
    sqData_js vals h1 h3.len hd
  exact ⟨(C97_documented_handler texts smallNums S true sqData _ (.ok sqWasm) full (sq_plain _ _)).1.2 short_broken,
    (C97_guide_handler texts smallNums S true sqData _ (.ok sqWasm) full (sq_plain _ _)).1.2 short_broken, e2, e3, s, e1⟩

/-- The same file by way of "no key". -/
example : ∃ s, decryptT texts smallNums S true sqData (.ok sqWasm) [0, 0, 0, 0, 0] full = .error (.text s) := by
  obtain ⟨w, hw⟩ := full_ok
  obtain ⟨vals, h1, -, h3, -⟩ := js_same_iff (N := smallNums) sq_compiled (by simp [sq]) hw (gives_bound 9 ['3'])
  obtain ⟨s, e, -⟩ := C97_no_key texts smallNums S sqData [0, 0, 0, 0, 0] (.ok sqWasm) full ⟨0, [], none, []⟩ (.inl empty_layout) w hw sq.toJs sqData_js vals h1
    (fun k hk => by
      unfold jsDecapApi jsDecap wasmDecap at hk
      rw [hw, Res.ok_bind, sqData_js, Res.ok_bind, h1, Res.ok_bind] at hk
      split at hk
      · cases hk
      · have hd : decCiphertext S.c1 S.c2 [] = none := rfl
        change (Res.ofOption (decCiphertext S.c1 S.c2 []) _ >>= _) = _ at hk
        rw [hd] at hk
        cases hk)
  exact ⟨s, e⟩

/-- Of two different tags at most one is right. -/
theorem bad_data (key : Bytes) : ∃ d : Bytes, d.length = 28 ∧ ∀ m, decryptGcm S.cipher .js key d ≠ .ok m := by
  by_cases h : gcmTag S.cipher key (List.replicate 12 0) [] = List.replicate 16 0
  · refine ⟨List.replicate 12 0 ++ List.replicate 16 1, by simp, fun m hm => ?_⟩
    unfold decryptGcm at hm
    split at hm
    · cases hm
    split at hm
    · cases hm
    split at hm
    · cases hm
    unfold gcmOpen at hm
    simp only [List.length_append, List.length_replicate, List.drop_append, List.take_append] at hm
    norm_num at hm
    rw [h] at hm
    rw [if_neg (by decide)] at hm
    cases hm
  · refine ⟨List.replicate 12 0 ++ List.replicate 16 0, by simp, fun m hm => ?_⟩
    unfold decryptGcm at hm
    split at hm
    · cases hm
    split at hm
    · cases hm
    split at hm
    · cases hm
    unfold gcmOpen at hm
    simp only [List.length_append, List.length_replicate, List.drop_append, List.take_append] at hm
    norm_num at hm
    rw [if_neg h] at hm
    cases hm

/-- A message part that the key does not open. -/
example : ∃ b, (∀ m, jsDecryptApi smallNums S sqData (.ok sqWasm) b full ≠ .ok m) ∧
    documentedReport (decryptT texts smallNums S true sqData (.ok sqWasm) b full) = .failed "Decryption failed: invalid key or corrupted data".toList := by
  obtain ⟨ct, key, hb, -⟩ := js_kem_run
  have hk := (C58_kem (N := smallNums) S sqData sqData_js sym inputs js_noAlias js_small pub_value ρ ct key hb sq_wf sq_priv' sq_small sq_compiled (fun e he => by
        rw [inputs, List.mem_singleton] at he
        subst he
        exact ⟨[], by simp⟩) full (fun e he => by
        rw [inputs, List.mem_singleton] at he
        subst he
        simp [full])).1 full_ok
  obtain ⟨l, -, h2, h3⟩ := C87_js_encap S sqData sq sqData_js sym inputs js_noAlias js_small ρ ct key hb sq_wf.fits sq_priv'
  have hl : l = 1 := GivenRun.unique (fun _ _ => Iff.rfl) h3 run_one_js
  have hlen : ct.length = 616 := by rw [h2, hl]
  obtain ⟨d, hd, hbad⟩ := bad_data key
  have hlay : Layout (0 :: ([0, 0, 2, 104] ++ (ct ++ d))) ⟨0, ct, none, d⟩ := .without 0 (by decide) ct d [0, 0, 2, 104] rfl (by rw [hlen]; rfl)
  have hno : ∀ m, jsDecryptApi smallNums S sqData (.ok sqWasm) (0 :: ([0, 0, 2, 104] ++ (ct ++ d))) full ≠ .ok m := by
    intro m hm
    unfold jsDecryptApi jsDecrypt at hm
    rw [((C44_js_iff _).1 _).2 (.inl hlay), Res.ok_bind] at hm
    unfold jsDecapApi at hk
    rw [hk, Res.ok_bind] at hm
    exact hbad m hm
  exact ⟨_, hno, (C97_wrong_key texts smallNums S sqData _ (.ok sqWasm) full _ (.inl hlay) (by rw [hd]) key hk hno).2⟩

end Ex

end Zkenc.Props
