import Verif.Proofs.Gcm
/-!
# C72: the format of encrypted messages, and what their tag protects
-/

namespace Zkenc.Props

open Polynomial Zkenc GcmSpec

/-- **C72** (the field) — blocks of 16 bytes are the elements of a field with 2^128 elements. -/
theorem C72_field : IsField GF128 ∧ Nat.card GF128 = 2 ^ 128 ∧
    (∀ a b : Bytes, a.length = 16 → b.length = 16 → elem a = elem b → a = b) ∧ (∀ x : GF128, ∃ b : Bytes, b.length = 16 ∧ elem b = x) :=
  ⟨Field.toIsField GF128, gf_card, fun _ _ ha hb h => elem_inj ha hb h, elem_surj⟩

/-- **C72** (format) — an encrypted message is the nonce, the message xored with the blocks `AES(nonce ‖ 2), AES(nonce ‖ 3), …`, and the tag
`AES(nonce ‖ 1) + GHASH` with hash key `AES(0)`: the standard format. -/
theorem C72_format (c : Cipher) (t : Tool) (key nonce m out : Bytes) (h : encryptGcm c t key nonce m = .ok out) :
    ∃ ct tag, out = nonce ++ ct ++ tag ∧ ct.length = m.length ∧ tag.length = 16 ∧
      (∀ j (hj : j < m.length), ∃ x, (c.E key (nonce ++ u32be (2 + j / 16)))[j % 16]? = some x ∧ ct[j]? = some (m[j] ^^^ x)) ∧
      elem tag = elem (c.E key (nonce ++ [0, 0, 0, 1])) + ghash (elem (c.E key (List.replicate 16 0))) ct := by
  unfold encryptGcm at h
  split at h
  · cases h
  split at h
  · cases h
  cases h
  have hb := gcmBlock_length c key nonce
  refine ⟨_, _, by rw [gcmSeal, ← List.append_assoc], applyKeystream_length _ hb m, gcmTag_length c key nonce _, ?_, gcmTag_elem c key nonce _⟩
  intro j hj
  exact applyKeystream_getElem _ hb m hj

/-- **C72** (no block is used twice) — for messages of at most 2^36 − 32 bytes the blocks that AES is applied to are all different. -/
theorem C72_counters (nonce : Bytes) (hn : nonce.length = 12) (i j : Nat) (hi : i < 2 ^ 32 - 2) (hj : j < 2 ^ 32 - 2) :
    (nonce ++ u32be (2 + i) = nonce ++ u32be (2 + j) → i = j) ∧ nonce ++ u32be (2 + i) ≠ nonce ++ [0, 0, 0, 1] ∧
    nonce ++ u32be (2 + i) ≠ List.replicate 16 0 ∧ nonce ++ [0, 0, 0, 1] ≠ List.replicate 16 0 := by
  have hv : ∀ k, k < 2 ^ 32 - 2 → beNat (u32be (2 + k)) = 2 + k := fun k hk => beNat_u32be (by omega)
  refine ⟨fun h => ?_, fun h => ?_, fun h => ?_, fun h => ?_⟩
  · have := congrArg beNat (List.append_cancel_left h)
    rw [hv i hi, hv j hj] at this
    omega
  · have := congrArg beNat (List.append_cancel_left h)
    rw [hv i hi, show beNat [0, 0, 0, 1] = 1 by decide] at this
    omega
  · rw [show List.replicate 16 (0 : UInt8) = List.replicate 12 0 ++ List.replicate 4 0 by decide] at h
    have := congrArg beNat (List.append_inj h (by simp [hn])).2
    rw [hv i hi, show beNat (List.replicate 4 0) = 0 by decide] at this
    omega
  · rw [show List.replicate 16 (0 : UInt8) = List.replicate 12 0 ++ List.replicate 4 0 by decide] at h
    exact absurd (List.append_inj h (by simp [hn])).2 (by decide)

/-- The parts of data that decrypts. -/
theorem decrypt_parts (c : Cipher) (t : Tool) (key d m : Bytes) (h : decryptGcm c t key d = .ok m) :
    28 ≤ d.length ∧ elem (d.drop (d.length - 16)) = elem (c.E key (d.take 12 ++ [0, 0, 0, 1])) +
      ghash (elem (c.E key (List.replicate 16 0))) ((d.drop 12).take (d.length - 28)) := by
  obtain ⟨-, -, h12, he⟩ := ((C41_decrypt_iff c t key d).1 m).1 h
  have hb := gcmBlock_length c key (d.take 12)
  have hlen := congrArg List.length he
  rw [List.length_append, gcmSeal_length, List.length_take] at hlen
  have h28 : d.length = m.length + 28 := by omega
  refine ⟨by omega, ?_⟩
  have hct := applyKeystream_length _ hb m
  have hd : d.drop 12 = gcmSeal c key (d.take 12) m := List.append_cancel_left ((List.take_append_drop 12 d).trans he)
  have e1 : (d.drop 12).take (d.length - 28) = applyKeystream (gcmBlock c key (d.take 12)) m := by
    rw [hd, gcmSeal, h28, Nat.add_sub_cancel, List.take_append_of_le_length (by omega), List.take_of_length_le (by omega)]
  have e2 : d.drop (d.length - 16) = gcmTag c key (d.take 12) (applyKeystream (gcmBlock c key (d.take 12)) m) := by
    have : d.drop (d.length - 16) = (d.drop 12).drop m.length := by rw [List.drop_drop]; congr 1; omega
    rw [this, hd, gcmSeal, List.drop_append_of_le_length (by omega), List.drop_of_length_le (by omega), List.nil_append]
  rw [e1, e2, gcmTag_elem]

/-- **C72** (tampering) — for any two different byte strings with the same first 12 bytes there is a set of at most one hash key per 16 bytes, which
depends on nothing else, outside of which no key decrypts both: if one is an intercepted message and the other a forgery, at most
`(length + 3) / 16` of the 2^128 hash keys let the forgery pass. -/
theorem C72_tampering (d d' : Bytes) (hne : d ≠ d') (hn : d.take 12 = d'.take 12) (hl : d.length < 2 ^ 61) (hl' : d'.length < 2 ^ 61) :
    ∃ S : Finset GF128, S.card ≤ (max d.length d'.length + 3) / 16 ∧
      ∀ (c : Cipher) (t t' : Tool) (key m m' : Bytes), decryptGcm c t key d = .ok m → decryptGcm c t' key d' = .ok m' →
        elem (c.E key (List.replicate 16 0)) ∈ S := by
  classical
  by_cases h28 : 28 ≤ d.length ∧ 28 ≤ d'.length
  swap
  · refine ⟨∅, by simp, fun c t t' key m m' h h' => absurd ⟨(decrypt_parts c t key d m h).1, (decrypt_parts c t' key d' m' h').1⟩ h28⟩
  obtain ⟨hd28, hd28'⟩ := h28
  set ct := (d.drop 12).take (d.length - 28) with hct
  set ct' := (d'.drop 12).take (d'.length - 28) with hct'
  set tag := d.drop (d.length - 16) with htag
  set tag' := d'.drop (d'.length - 16) with htag'
  have lct : ct.length = d.length - 28 := by rw [hct, List.length_take, List.length_drop]; omega
  have lct' : ct'.length = d'.length - 28 := by rw [hct', List.length_take, List.length_drop]; omega
  have ltag : tag.length = 16 := by rw [htag, List.length_drop]; omega
  have ltag' : tag'.length = 16 := by rw [htag', List.length_drop]; omega
  have split : ∀ e : Bytes, 28 ≤ e.length → e = e.take 12 ++ ((e.drop 12).take (e.length - 28) ++ e.drop (e.length - 16)) := by
    intro e he
    have : e.drop (e.length - 16) = (e.drop 12).drop (e.length - 28) := by rw [List.drop_drop]; congr 1; omega
    rw [this, List.take_append_drop, List.take_append_drop]
  set D : GF128[X] := ghashPoly ct - ghashPoly ct' - C (elem tag - elem tag') with hD
  have hD0 : D ≠ 0 := by
    intro h0
    by_cases hc : ct = ct'
    · have : D.coeff 0 = 0 := by rw [h0, coeff_zero]
      rw [hD, hc, sub_self, zero_sub, coeff_neg, coeff_C_zero, neg_eq_zero, sub_eq_zero] at this
      have ht := elem_inj ltag ltag' this
      refine hne ?_
      rw [split d hd28, split d' hd28', ← hct, ← hct', ← htag, ← htag', hn, hc, ht]
    · obtain ⟨k, hk, hkne⟩ := ghashPoly_ne (by omega) (by omega) hc
      have : D.coeff k = 0 := by rw [h0, coeff_zero]
      rw [hD, coeff_sub, coeff_sub, coeff_C, if_neg (by omega), sub_zero, sub_eq_zero] at this
      exact hkne this
  refine ⟨D.roots.toFinset, ?_, ?_⟩
  · refine (Multiset.toFinset_card_le _).trans ((card_roots' D).trans ?_)
    have h1 := ghashPoly_natDegree ct
    have h2 := ghashPoly_natDegree ct'
    have h3 : D.natDegree ≤ max (nBlocks ct + 1) (nBlocks ct' + 1) := by
      rw [hD]
      refine (natDegree_sub_le _ _).trans (max_le ((natDegree_sub_le _ _).trans (max_le_max h1 h2)) ?_)
      rw [natDegree_C]
      exact Nat.zero_le _
    refine h3.trans ?_
    unfold nBlocks
    omega
  · intro c t t' key m m' h h'
    rw [Multiset.mem_toFinset, mem_roots hD0, IsRoot.def, hD, eval_sub, eval_sub, eval_C, ghashPoly_eval, ghashPoly_eval]
    have e := (decrypt_parts c t key d m h).2
    have e' := (decrypt_parts c t' key d' m' h').2
    rw [← hct, ← htag] at e
    rw [← hct', ← htag', ← hn] at e'
    rw [e, e']
    ring

/-- **C72** (a nonce used twice) — two different messages encrypted under one key and nonce confine the hash key to a set of at most one element per
16 bytes that anybody can compute from the two outputs. -/
theorem C72_nonce_reuse (nonce d d' : Bytes) (hn : nonce.length = 12) (hl : d.length < 2 ^ 61) (hl' : d'.length < 2 ^ 61) :
    ∃ S : Finset GF128, S.card ≤ (max d.length d'.length + 3) / 16 ∧
      ∀ (c : Cipher) (t t' : Tool) (key m m' : Bytes), m ≠ m' → encryptGcm c t key nonce m = .ok d → encryptGcm c t' key nonce m' = .ok d' →
        elem (c.E key (List.replicate 16 0)) ∈ S := by
  by_cases hne : d ≠ d' ∧ d.take 12 = d'.take 12
  · obtain ⟨S, h1, h2⟩ := C72_tampering d d' hne.1 hne.2 hl hl'
    exact ⟨S, h1, fun c t t' key m m' _ h h' => h2 c t t' key m m' (C41_same_tool c t key nonce m d hn h) (C41_same_tool c t' key nonce m' d' hn h')⟩
  · refine ⟨∅, by simp, fun c t t' key m m' hm h h' => absurd ⟨?_, ?_⟩ hne⟩
    · rintro rfl
      have e1 := C41_same_tool c t key nonce m d hn h
      have hm' := C41_same_tool c t' key nonce m' d hn h'
      have k1 := ((C41_decrypt_iff c t key d).1 m).1 e1
      have k2 := ((C41_decrypt_iff c t' key d).1 m').1 hm'
      have := (gcmOpen_iff c key (d.take 12) _ m).2 (List.append_cancel_left (k1.2.2.2.symm.trans k1.2.2.2))
      rw [List.append_cancel_left (k1.2.2.2.symm.trans k2.2.2.2)] at this
      rw [(gcmOpen_iff c key (d.take 12) _ m').2 rfl] at this
      exact hm (Option.some.inj this).symm
    · have p : ∀ (t : Tool) (m d : Bytes), encryptGcm c t key nonce m = .ok d → d.take 12 = nonce := by
        intro t m d h
        unfold encryptGcm at h
        split at h
        · cases h
        split at h
        · cases h
        cases h
        rw [List.take_append_of_le_length (by omega), List.take_of_length_le (by omega)]
      rw [p t m d h, p t' m' d' h']

/-- **C72** (the hash key is all a forger needs) — whoever knows the hash key and one message that decrypts can replace its body by any other: exactly one
tag makes the result decrypt. -/
theorem C72_forging (c : Cipher) (t t' : Tool) (key nonce ct tag m : Bytes) (hn : nonce.length = 12) (ht : tag.length = 16)
    (h : decryptGcm c t key (nonce ++ ct ++ tag) = .ok m) (ct' : Bytes) (hl : ct'.length ≤ c.maxDec t') (tag' : Bytes) (ht' : tag'.length = 16) :
    (∃ m', decryptGcm c t' key (nonce ++ ct' ++ tag') = .ok m') ↔
      elem tag' = elem tag + ghash (elem (c.E key (List.replicate 16 0))) ct + ghash (elem (c.E key (List.replicate 16 0))) ct' := by
  have parts : ∀ (b g : Bytes), g.length = 16 → ((nonce ++ b ++ g).take 12 = nonce ∧ ((nonce ++ b ++ g).drop 12).take ((nonce ++ b ++ g).length - 28) = b ∧
      (nonce ++ b ++ g).drop ((nonce ++ b ++ g).length - 16) = g) := by
    intro b g hg
    have l : (nonce ++ b ++ g).length = b.length + 28 := by simp only [List.length_append, hn, hg]; omega
    refine ⟨?_, ?_, ?_⟩
    · rw [List.append_assoc, List.take_append_of_le_length (by omega), List.take_of_length_le (by omega)]
    · rw [l, Nat.add_sub_cancel, List.append_assoc, List.drop_append_of_le_length (by omega), List.drop_of_length_le (by omega), List.nil_append,
        List.take_append_of_le_length (by omega), List.take_of_length_le (by omega)]
    · rw [l, show b.length + 28 - 16 = (nonce ++ b).length by rw [List.length_append, hn]; omega, List.drop_append_of_le_length le_rfl, List.drop_length,
        List.nil_append]
  have e := (decrypt_parts c t key _ m h).2
  obtain ⟨p1, p2, p3⟩ := parts ct tag ht
  obtain ⟨q1, q2, q3⟩ := parts ct' tag' ht'
  rw [p1, p2, p3] at e
  have hsum : elem tag + ghash (elem (c.E key (List.replicate 16 0))) ct + ghash (elem (c.E key (List.replicate 16 0))) ct' =
      elem (gcmTag c key nonce ct') := by
    rw [gcmTag_elem, e, add_assoc (elem _), gf_add_self, add_zero]
  rw [hsum]
  constructor
  · rintro ⟨m', hm'⟩
    have e' := (decrypt_parts c t' key _ m' hm').2
    rw [q1, q2, q3] at e'
    rw [e', gcmTag_elem]
  · intro he
    have hg : tag' = gcmTag c key nonce ct' := elem_inj ht' (gcmTag_length c key nonce ct') he
    have hb := gcmBlock_length c key nonce
    refine ⟨applyKeystream (gcmBlock c key nonce) ct', ((C41_decrypt_iff c t' key _).1 _).2 ⟨(((C41_decrypt_iff c t key _).1 m).1 h).1, ?_, ?_, ?_⟩⟩
    · rw [applyKeystream_length _ hb]; exact hl
    · simp only [List.length_append]; omega
    · rw [q1, gcmSeal, applyKeystream_twice _ hb, hg, List.append_assoc]

/-- **C72** (CTR format) — the legacy CTR functions produce the IV and the message xored with `AES(IV), AES(IV + 1), …`, counting in the last 8 bytes
of the IV, modulo 2^64. -/
theorem C72_ctr_format (c : Cipher) (key iv m out : Bytes) (hi : iv.length = 16) (h : encryptCtr c key iv m = .ok out) :
    ∃ ct, out = iv ++ ct ∧ ct.length = m.length ∧
      ∀ j (hj : j < m.length), ∃ ctr x, ctr.length = 16 ∧ ctr.take 8 = iv.take 8 ∧ beNat (ctr.drop 8) = (beNat (iv.drop 8) + j / 16) % 2 ^ 64 ∧
        (c.E key ctr)[j % 16]? = some x ∧ ct[j]? = some (m[j] ^^^ x) := by
  unfold encryptCtr at h
  split at h
  · cases h
  cases h
  have hb := ctrBlock_length c key iv
  refine ⟨_, rfl, applyKeystream_length _ hb m, fun j hj => ?_⟩
  obtain ⟨x, h1, h2⟩ := applyKeystream_getElem _ hb m hj
  have h8 : (iv.take 8).length = 8 := by rw [List.length_take]; omega
  refine ⟨iv.take 8 ++ beBytes 8 (beNat (iv.drop 8) + j / 16), x, ?_, ?_, ?_, h1, h2⟩
  · rw [List.length_append, beBytes_length]; omega
  · rw [List.take_append_of_le_length (by omega), List.take_of_length_le (by omega)]
  · rw [List.drop_append_of_le_length (by omega), List.drop_of_length_le (by omega), List.nil_append, beNat_beBytes,
      show 256 ^ 8 = 2 ^ 64 by norm_num]

/-- Non-vacuity of `C72_tampering`: a message and a different one with the same nonce, both of which decrypt under the same key. -/
example : ∃ d d' m m' : Bytes, d ≠ d' ∧ d.take 12 = d'.take 12 ∧ d.length < 2 ^ 61 ∧ d'.length < 2 ^ 61 ∧
    decryptGcm toyCipher .cli (List.replicate 32 5) d = .ok m ∧ decryptGcm toyCipher .js (List.replicate 32 5) d' = .ok m' := by
  obtain ⟨d, h1, h2⟩ := (C41_encrypt_outcome toyCipher .cli (List.replicate 32 5) (List.replicate 12 1) [1, 2, 3] (by simp)).1
    ⟨by simp, by simp [toyCipher]⟩
  obtain ⟨d', h1', h2'⟩ := (C41_encrypt_outcome toyCipher .js (List.replicate 32 5) (List.replicate 12 1) [1, 2, 3, 4] (by simp)).1
    ⟨by simp, by simp [toyCipher]⟩
  have p : ∀ (t : Tool) (m d : Bytes), encryptGcm toyCipher t (List.replicate 32 5) (List.replicate 12 1) m = .ok d →
      d.take 12 = List.replicate 12 1 := by
    intro t m d h
    obtain ⟨ct, tag, rfl, -⟩ := C72_format _ _ _ _ _ _ h
    rw [List.append_assoc, List.take_append_of_le_length (by simp), List.take_of_length_le (by simp)]
  refine ⟨d, d', _, _, fun h => ?_, (p _ _ _ h1).trans (p _ _ _ h1').symm, ?_, ?_, C41_same_tool _ _ _ _ _ _ (by simp) h1,
    C41_same_tool _ _ _ _ _ _ (by simp) h1'⟩
  · rw [h, h2'] at h2; simp at h2
  · rw [h2]; norm_num
  · rw [h2']; norm_num

end Zkenc.Props
