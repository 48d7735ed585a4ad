import Mathlib.Tactic.Ring
import Verif.Model.Crypto
/-!
# C41, C42 — the AES wrappers
-/

namespace Zkenc.Props

open Zkenc

theorem flatten_length16 (l : List Bytes) (h : ∀ b ∈ l, b.length = 16) : l.flatten.length = 16 * l.length := by
  induction l with
  | nil => rfl
  | cons a l ih =>
    rw [List.flatten_cons, List.length_append, h a (by simp), ih fun b hb => h b (by simp [hb]), List.length_cons]
    ring

theorem keystream_length (blk : Nat → Bytes) (h : ∀ i, (blk i).length = 16) (n : Nat) : (keystream blk n).length = n := by
  unfold keystream
  rw [List.length_take, flatten_length16 _ (by simp [h]), List.length_map, List.length_range]
  omega

theorem xorBytes_length (a b : Bytes) : (xorBytes a b).length = min a.length b.length := by simp [xorBytes]

theorem xorBytes_cancel (a b : Bytes) (h : a.length ≤ b.length) : xorBytes (xorBytes a b) b = a := by
  unfold xorBytes
  induction a generalizing b with
  | nil => simp
  | cons x a ih =>
    cases b with
    | nil => simp at h
    | cons y b =>
      simp only [List.length_cons, Nat.add_le_add_iff_right] at h
      simp only [List.zipWith_cons_cons, ih b h, UInt8.xor_assoc, UInt8.xor_self, UInt8.xor_zero]

theorem applyKeystream_length (blk : Nat → Bytes) (h : ∀ i, (blk i).length = 16) (m : Bytes) :
    (applyKeystream blk m).length = m.length := by
  rw [applyKeystream, xorBytes_length, keystream_length blk h]
  omega

theorem applyKeystream_twice (blk : Nat → Bytes) (h : ∀ i, (blk i).length = 16) (m : Bytes) :
    applyKeystream blk (applyKeystream blk m) = m := by
  conv_lhs => unfold applyKeystream
  rw [xorBytes_length, keystream_length blk h, Nat.min_self, xorBytes_cancel]
  rw [keystream_length blk h]

theorem gcmBlock_length (c : Cipher) (k n : Bytes) (i : Nat) : (gcmBlock c k n i).length = 16 := c.E_len _ _
theorem ctrBlock_length (c : Cipher) (k n : Bytes) (i : Nat) : (ctrBlock c k n i).length = 16 := c.E_len _ _

theorem gcmTag_length (c : Cipher) (k n m : Bytes) : (gcmTag c k n m).length = 16 := by
  unfold gcmTag
  rw [xorBytes_length, c.E_len, beBytes_length]
  rfl

theorem gcmSeal_length (c : Cipher) (k n m : Bytes) : (gcmSeal c k n m).length = m.length + 16 := by
  unfold gcmSeal
  rw [List.length_append, gcmTag_length, applyKeystream_length _ (gcmBlock_length c k n)]

/-- Opening accepts exactly the sealed messages of that key and nonce. -/
theorem gcmOpen_iff (c : Cipher) (k n d m : Bytes) : gcmOpen c k n d = some m ↔ d = gcmSeal c k n m := by
  have hb := gcmBlock_length c k n
  unfold gcmOpen
  constructor
  · intro h
    split at h
    · cases h
    rename_i hl
    simp only at h
    split at h
    · rename_i ht
      simp only [Option.some.injEq] at h
      subst h
      unfold gcmSeal
      rw [applyKeystream_twice _ hb]
      simp only
      rw [ht, List.take_append_drop]
    · cases h
  · rintro rfl
    have hl := gcmSeal_length c k n m
    rw [if_neg (by omega), hl, Nat.add_sub_cancel]
    have hc := applyKeystream_length (gcmBlock c k n) hb m
    have e1 : (gcmSeal c k n m).take m.length = applyKeystream (gcmBlock c k n) m := by
      unfold gcmSeal
      rw [List.take_append_of_le_length (by omega), List.take_of_length_le (by omega)]
    have e2 : (gcmSeal c k n m).drop m.length = gcmTag c k n (applyKeystream (gcmBlock c k n) m) := by
      unfold gcmSeal
      rw [List.drop_append_of_le_length (by omega), List.drop_of_length_le (by omega), List.nil_append]
    rw [e1, e2]
    simp [applyKeystream_twice _ hb]

/-! ## C41 -/

/-- **C41** (round trip, within and across tools) — decrypting with the same key what either tool encrypted gives the message. -/
theorem C41_roundtrip (c : Cipher) (t t' : Tool) (key nonce m out : Bytes) (hn : nonce.length = 12)
    (h : encryptGcm c t key nonce m = .ok out) (hl : m.length ≤ c.maxDec t') : decryptGcm c t' key out = .ok m := by
  unfold encryptGcm at h
  split at h
  · cases h
  rename_i hk
  split at h
  · cases h
  cases h
  unfold decryptGcm
  have hlen : (nonce ++ gcmSeal c key nonce m).length = m.length + 28 := by
    rw [List.length_append, gcmSeal_length]; omega
  rw [if_neg hk, if_neg (by omega), if_neg (by omega), List.take_append_of_le_length (by omega), List.take_of_length_le (by omega),
    List.drop_append_of_le_length (by omega), List.drop_of_length_le (by omega), List.nil_append, (gcmOpen_iff c key nonce _ m).2 rfl]

/-- **C41** (same tool, no size hypothesis) — whatever a tool encrypts it also decrypts. -/
theorem C41_same_tool (c : Cipher) (t : Tool) (key nonce m out : Bytes) (hn : nonce.length = 12)
    (h : encryptGcm c t key nonce m = .ok out) : decryptGcm c t key out = .ok m := by
  refine C41_roundtrip c t t key nonce m out hn h ?_
  unfold encryptGcm at h
  split at h
  · cases h
  split at h
  · cases h
  rename_i h2
  have := c.max_le t
  omega

/-- **C41** (outcome and length of encryption) — fails exactly for a key that is not 32 bytes or a message above the library limit, with
a reported error; otherwise the output has 28 bytes more than the message. -/
theorem C41_encrypt_outcome (c : Cipher) (t : Tool) (key nonce m : Bytes) (hn : nonce.length = 12) :
    (key.length = 32 ∧ m.length ≤ c.maxEnc t → ∃ out, encryptGcm c t key nonce m = .ok out ∧ out.length = m.length + 28) ∧
    (¬ (key.length = 32 ∧ m.length ≤ c.maxEnc t) → ∃ e, encryptGcm c t key nonce m = .error (.err e)) := by
  unfold encryptGcm
  refine ⟨fun ⟨h1, h2⟩ => ?_, fun h => ?_⟩
  · rw [if_neg (by omega), if_neg (by omega)]
    exact ⟨_, rfl, by rw [List.length_append, gcmSeal_length]; omega⟩
  · split
    · exact ⟨_, rfl⟩
    · split
      · exact ⟨_, rfl⟩
      · exact absurd ⟨by omega, by omega⟩ h

/-- **C41** (decryption accepts exactly encryptions) — decryption returns `m` only for data that encryption of `m` under the same key
and the nonce at the front of the data produces; every other byte string (any length, any key) gives a reported error. -/
theorem C41_decrypt_iff (c : Cipher) (t : Tool) (key data : Bytes) :
    (∀ m, decryptGcm c t key data = .ok m ↔ key.length = 32 ∧ m.length ≤ c.maxDec t ∧ 12 ≤ data.length ∧
      data = data.take 12 ++ gcmSeal c key (data.take 12) m) ∧
    ((∀ m, decryptGcm c t key data ≠ .ok m) → ∃ e, decryptGcm c t key data = .error (.err e)) := by
  constructor
  · intro m
    unfold decryptGcm
    constructor
    · intro h
      split at h
      · cases h
      rename_i h1
      split at h
      · cases h
      rename_i h2
      split at h
      · cases h
      rename_i h3
      cases ho : gcmOpen c key (data.take 12) (data.drop 12) with
      | none => rw [ho] at h; cases h
      | some m' =>
        rw [ho] at h
        cases h
        have := (gcmOpen_iff c key _ _ m).1 ho
        have hlen := congrArg List.length this
        rw [gcmSeal_length, List.length_drop] at hlen
        refine ⟨by omega, by omega, by omega, ?_⟩
        rw [← this, List.take_append_drop]
    · rintro ⟨h1, h2, h3, h4⟩
      have hlen := congrArg List.length h4
      rw [List.length_append, gcmSeal_length, List.length_take] at hlen
      have hd : data.drop 12 = gcmSeal c key (data.take 12) m :=
        List.append_cancel_left ((List.take_append_drop 12 data).trans h4)
      rw [if_neg (by omega), if_neg (by omega), if_neg (by omega), hd, (gcmOpen_iff c key _ _ m).2 rfl]
  · intro h
    cases hd : decryptGcm c t key data with
    | ok m => exact absurd hd (h m)
    | error e =>
      unfold decryptGcm at hd
      split at hd
      · cases hd; exact ⟨_, rfl⟩
      split at hd
      · cases hd; exact ⟨_, rfl⟩
      split at hd
      · cases hd; exact ⟨_, rfl⟩
      split at hd
      · cases hd
      · cases hd; exact ⟨_, rfl⟩

/-- **C41** (size checks come first) — keys that are not 32 bytes, and data below 28 bytes, are errors whatever the cipher does. -/
theorem C41_rejects_short (c : Cipher) (t : Tool) (key data : Bytes) (h : key.length ≠ 32 ∨ data.length < 28) :
    ∃ e, decryptGcm c t key data = .error (.err e) := by
  unfold decryptGcm
  split
  · exact ⟨_, rfl⟩
  rw [if_pos (by omega)]
  exact ⟨_, rfl⟩

/-- **C41** (corruption is detected) — under a fixed key, two different byte strings with the same first 12 bytes never decrypt to the
same message; changing the message part of a ciphertext to something that still decrypts needs the tag of another message. -/
theorem C41_injective (c : Cipher) (t t' : Tool) (key d d' m : Bytes) (h : decryptGcm c t key d = .ok m)
    (h' : decryptGcm c t' key d' = .ok m) (hn : d.take 12 = d'.take 12) : d = d' := by
  obtain ⟨-, -, -, e1⟩ := ((C41_decrypt_iff c t key d).1 m).1 h
  obtain ⟨-, -, -, e2⟩ := ((C41_decrypt_iff c t' key d').1 m).1 h'
  rw [e1, e2, hn]

/-- **C41** (the tag is checked in full) — a ciphertext whose last 16 bytes are replaced by any other 16 bytes is rejected. -/
theorem C41_tag_checked (c : Cipher) (t t' : Tool) (key nonce m out tag : Bytes) (hn : nonce.length = 12)
    (h : encryptGcm c t key nonce m = .ok out) (ht : tag.length = 16) (hne : tag ≠ out.drop (out.length - 16)) :
    ∃ e, decryptGcm c t' key (out.take (out.length - 16) ++ tag) = .error (.err e) := by
  refine (C41_decrypt_iff c t' key _).2 fun m' hm => ?_
  obtain ⟨-, -, -, e1⟩ := ((C41_decrypt_iff c t' key _).1 m').1 hm
  have ho : out = nonce ++ gcmSeal c key nonce m := by
    unfold encryptGcm at h
    split at h
    · cases h
    split at h
    · cases h
    cases h; rfl
  have hlo : out.length = m.length + 28 := by rw [ho, List.length_append, gcmSeal_length]; omega
  have hb := gcmBlock_length c key nonce
  have hpre : out.take (out.length - 16) = nonce ++ applyKeystream (gcmBlock c key nonce) m := by
    rw [hlo, ho]
    unfold gcmSeal
    simp only
    rw [← List.append_assoc, List.take_append_of_le_length, List.take_of_length_le]
    · rw [List.length_append, applyKeystream_length _ hb]; omega
    · rw [List.length_append, applyKeystream_length _ hb]; omega
  have htag : out.drop (out.length - 16) = gcmTag c key nonce (applyKeystream (gcmBlock c key nonce) m) := by
    rw [hlo, ho]
    unfold gcmSeal
    simp only
    rw [← List.append_assoc, List.drop_append_of_le_length, List.drop_of_length_le, List.nil_append]
    · rw [List.length_append, applyKeystream_length _ hb]; omega
    · rw [List.length_append, applyKeystream_length _ hb]; omega
  have hn12 : (out.take (out.length - 16) ++ tag).take 12 = nonce := by
    rw [hpre, List.append_assoc, List.take_append_of_le_length (by omega), List.take_of_length_le (by omega)]
  rw [hn12, hpre, List.append_assoc, List.append_cancel_left_eq] at e1
  unfold gcmSeal at e1
  have hl := congrArg List.length e1
  simp only [List.length_append, applyKeystream_length _ hb, gcmTag_length] at hl
  obtain ⟨a1, a2⟩ := List.append_inj e1 (by rw [applyKeystream_length _ hb, applyKeystream_length _ hb]; omega)
  have hm' : m = m' := by
    have := congrArg (applyKeystream (gcmBlock c key nonce)) a1
    rwa [applyKeystream_twice _ hb, applyKeystream_twice _ hb] at this
  subst hm'
  exact hne (by rw [a2, htag])

/-! ## C42 -/

/-- **C42** (round trip). -/
theorem C42_roundtrip (c : Cipher) (key iv m out : Bytes) (hi : iv.length = 16) (h : encryptCtr c key iv m = .ok out) :
    decryptCtr c key out = .ok m ∧ out.length = m.length + 16 := by
  unfold encryptCtr at h
  split at h
  · cases h
  rename_i hk
  cases h
  have hb := ctrBlock_length c key iv
  refine ⟨?_, by rw [List.length_append, applyKeystream_length _ hb]; omega⟩
  unfold decryptCtr
  rw [if_neg hk, if_neg (by rw [List.length_append]; omega), List.take_append_of_le_length (by omega),
    List.take_of_length_le (by omega), List.drop_append_of_le_length (by omega), List.drop_of_length_le (by omega), List.nil_append,
    applyKeystream_twice _ hb]

/-- **C42** (outcomes) — encryption fails only for a wrong key length; decryption accepts every 32-byte key with every data of at least 16
bytes, and returns 16 bytes less: there is no authentication. -/
theorem C42_outcome (c : Cipher) (key iv m data : Bytes) :
    ((∃ out, encryptCtr c key iv m = .ok out) ↔ key.length = 32) ∧
    (key.length = 32 → 16 ≤ data.length → ∃ p, decryptCtr c key data = .ok p ∧ p.length + 16 = data.length) ∧
    (¬ (key.length = 32 ∧ 16 ≤ data.length) → ∃ e, decryptCtr c key data = .error (.err e)) := by
  refine ⟨⟨fun ⟨out, h⟩ => ?_, fun h => ⟨_, by unfold encryptCtr; rw [if_neg (by omega)]⟩⟩, fun h1 h2 => ?_, fun h => ?_⟩
  · unfold encryptCtr at h
    split at h
    · cases h
    · omega
  · refine ⟨_, by unfold decryptCtr; rw [if_neg (by omega), if_neg (by omega)], ?_⟩
    rw [applyKeystream_length _ (ctrBlock_length c key _), List.length_drop]
    omega
  · unfold decryptCtr
    split
    · exact ⟨_, rfl⟩
    split
    · exact ⟨_, rfl⟩
    · exact absurd ⟨by omega, by omega⟩ h

theorem xorBytes_right_comm (a b d : Bytes) : xorBytes (xorBytes a b) d = xorBytes (xorBytes a d) b := by
  unfold xorBytes
  induction a generalizing b d with
  | nil => simp
  | cons x a ih =>
    cases b with
    | nil => cases d <;> simp
    | cons y b =>
      cases d with
      | nil => simp
      | cons z d =>
        simp only [List.zipWith_cons_cons, ih]
        rw [UInt8.xor_assoc, UInt8.xor_comm y z, UInt8.xor_assoc]

/-- **C42** (malleability) — xoring a mask onto the body of any CTR ciphertext xors exactly that mask onto the plaintext, undetected. -/
theorem C42_malleable (c : Cipher) (key iv body mask p : Bytes) (hi : iv.length = 16) (hm : mask.length = body.length)
    (h : decryptCtr c key (iv ++ body) = .ok p) : decryptCtr c key (iv ++ xorBytes body mask) = .ok (xorBytes p mask) := by
  unfold decryptCtr at h ⊢
  split at h
  · cases h
  rename_i hk
  rw [if_neg (by rw [List.length_append]; omega)] at h
  rw [if_neg hk, if_neg (by rw [List.length_append]; omega)]
  rw [List.take_append_of_le_length (by omega), List.take_of_length_le (by omega), List.drop_append_of_le_length (by omega),
    List.drop_of_length_le (by omega), List.nil_append] at h ⊢
  cases h
  unfold applyKeystream
  rw [xorBytes_length, hm, Nat.min_self, xorBytes_right_comm]

/-- **C42** (a nonce-respecting use is required) — two messages under the same key and IV reveal the xor of the plaintexts. -/
theorem C42_iv_reuse (c : Cipher) (key iv m m' out out' : Bytes) (hi : iv.length = 16) (hl : m.length = m'.length)
    (h : encryptCtr c key iv m = .ok out) (h' : encryptCtr c key iv m' = .ok out') :
    xorBytes (out.drop 16) (out'.drop 16) = xorBytes m m' := by
  unfold encryptCtr at h h'
  split at h
  · cases h
  rename_i hk
  rw [if_neg hk] at h'
  cases h
  cases h'
  rw [List.drop_append_of_le_length (by omega), List.drop_of_length_le (by omega), List.nil_append,
    List.drop_append_of_le_length (by omega), List.drop_of_length_le (by omega), List.nil_append]
  have hks : m'.length ≤ (keystream (ctrBlock c key iv) m'.length).length := by rw [keystream_length _ (ctrBlock_length c key iv)]
  unfold applyKeystream
  rw [hl]
  generalize keystream (ctrBlock c key iv) m'.length = ks at hks
  clear hk
  unfold xorBytes
  induction m generalizing m' ks with
  | nil => simp
  | cons x m ih =>
    cases m' with
    | nil => simp
    | cons y m' =>
      cases ks with
      | nil => simp at hks
      | cons z ks =>
        simp only [List.length_cons, Nat.add_right_cancel_iff, Nat.add_le_add_iff_right] at hl hks
        simp only [List.zipWith_cons_cons, ih m' hl ks hks]
        congr 1
        rw [UInt8.xor_comm y z, ← UInt8.xor_assoc, UInt8.xor_assoc x z z, UInt8.xor_self, UInt8.xor_zero]

/-- A toy block function, to show that the hypotheses can be met. -/
def toyCipher : Cipher where
  E := fun k b => ((List.range 16).map fun i => k.getD i 0 + 3 * b.getD i 0 + 7)
  E_len := by simp
  maxEnc := fun _ => 2 ^ 36
  maxDec := fun _ => 2 ^ 36 + 16
  max_le := fun _ => by decide

/-- Example: a concrete key, nonce and message are encrypted by the CLI and opened by JS. -/
example : ∃ out, encryptGcm toyCipher .cli (List.replicate 32 5) (List.replicate 12 1) [1, 2, 3] = .ok out ∧ out.length = 31 ∧
    decryptGcm toyCipher .js (List.replicate 32 5) out = .ok [1, 2, 3] := by
  obtain ⟨out, h1, h2⟩ := (C41_encrypt_outcome toyCipher .cli (List.replicate 32 5) (List.replicate 12 1) [1, 2, 3] (by simp)).1
    ⟨by simp, by simp [toyCipher]⟩
  exact ⟨out, h1, h2, C41_roundtrip _ _ _ _ _ _ _ (by simp) h1 (by simp [toyCipher])⟩

/-- Example: CTR. -/
example : ∃ out, encryptCtr toyCipher (List.replicate 32 5) (List.replicate 16 255) [1, 2, 3] = .ok out ∧
    decryptCtr toyCipher (List.replicate 32 5) out = .ok [1, 2, 3] := by
  obtain ⟨out, h⟩ := (C42_outcome toyCipher (List.replicate 32 5) (List.replicate 16 255) [1, 2, 3] []).1.2 (by simp)
  exact ⟨out, h, (C42_roundtrip _ _ _ _ _ (by simp) h).1⟩

end Zkenc.Props
