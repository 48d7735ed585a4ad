import Verif.Proofs.Gf128Field
import Verif.Props.Crypto
/-!
# GCM: the tag is the specified polynomial
-/

namespace Zkenc

open Polynomial GcmSpec Props

theorem block_zero (b : Bytes) : block b 0 = b.take 16 := by simp [block]
theorem block_succ (b : Bytes) (i : Nat) : block b (i + 1) = block (b.drop 16) i := by
  unfold block
  rw [List.drop_drop, show 16 * (i + 1) = 16 + 16 * i by ring]

theorem ghashBlocks_spec (h : Nat) (hh : h < 2 ^ 128) (n : Nat) : ∀ (b : Bytes) (y : Nat), b.length = 16 * n → y < 2 ^ 128 →
    ghashBlocks h n b y < 2 ^ 128 ∧
    toGF (ghashBlocks h n b y) = toGF y * toGF h ^ n + ∑ i ∈ Finset.range n, elem (block b i) * toGF h ^ (n - i) := by
  induction n with
  | zero => intro b y _ hy; exact ⟨hy, by simp [ghashBlocks]⟩
  | succ n ih =>
    intro b y hb hy
    obtain ⟨h1, h2⟩ := ih (b.drop 16) (gfMul (y ^^^ beNat (b.take 16)) h) (by rw [List.length_drop]; omega) (gfMul_lt _ hh)
    refine ⟨h1, ?_⟩
    rw [ghashBlocks, h2, toGF_mul _ hh, toGF_xor, ← elem_eq _ (by rw [List.length_take]; omega), Finset.sum_range_succ', block_zero]
    simp only [block_succ, Nat.add_sub_add_right, Nat.sub_zero]
    ring

theorem pad16_length (ct : Bytes) : (pad16 ct).length = 16 * nBlocks ct := by
  unfold pad16 nBlocks
  rw [List.length_append, List.length_replicate]
  omega

theorem block_pad (ct l : Bytes) {i : Nat} (hi : i < nBlocks ct) : elem (block (pad16 ct ++ l) i) = elem (block ct i) := by
  have hp := pad16_length ct
  have hlen : 16 * i + 16 ≤ (pad16 ct).length := by omega
  have e : block (pad16 ct ++ l) i = block ct i ++ List.replicate (16 - (ct.length - 16 * i)) 0 := by
    unfold block
    rw [List.drop_append_of_le_length (by omega), List.take_append_of_le_length (by rw [List.length_drop]; omega)]
    unfold pad16
    have h1 : 16 * i ≤ ct.length := by unfold nBlocks at hi; omega
    rw [List.drop_append_of_le_length h1, List.take_append, List.length_drop, List.take_replicate]
    congr 2
    unfold nBlocks at hi
    omega
  rw [e, elem_pad]

theorem block_len (ct l : Bytes) (hl : l.length = 16) : block (pad16 ct ++ l) (nBlocks ct) = l := by
  unfold block
  rw [← pad16_length, List.drop_append_of_le_length le_rfl, List.drop_length, List.nil_append, List.take_of_length_le (by omega)]

theorem xorBytes_getD {a b : Bytes} (h : a.length = b.length) (i : Nat) : (xorBytes a b).getD i 0 = a.getD i 0 ^^^ b.getD i 0 := by
  unfold xorBytes
  induction a generalizing b i with
  | nil =>
    have : b = [] := by simpa using h.symm
    subst this
    simp
  | cons x a ih =>
    cases b with
    | nil => simp at h
    | cons y b =>
      cases i with
      | zero => simp
      | succ i => simpa using ih (by simpa using h) i

theorem elem_xor {a b : Bytes} (h : a.length = b.length) : elem (xorBytes a b) = elem a + elem b := by
  unfold elem
  rw [← Finset.sum_add_distrib]
  refine Finset.sum_congr rfl fun n _ => ?_
  rw [xorBytes_getD h, UInt8.toNat_xor, Nat.testBit_xor]
  cases (a.getD (n / 8) 0).toNat.testBit (7 - n % 8) <;> cases (b.getD (n / 8) 0).toNat.testBit (7 - n % 8) <;> simp [gf_add_self]

theorem lengthBlock_length (ct : Bytes) : (lengthBlock ct).length = 16 := by simp [lengthBlock]

theorem gcmTag_elem (c : Cipher) (k nonce ct : Bytes) :
    elem (gcmTag c k nonce ct) = elem (c.E k (nonce ++ [0, 0, 0, 1])) + ghash (elem (c.E k (List.replicate 16 0))) ct := by
  have e8 : beBytes 8 0 = List.replicate 8 0 := by decide
  have hE := c.E_len k (List.replicate 16 0)
  have hbl : (pad16 ct ++ lengthBlock ct).length = 16 * (nBlocks ct + 1) := by
    rw [List.length_append, pad16_length, lengthBlock_length]; ring
  obtain ⟨h1, h2⟩ := ghashBlocks_spec (beNat (c.E k (List.replicate 16 0))) (beNat_lt16 hE) (nBlocks ct + 1)
    (pad16 ct ++ lengthBlock ct) 0 hbl (by norm_num)
  have hn : (pad16 ct ++ lengthBlock ct).length / 16 = nBlocks ct + 1 := by rw [hbl]; omega
  have hs : ∑ i ∈ Finset.range (nBlocks ct + 1), elem (block (pad16 ct ++ lengthBlock ct) i) *
      toGF (beNat (c.E k (List.replicate 16 0))) ^ (nBlocks ct + 1 - i) = ghash (elem (c.E k (List.replicate 16 0))) ct := by
    rw [Finset.sum_range_succ, block_len _ _ (lengthBlock_length ct), ← elem_eq _ hE, Nat.add_sub_cancel_left, pow_one, ghash]
    refine congrArg (· + _) (Finset.sum_congr rfl fun i hi => ?_)
    rw [block_pad _ _ (Finset.mem_range.1 hi)]
  rw [hs, toGF_zero, zero_mul, zero_add] at h2
  unfold gcmTag
  simp only
  rw [e8, show List.replicate 8 0 ++ beBytes 8 (8 * ct.length) = lengthBlock ct from rfl, hn, elem_xor (by rw [beBytes_length, c.E_len]),
    elem_eq (beBytes 16 _) (beBytes_length _ _), beNat_beBytes_of_lt (lt_of_lt_of_eq h1 (by norm_num)), h2, add_comm]

/-! ## Key stream bytes -/

theorem flatten_getElem16 (l : List Bytes) (h : ∀ b ∈ l, b.length = 16) : ∀ (j : Nat), l.flatten[j]? = (l[j / 16]?).bind fun b => b[j % 16]? := by
  induction l with
  | nil => intro j; simp
  | cons a l ih =>
    intro j
    have ha := h a (by simp)
    rw [List.flatten_cons]
    rcases Nat.lt_or_ge j 16 with hj | hj
    · rw [List.getElem?_append_left (by omega), Nat.div_eq_of_lt hj, Nat.mod_eq_of_lt hj]
      rfl
    · rw [List.getElem?_append_right (by omega), ih (fun b hb => h b (by simp [hb])), ha, show j / 16 = (j - 16) / 16 + 1 by omega,
        List.getElem?_cons_succ, show j % 16 = (j - 16) % 16 by omega]

theorem keystream_getElem (blk : Nat → Bytes) (h : ∀ i, (blk i).length = 16) {n j : Nat} (hj : j < n) :
    (keystream blk n)[j]? = (blk (j / 16))[j % 16]? := by
  unfold keystream
  rw [List.getElem?_take_of_lt hj, flatten_getElem16 _ (by simp [h]), List.getElem?_map, List.getElem?_range (by omega)]
  rfl

theorem applyKeystream_getElem (blk : Nat → Bytes) (h : ∀ i, (blk i).length = 16) (m : Bytes) {j : Nat} (hj : j < m.length) :
    ∃ x, (blk (j / 16))[j % 16]? = some x ∧ (applyKeystream blk m)[j]? = some (m[j] ^^^ x) := by
  have hx : j % 16 < (blk (j / 16)).length := by rw [h]; omega
  refine ⟨_, List.getElem?_eq_getElem hx, ?_⟩
  unfold applyKeystream xorBytes
  rw [List.getElem?_zipWith, keystream_getElem blk h hj, List.getElem?_eq_getElem hj, List.getElem?_eq_getElem hx]

/-! ## The hash as a polynomial -/

/-- The hash of a ciphertext as a polynomial in the hash key. -/
noncomputable def ghashPoly (ct : Bytes) : GF128[X] :=
  ∑ i ∈ Finset.range (nBlocks ct), C (elem (block ct i)) * X ^ (nBlocks ct + 1 - i) + C (elem (lengthBlock ct)) * X

theorem ghashPoly_eval (h : GF128) (ct : Bytes) : (ghashPoly ct).eval h = ghash h ct := by
  unfold ghashPoly ghash
  simp [eval_finsetSum]

theorem ghashPoly_coeff (ct : Bytes) (k : Nat) : (ghashPoly ct).coeff k =
    if k = 0 then 0 else if k = 1 then elem (lengthBlock ct) else if k ≤ nBlocks ct + 1 then elem (block ct (nBlocks ct + 1 - k)) else 0 := by
  unfold ghashPoly
  rw [coeff_add, finsetSum_coeff, coeff_C_mul, coeff_X]
  simp only [coeff_C_mul, coeff_X_pow]
  by_cases h0 : k = 0
  · subst h0
    simp only [if_true, one_ne_zero, if_false, mul_zero, add_zero]
    refine Finset.sum_eq_zero fun i hi => ?_
    have := Finset.mem_range.1 hi
    rw [if_neg (by omega), mul_zero]
  rw [if_neg h0]
  by_cases h1 : k = 1
  · subst h1
    simp only [if_true, mul_one]
    rw [Finset.sum_eq_zero, zero_add]
    intro i hi
    have := Finset.mem_range.1 hi
    rw [if_neg (by omega), mul_zero]
  rw [if_neg h1, if_neg (Ne.symm h1), mul_zero, add_zero]
  by_cases hk : k ≤ nBlocks ct + 1
  · rw [if_pos hk, Finset.sum_eq_single (nBlocks ct + 1 - k)]
    · rw [if_pos (by omega), mul_one]
    · intro i hi hne
      have := Finset.mem_range.1 hi
      rw [if_neg (by omega), mul_zero]
    · intro h
      exact absurd (Finset.mem_range.2 (by omega)) h
  · rw [if_neg hk]
    refine Finset.sum_eq_zero fun i hi => ?_
    have := Finset.mem_range.1 hi
    rw [if_neg (by omega), mul_zero]

theorem ghashPoly_natDegree (ct : Bytes) : (ghashPoly ct).natDegree ≤ nBlocks ct + 1 := by
  refine natDegree_le_iff_coeff_eq_zero.2 fun k hk => ?_
  rw [ghashPoly_coeff, if_neg (by omega), if_neg (by omega), if_neg (by omega)]

theorem elem_inj_short {a b : Bytes} (hl : a.length = b.length) (ha : a.length ≤ 16) (h : elem a = elem b) : a = b := by
  rw [← elem_pad a (16 - a.length), ← elem_pad b (16 - a.length)] at h
  have := elem_inj (by rw [List.length_append, List.length_replicate]; omega) (by rw [List.length_append, List.length_replicate]; omega) h
  exact (List.append_inj this hl).1

theorem block_ext {a b : Bytes} (hl : a.length = b.length) (h : ∀ i, i < nBlocks a → block a i = block b i) : a = b := by
  refine List.ext_getElem? fun j => ?_
  rcases Nat.lt_or_ge j a.length with hj | hj
  · have := h (j / 16) (by unfold nBlocks; omega)
    have e := congrArg (fun l : Bytes => l[j % 16]?) this
    simp only [block] at e
    rw [List.getElem?_take_of_lt (by omega), List.getElem?_take_of_lt (by omega), List.getElem?_drop, List.getElem?_drop,
      show 16 * (j / 16) + j % 16 = j by omega] at e
    exact e
  · rw [List.getElem?_eq_none hj, List.getElem?_eq_none (by omega)]

theorem ghashPoly_ne {a b : Bytes} (ha : a.length < 2 ^ 61) (hb : b.length < 2 ^ 61) (h : a ≠ b) : ∃ k, 1 ≤ k ∧ (ghashPoly a).coeff k ≠ (ghashPoly b).coeff k := by
  by_cases hl : a.length = b.length
  · by_contra hall
    push Not at hall
    refine h (block_ext hl fun i hi => ?_)
    have hn : nBlocks b = nBlocks a := by unfold nBlocks; rw [hl]
    have := hall (nBlocks a + 1 - i) (by omega)
    rw [ghashPoly_coeff, ghashPoly_coeff, hn, if_neg (by omega), if_neg (by omega), if_pos (by omega), if_neg (by omega), if_neg (by omega),
      if_pos (by omega), show nBlocks a + 1 - (nBlocks a + 1 - i) = i by omega] at this
    refine elem_inj_short ?_ ?_ this
    · unfold block
      rw [List.length_take, List.length_take, List.length_drop, List.length_drop, hl]
    · unfold block
      rw [List.length_take]
      omega
  · refine ⟨1, le_rfl, ?_⟩
    rw [ghashPoly_coeff, ghashPoly_coeff]
    simp only [one_ne_zero, if_false, if_true]
    intro he
    have := elem_inj (lengthBlock_length a) (lengthBlock_length b) he
    unfold lengthBlock at this
    have := congrArg beNat (List.append_cancel_left this)
    rw [beNat_beBytes_of_lt (by norm_num; omega), beNat_beBytes_of_lt (by norm_num; omega)] at this
    omega

theorem toGF_bij : Function.Bijective fun i : Fin (2 ^ 128) => toGF i.val := by
  have hf : Finite GF128 := Nat.finite_of_card_ne_zero (by rw [gf_card]; exact pow_ne_zero _ (by norm_num))
  refine Function.Injective.bijective_of_nat_card_le (fun i j h => Fin.ext (toGF_inj i.isLt j.isLt h)) ?_
  rw [gf_card, Nat.card_fin]

theorem elem_surj (x : GF128) : ∃ b : Bytes, b.length = 16 ∧ elem b = x := by
  obtain ⟨i, hi⟩ := toGF_bij.2 x
  refine ⟨beBytes 16 i.val, beBytes_length _ _, ?_⟩
  rw [elem_eq _ (beBytes_length _ _), beNat_beBytes_of_lt (lt_of_lt_of_eq i.isLt (by norm_num))]
  exact hi

end Zkenc
