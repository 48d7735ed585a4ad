import Verif.Spec.WitnessCalc
import Verif.Props.WtnsParseJs
/-!
# Helper lemmas for the witness calculator
-/

namespace Zkenc

open CalcSpec

/-! ## Hash -/

theorem fnvLoop_cons (u : Nat) (us : List Nat) (h : Nat) :
    fnvLoop (u :: us) h = fnvLoop us (fnvStep h u) := by
  unfold fnvLoop; rw [List.foldl_cons]

theorem fnvLoop_eq (us : List Nat) (h : UInt64) (hu : ∀ u ∈ us, u < 2 ^ 64) :
    fnvLoop us h.toNat = ((us.map UInt64.ofNat).foldl (fun h u => (h ^^^ u) * 0x100000001b3) h).toNat := by
  induction us generalizing h with
  | nil => rfl
  | cons u us ih =>
    have hc : (0x100000001b3 : UInt64).toNat = 0x100000001b3 := by decide
    have hm : ((h ^^^ UInt64.ofNat u) * 0x100000001b3).toNat = fnvStep h.toNat u := by
      rw [UInt64.toNat_mul, UInt64.toNat_xor, UInt64.toNat_ofNat', Nat.mod_eq_of_lt (hu u (by simp)), hc, fnvStep, fnvPrime]
    rw [List.map_cons, List.foldl_cons, ← ih _ (fun v hv => hu v (by simp [hv])), fnvLoop_cons, hm]

theorem utf16_lt (s : Str) : ∀ u ∈ utf16 s, u < 2 ^ 16 := by
  intro u hu
  simp only [utf16, List.mem_flatMap] at hu
  obtain ⟨c, -, hu⟩ := hu
  split at hu
  · simp at hu; omega
  · have hc : c.toNat < 0x110000 := by
      have h := c.valid
      have : c.toNat = c.val.toNat := rfl
      rcases h with h | ⟨h, h'⟩ <;> omega
    simp at hu
    omega

theorem fnvLoop_name (s : Str) : fnvLoop (utf16 s) 0xCBF29CE484222325 = (nameHash s).toNat := by
  have := fnvLoop_eq (utf16 s) 0xcbf29ce484222325 (fun u hu => lt_of_lt_of_le (utf16_lt s u hu) (by decide))
  have hc : (0xcbf29ce484222325 : UInt64).toNat = 0xCBF29CE484222325 := by decide
  rw [nameHash, fnv1a, ← this, hc]

/-- Lower-case hexadecimal digit. -/
def isLowHex (c : Char) : Prop := (48 ≤ c.toNat ∧ c.toNat ≤ 57) ∨ (97 ≤ c.toNat ∧ c.toNat ≤ 102)

/-- Value of a string of hexadecimal digits. -/
def hexNum (s : Str) : Nat := s.foldl (fun a c => 16 * a + (hexVal c).getD 0) 0

theorem hexChar_spec : ∀ d < 16, isLowHex (hexChar d) ∧ hexVal (hexChar d) = some d := by
  unfold isLowHex; decide

theorem hexVal_low {c : Char} (h : isLowHex c) : ∃ d, hexVal c = some d ∧ d < 16 := by
  unfold isLowHex at h
  unfold hexVal isDig digVal
  rcases h with h | h
  · exact ⟨c.toNat - 48, by simp [h], by omega⟩
  · refine ⟨c.toNat - 87, ?_, by omega⟩
    rw [if_neg (by simp; omega), if_pos (by simp [h])]

theorem hexNum_foldl (s : Str) (a : Nat) :
    s.foldl (fun a c => 16 * a + (hexVal c).getD 0) a = a * 16 ^ s.length + hexNum s := by
  induction s generalizing a with
  | nil => simp [hexNum]
  | cons c s ih =>
    have h2 : hexNum (c :: s) = (16 * 0 + (hexVal c).getD 0) * 16 ^ s.length + hexNum s := by
      conv => lhs; rw [hexNum, List.foldl_cons, ih]
    rw [List.foldl_cons, ih, h2, List.length_cons, pow_succ]
    ring

theorem hexNum_append (a b : Str) : hexNum (a ++ b) = hexNum a * 16 ^ b.length + hexNum b := by
  rw [hexNum, List.foldl_append, hexNum_foldl]; rfl

theorem hexNum_lt (s : Str) (h : ∀ c ∈ s, isLowHex c) : hexNum s < 16 ^ s.length := by
  induction s with
  | nil => simp [hexNum]
  | cons c s ih =>
    obtain ⟨d, hd, hd'⟩ := hexVal_low (h c (by simp))
    have := ih fun c hc => h c (by simp [hc])
    rw [show c :: s = [c] ++ s from rfl, hexNum_append]
    have hc : hexNum [c] = d := by simp [hexNum, hd]
    rw [hc, List.length_append, List.length_singleton, pow_add, pow_one]
    calc d * 16 ^ s.length + hexNum s < d * 16 ^ s.length + 16 ^ s.length := by omega
      _ = (d + 1) * 16 ^ s.length := by ring
      _ ≤ 16 * 16 ^ s.length := Nat.mul_le_mul_right _ (by omega)

theorem hexNum_zeros (n : Nat) : hexNum (List.replicate n '0') = 0 := by
  induction n with
  | zero => rfl
  | succ n ih =>
    rw [List.replicate_succ', hexNum_append, ih]
    rfl

theorem natHex_spec (n : Nat) :
    (∀ c ∈ natHex n, isLowHex c) ∧ hexNum (natHex n) = n ∧ ∀ k, 0 < k → n < 16 ^ k → (natHex n).length ≤ k := by
  induction n using Nat.strong_induction_on with
  | _ n ih =>
    rw [natHex]
    split
    · rename_i h
      have := hexChar_spec n h
      refine ⟨by simpa using this.1, by simp [hexNum, this.2], fun k hk _ => by simpa using Nat.succ_le_of_lt hk⟩
    · rename_i h
      obtain ⟨h1, h2, h3⟩ := ih (n / 16) (by omega)
      have hd := hexChar_spec (n % 16) (Nat.mod_lt _ (by decide))
      refine ⟨?_, ?_, ?_⟩
      · intro c hc
        rcases List.mem_append.1 hc with hc | hc
        · exact h1 c hc
        · rw [List.mem_singleton] at hc; rw [hc]; exact hd.1
      · rw [hexNum_append, h2]
        simp only [hexNum, List.foldl_cons, List.foldl_nil, hd.2, List.length_singleton, Option.getD_some]
        omega
      · intro k hk hlt
        obtain ⟨k, rfl⟩ : ∃ j, k = j + 1 := ⟨k - 1, by omega⟩
        have hk' : 0 < k := by
          rcases Nat.eq_zero_or_pos k with rfl | h'
          · simp at hlt; omega
          · exact h'
        have := h3 k hk' (by rw [Nat.div_lt_iff_lt_mul (by decide), ← pow_succ]; exact hlt)
        simpa using this

theorem takeWhile_all {p : Char → Bool} {s : Str} (h : ∀ c ∈ s, p c = true) : s.takeWhile p = s := by
  induction s with
  | nil => rfl
  | cons c s ih =>
    rw [List.takeWhile_cons, if_pos (h c (by simp)), ih fun d hd => h d (by simp [hd])]

theorem parseInt16_low (s : Str) (h : ∀ c ∈ s, isLowHex c) (hne : s ≠ []) : parseInt16 s = some (hexNum s) := by
  have : s.takeWhile (fun c => (hexVal c).isSome) = s := by
    refine takeWhile_all fun c hc => ?_
    obtain ⟨d, hd, -⟩ := hexVal_low (h c hc)
    simp [hd]
  simp only [parseInt16, this, if_neg hne]
  rfl

/-- The hash string. -/
theorem fnvHash_spec (s : Str) :
    ∃ h, fnvHash s = .ok h ∧ h.length = 16 ∧ (∀ c ∈ h, isLowHex c) ∧ hexNum h = (nameHash s).toNat := by
  obtain ⟨h1, h2, h3⟩ := natHex_spec (nameHash s).toNat
  have hlt : (nameHash s).toNat < 16 ^ 16 := lt_of_lt_of_le (UInt64.toNat_lt _) (by decide)
  have hl := h3 16 (by decide) hlt
  refine ⟨_, by simp only [fnvHash, fnvLoop_name]; rw [if_neg (by omega)], by simp; omega, ?_, ?_⟩
  · intro c hc
    rcases List.mem_append.1 hc with hc | hc
    · rw [List.mem_replicate] at hc; rw [hc.2]; unfold isLowHex; decide
    · exact h1 c hc
  · rw [hexNum_append, hexNum_zeros, h2]; simp

theorem hashHalves_eq (s : Str) :
    hashHalves s = .ok ((nameHash s).toNat / 2 ^ 32, (nameHash s).toNat % 2 ^ 32) := by
  obtain ⟨h, h1, h2, h3, h4⟩ := fnvHash_spec s
  have hlo : ((h.drop 8).take 8) = h.drop 8 := List.take_of_length_le (by simp; omega)
  have ha : ∀ c ∈ h.take 8, isLowHex c := fun c hc => h3 c (List.mem_of_mem_take hc)
  have hb : ∀ c ∈ h.drop 8, isLowHex c := fun c hc => h3 c (List.mem_of_mem_drop hc)
  have hsplit : hexNum h = hexNum (h.take 8) * 16 ^ 8 + hexNum (h.drop 8) := by
    conv => lhs; rw [← List.take_append_drop 8 h]
    rw [hexNum_append]; simp [h2]
  have hl : hexNum (h.drop 8) < 16 ^ 8 := by
    have := hexNum_lt _ hb
    simpa [h2] using this
  simp only [hashHalves, h1, Res.ok_bind, hlo]
  rw [parseInt16_low _ ha (by intro hc; have := congrArg List.length hc; simp [h2] at this),
    parseInt16_low _ hb (by intro hc; have := congrArg List.length hc; simp [h2] at this)]
  have e : (16 : Nat) ^ 8 = 2 ^ 32 := by norm_num
  rw [e] at hl hsplit
  rw [← h4, hsplit, Nat.mul_comm, Nat.mul_add_div (by decide), Nat.div_eq_of_lt hl, Nat.mul_add_mod, Nat.mod_eq_of_lt hl, Nat.add_zero]

/-! ## Values -/

theorem toBigInt_ok_iff (N : JsNums) (v : JsVal) (z : Int) : toBigInt N v = .ok z ↔ IsInt N v z := by
  constructor
  · intro h
    cases v with
    | null => cases h
    | undef => cases h
    | bool b => cases h; exact IsInt.bool b
    | num z => cases h; exact IsInt.num _
    | numText s =>
      refine IsInt.numText s z ?_
      simp only [toBigInt, Res.ofOption] at h
      split at h <;> simp_all [Res.fail]
    | bigint z => cases h; exact IsInt.bigint _
    | str s =>
      refine IsInt.str s z ?_
      simp only [toBigInt, Res.ofOption] at h
      split at h <;> simp_all [Res.fail]
    | arr l => cases h
    | obj l => cases h
  · intro h
    cases h with
    | bool b => rfl
    | num z => rfl
    | numText s z h => simp [toBigInt, h, Res.ofOption]
    | bigint z => rfl
    | str s z h => simp [toBigInt, h, Res.ofOption]

theorem toBigInt_graceful (N : JsNums) (v : JsVal) : Graceful (toBigInt N v) := by
  cases v <;> first | exact Graceful.ok _ | exact Graceful.fail _ | exact Graceful.ofOption _ _

/-- Outcome of flattening leaves `vs` onto `res`. -/
def FlatOutcome (N : JsNums) (vs : List JsVal) (res : List Int) (r : Res (List Int)) : Prop :=
  (∃ zs, r = .ok (res ++ zs) ∧ List.Forall₂ (IsInt N) vs zs) ∨
  ((∃ e, r = .error (.err e)) ∧ ∃ v ∈ vs, ∀ z, ¬IsInt N v z)

theorem flatOutcome_single (N : JsNums) (v : JsVal) (res : List Int) :
    FlatOutcome N [v] res (toBigInt N v >>= fun z => .ok (res ++ [z])) := by
  cases h : toBigInt N v with
  | ok z => exact Or.inl ⟨[z], by simp, List.Forall₂.cons ((toBigInt_ok_iff N v z).1 h) List.Forall₂.nil⟩
  | error e =>
    have hg := toBigInt_graceful N v
    rw [h] at hg
    refine Or.inr ⟨?_, v, by simp, fun z hz => ?_⟩
    · cases e with
      | err m => exact ⟨m, rfl⟩
      | panic => exact absurd rfl hg.1
      | hang => exact absurd rfl hg.2
    · rw [(toBigInt_ok_iff N v z).2 hz] at h; cases h

mutual
theorem fillArray_outcome (N : JsNums) : ∀ (v : JsVal) (res : List Int), FlatOutcome N (leaves v) res (fillArray N v res)
  | .arr l, res => by rw [fillArray, leaves]; exact fillArrays_outcome N l res
  | .null, res => by rw [fillArray, leaves]; exact flatOutcome_single N _ res
  | .undef, res => by rw [fillArray, leaves]; exact flatOutcome_single N _ res
  | .bool b, res => by rw [fillArray, leaves]; exact flatOutcome_single N _ res
  | .num z, res => by rw [fillArray, leaves]; exact flatOutcome_single N _ res
  | .numText s, res => by rw [fillArray, leaves]; exact flatOutcome_single N _ res
  | .bigint z, res => by rw [fillArray, leaves]; exact flatOutcome_single N _ res
  | .str s, res => by rw [fillArray, leaves]; exact flatOutcome_single N _ res
  | .obj l, res => by rw [fillArray, leaves]; exact flatOutcome_single N _ res
theorem fillArrays_outcome (N : JsNums) : ∀ (l : List JsVal) (res : List Int), FlatOutcome N (leavesList l) res (fillArrays N l res)
  | [], res => by rw [fillArrays, leavesList]; exact Or.inl ⟨[], by simp, List.Forall₂.nil⟩
  | x :: xs, res => by
    rw [fillArrays, leavesList]
    rcases fillArray_outcome N x res with ⟨zs, h1, h2⟩ | ⟨⟨e, h1⟩, v, hv, hn⟩
    · rw [h1]
      simp only
      rcases fillArrays_outcome N xs (res ++ zs) with ⟨ys, h3, h4⟩ | ⟨⟨e, h3⟩, v, hv, hn⟩
      · exact Or.inl ⟨zs ++ ys, by rw [h3]; simp, List.rel_append (R := IsInt N) h2 h4⟩
      · exact Or.inr ⟨⟨e, h3⟩, v, by simp [hv], hn⟩
    · rw [h1]
      exact Or.inr ⟨⟨e, rfl⟩, v, by simp [hv], hn⟩
end

theorem isInt_unique {N : JsNums} {v : JsVal} {a b : Int} (ha : IsInt N v a) (hb : IsInt N v b) : a = b := by
  have h1 := (toBigInt_ok_iff N v a).2 ha
  rw [(toBigInt_ok_iff N v b).2 hb] at h1
  cases h1; rfl

theorem forall2_isInt_unique {N : JsNums} {vs : List JsVal} {a b : List Int} (ha : List.Forall₂ (IsInt N) vs a)
    (hb : List.Forall₂ (IsInt N) vs b) : a = b := by
  induction ha generalizing b with
  | nil => cases hb; rfl
  | cons h _ ih =>
    cases hb with
    | cons h' hb' => rw [isInt_unique h h', ih hb']

theorem flatArray_ok_iff (N : JsNums) (v : JsVal) (zs : List Int) :
    flatArray N v = .ok zs ↔ List.Forall₂ (IsInt N) (leaves v) zs := by
  rcases fillArray_outcome N v [] with ⟨ys, h1, h2⟩ | ⟨⟨e, h1⟩, w, hw, hn⟩
  · rw [List.nil_append] at h1
    rw [flatArray, h1]
    constructor
    · intro h; cases h; exact h2
    · intro h; rw [forall2_isInt_unique h2 h]
  · rw [flatArray, h1]
    constructor
    · intro h; cases h
    · intro h
      obtain ⟨hl, hh⟩ := List.forall₂_iff_get.1 h
      obtain ⟨i, hi, rfl⟩ := List.mem_iff_getElem.1 hw
      exact absurd (hh i hi (by omega)) (hn _)

theorem flatArray_graceful (N : JsNums) (v : JsVal) : Graceful (flatArray N v) := by
  rcases fillArray_outcome N v [] with ⟨ys, h1, h2⟩ | ⟨⟨e, h1⟩, w, hw, hn⟩
  · rw [flatArray, h1]; exact Graceful.ok _
  · rw [flatArray, h1]; exact Graceful.err _

/-! ## Shared memory -/

theorem normalizeBig_eq (z : Int) (p : Nat) (hp : p ≠ 0) : normalizeBig z p = z % p := by
  have hp' : (p : Int) ≠ 0 := by exact_mod_cast hp
  have hpos : (0 : Int) < p := by omega
  simp only [normalizeBig]
  have h1 := Int.tmod_add_mul_tdiv z p
  split
  · rename_i h
    have h2 := Int.lt_tmod_of_pos z hpos
    refine Int.emod_emod_of_dvd z (dvd_refl (p : Int)) |>.symm ▸ ?_
    have : z % (p : Int) = (z.tmod p + p) % p := by
      conv => lhs; rw [← h1]
      rw [Int.add_mul_emod_self_left, Int.add_emod_right]
    rw [Int.emod_emod_of_dvd z (dvd_refl (p : Int)), this, Int.emod_eq_of_lt (by omega) (by omega)]
  · rename_i h
    have h2 := Int.tmod_lt_of_pos z hpos
    conv => rhs; rw [← h1]
    rw [Int.add_mul_emod_self_left, Int.emod_eq_of_lt (by omega) h2]

theorem fromArray32_limbs (n v : Nat) (h : v < 2 ^ (32 * n)) : fromArray32 (limbs n v).reverse = v := by
  induction n generalizing v with
  | zero => simp at h; subst h; rfl
  | succ n ih =>
    rw [limbs, List.range_succ_eq_map]
    simp only [List.map_cons, List.map_map, List.reverse_cons, fromArray32, List.foldl_append, List.foldl_cons, List.foldl_nil]
    have h1 : (List.range n).map ((fun j => v / 2 ^ (32 * j) % 2 ^ 32) ∘ Nat.succ) = limbs n (v / 2 ^ 32) := by
      unfold limbs
      refine List.map_congr_left fun j _ => ?_
      simp only [Function.comp, Nat.succ_eq_add_one, Nat.mul_add, Nat.pow_add, Nat.div_div_eq_div_mul, Nat.mul_one]
      rw [Nat.mul_comm]
    rw [h1]
    have h2 := ih (v / 2 ^ 32) (by
      rw [Nat.div_lt_iff_lt_mul (by decide), ← Nat.pow_add]
      exact lt_of_lt_of_le h (Nat.pow_le_pow_right (by decide) (by omega)))
    rw [fromArray32] at h2
    rw [h2]
    simp only [Nat.mul_zero, Nat.pow_zero, Nat.div_one]
    omega

theorem sharedMemory_eq (n v : Nat) (h : v < 2 ^ (32 * n)) : sharedMemory n (toArray32 v n) = limbs n v := by
  obtain ⟨h1, h2, h3⟩ := Props.C31_limbs_inverse.1 v n h
  have hrev : sharedMemory n (toArray32 v n) = (toArray32 v n).reverse := by
    apply List.ext_getElem
    · simp [sharedMemory, h2]
    · intro i hi hi'
      simp only [sharedMemory, List.length_map, List.length_range] at hi
      simp only [sharedMemory, List.getElem_map, List.getElem_range, List.getElem_reverse, h2]
      rw [List.getD_eq_getElem?_getD, List.getElem?_eq_getElem (by omega)]; rfl
  rw [hrev]
  have := Props.fromArray32_inj (limbs n v).reverse (toArray32 v n) (by simp [limbs, h2])
    (by
      intro d hd
      simp only [limbs, List.mem_reverse, List.mem_map] at hd
      obtain ⟨j, -, rfl⟩ := hd
      exact Nat.mod_lt _ (by decide)) h3 (by rw [fromArray32_limbs n v h, h1])
  rw [← this, List.reverse_reverse]

theorem CalcInst.prime_lt {σ : Type} (x : CalcInst σ) : x.prime < 2 ^ (32 * x.n32) := by
  unfold CalcInst.prime
  rw [← Props.leNat_limbBytes]
  refine lt_of_lt_of_le (leNat_lt _) ?_
  rw [Props.limbBytes_length, show (256 : Nat) = 2 ^ 8 by norm_num, ← Nat.pow_mul]
  exact Nat.pow_le_pow_right (by decide) (by omega)

theorem value_memory {σ : Type} (x : CalcInst σ) (hp : x.prime ≠ 0) (z : Int) :
    sharedMemory x.n32 (toArray32 (normalizeBig z x.prime).toNat x.n32) = limbs x.n32 (z % x.prime).toNat := by
  rw [normalizeBig_eq z _ hp, sharedMemory_eq]
  refine lt_trans ?_ x.prime_lt
  have hp' : (0 : Int) < x.prime := by omega
  have := Int.emod_lt_of_pos z hp'
  have := Int.emod_nonneg z (by omega : (x.prime : Int) ≠ 0)
  omega

end Zkenc
