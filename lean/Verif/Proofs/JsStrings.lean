import Verif.Spec.JsStrings
import Verif.Proofs.JsonGrammar
/-!
# UTF-16
-/

namespace Zkenc

open JsonSpec

theorem u16_toNat_ofNat {n : Nat} (h : n < 0x10000) : (UInt16.ofNat n).toNat = n := by
  rw [UInt16.toNat_ofNat']; exact Nat.mod_eq_of_lt h

theorem u16_lt (u : UInt16) : u.toNat < 0x10000 := UInt16.toNat_lt u

theorem u16_ext {u v : UInt16} (h : u.toNat = v.toNat) : u = v := UInt16.toNat_inj.1 h

theorem charUnits_small {c : Char} (h : c.toNat < 0x10000) : charUnits c = [UInt16.ofNat c.toNat] := by unfold charUnits; rw [if_pos h]

theorem charUnits_large {c : Char} (h : ¬ c.toNat < 0x10000) :
    charUnits c = [UInt16.ofNat (0xD800 + (c.toNat - 0x10000) / 0x400), UInt16.ofNat (0xDC00 + (c.toNat - 0x10000) % 0x400)] := by
  unfold charUnits; rw [if_neg h]

theorem utf16_iff (s : Str) (k : JStr) : Utf16 s k ↔ k = strUnits s := by
  constructor
  · intro h
    induction h with
    | nil => rfl
    | @one c u s us h1 _ ih =>
      have hu := u16_lt u
      rw [ih, show strUnits (c :: s) = charUnits c ++ strUnits s from List.flatMap_cons, charUnits_small (by omega)]
      have : u = UInt16.ofNat c.toNat := u16_ext (by rw [u16_toNat_ofNat (by omega), h1])
      rw [← this]; rfl
    | @two c u v s us h1 h2 h3 h4 h5 _ ih =>
      have hu := u16_lt u
      have hv := u16_lt v
      rw [ih, show strUnits (c :: s) = charUnits c ++ strUnits s from List.flatMap_cons, charUnits_large (by omega)]
      have e1 : u = UInt16.ofNat (0xD800 + (c.toNat - 0x10000) / 0x400) := u16_ext (by rw [u16_toNat_ofNat (by omega)]; omega)
      have e2 : v = UInt16.ofNat (0xDC00 + (c.toNat - 0x10000) % 0x400) := u16_ext (by rw [u16_toNat_ofNat (by omega)]; omega)
      rw [← e1, ← e2]; rfl
  · rintro rfl
    induction s with
    | nil => exact .nil
    | cons c s ih =>
      have hv := char_valid c
      rw [strUnits, List.flatMap_cons]
      by_cases hc : c.toNat < 0x10000
      · rw [charUnits_small hc]
        exact .one (u16_toNat_ofNat hc) ih
      · rw [charUnits_large hc]
        refine .two ?_ ?_ ?_ ?_ ?_ ih
        · rw [u16_toNat_ofNat (by omega)]; omega
        · rw [u16_toNat_ofNat (by omega)]; omega
        · rw [u16_toNat_ofNat (by omega)]; omega
        · rw [u16_toNat_ofNat (by omega)]; omega
        · rw [u16_toNat_ofNat (by omega), u16_toNat_ofNat (by omega)]; omega

/-- The code units of a code point. -/
def pointUnits : CodePoint → JStr
  | .char c => charUnits c
  | .lone u => [u]

theorem isHigh_iff (u : UInt16) : isHigh u = true ↔ 0xD800 ≤ u.toNat ∧ u.toNat < 0xDC00 := by simp [isHigh]
theorem isLow_iff (u : UInt16) : isLow u = true ↔ 0xDC00 ≤ u.toNat ∧ u.toNat < 0xE000 := by simp [isLow]

theorem valid_of_not_surrogate {u : UInt16} (h : ¬ (isHigh u = true ∨ isLow u = true)) : u.toNat.isValidChar := by
  rw [isHigh_iff, isLow_iff] at h
  have := u16_lt u
  rcases Nat.lt_or_ge u.toNat 0xD800 with hn | hn
  · exact Or.inl hn
  · right; constructor <;> omega

theorem charUnits_ofNat {u : UInt16} (h : ¬ (isHigh u = true ∨ isLow u = true)) : charUnits (Char.ofNat u.toNat) = [u] := by
  have hv := toNat_ofNat (valid_of_not_surrogate h)
  rw [charUnits_small (by rw [hv]; exact u16_lt u), hv]
  simp

theorem pair_valid {u v : UInt16} (h1 : isHigh u = true) (h2 : isLow v = true) :
    (0x10000 + (u.toNat - 0xD800) * 0x400 + (v.toNat - 0xDC00)).isValidChar := by
  rw [isHigh_iff] at h1
  rw [isLow_iff] at h2
  right; constructor <;> omega

theorem charUnits_pair {u v : UInt16} (h1 : isHigh u = true) (h2 : isLow v = true) :
    charUnits (Char.ofNat (0x10000 + (u.toNat - 0xD800) * 0x400 + (v.toNat - 0xDC00))) = [u, v] := by
  have hv := toNat_ofNat (pair_valid h1 h2)
  rw [isHigh_iff] at h1
  rw [isLow_iff] at h2
  rw [charUnits_large (by rw [hv]; omega), hv]
  have e1 : u = UInt16.ofNat (0xD800 + (0x10000 + (u.toNat - 0xD800) * 0x400 + (v.toNat - 0xDC00) - 0x10000) / 0x400) :=
    u16_ext (by rw [u16_toNat_ofNat (by omega)]; omega)
  have e2 : v = UInt16.ofNat (0xDC00 + (0x10000 + (u.toNat - 0xD800) * 0x400 + (v.toNat - 0xDC00) - 0x10000) % 0x400) :=
    u16_ext (by rw [u16_toNat_ofNat (by omega)]; omega)
  rw [← e1, ← e2]

/-- The code points of a string have its code units. -/
theorem codePoints_units (k : JStr) : (codePoints k).flatMap pointUnits = k := by
  induction k using codePoints.induct with
  | case1 => rfl
  | case2 u h =>
    simp only [codePoints, h, if_true]; rfl
  | case3 u h =>
    simp only [codePoints, h]
    simp only [Bool.or_eq_true] at h
    simp [pointUnits, charUnits_ofNat h]
  | case4 u v r h ih =>
    rw [codePoints, if_pos h, List.flatMap_cons, ih]
    simp only [Bool.and_eq_true] at h
    rw [pointUnits, charUnits_pair h.1 h.2]; rfl
  | case5 u v r h h' ih =>
    rw [codePoints, if_neg h, if_pos h', List.flatMap_cons, ih]; rfl
  | case6 u v r h h' ih =>
    rw [codePoints, if_neg h, if_neg h', List.flatMap_cons, ih]
    simp only [Bool.or_eq_true] at h'
    rw [pointUnits, charUnits_ofNat h']; rfl

theorem codePoints_char {u : UInt16} (h : ¬ (isHigh u = true ∨ isLow u = true)) (r : JStr) :
    codePoints (u :: r) = .char (Char.ofNat u.toNat) :: codePoints r := by
  have h' : (isHigh u || isLow u) = false := by simpa using h
  cases r with
  | nil => simp [codePoints, h']
  | cons v r =>
    have : (isHigh u && isLow v) = false := by simp at h' ⊢; simp [h'.1]
    simp [codePoints, h', this]

theorem codePoints_strUnits (s : Str) : codePoints (strUnits s) = s.map .char := by
  induction s with
  | nil => rfl
  | cons c s ih =>
    have hv := char_valid c
    rw [strUnits, List.flatMap_cons, List.map_cons]
    by_cases hc : c.toNat < 0x10000
    · have e := u16_toNat_ofNat hc
      rw [charUnits_small hc, List.singleton_append, codePoints_char (by rw [isHigh_iff, isLow_iff, e]; omega), e, char_ofNat_toNat]
      rw [← strUnits, ih]
    · rw [charUnits_large hc, List.cons_append, List.singleton_append, codePoints]
      have e1 := u16_toNat_ofNat (show 0xD800 + (c.toNat - 0x10000) / 0x400 < 0x10000 by omega)
      have e2 := u16_toNat_ofNat (show 0xDC00 + (c.toNat - 0x10000) % 0x400 < 0x10000 by omega)
      rw [if_pos (by rw [Bool.and_eq_true, isHigh_iff, isLow_iff, e1, e2]; omega), e1, e2, ← strUnits, ih]
      have : 0x10000 + (0xD800 + (c.toNat - 0x10000) / 0x400 - 0xD800) * 0x400 + (0xDC00 + (c.toNat - 0x10000) % 0x400 - 0xDC00) = c.toNat := by omega
      rw [this, char_ofNat_toNat]

theorem charsOf_map (s : Str) : charsOf (s.map .char) = some s := by
  induction s with
  | nil => rfl
  | cons c s ih => simp [charsOf, ih]

theorem charsOf_some {l : List CodePoint} {s : Str} (h : charsOf l = some s) : l = s.map .char := by
  induction l generalizing s with
  | nil => cases h; rfl
  | cons p l ih =>
    cases p with
    | lone u => cases h
    | char c =>
      rw [charsOf, Option.map_eq_some_iff] at h
      obtain ⟨t, h1, rfl⟩ := h
      rw [ih h1]; rfl

theorem toStr?_strUnits (s : Str) : JStr.toStr? (strUnits s) = some s := by
  rw [JStr.toStr?, codePoints_strUnits, charsOf_map]

theorem flatMap_char (s : Str) : (s.map CodePoint.char).flatMap pointUnits = strUnits s := by
  rw [List.flatMap_map]; rfl

theorem toStr?_iff (k : JStr) (s : Str) : k.toStr? = some s ↔ k = strUnits s := by
  constructor
  · intro h
    have := charsOf_some h
    have h2 := codePoints_units k
    rw [this, flatMap_char] at h2
    exact h2.symm
  · rintro rfl; exact toStr?_strUnits s

theorem strUnits_inj {s t : Str} (h : strUnits s = strUnits t) : s = t := by
  have := toStr?_strUnits s
  rw [h, toStr?_strUnits] at this
  exact (Option.some.inj this).symm

theorem strUnits_append (s t : Str) : strUnits (s ++ t) = strUnits s ++ strUnits t := by
  simp [strUnits, List.flatMap_append]

theorem strUnits_cons (c : Char) (t : Str) : strUnits (c :: t) = charUnits c ++ strUnits t := by
  simp [strUnits]

theorem charUnits_ne (c : Char) : charUnits c ≠ [] := by
  unfold charUnits; split_ifs <;> simp

theorem strUnits_nil_iff (s : Str) : strUnits s = [] ↔ s = [] := by
  cases s with
  | nil => simp [strUnits]
  | cons c s => simp [strUnits_cons, charUnits_ne]

theorem wellFormed_iff (k : JStr) : WellFormed k ↔ ∃ s, k.toStr? = some s := by
  unfold WellFormed
  simp only [utf16_iff, toStr?_iff]

theorem uKeyIndex_iff (k : JStr) (n : Nat) : uKeyIndex k = some n ↔ UIsIndex k n := by
  unfold uKeyIndex UIsIndex
  rw [Option.bind_eq_some_iff, utf16_iff]
  constructor
  · rintro ⟨s, h1, h2⟩
    rw [keyIndex_iff] at h2
    rw [toStr?_iff] at h1
    rw [h1, h2.1]
    exact ⟨rfl, h2.2⟩
  · rintro ⟨h1, h2⟩
    exact ⟨natDec n, (toStr?_iff _ _).2 h1, (keyIndex_iff _ _).2 ⟨rfl, h2⟩⟩

end Zkenc
