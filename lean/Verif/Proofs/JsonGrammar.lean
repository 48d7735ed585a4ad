import Verif.Spec.JsonGrammar
import Verif.Proofs.JsonRead
/-!
# The parser accepts exactly the grammar
-/

namespace Zkenc

open JsonSpec

/-! ## White space -/

theorem jsonWs_iff (c : Char) : jsonWs c = true ↔ (c = ' ' ∨ c = '\t' ∨ c = '\n' ∨ c = '\r') := by
  simp [jsonWs, or_assoc]

theorem skipWs_split (s : Str) : ∃ w, s = w ++ skipWs s ∧ Ws w := by
  refine ⟨s.takeWhile jsonWs, (List.takeWhile_append_dropWhile ..).symm, fun c hc => ?_⟩
  exact (jsonWs_iff c).1 (List.mem_takeWhile_imp hc)

theorem skipWs_ws {w : Str} (h : Ws w) (s : Str) : skipWs (w ++ s) = skipWs s := by
  induction w with
  | nil => rfl
  | cons c w ih =>
    have := (jsonWs_iff c).2 (h c (by simp))
    rw [List.cons_append, skipWs, List.dropWhile_cons, if_pos this]
    exact ih fun d hd => h d (by simp [hd])

theorem ws_of_skip {s : Str} (h : skipWs s = []) : Ws s := by
  obtain ⟨w, h1, h2⟩ := skipWs_split s
  rw [h, List.append_nil] at h1
  rwa [h1]

theorem skipWs_nil {w : Str} (h : Ws w) : skipWs w = [] := by
  have := skipWs_ws h []
  rwa [List.append_nil] at this

/-! ## Strings -/

theorem hexVal_lt {c : Char} {n : Nat} (h : hexVal c = some n) : n < 16 := by
  unfold hexVal isDig digVal at h
  split_ifs at h with h1 h2 h3 <;> simp at h h1 <;> first | omega | (simp at h2; omega) | (simp at h3; omega)

theorem char_eq_of_toNat {c d : Char} (h : c.toNat = d.toNat) : c = d := by
  rw [← char_ofNat_toNat c, h, char_ofNat_toNat]

theorem hexVal_iff (c : Char) (n : Nat) : hexVal c = some n ↔ HexDigit c n := by
  unfold HexDigit
  constructor
  · intro h
    have hn := hexVal_lt h
    have key : ∀ d : Char, c.toNat = d.toNat → c = d := fun d => char_eq_of_toNat
    unfold hexVal isDig digVal at h
    split_ifs at h with h1 h2 h3
    · simp at h h1
      have hc : c.toNat = 48 + n := by omega
      have : n < 10 := by omega
      left
      interval_cases n <;> exact congrArg some (key _ (by rw [hc]; rfl)).symm
    · simp at h h2
      have hc : c.toNat = 87 + n := by omega
      have : 10 ≤ n := by omega
      left
      interval_cases n <;> exact congrArg some (key _ (by rw [hc]; rfl)).symm
    · simp at h h3
      have hc : c.toNat = 55 + n := by omega
      have : 10 ≤ n := by omega
      right
      interval_cases n <;> exact congrArg some (key _ (by rw [hc]; rfl)).symm
  · intro h
    have hn : n < 16 := by
      rcases h with h | h
      · exact (List.getElem?_eq_some_iff.1 h).1
      · exact (List.getElem?_eq_some_iff.1 h).1
    rcases h with h | h <;> (interval_cases n <;> (cases h; decide))

theorem hex4_iff (s r : Str) (n : Nat) : hex4 s = some (n, r) ↔ ∃ h, s = h ++ r ∧ Hex4 h n := by
  constructor
  · intro h
    unfold hex4 at h
    split at h
    · rename_i a b c d r'
      split at h
      · rename_i i j k l h1 h2 h3 h4
        cases h
        exact ⟨[a, b, c, d], rfl, a, b, c, d, i, j, k, l, rfl, (hexVal_iff _ _).1 h1, (hexVal_iff _ _).1 h2, (hexVal_iff _ _).1 h3,
          (hexVal_iff _ _).1 h4, by ring⟩
      · cases h
    · cases h
  · rintro ⟨h, rfl, a, b, c, d, i, j, k, l, rfl, h1, h2, h3, h4, rfl⟩
    simp only [List.cons_append, List.nil_append, hex4, (hexVal_iff _ _).2 h1, (hexVal_iff _ _).2 h2, (hexVal_iff _ _).2 h3, (hexVal_iff _ _).2 h4]
    congr 2
    ring

theorem hex4_lt {h : Str} {n : Nat} (hh : Hex4 h n) : n < 0x10000 := by
  obtain ⟨a, b, c, d, i, j, k, l, -, h1, h2, h3, h4, rfl⟩ := hh
  have := hexVal_lt ((hexVal_iff _ _).2 h1)
  have := hexVal_lt ((hexVal_iff _ _).2 h2)
  have := hexVal_lt ((hexVal_iff _ _).2 h3)
  have := hexVal_lt ((hexVal_iff _ _).2 h4)
  omega

theorem toNat_ofNat {n : Nat} (h : n.isValidChar) : (Char.ofNat n).toNat = n := by
  unfold Char.ofNat
  rw [dif_pos h]
  rfl

theorem char_valid (c : Char) : c.toNat < 0xD800 ∨ (0xDFFF < c.toNat ∧ c.toNat < 0x110000) := c.valid

theorem pUnicode_iff (s r : Str) (c : Char) : pUnicode s = some (c, r) ↔
    (∃ h, s = h ++ r ∧ Hex4 h c.toNat) ∨
    (∃ h h', s = h ++ '\\' :: 'u' :: (h' ++ r) ∧ 0x10000 ≤ c.toNat ∧ Hex4 h (0xD800 + (c.toNat - 0x10000) / 0x400) ∧
      Hex4 h' (0xDC00 + (c.toNat - 0x10000) % 0x400)) := by
  constructor
  · intro h
    unfold pUnicode at h
    split at h
    · cases h
    · rename_i n r1 h1
      obtain ⟨x, hx, hx'⟩ := (hex4_iff _ _ _).1 h1
      split_ifs at h with ha hb
      · split at h
        · rename_i r2
          split at h
          · cases h
          · rename_i m r3 h3
            obtain ⟨y, hy, hy'⟩ := (hex4_iff _ _ _).1 h3
            split_ifs at h with hm
            simp only [Option.some.injEq, Prod.mk.injEq] at h
            obtain ⟨rfl, rfl⟩ := h
            have hv : (0x10000 + (n - 0xD800) * 0x400 + (m - 0xDC00)).isValidChar := by
              right; constructor <;> omega
            right
            refine ⟨x, y, by rw [hx, hy], ?_, ?_, ?_⟩
            · rw [toNat_ofNat hv]; omega
            · rw [toNat_ofNat hv]
              convert hx' using 1
              omega
            · rw [toNat_ofNat hv]
              convert hy' using 1
              omega
        · cases h
      · simp only [Option.some.injEq, Prod.mk.injEq] at h
        obtain ⟨rfl, rfl⟩ := h
        have := hex4_lt hx'
        have hv : n.isValidChar := by
          rcases Nat.lt_or_ge n 0xD800 with hn | hn
          · exact Or.inl hn
          · right; constructor <;> omega
        left
        exact ⟨x, hx, by rw [toNat_ofNat hv]; exact hx'⟩
  · rintro (⟨h, rfl, hh⟩ | ⟨h, h', rfl, hc, hh, hh'⟩)
    · unfold pUnicode
      rw [(hex4_iff _ _ _).2 ⟨h, rfl, hh⟩]
      simp only
      have := char_valid c
      rw [if_neg (by omega), if_neg (by omega), char_ofNat_toNat]
    · have hv := char_valid c
      unfold pUnicode
      rw [(hex4_iff _ _ _).2 ⟨h, rfl, hh⟩]
      simp only
      rw [if_pos (by omega), (hex4_iff _ _ _).2 ⟨h', rfl, hh'⟩]
      simp only
      rw [if_pos (by omega)]
      have : 0x10000 + (0xD800 + (c.toNat - 0x10000) / 0x400 - 0xD800) * 0x400 + (0xDC00 + (c.toNat - 0x10000) % 0x400 - 0xDC00) = c.toNat := by omega
      rw [this, char_ofNat_toNat]

theorem pEscape_iff (s r : Str) (c : Char) : pEscape s = some (c, r) ↔
    (∃ e, s = e :: r ∧ (e, c) ∈ shortEscapes) ∨ ∃ s', s = 'u' :: s' ∧ pUnicode s' = some (c, r) := by
  have e8 : Char.ofNat 8 = '\x08' := rfl
  have e12 : Char.ofNat 12 = '\x0c' := rfl
  have e10 : Char.ofNat 10 = '\n' := rfl
  have e13 : Char.ofNat 13 = '\r' := rfl
  have e9 : Char.ofNat 9 = '\t' := rfl
  constructor
  · intro h
    cases s with
    | nil => cases h
    | cons e s =>
      rw [pEscape, e8, e12, e10, e13, e9] at h
      split_ifs at h with h1 h2 h3 h4 h5 h6 h7 h8 h9
      on_goal 9 => exact Or.inr ⟨s, by rw [h9], h⟩
      all_goals
        left
        cases h
        refine ⟨e, rfl, ?_⟩
        subst_vars
        simp [shortEscapes]
  · rintro (⟨e, rfl, he⟩ | ⟨s', rfl, h⟩)
    · simp only [shortEscapes, List.mem_cons, Prod.mk.injEq, List.not_mem_nil, or_false] at he
      rcases he with ⟨rfl, rfl⟩ | ⟨rfl, rfl⟩ | ⟨rfl, rfl⟩ | ⟨rfl, rfl⟩ | ⟨rfl, rfl⟩ | ⟨rfl, rfl⟩ | ⟨rfl, rfl⟩ | ⟨rfl, rfl⟩ <;>
        simp [pEscape]
    · simpa [pEscape] using h

theorem pChars_text : ∀ (f : Nat) (s k r : Str), pChars f s = some (k, r) → ∃ b, s = b ++ '"' :: r ∧ StrText b k
  | 0, _, _, _, h => by cases h
  | _ + 1, [], _, _, h => by cases h
  | f + 1, c :: s, k, r, h => by
    rw [pChars] at h
    split_ifs at h with h1 h2 h3
    · cases h
      exact ⟨[], by rw [h1]; rfl, .nil⟩
    · split at h
      · cases h
      · rename_i x r1 hx
        rw [Option.map_eq_some_iff] at h
        obtain ⟨⟨k', r'⟩, h4, h⟩ := h
        cases h
        obtain ⟨b, rfl, hb⟩ := pChars_text f _ _ _ h4
        subst h2
        rcases (pEscape_iff _ _ _).1 hx with ⟨e, rfl, he⟩ | ⟨s', rfl, hu⟩
        · exact ⟨'\\' :: e :: b, rfl, .short he hb⟩
        · rcases (pUnicode_iff _ _ _).1 hu with ⟨g, rfl, hg⟩ | ⟨g, g', rfl, hg, hg1, hg2⟩
          · exact ⟨'\\' :: 'u' :: (g ++ b), by simp, .code hg hb⟩
          · exact ⟨'\\' :: 'u' :: (g ++ '\\' :: 'u' :: (g' ++ b)), by simp, .pair hg hg1 hg2 hb⟩
    · rw [Option.map_eq_some_iff] at h
      obtain ⟨⟨k', r'⟩, h4, h⟩ := h
      cases h
      obtain ⟨b, rfl, hb⟩ := pChars_text f _ _ _ h4
      exact ⟨c :: b, rfl, .raw h1 h2 (by omega) hb⟩

theorem text_pChars {b k : Str} (h : StrText b k) : ∀ (f : Nat) (r : Str), b.length + 1 ≤ f → pChars f (b ++ '"' :: r) = some (k, r) := by
  induction h with
  | nil =>
    intro f r hf
    obtain ⟨f, rfl⟩ : ∃ g, f = g + 1 := ⟨f - 1, by omega⟩
    simp [pChars]
  | raw h1 h2 h3 _ ih =>
    intro f r hf
    obtain ⟨f, rfl⟩ : ∃ g, f = g + 1 := ⟨f - 1, by omega⟩
    simp only [List.length_cons] at hf
    rw [List.cons_append, pChars, if_neg h1, if_neg h2, if_neg (by omega), ih f r (by omega)]
    rfl
  | short he _ ih =>
    intro f r hf
    obtain ⟨f, rfl⟩ : ∃ g, f = g + 1 := ⟨f - 1, by omega⟩
    simp only [List.length_cons] at hf
    rw [List.cons_append, List.cons_append, pChars, if_neg (by decide), if_pos rfl, (pEscape_iff _ _ _).2 (Or.inl ⟨_, rfl, he⟩)]
    simp only
    rw [ih f r (by omega)]
    rfl
  | @code g _ _ _ hg _ ih =>
    intro f r hf
    obtain ⟨f, rfl⟩ : ∃ g, f = g + 1 := ⟨f - 1, by omega⟩
    simp only [List.length_cons, List.length_append] at hf
    rw [List.cons_append, List.cons_append, List.append_assoc, pChars, if_neg (by decide), if_pos rfl,
      (pEscape_iff _ _ _).2 (Or.inr ⟨_, rfl, (pUnicode_iff _ _ _).2 (Or.inl ⟨g, rfl, hg⟩)⟩)]
    simp only
    rw [ih f r (by omega)]
    rfl
  | @pair g g' _ _ _ h1 hg hg' _ ih =>
    intro f r hf
    obtain ⟨f, rfl⟩ : ∃ g, f = g + 1 := ⟨f - 1, by omega⟩
    simp only [List.length_cons, List.length_append] at hf
    rw [List.cons_append, List.cons_append, List.append_assoc, List.cons_append, List.cons_append, List.append_assoc, pChars, if_neg (by decide),
      if_pos rfl, (pEscape_iff _ _ _).2 (Or.inr ⟨_, rfl, (pUnicode_iff _ _ _).2 (Or.inr ⟨g, g', rfl, h1, hg, hg'⟩)⟩)]
    simp only
    rw [ih f r (by omega)]
    rfl

/-! ## Values: what the parser accepts is in the grammar -/

theorem head_tail {s : Str} {c : Char} (h : s.head? = some c) : s = c :: s.tail := by
  cases s with
  | nil => cases h
  | cons d t => cases h; rfl

mutual
theorem pValue_text : ∀ (f : Nat) (s : Str) (t : JTree) (r : Str), pValue f s = some (t, r) →
    ∃ w b, s = w ++ (b ++ r) ∧ Ws w ∧ ValueText b t
  | 0, _, _, _, h => by simp only [pValue] at h; cases h
  | f + 1, s, t, r, h => by
    simp only [pValue] at h
    obtain ⟨w, hs, hw⟩ := skipWs_split s
    split at h
    · cases h
    · rename_i c r1 hc
      rw [hc] at hs
      obtain ⟨w1, hs1, hw1⟩ := skipWs_split r1
      split_ifs at h with h1 h2 h3 h4 h5 h6 h7 h8 h9 h10 h11
      · rw [Option.map_eq_some_iff] at h
        obtain ⟨⟨k, r'⟩, h', h⟩ := h
        cases h
        obtain ⟨b, rfl, hb⟩ := pChars_text _ _ _ _ h'
        exact ⟨w, _, by rw [hs, h1]; simp, hw, .str hb⟩
      · cases h
        have := head_tail h3
        refine ⟨w, '[' :: (w1 ++ [']']), ?_, hw, .noItems hw1⟩
        rw [hs, h2]
        rw [this] at hs1
        conv_lhs => rw [hs1]
        simp
      · rw [Option.map_eq_some_iff] at h
        obtain ⟨⟨k, r'⟩, h', h⟩ := h
        cases h
        obtain ⟨b, rfl, hb⟩ := pItems_text f r1 k r' h'
        exact ⟨w, _, by rw [hs, h2]; simp, hw, .arr hb⟩
      · cases h
        have := head_tail h5
        refine ⟨w, '{' :: (w1 ++ ['}']), ?_, hw, .noFields hw1⟩
        rw [hs, h4]
        rw [this] at hs1
        conv_lhs => rw [hs1]
        simp
      · rw [Option.map_eq_some_iff] at h
        obtain ⟨⟨k, r'⟩, h', h⟩ := h
        cases h
        obtain ⟨b, rfl, hb⟩ := pFields_text f r1 k r' h'
        exact ⟨w, _, by rw [hs, h4]; simp, hw, .obj hb⟩
      · cases h
        refine ⟨w, ['n', 'u', 'l', 'l'], ?_, hw, .null⟩
        conv_lhs => rw [hs, h6, ← List.take_append_drop 3 r1, h7]
        simp
      · cases h
        refine ⟨w, ['t', 'r', 'u', 'e'], ?_, hw, .true⟩
        conv_lhs => rw [hs, h8, ← List.take_append_drop 3 r1, h9]
        simp
      · cases h
        refine ⟨w, ['f', 'a', 'l', 's', 'e'], ?_, hw, .false⟩
        conv_lhs => rw [hs, h10, ← List.take_append_drop 4 r1, h11]
        simp
      · rw [Option.map_eq_some_iff] at h
        obtain ⟨⟨k, r'⟩, h', h⟩ := h
        cases h
        obtain ⟨hl, hn⟩ := pNum_spec h'
        exact ⟨w, k, by rw [hs, hl], hw, .num hn⟩
theorem pItems_text : ∀ (f : Nat) (s : Str) (l : List JTree) (r : Str), pItems f s = some (l, r) → ∃ b, s = b ++ ']' :: r ∧ ItemsText b l
  | 0, _, _, _, h => by simp only [pItems] at h; cases h
  | f + 1, s, l, r, h => by
    simp only [pItems] at h
    split at h
    · cases h
    · rename_i t r1 h1
      obtain ⟨w, b, hs, hw, hb⟩ := pValue_text f s t r1 h1
      obtain ⟨w1, hs1, hw1⟩ := skipWs_split r1
      split at h
      · cases h
      · rename_i c r2 hc
        rw [hc] at hs1
        split_ifs at h with h2 h3
        · rw [Option.map_eq_some_iff] at h
          obtain ⟨⟨k, r'⟩, h', h⟩ := h
          cases h
          obtain ⟨b', rfl, hb'⟩ := pItems_text f r2 k r' h'
          exact ⟨_, by rw [hs, hs1, h2]; simp, .more hw hb hw1 hb'⟩
        · cases h
          exact ⟨_, by rw [hs, hs1, h3]; simp, .one hw hb hw1⟩
theorem pFields_text : ∀ (f : Nat) (s : Str) (l : List (Str × JTree)) (r : Str), pFields f s = some (l, r) →
    ∃ b, s = b ++ '}' :: r ∧ FieldsText b l
  | 0, _, _, _, h => by simp only [pFields] at h; cases h
  | f + 1, s, l, r, h => by
    simp only [pFields] at h
    obtain ⟨w, hs, hw⟩ := skipWs_split s
    split at h
    · cases h
    · rename_i c1 r1 hc1
      rw [hc1] at hs
      split_ifs at h with h1
      split at h
      · cases h
      · rename_i k r2 h2
        obtain ⟨n, rfl, hn⟩ := pChars_text _ _ _ _ h2
        obtain ⟨w2, hs2, hw2⟩ := skipWs_split r2
        split at h
        · cases h
        · rename_i c3 r3 hc3
          rw [hc3] at hs2
          split_ifs at h with h3
          split at h
          · cases h
          · rename_i t r4 h4
            obtain ⟨w3, b, rfl, hw3, hb⟩ := pValue_text f r3 t r4 h4
            obtain ⟨w4, hs4, hw4⟩ := skipWs_split r4
            split at h
            · cases h
            · rename_i c5 r5 hc5
              rw [hc5] at hs4
              split_ifs at h with h5 h6
              · rw [Option.map_eq_some_iff] at h
                obtain ⟨⟨k, r'⟩, h', h⟩ := h
                cases h
                obtain ⟨b', rfl, hb'⟩ := pFields_text f r5 k r' h'
                exact ⟨_, by rw [hs, h1, hs2, h3, hs4, h5]; simp, .more hw hn hw2 hw3 hb hw4 hb'⟩
              · cases h
                exact ⟨_, by rw [hs, h1, hs2, h3, hs4, h6]; simp, .one hw hn hw2 hw3 hb hw4⟩
end

/-! ## Values: what is in the grammar is accepted -/

theorem stops_ws {w r : Str} (hw : Ws w) (hr : Stops r) : Stops (w ++ r) := by
  cases w with
  | nil => exact hr
  | cons c w =>
    intro d t h
    cases h
    rcases hw c (by simp) with rfl | rfl | rfl | rfl <;> decide

/-- How a value starts. -/
theorem valueText_head {b : Str} {t : JTree} (h : ValueText b t) : ∃ c b', b = c :: b' ∧ jsonWs c = false ∧ c ≠ ']' ∧ c ≠ '}' := by
  cases h with
  | null => exact ⟨'n', _, rfl, by decide, by decide, by decide⟩
  | true => exact ⟨'t', _, rfl, by decide, by decide, by decide⟩
  | false => exact ⟨'f', _, rfl, by decide, by decide, by decide⟩
  | num hl =>
    obtain ⟨c, t, h1, h2, -, -, -, -, -, -, h3, h4⟩ := NumLit.head hl
    exact ⟨c, t, h1, h2, h3, h4⟩
  | str _ => exact ⟨'"', _, rfl, by decide, by decide, by decide⟩
  | noItems _ => exact ⟨'[', _, rfl, by decide, by decide, by decide⟩
  | arr _ => exact ⟨'[', _, rfl, by decide, by decide, by decide⟩
  | noFields _ => exact ⟨'{', _, rfl, by decide, by decide, by decide⟩
  | obj _ => exact ⟨'{', _, rfl, by decide, by decide, by decide⟩

theorem itemsText_head {b : Str} {l : List JTree} (h : ItemsText b l) (r : Str) : (skipWs (b ++ r)).head? ≠ some ']' ∧ 1 ≤ b.length := by
  cases h with
  | one hw hb hw' =>
    obtain ⟨c, b', rfl, h1, h2, -⟩ := valueText_head hb
    refine ⟨?_, by simp; omega⟩
    rw [List.append_assoc, skipWs_ws hw, List.cons_append, List.cons_append, skipWs_cons h1]
    simpa using h2
  | more hw hb hw' _ =>
    obtain ⟨c, b', rfl, h1, h2, -⟩ := valueText_head hb
    refine ⟨?_, by simp; omega⟩
    rw [List.append_assoc, skipWs_ws hw, List.cons_append, List.cons_append, skipWs_cons h1]
    simpa using h2

theorem fieldsText_head {b : Str} {l : List (Str × JTree)} (h : FieldsText b l) (r : Str) : (skipWs (b ++ r)).head? ≠ some '}' ∧ 1 ≤ b.length := by
  cases h with
  | one hw =>
    refine ⟨?_, by simp; omega⟩
    rw [List.append_assoc, skipWs_ws hw, List.cons_append, skipWs_cons (by decide)]
    simp
  | more hw =>
    refine ⟨?_, by simp; omega⟩
    rw [List.append_assoc, skipWs_ws hw, List.cons_append, skipWs_cons (by decide)]
    simp

mutual
theorem text_pValue {b : Str} {t : JTree} : ValueText b t → ∀ (f : Nat) (w r : Str), Ws w → 2 * b.length + 1 ≤ f → Stops r →
    pValue f (w ++ (b ++ r)) = some (t, r)
  | .null, f, w, r, hw, hf, _ => by
    obtain ⟨f, rfl⟩ : ∃ g, f = g + 1 := ⟨f - 1, by omega⟩
    simp only [pValue, skipWs_ws hw]
    simp [skipWs, jsonWs]
  | .true, f, w, r, hw, hf, _ => by
    obtain ⟨f, rfl⟩ : ∃ g, f = g + 1 := ⟨f - 1, by omega⟩
    simp only [pValue, skipWs_ws hw]
    simp [skipWs, jsonWs]
  | .false, f, w, r, hw, hf, _ => by
    obtain ⟨f, rfl⟩ : ∃ g, f = g + 1 := ⟨f - 1, by omega⟩
    simp only [pValue, skipWs_ws hw]
    simp [skipWs, jsonWs]
  | .num hl, f, w, r, hw, hf, hr => by
    obtain ⟨f, rfl⟩ : ∃ g, f = g + 1 := ⟨f - 1, by omega⟩
    obtain ⟨c, t, h1, h2, h3, h4, h5, h6, h7, h8, h9, h10⟩ := NumLit.head hl
    have hp := pNum_append hl hr
    simp only [pValue, skipWs_ws hw]
    rw [h1] at hp ⊢
    rw [List.cons_append] at hp ⊢
    rw [skipWs_cons h2]
    simp only
    simp only [h3, h4, h5, h6, h7, h8, if_false, hp, Option.map_some]
  | .str hb, f, w, r, hw, hf, _ => by
    obtain ⟨f, rfl⟩ : ∃ g, f = g + 1 := ⟨f - 1, by omega⟩
    simp only [List.length_cons, List.length_append, List.length_nil] at hf
    simp only [pValue, skipWs_ws hw]
    rw [List.cons_append, skipWs_cons (by decide), List.append_assoc]
    simp only [if_true, List.cons_append, List.nil_append]
    rw [text_pChars hb f r (by omega)]
    rfl
  | .noItems hw', f, w, r, hw, hf, _ => by
    obtain ⟨f, rfl⟩ : ∃ g, f = g + 1 := ⟨f - 1, by omega⟩
    simp only [pValue, skipWs_ws hw]
    rw [List.cons_append, skipWs_cons (by decide), List.append_assoc]
    simp only [skipWs_ws hw', List.cons_append, List.nil_append, skipWs_cons (show jsonWs ']' = false by decide)]
    simp
  | .arr hb, f, w, r, hw, hf, _ => by
    obtain ⟨f, rfl⟩ : ∃ g, f = g + 1 := ⟨f - 1, by omega⟩
    simp only [List.length_cons, List.length_append, List.length_nil] at hf
    simp only [pValue, skipWs_ws hw]
    rw [List.cons_append, skipWs_cons (by decide), List.append_assoc]
    have := text_pItems hb f r (by omega)
    simp only [List.cons_append, List.nil_append]
    rw [if_neg (by decide), if_pos trivial, if_neg (itemsText_head hb _).1, this]
    rfl
  | .noFields hw', f, w, r, hw, hf, _ => by
    obtain ⟨f, rfl⟩ : ∃ g, f = g + 1 := ⟨f - 1, by omega⟩
    simp only [pValue, skipWs_ws hw]
    rw [List.cons_append, skipWs_cons (by decide), List.append_assoc]
    simp only [skipWs_ws hw', List.cons_append, List.nil_append, skipWs_cons (show jsonWs '}' = false by decide)]
    simp
  | .obj hb, f, w, r, hw, hf, _ => by
    obtain ⟨f, rfl⟩ : ∃ g, f = g + 1 := ⟨f - 1, by omega⟩
    simp only [List.length_cons, List.length_append, List.length_nil] at hf
    simp only [pValue, skipWs_ws hw]
    rw [List.cons_append, skipWs_cons (by decide), List.append_assoc]
    have := text_pFields hb f r (by omega)
    simp only [List.cons_append, List.nil_append]
    rw [if_neg (by decide), if_neg (by decide), if_pos trivial, if_neg (fieldsText_head hb _).1, this]
    rfl
theorem text_pItems {b : Str} {l : List JTree} : ItemsText b l → ∀ (f : Nat) (r : Str), 2 * b.length + 2 ≤ f →
    pItems f (b ++ ']' :: r) = some (l, r)
  | .one hw hb hw', f, r, hf => by
    obtain ⟨f, rfl⟩ : ∃ g, f = g + 1 := ⟨f - 1, by omega⟩
    simp only [List.length_append] at hf
    rw [List.append_assoc, List.append_assoc, pItems, text_pValue hb f _ _ hw (by omega) (stops_ws hw' (stops_bracket r))]
    simp only [skipWs_ws hw', skipWs_cons (show jsonWs ']' = false by decide)]
    simp
  | .more hw hb hw' hb', f, r, hf => by
    obtain ⟨f, rfl⟩ : ∃ g, f = g + 1 := ⟨f - 1, by omega⟩
    simp only [List.length_append, List.length_cons] at hf
    rw [List.append_assoc, List.append_assoc, List.append_assoc, pItems, List.cons_append,
      text_pValue hb f _ _ hw (by omega) (stops_ws hw' (stops_comma _))]
    simp only [skipWs_ws hw', skipWs_cons (show jsonWs ',' = false by decide), if_true]
    rw [text_pItems hb' f r (by omega)]
    rfl
theorem text_pFields {b : Str} {l : List (Str × JTree)} : FieldsText b l → ∀ (f : Nat) (r : Str), 2 * b.length + 2 ≤ f →
    pFields f (b ++ '}' :: r) = some (l, r)
  | .one hw hn hw1 hw2 hb hw3, f, r, hf => by
    obtain ⟨f, rfl⟩ : ∃ g, f = g + 1 := ⟨f - 1, by omega⟩
    simp only [List.length_append, List.length_cons] at hf
    simp only [List.append_assoc, List.cons_append]
    simp only [pFields, skipWs_ws hw, skipWs_cons (show jsonWs '"' = false by decide), if_true, text_pChars hn f _ (by omega), skipWs_ws hw1,
      skipWs_cons (show jsonWs ':' = false by decide), text_pValue hb f _ _ hw2 (by omega) (stops_ws hw3 (stops_brace r)), skipWs_ws hw3,
      skipWs_cons (show jsonWs '}' = false by decide)]
    simp
  | .more hw hn hw1 hw2 hb hw3 hb', f, r, hf => by
    obtain ⟨f, rfl⟩ : ∃ g, f = g + 1 := ⟨f - 1, by omega⟩
    simp only [List.length_append, List.length_cons] at hf
    simp only [List.append_assoc, List.cons_append]
    simp only [pFields, skipWs_ws hw, skipWs_cons (show jsonWs '"' = false by decide), if_true, text_pChars hn f _ (by omega), skipWs_ws hw1,
      skipWs_cons (show jsonWs ':' = false by decide), text_pValue hb f _ _ hw2 (by omega) (stops_ws hw3 (stops_comma _)), skipWs_ws hw3,
      skipWs_cons (show jsonWs ',' = false by decide), text_pFields hb' f r (by omega)]
    simp
end

/-- The parser accepts exactly the JSON texts. -/
theorem pText_iff (s : Str) (t : JTree) : pText s = some t ↔ Text s t := by
  constructor
  · intro h
    unfold pText at h
    split at h
    · cases h
    · rename_i t' r h1
      split_ifs at h with h2
      cases h
      obtain ⟨w, b, hs, hw, hb⟩ := pValue_text _ _ _ _ h1
      exact ⟨w, b, r, hs, hw, hb, ws_of_skip h2⟩
  · rintro ⟨w, b, w', rfl, hw, hb, hw'⟩
    unfold pText
    rw [text_pValue hb _ w w' hw (by simp only [List.length_append]; omega) (by simpa using stops_ws hw' stops_nil)]
    simp only
    rw [if_pos (skipWs_nil hw')]

end Zkenc
