import Verif.Proofs.JsonRead
/-! Helper lemmas: what the JSON parser makes of a text does not depend on what follows; a truncated object or array is no JSON text. -/

namespace Zkenc

open JsonSpec

theorem skipWs_append {s r : Str} {c : Char} (e : Str) (h : skipWs s = c :: r) : skipWs (s ++ e) = c :: (r ++ e) := by
  induction s with
  | nil => cases h
  | cons x s ih =>
    unfold skipWs at *
    rw [List.cons_append]
    by_cases hx : jsonWs x = true
    · rw [List.dropWhile_cons_of_pos hx] at h ⊢
      exact ih h
    · rw [List.dropWhile_cons_of_neg hx] at h ⊢
      cases h
      rfl

theorem hex4_append {s r : Str} {n : Nat} (e : Str) (h : hex4 s = some (n, r)) : hex4 (s ++ e) = some (n, r ++ e) := by
  unfold hex4 at h
  split at h
  · split at h
    · rename_i h1 h2 h3 h4
      cases h
      simp only [List.cons_append, hex4, h1, h2, h3, h4]
    · cases h
  · cases h

theorem pUnicode_append {s r : Str} {c : Char} (e : Str) (h : pUnicode s = some (c, r)) : pUnicode (s ++ e) = some (c, r ++ e) := by
  unfold pUnicode at h ⊢
  split at h
  · cases h
  rename_i n r1 h1
  rw [hex4_append e h1]
  simp only
  split_ifs at h ⊢ with ha hb
  · split at h
    · rename_i r2
      split at h
      · cases h
      · rename_i m r3 h3
        simp only [List.cons_append, hex4_append e h3]
        by_cases hm : 0xDC00 ≤ m ∧ m < 0xE000
        · rw [if_pos hm] at h ⊢
          simp only [Option.some.injEq, Prod.mk.injEq] at h ⊢
          exact ⟨h.1, by rw [h.2]⟩
        · rw [if_neg hm] at h; cases h
    · cases h
  · cases h; rfl

theorem pEscape_append {s r : Str} {c : Char} (e : Str) (h : pEscape s = some (c, r)) : pEscape (s ++ e) = some (c, r ++ e) := by
  cases s with
  | nil => cases h
  | cons x s =>
    simp only [pEscape, List.cons_append] at h ⊢
    split_ifs at h ⊢ <;> first | (cases h; rfl) | exact pUnicode_append e h

theorem pChars_append : ∀ (f : Nat) (s k r e : Str), pChars f s = some (k, r) → pChars f (s ++ e) = some (k, r ++ e)
  | 0, _, _, _, _, h => by cases h
  | _ + 1, [], _, _, _, h => by cases h
  | f + 1, c :: s, k, r, e, h => by
    simp only [pChars, List.cons_append] at h ⊢
    split_ifs at h ⊢
    · cases h; rfl
    · split at h
      · cases h
      · rename_i x r1 h1
        rw [pEscape_append e h1]
        obtain ⟨⟨k', r'⟩, h2, h3⟩ := Option.map_eq_some_iff.1 h
        simp only [pChars_append f _ _ _ e h2, Option.map_some]
        cases h3; rfl
    · obtain ⟨⟨k', r'⟩, h2, h3⟩ := Option.map_eq_some_iff.1 h
      simp only [pChars_append f _ _ _ e h2, Option.map_some]
      cases h3; rfl

/-- What follows a number is fine for extension. -/
def NumEnd (t : JTree) (r : Str) : Prop := ∀ lit, t = .num lit → r ≠ [] ∧ Stops r

theorem stops_append {r : Str} (e : Str) (hne : r ≠ []) (h : Stops r) : Stops (r ++ e) := by
  cases r with
  | nil => exact absurd rfl hne
  | cons c t =>
    intro c' t' hc
    simp only [List.cons_append, List.cons.injEq] at hc
    rw [← hc.1]
    exact h c t rfl

theorem numEnd_of_skip {t : JTree} {r r' : Str} {c : Char} (h : skipWs r = c :: r') (hc : c = ',' ∨ c = ']' ∨ c = '}') : NumEnd t r := by
  intro lit _
  cases r with
  | nil => cases h
  | cons x r =>
    refine ⟨by simp, ?_⟩
    intro c' t' h'
    simp only [List.cons.injEq] at h'
    rw [← h'.1]
    unfold skipWs at h
    by_cases hx : jsonWs x = true
    · unfold jsonWs at hx
      simp only [Bool.or_eq_true, decide_eq_true_eq] at hx
      rcases hx with ((rfl | rfl) | rfl) | rfl <;> decide
    · rw [List.dropWhile_cons_of_neg hx] at h
      simp only [List.cons.injEq] at h
      rw [h.1]
      rcases hc with rfl | rfl | rfl <;> decide

theorem pNum_ext {s lit r : Str} (e : Str) (h : pNum s = some (lit, r)) (hr : r ≠ [] ∧ Stops r) :
    pNum (s ++ e) = some (lit, r ++ e) := by
  obtain ⟨rfl, hl⟩ := pNum_spec h
  rw [List.append_assoc]
  exact pNum_append hl (stops_append e hr.1 hr.2)

mutual
theorem pValue_append : ∀ (f : Nat) (s : Str) (t : JTree) (r e : Str), pValue f s = some (t, r) → NumEnd t r →
    pValue f (s ++ e) = some (t, r ++ e)
  | 0, _, _, _, _, h, _ => by simp only [pValue] at h; cases h
  | f + 1, s, t, r, e, h, hn => by
    simp only [pValue] at h ⊢
    split at h
    · cases h
    rename_i c r1 hs
    rw [skipWs_append e hs]
    simp only
    by_cases h1 : c = '"'
    · rw [if_pos h1] at h ⊢
      obtain ⟨⟨k', r'⟩, h2, h3⟩ := Option.map_eq_some_iff.1 h
      rw [pChars_append f _ _ _ e h2]; cases h3; rfl
    rw [if_neg h1] at h ⊢
    by_cases h2 : c = '['
    · rw [if_pos h2] at h ⊢
      by_cases h3 : (skipWs r1).head? = some ']'
      · rw [if_pos h3] at h
        cases hk : skipWs r1 with
        | nil => rw [hk] at h3; cases h3
        | cons d r2 =>
          rw [hk] at h h3
          rw [skipWs_append e hk, if_pos (by simpa using h3)]
          cases h; rfl
      · rw [if_neg h3] at h
        obtain ⟨⟨l', r'⟩, h4, h5⟩ := Option.map_eq_some_iff.1 h
        have : ¬ (skipWs (r1 ++ e)).head? = some ']' := by
          cases hk : skipWs r1 with
          | nil =>
            exfalso
            cases f with
            | zero => simp only [pItems] at h4; cases h4
            | succ f =>
              simp only [pItems] at h4
              cases f with
              | zero => simp only [pValue] at h4; cases h4
              | succ f => simp only [pValue, hk] at h4; cases h4
          | cons d r2 =>
            rw [skipWs_append e hk]
            rw [hk] at h3
            simpa using h3
        rw [if_neg this, pItems_append f _ _ _ e h4]
        cases h5; rfl
    rw [if_neg h2] at h ⊢
    by_cases h2b : c = '{'
    · rw [if_pos h2b] at h ⊢
      by_cases h3 : (skipWs r1).head? = some '}'
      · rw [if_pos h3] at h
        cases hk : skipWs r1 with
        | nil => rw [hk] at h3; cases h3
        | cons d r2 =>
          rw [hk] at h h3
          rw [skipWs_append e hk, if_pos (by simpa using h3)]
          cases h; rfl
      · rw [if_neg h3] at h
        obtain ⟨⟨l', r'⟩, h4, h5⟩ := Option.map_eq_some_iff.1 h
        have : ¬ (skipWs (r1 ++ e)).head? = some '}' := by
          cases hk : skipWs r1 with
          | nil =>
            exfalso
            cases f with
            | zero => simp only [pFields] at h4; cases h4
            | succ f => simp only [pFields, hk] at h4; cases h4
          | cons d r2 =>
            rw [skipWs_append e hk]
            rw [hk] at h3
            simpa using h3
        rw [if_neg this, pFields_append f _ _ _ e h4]
        cases h5; rfl
    rw [if_neg h2b] at h ⊢
    have word : ∀ (n : Nat) (w : Str) (v : JTree), w.length = n →
        (if r1.take n = w then some (v, r1.drop n) else none) = some (t, r) →
        (if (r1 ++ e).take n = w then some (v, (r1 ++ e).drop n) else none) = some (t, r ++ e) := by
      intro n w v hw hh
      split_ifs at hh with hc
      cases hh
      have hl : n ≤ r1.length := by
        have := congrArg List.length hc
        rw [List.length_take, hw] at this
        omega
      rw [if_pos (by rw [List.take_append_of_le_length hl]; exact hc), List.drop_append_of_le_length hl]
    by_cases h4 : c = 'n'
    · rw [if_pos h4] at h ⊢
      exact word 3 _ _ rfl h
    rw [if_neg h4] at h ⊢
    by_cases h5 : c = 't'
    · rw [if_pos h5] at h ⊢
      exact word 3 _ _ rfl h
    rw [if_neg h5] at h ⊢
    by_cases h6 : c = 'f'
    · rw [if_pos h6] at h ⊢
      exact word 4 _ _ rfl h
    rw [if_neg h6] at h ⊢
    obtain ⟨⟨lit, r'⟩, h7, h8⟩ := Option.map_eq_some_iff.1 h
    cases h8
    have := pNum_ext e h7 (hn lit rfl)
    rw [List.cons_append] at this
    rw [this]; rfl
theorem pItems_append : ∀ (f : Nat) (s : Str) (l : List JTree) (r e : Str), pItems f s = some (l, r) →
    pItems f (s ++ e) = some (l, r ++ e)
  | 0, _, _, _, _, h => by simp only [pItems] at h; cases h
  | f + 1, s, l, r, e, h => by
    simp only [pItems] at h ⊢
    split at h
    · cases h
    rename_i t r1 h1
    split at h
    · cases h
    rename_i c r2 h2
    by_cases hc : c = ','
    · rw [if_pos hc] at h
      obtain ⟨⟨l', r'⟩, h4, h5⟩ := Option.map_eq_some_iff.1 h
      rw [pValue_append f _ _ _ e h1 (numEnd_of_skip h2 (Or.inl hc))]
      simp only [skipWs_append e h2]
      rw [if_pos hc, pItems_append f _ _ _ e h4]
      cases h5; rfl
    · rw [if_neg hc] at h
      split_ifs at h with hb
      cases h
      rw [pValue_append f _ _ _ e h1 (numEnd_of_skip h2 (Or.inr (Or.inl hb)))]
      simp only [skipWs_append e h2]
      rw [if_neg hc, if_pos hb]
theorem pFields_append : ∀ (f : Nat) (s : Str) (l : List (Str × JTree)) (r e : Str), pFields f s = some (l, r) →
    pFields f (s ++ e) = some (l, r ++ e)
  | 0, _, _, _, _, h => by simp only [pFields] at h; cases h
  | f + 1, s, l, r, e, h => by
    simp only [pFields] at h ⊢
    split at h
    · cases h
    rename_i c r1 h1
    rw [skipWs_append e h1]
    simp only
    split_ifs at h ⊢ with hq
    split at h
    · cases h
    rename_i k r2 h2
    rw [pChars_append f _ _ _ e h2]
    simp only
    split at h
    · cases h
    rename_i c3 r3 h3
    rw [skipWs_append e h3]
    simp only
    split_ifs at h ⊢ with hcol
    split at h
    · cases h
    rename_i t r4 h4
    split at h
    · cases h
    rename_i c5 r5 h5
    by_cases hc : c5 = ','
    · rw [if_pos hc] at h
      obtain ⟨⟨l', r'⟩, h6, h7⟩ := Option.map_eq_some_iff.1 h
      rw [pValue_append f _ _ _ e h4 (numEnd_of_skip h5 (Or.inl hc))]
      simp only [skipWs_append e h5]
      rw [if_pos hc, pFields_append f _ _ _ e h6]
      cases h7; rfl
    · rw [if_neg hc] at h
      split_ifs at h with hb
      cases h
      rw [pValue_append f _ _ _ e h4 (numEnd_of_skip h5 (Or.inr (Or.inr hb)))]
      simp only [skipWs_append e h5]
      rw [if_neg hc, if_pos hb]
end

/-- No proper prefix of a text that ends with the closing bracket of its value is a JSON text with a bracketed value. -/
theorem pText_prefix {s e : Str} {t : JTree} (hfull : ∀ f, 2 * (s ++ e).length + 2 ≤ f → ∃ t', pValue f (s ++ e) = some (t', []))
    (h : pText s = some t) (ht : ∀ lit, t ≠ .num lit) : e = [] := by
  rw [pText_fuel s (2 * (s ++ e).length + 2) (by simp)] at h
  obtain ⟨⟨t1, r⟩, h1, h2⟩ := Option.bind_eq_some_iff.1 h
  simp only at h2
  split_ifs at h2
  cases h2
  obtain ⟨t', h'⟩ := hfull _ (Nat.le_refl _)
  have := pValue_append _ _ _ _ e h1 (fun lit hl => absurd hl (ht lit))
  rw [h'] at this
  simp only [Option.some.injEq, Prod.mk.injEq] at this
  have := congrArg List.length this.2
  simp only [List.length_nil, List.length_append] at this
  exact List.length_eq_zero_iff.1 (by omega)

end Zkenc
