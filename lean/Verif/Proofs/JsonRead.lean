import Verif.Proofs.JsonText
/-!
# What the JSON parser returns: fewer characters left, well-formed number literals, and no dependence on the step bound
-/

namespace Zkenc

open JsonSpec

theorem skipWs_le (s : Str) : (skipWs s).length ≤ s.length := List.length_dropWhile_le _ _

theorem skipWs_lt {s r : Str} {c : Char} (h : skipWs s = c :: r) : r.length < s.length := by
  have := skipWs_le s; rw [h] at this; simp at this; omega

theorem hex4_len {s r : Str} {n : Nat} (h : hex4 s = some (n, r)) : r.length < s.length := by
  unfold hex4 at h
  split at h
  · split at h
    · cases h; simp only [List.length_cons]; omega
    · cases h
  · cases h

theorem pUnicode_len {s r : Str} {c : Char} (h : pUnicode s = some (c, r)) : r.length < s.length := by
  unfold pUnicode at h
  split at h
  · cases h
  · rename_i n r1 h1
    have := hex4_len h1
    split_ifs at h
    · split at h
      · split at h
        · cases h
        · rename_i m r3 h3
          have := hex4_len h3
          split_ifs at h
          simp only [Option.some.injEq, Prod.mk.injEq] at h
          obtain ⟨-, rfl⟩ := h
          simp only [List.length_cons] at *; omega
      · cases h
    · simp only [Option.some.injEq, Prod.mk.injEq] at h
      obtain ⟨-, rfl⟩ := h
      omega

theorem pEscape_len {s r : Str} {c : Char} (h : pEscape s = some (c, r)) : r.length < s.length := by
  cases s with
  | nil => cases h
  | cons e s =>
    rw [pEscape] at h
    split_ifs at h
    all_goals first
      | (have h' := h; simp only [Option.some.injEq, Prod.mk.injEq] at h'; rw [← h'.2]; simp)
      | (have := pUnicode_len h; simp only [List.length_cons]; omega)

theorem pChars_len : ∀ (f : Nat) (s k r : Str), pChars f s = some (k, r) → r.length < s.length
  | 0, _, _, _, h => by cases h
  | _ + 1, [], _, _, h => by cases h
  | f + 1, c :: s, k, r, h => by
    rw [pChars] at h
    split_ifs at h
    · cases h; simp
    · split at h
      · cases h
      · rename_i x r1 h1
        have := pEscape_len h1
        rw [Option.map_eq_some_iff] at h
        obtain ⟨⟨k', r'⟩, h2, h⟩ := h
        cases h
        have := pChars_len f _ _ _ h2
        simp only [List.length_cons]; omega
    · rw [Option.map_eq_some_iff] at h
      obtain ⟨⟨k', r'⟩, h2, h⟩ := h
      cases h
      have := pChars_len f _ _ _ h2
      simp only [List.length_cons]; omega

/-- More steps do not change the result. -/
theorem pChars_fuel : ∀ (f g : Nat) (s : Str), s.length + 1 ≤ f → s.length + 1 ≤ g → pChars f s = pChars g s
  | 0, _, _, h, _ => by omega
  | _, 0, _, _, h => by omega
  | f + 1, g + 1, [], _, _ => by rw [pChars, pChars]
  | f + 1, g + 1, c :: s, hf, hg => by
    simp only [List.length_cons] at hf hg
    rw [pChars, pChars]
    split_ifs
    · rfl
    · cases he : pEscape s with
      | none => rfl
      | some p =>
        obtain ⟨x, r⟩ := p
        have := pEscape_len he
        simp only
        rw [pChars_fuel f g r (by omega) (by omega)]
    · rfl
    · rw [pChars_fuel f g s (by omega) (by omega)]

theorem all_takeWhile (s : Str) : (s.takeWhile isDig).all isDig = true := by
  rw [List.all_eq_true]
  intro x hx
  exact (List.mem_takeWhile_imp hx)

theorem pDigits_spec {s ds r : Str} (h : pDigits s = some (ds, r)) : ds ≠ [] ∧ ds.all isDig = true ∧ s = ds ++ r := by
  unfold pDigits at h
  split_ifs at h with hn
  cases h
  exact ⟨hn, all_takeWhile s, List.takeWhile_append_dropWhile.symm⟩

theorem pInt_spec {s i r : Str} (h : pInt s = some (i, r)) : s = i ++ r ∧
    (i = ['0'] ∨ ∃ c ds, i = c :: ds ∧ isDig c = true ∧ c ≠ '0' ∧ ds.all isDig = true) := by
  cases s with
  | nil => cases h
  | cons c s =>
    rw [pInt] at h
    split_ifs at h with h0 hd
    · cases h; subst h0; exact ⟨rfl, Or.inl rfl⟩
    · cases h
      exact ⟨by rw [List.cons_append, List.takeWhile_append_dropWhile], Or.inr ⟨c, _, rfl, hd, h0, all_takeWhile s⟩⟩

theorem pFrac_spec {s q r : Str} (h : pFrac s = some (q, r)) : s = q ++ r ∧ (q = [] ∨ ∃ ds, q = '.' :: ds ∧ ds ≠ [] ∧ ds.all isDig = true) := by
  unfold pFrac at h
  split at h
  · cases h; exact ⟨rfl, Or.inl rfl⟩
  · rename_i c s
    split_ifs at h with hc
    · rw [Option.map_eq_some_iff] at h
      obtain ⟨⟨ds, r'⟩, h1, h⟩ := h
      cases h
      obtain ⟨h2, h3, h4⟩ := pDigits_spec h1
      exact ⟨by rw [hc, h4]; rfl, Or.inr ⟨ds, rfl, h2, h3⟩⟩
    · cases h; exact ⟨rfl, Or.inl rfl⟩

theorem pExp_spec {s e r : Str} (h : pExp s = some (e, r)) : s = e ++ r ∧ (e = [] ∨ ∃ c sg ds, e = c :: (sg ++ ds) ∧ (c = 'e' ∨ c = 'E') ∧
    (sg = [] ∨ sg = ['+'] ∨ sg = ['-']) ∧ ds ≠ [] ∧ ds.all isDig = true) := by
  unfold pExp at h
  split at h
  · cases h; exact ⟨rfl, Or.inl rfl⟩
  · rename_i c s
    split_ifs at h with hc
    · split at h
      · cases h
      · rename_i d r'
        split_ifs at h with hd
        · rw [Option.map_eq_some_iff] at h
          obtain ⟨⟨ds, r''⟩, h1, h⟩ := h
          cases h
          obtain ⟨h2, h3, h4⟩ := pDigits_spec h1
          refine ⟨by rw [h4]; rfl, Or.inr ⟨c, [d], ds, rfl, hc, ?_, h2, h3⟩⟩
          rcases hd with rfl | rfl
          · exact Or.inr (Or.inl rfl)
          · exact Or.inr (Or.inr rfl)
        · rw [Option.map_eq_some_iff] at h
          obtain ⟨⟨ds, r''⟩, h1, h⟩ := h
          cases h
          obtain ⟨h2, h3, h4⟩ := pDigits_spec h1
          exact ⟨by rw [h4]; rfl, Or.inr ⟨c, [], ds, rfl, hc, Or.inl rfl, h2, h3⟩⟩
    · cases h; exact ⟨rfl, Or.inl rfl⟩

/-- A parsed number is a number literal at the start of the text. -/
theorem pNum_spec {s lit r : Str} (h : pNum s = some (lit, r)) : s = lit ++ r ∧ NumLit lit := by
  unfold pNum at h
  simp only [Option.bind_eq_bind, Option.bind_eq_some_iff] at h
  obtain ⟨⟨i, r1⟩, h1, ⟨q, r2⟩, h2, ⟨e, r3⟩, h3, h⟩ := h
  simp only at h1 h2 h3 h
  cases h
  obtain ⟨e1, hi⟩ := pInt_spec h1
  obtain ⟨e2, hq⟩ := pFrac_spec h2
  obtain ⟨e3, he⟩ := pExp_spec h3
  have hsg : (if s.head? = some '-' then ['-'] else []) = [] ∨ (if s.head? = some '-' then ['-'] else []) = ['-'] := by
    split_ifs
    · exact Or.inr rfl
    · exact Or.inl rfl
  refine ⟨?_, NumLit.mk _ _ _ _ hsg hi hq he⟩
  subst e2; subst e3
  split_ifs at e1 ⊢ with hs
  · cases s with
    | nil => cases hs
    | cons c s =>
      simp only [List.head?_cons, Option.some.injEq] at hs
      subst hs
      simp only [List.length_cons, List.length_nil, List.drop_succ_cons, List.drop_zero] at e1
      rw [e1]; simp
  · simp only [List.length_nil, List.drop_zero] at e1
    rw [e1]; simp

theorem pNum_len {s lit r : Str} (h : pNum s = some (lit, r)) : r.length < s.length := by
  obtain ⟨h1, h2⟩ := pNum_spec h
  obtain ⟨c, t, h3, -⟩ := NumLit.head h2
  rw [h1, h3]; simp only [List.length_append, List.length_cons]; omega

theorem tail_len {s : Str} {c : Char} (h : s.head? = some c) : s.tail.length < s.length := by
  cases s with
  | nil => cases h
  | cons _ _ => simp

mutual
theorem pValue_spec : ∀ (f : Nat) (s : Str) (t : JTree) (r : Str), pValue f s = some (t, r) → r.length < s.length ∧ t.Lits
  | 0, _, _, _, h => by simp only [pValue] at h; cases h
  | f + 1, s, t, r, h => by
    simp only [pValue] at h
    split at h
    · cases h
    · rename_i c r1 hc
      have hl := skipWs_lt hc
      have hw := skipWs_le r1
      split_ifs at h with h1 h2 h3 h4 h5 h6 h7 h8 h9 h10 h11
      · rw [Option.map_eq_some_iff] at h
        obtain ⟨⟨k, r'⟩, h', h⟩ := h
        cases h
        have := pChars_len _ _ _ _ h'
        exact ⟨by simp only; omega, trivial⟩
      · cases h
        have := tail_len h3
        exact ⟨by omega, by simp [JTree.Lits, litsItems]⟩
      · rw [Option.map_eq_some_iff] at h
        obtain ⟨⟨k, r'⟩, h', h⟩ := h
        cases h
        have := pItems_spec f r1 k r' h'
        exact ⟨by simp only; omega, by simp only [JTree.Lits]; exact this.2⟩
      · cases h
        have := tail_len h5
        exact ⟨by omega, by simp [JTree.Lits, litsFields]⟩
      · rw [Option.map_eq_some_iff] at h
        obtain ⟨⟨k, r'⟩, h', h⟩ := h
        cases h
        have := pFields_spec f r1 k r' h'
        exact ⟨by simp only; omega, by simp only [JTree.Lits]; exact this.2⟩
      · cases h
        exact ⟨by simp only [List.length_drop]; omega, trivial⟩
      · cases h
        exact ⟨by simp only [List.length_drop]; omega, trivial⟩
      · cases h
        exact ⟨by simp only [List.length_drop]; omega, trivial⟩
      · rw [Option.map_eq_some_iff] at h
        obtain ⟨⟨k, r'⟩, h', h⟩ := h
        cases h
        have := pNum_len h'
        have h2 := skipWs_le s
        rw [hc] at h2
        simp only at this ⊢
        exact ⟨by omega, by simp only [JTree.Lits]; exact (pNum_spec h').2⟩
theorem pItems_spec : ∀ (f : Nat) (s : Str) (l : List JTree) (r : Str), pItems f s = some (l, r) → r.length < s.length ∧ litsItems l
  | 0, _, _, _, h => by simp only [pItems] at h; cases h
  | f + 1, s, l, r, h => by
    simp only [pItems] at h
    split at h
    · cases h
    · rename_i t r1 h1
      obtain ⟨h2, h3⟩ := pValue_spec f s t r1 h1
      split at h
      · cases h
      · rename_i c r2 hc
        have hl := skipWs_lt hc
        split_ifs at h
        · rw [Option.map_eq_some_iff] at h
          obtain ⟨⟨k, r'⟩, h', h⟩ := h
          cases h
          have := pItems_spec f r2 k r' h'
          exact ⟨by simp only; omega, by simp only [litsItems]; exact ⟨h3, this.2⟩⟩
        · cases h
          exact ⟨by omega, by simp only [litsItems]; exact ⟨h3, trivial⟩⟩
theorem pFields_spec : ∀ (f : Nat) (s : Str) (l : List (Str × JTree)) (r : Str), pFields f s = some (l, r) →
    r.length < s.length ∧ litsFields l
  | 0, _, _, _, h => by simp only [pFields] at h; cases h
  | f + 1, s, l, r, h => by
    simp only [pFields] at h
    split at h
    · cases h
    · rename_i c1 r1 hc1
      have hl1 := skipWs_lt hc1
      split_ifs at h
      split at h
      · cases h
      · rename_i k r2 h2
        have := pChars_len _ _ _ _ h2
        split at h
        · cases h
        · rename_i c3 r3 hc3
          have hl3 := skipWs_lt hc3
          split_ifs at h
          split at h
          · cases h
          · rename_i t r4 h4
            obtain ⟨h5, h6⟩ := pValue_spec f r3 t r4 h4
            split at h
            · cases h
            · rename_i c5 r5 hc5
              have hl5 := skipWs_lt hc5
              split_ifs at h
              · rw [Option.map_eq_some_iff] at h
                obtain ⟨⟨k, r'⟩, h', h⟩ := h
                cases h
                have := pFields_spec f r5 k r' h'
                exact ⟨by simp only; omega, by simp only [litsFields]; exact ⟨h6, this.2⟩⟩
              · cases h
                exact ⟨by omega, by simp only [litsFields]; exact ⟨h6, trivial⟩⟩
end

mutual
theorem pValue_fuel : ∀ (f g : Nat) (s : Str), 2 * s.length + 1 ≤ f → 2 * s.length + 1 ≤ g → pValue f s = pValue g s
  | 0, _, _, h, _ => by omega
  | _ + 1, 0, _, _, h => by omega
  | f + 1, g + 1, s, hf, hg => by
    simp only [pValue]
    cases hc : skipWs s with
    | nil => rfl
    | cons c r =>
      have hl := skipWs_lt hc
      simp only
      rw [pChars_fuel f g r (by omega) (by omega)]
      rw [pItems_fuel f g r (by omega) (by omega), pFields_fuel f g r (by omega) (by omega)]
theorem pItems_fuel : ∀ (f g : Nat) (s : Str), 2 * s.length + 2 ≤ f → 2 * s.length + 2 ≤ g → pItems f s = pItems g s
  | 0, _, _, h, _ => by omega
  | _ + 1, 0, _, _, h => by omega
  | f + 1, g + 1, s, hf, hg => by
    simp only [pItems]
    rw [pValue_fuel f g s (by omega) (by omega)]
    cases hv : pValue g s with
    | none => rfl
    | some p =>
      obtain ⟨t, r⟩ := p
      have := (pValue_spec g s t r hv).1
      simp only
      cases hc : skipWs r with
      | nil => rfl
      | cons c r2 =>
        have hl := skipWs_lt hc
        simp only
        rw [pItems_fuel f g r2 (by omega) (by omega)]
theorem pFields_fuel : ∀ (f g : Nat) (s : Str), 2 * s.length + 2 ≤ f → 2 * s.length + 2 ≤ g → pFields f s = pFields g s
  | 0, _, _, h, _ => by omega
  | _ + 1, 0, _, _, h => by omega
  | f + 1, g + 1, s, hf, hg => by
    simp only [pFields]
    cases hc : skipWs s with
    | nil => rfl
    | cons c r =>
      have hl := skipWs_lt hc
      simp only
      rw [pChars_fuel f g r (by omega) (by omega)]
      split_ifs
      · cases hv : pChars g r with
        | none => rfl
        | some p =>
          obtain ⟨k, r2⟩ := p
          have := pChars_len _ _ _ _ hv
          simp only
          cases hc2 : skipWs r2 with
          | nil => rfl
          | cons c3 r3 =>
            have hl3 := skipWs_lt hc2
            simp only
            rw [pValue_fuel f g r3 (by omega) (by omega)]
            split_ifs
            · cases hv2 : pValue g r3 with
              | none => rfl
              | some p =>
                obtain ⟨t, r4⟩ := p
                have := (pValue_spec g r3 t r4 hv2).1
                simp only
                cases hc4 : skipWs r4 with
                | nil => rfl
                | cons c5 r5 =>
                  have hl5 := skipWs_lt hc4
                  simp only
                  rw [pFields_fuel f g r5 (by omega) (by omega)]
            · rfl
      · rfl
end

/-- The step bound of `pText` plays no role. -/
theorem pText_fuel (s : Str) (f : Nat) (hf : 2 * s.length + 2 ≤ f) :
    pText s = (pValue f s).bind fun p => if skipWs p.2 = [] then some p.1 else none := by
  unfold pText
  rw [pValue_fuel (2 * s.length + 2) f s (by omega) (by omega)]
  cases pValue f s <;> rfl

theorem pText_lits {s : Str} {t : JTree} (h : pText s = some t) : t.Lits := by
  unfold pText at h
  split at h
  · cases h
  · rename_i t' r h1
    split_ifs at h
    cases h
    exact (pValue_spec _ _ _ _ h1).2

end Zkenc
