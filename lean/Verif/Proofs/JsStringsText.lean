import Verif.Proofs.JsStrings
/-!
# The JSON parser on JS strings: it reads what the writer writes, and accepts exactly the grammar

The proofs follow `Proofs/JsonText`, `Proofs/JsonGrammar` and `Props/JsonGrammar`.
-/

namespace Zkenc

open JsonSpec

/-! ## Strings -/

theorem hex4_unicodeEscape (u : UInt16) (t : Str) : ∃ a b c d, unicodeEscape u = ['\\', 'u', a, b, c, d] ∧
    hex4 (a :: b :: c :: d :: t) = some (u.toNat, t) := by
  have hu := u16_lt u
  refine ⟨_, _, _, _, rfl, ?_⟩
  simp only [hex4, hexVal_hexDigit (show u.toNat / 4096 < 16 by omega), hexVal_hexDigit (Nat.mod_lt _ (show 16 > 0 by decide))]
  have : ((u.toNat / 4096 * 16 + u.toNat / 256 % 16) * 16 + u.toNat / 16 % 16) * 16 + u.toNat % 16 = u.toNat := by omega
  rw [this]

theorem uChars_esc (f : Nat) (p : CodePoint) (t : Str) :
    uChars (f + 1) (uEscPoint p ++ t) = (uChars f t).map fun u => (pointUnits p ++ u.1, u.2) := by
  cases p with
  | lone u =>
    obtain ⟨a, b, c, d, h1, h2⟩ := hex4_unicodeEscape u t
    rw [uEscPoint, h1]
    simp only [List.cons_append, List.nil_append, uChars]
    rw [if_neg (by decide), if_pos trivial, uEscape, if_pos rfl, h2]
    simp [pointUnits]
  | char c =>
    rw [uEscPoint, pointUnits]
    -- short escapes, `\u00xx`, or the character itself
    have short : ∀ e : Char, escChar c = ['\\', e] → e ≠ 'u' → (∀ r, pEscape (e :: r) = some (c, r)) →
        uChars (f + 1) (escChar c ++ t) = (uChars f t).map fun u => (charUnits c ++ u.1, u.2) := by
      intro e he hne hp
      rw [he]
      simp only [List.cons_append, List.nil_append, uChars]
      rw [if_neg (by decide), if_pos trivial, uEscape, if_neg hne, hp]
      rfl
    by_cases h1 : c = '"'
    · exact short '"' (by subst h1; rfl) (by decide) (by intro r; subst h1; simp [pEscape])
    by_cases h2 : c = '\\'
    · exact short '\\' (by subst h2; rfl) (by decide) (by intro r; subst h2; simp [pEscape])
    have key : ∀ n, c.toNat = n → Char.ofNat n = c := fun n h => by rw [← h]; exact char_ofNat_toNat c
    by_cases h8 : c.toNat = 8
    · have := key _ h8
      exact short 'b' (by subst this; rfl) (by decide) (by intro r; subst this; simp [pEscape])
    by_cases h9 : c.toNat = 9
    · have := key _ h9
      exact short 't' (by subst this; rfl) (by decide) (by intro r; subst this; simp [pEscape])
    by_cases h10 : c.toNat = 10
    · have := key _ h10
      exact short 'n' (by subst this; rfl) (by decide) (by intro r; subst this; simp [pEscape])
    by_cases h12 : c.toNat = 12
    · have := key _ h12
      exact short 'f' (by subst this; rfl) (by decide) (by intro r; subst this; simp [pEscape])
    by_cases h13 : c.toNat = 13
    · have := key _ h13
      exact short 'r' (by subst this; rfl) (by decide) (by intro r; subst this; simp [pEscape])
    unfold escChar
    rw [if_neg h1, if_neg h2, if_neg h8, if_neg h9, if_neg h10, if_neg h12, if_neg h13]
    by_cases h32 : c.toNat < 32
    · rw [if_pos h32]
      have hd : hexVal (escChar.hexDigit (c.toNat % 16)) = some (c.toNat % 16) := hexVal_hexDigit (Nat.mod_lt _ (by decide))
      have h0 : hexVal '0' = some 0 := by decide
      have h1' : hexVal '1' = some 1 := by decide
      have hx : hex4 ('0' :: '0' :: (if c.toNat < 16 then '0' else '1') :: escChar.hexDigit (c.toNat % 16) :: t) = some (c.toNat, t) := by
        simp only [hex4, h0, hd]
        by_cases h16 : c.toNat < 16
        · simp only [if_pos h16, h0]; rw [Nat.mod_eq_of_lt h16]; simp
        · simp only [if_neg h16, h1']
          have : ((0 * 16 + 0) * 16 + 1) * 16 + c.toNat % 16 = c.toNat := by omega
          rw [this]
      simp only [List.cons_append, List.nil_append, uChars]
      rw [if_neg (by decide), if_pos trivial, uEscape, if_pos rfl, hx, charUnits_small (by omega)]
      simp
    · rw [if_neg h32]
      simp only [List.cons_append, List.nil_append, uChars]
      rw [if_neg h1, if_neg h2, if_neg h32]

theorem uEscPoint_length (p : CodePoint) : 1 ≤ (uEscPoint p).length := by
  cases p with
  | lone u => simp [uEscPoint, unicodeEscape]
  | char c => rw [uEscPoint]; unfold escChar; split_ifs <;> simp

theorem uChars_points (l : List CodePoint) : ∀ (f : Nat) (r : Str), (l.flatMap uEscPoint).length + 1 ≤ f →
    uChars f (l.flatMap uEscPoint ++ '"' :: r) = some (l.flatMap pointUnits, r) := by
  induction l with
  | nil =>
    intro f r h
    obtain ⟨f, rfl⟩ : ∃ g, f = g + 1 := ⟨f - 1, by omega⟩
    simp [uChars]
  | cons p l ih =>
    intro f r h
    obtain ⟨f, rfl⟩ : ∃ g, f = g + 1 := ⟨f - 1, by omega⟩
    have hc := uEscPoint_length p
    simp only [List.flatMap_cons, List.length_append] at h
    rw [List.flatMap_cons, List.append_assoc, uChars_esc, ih f r (by omega)]
    rfl

theorem uChars_quoted (s : JStr) (f : Nat) (r : Str) (h : ((codePoints s).flatMap uEscPoint).length + 1 ≤ f) :
    uChars f ((codePoints s).flatMap uEscPoint ++ '"' :: r) = some (s, r) := by
  rw [uChars_points _ f r h, codePoints_units]

theorem uEscape_iff (s r : Str) (x : JStr) : uEscape s = some (x, r) ↔
    (∃ e c, s = e :: r ∧ (e, c) ∈ shortEscapes ∧ Utf16 [c] x) ∨ ∃ (h : Str) (u : UInt16), s = 'u' :: (h ++ r) ∧ Hex4 h u.toNat ∧ x = [u] := by
  have hone : ∀ c : Char, strUnits [c] = charUnits c := fun c => by simp [strUnits]
  cases s with
  | nil => simp [uEscape]
  | cons e s =>
    rw [uEscape]
    split_ifs with h1
    · subst h1
      rw [Option.map_eq_some_iff]
      constructor
      · rintro ⟨⟨n, r'⟩, h2, h⟩
        cases h
        obtain ⟨h, rfl, hh⟩ := (hex4_iff _ _ _).1 h2
        exact Or.inr ⟨h, UInt16.ofNat n, rfl, by rw [u16_toNat_ofNat (hex4_lt hh)]; exact hh, rfl⟩
      · rintro (⟨e, c, he, hm, -⟩ | ⟨h, u, he, hh, rfl⟩)
        · cases he
          simp [shortEscapes] at hm
        · cases he
          exact ⟨(u.toNat, r), (hex4_iff _ _ _).2 ⟨h, rfl, hh⟩, by simp⟩
    · rw [Option.map_eq_some_iff]
      constructor
      · rintro ⟨⟨c, r'⟩, h2, h⟩
        cases h
        rcases (pEscape_iff _ _ _).1 h2 with ⟨e', he, hm⟩ | ⟨s', he, -⟩
        · cases he
          exact Or.inl ⟨e, c, rfl, hm, (utf16_iff _ _).2 (hone c).symm⟩
        · cases he; exact absurd rfl h1
      · rintro (⟨e', c, he, hm, hx⟩ | ⟨h, u, he, -⟩)
        · cases he
          exact ⟨(c, r), (pEscape_iff _ _ _).2 (Or.inl ⟨e, rfl, hm⟩), by rw [(utf16_iff _ _).1 hx, hone]⟩
        · cases he; exact absurd rfl h1

theorem uChars_text : ∀ (f : Nat) (s : Str) (k : JStr) (r : Str), uChars f s = some (k, r) → ∃ b, s = b ++ '"' :: r ∧ UStrText b k
  | 0, _, _, _, h => by cases h
  | _ + 1, [], _, _, h => by cases h
  | f + 1, c :: s, k, r, h => by
    rw [uChars] at h
    split_ifs at h with h1 h2 h3
    · cases h
      exact ⟨[], by rw [h1]; rfl, .nil⟩
    · split at h
      · cases h
      · rename_i x r1 hx
        rw [Option.map_eq_some_iff] at h
        obtain ⟨⟨k', r'⟩, h4, h⟩ := h
        cases h
        obtain ⟨b, rfl, hb⟩ := uChars_text f _ _ _ h4
        subst h2
        rcases (uEscape_iff _ _ _).1 hx with ⟨e, c, rfl, he, hu⟩ | ⟨g, u, rfl, hg, rfl⟩
        · exact ⟨'\\' :: e :: b, rfl, .short he hu hb⟩
        · exact ⟨'\\' :: 'u' :: (g ++ b), by simp, .code hg hb⟩
    · rw [Option.map_eq_some_iff] at h
      obtain ⟨⟨k', r'⟩, h4, h⟩ := h
      cases h
      obtain ⟨b, rfl, hb⟩ := uChars_text f _ _ _ h4
      exact ⟨c :: b, rfl, .raw h1 h2 (by omega) ((utf16_iff _ _).2 (by simp [strUnits])) hb⟩

theorem text_uChars {b : Str} {k : JStr} (h : UStrText b k) : ∀ (f : Nat) (r : Str), b.length + 1 ≤ f → uChars f (b ++ '"' :: r) = some (k, r) := by
  induction h with
  | nil =>
    intro f r hf
    obtain ⟨f, rfl⟩ : ∃ g, f = g + 1 := ⟨f - 1, by omega⟩
    simp [uChars]
  | @raw c u _ _ h1 h2 h3 hu _ ih =>
    intro f r hf
    obtain ⟨f, rfl⟩ : ∃ g, f = g + 1 := ⟨f - 1, by omega⟩
    simp only [List.length_cons] at hf
    have hu : u = charUnits c := by rw [(utf16_iff _ _).1 hu]; simp [strUnits]
    rw [List.cons_append, uChars, if_neg h1, if_neg h2, if_neg (by omega), ih f r (by omega), hu]
    rfl
  | short he hu _ ih =>
    intro f r hf
    obtain ⟨f, rfl⟩ : ∃ g, f = g + 1 := ⟨f - 1, by omega⟩
    simp only [List.length_cons] at hf
    rw [List.cons_append, List.cons_append, uChars, if_neg (by decide), if_pos rfl, (uEscape_iff _ _ _).2 (Or.inl ⟨_, _, rfl, he, hu⟩)]
    simp only
    rw [ih f r (by omega)]
    rfl
  | @code g u _ _ hg _ ih =>
    intro f r hf
    obtain ⟨f, rfl⟩ : ∃ g, f = g + 1 := ⟨f - 1, by omega⟩
    simp only [List.length_cons, List.length_append] at hf
    rw [List.cons_append, List.cons_append, List.append_assoc, uChars, if_neg (by decide), if_pos rfl,
      (uEscape_iff _ _ _).2 (Or.inr ⟨g, u, rfl, hg, rfl⟩)]
    simp only
    rw [ih f r (by omega)]
    rfl

/-! ## Values -/

mutual
/-- All number literals are well-formed. -/
def UTree.Lits : UTree → Prop
  | .num lit => NumLit lit
  | .arr l => uLitsItems l
  | .obj l => uLitsFields l
  | _ => True
def uLitsItems : List UTree → Prop
  | [] => True
  | t :: ts => t.Lits ∧ uLitsItems ts
def uLitsFields : List (JStr × UTree) → Prop
  | [] => True
  | (_, t) :: ts => t.Lits ∧ uLitsFields ts
end

theorem uQuote_ne (s : JStr) : ∃ t, uQuote s = '"' :: t := ⟨_, rfl⟩

theorem uRender_head : ∀ t : UTree, t.Lits → ∃ c u, t.render = c :: u ∧ jsonWs c = false ∧ c ≠ ']' ∧ c ≠ '}'
  | .null, _ => ⟨'n', _, by simp only [UTree.render]; rfl, by decide, by decide, by decide⟩
  | .bool true, _ => ⟨'t', _, by simp [UTree.render, boolText]; rfl, by decide, by decide, by decide⟩
  | .bool false, _ => ⟨'f', _, by simp [UTree.render, boolText]; rfl, by decide, by decide, by decide⟩
  | .num lit, h => by
    rw [UTree.Lits] at h
    obtain ⟨c, t, h1, h2, -, -, -, -, -, -, h3, h4⟩ := NumLit.head h
    exact ⟨c, t, by simp only [UTree.render]; exact h1, h2, h3, h4⟩
  | .str s, _ => ⟨'"', _, by simp only [UTree.render, uQuote]; rfl, by decide, by decide, by decide⟩
  | .arr l, _ => ⟨'[', _, by simp only [UTree.render]; rfl, by decide, by decide, by decide⟩
  | .obj l, _ => ⟨'{', _, by simp only [UTree.render]; rfl, by decide, by decide, by decide⟩

mutual
theorem uValue_render : ∀ (t : UTree), t.Lits → ∀ (f : Nat) (r : Str), 2 * t.render.length + 1 ≤ f → Stops r →
    uValue f (t.render ++ r) = some (t, r)
  | .null, _, f, r, hf, _ => by
    obtain ⟨f, rfl⟩ : ∃ g, f = g + 1 := ⟨f - 1, by omega⟩
    simp [UTree.render, uValue, skipWs, jsonWs]
  | .bool true, _, f, r, hf, _ => by
    obtain ⟨f, rfl⟩ : ∃ g, f = g + 1 := ⟨f - 1, by omega⟩
    simp [UTree.render, boolText, uValue, skipWs, jsonWs]
  | .bool false, _, f, r, hf, _ => by
    obtain ⟨f, rfl⟩ : ∃ g, f = g + 1 := ⟨f - 1, by omega⟩
    simp [UTree.render, boolText, uValue, skipWs, jsonWs]
  | .num lit, hl, f, r, hf, hr => by
    obtain ⟨f, rfl⟩ : ∃ g, f = g + 1 := ⟨f - 1, by omega⟩
    simp only [UTree.Lits] at hl
    obtain ⟨c, t, h1, h2, h3, h4, h5, h6, h7, h8, -⟩ := NumLit.head hl
    have hp := pNum_append hl hr
    simp only [UTree.render]
    rw [h1] at hp ⊢
    simp only [uValue, List.cons_append, skipWs_cons h2] at hp ⊢
    rw [if_neg h3, if_neg h4, if_neg h5, if_neg h6, if_neg h7, if_neg h8, hp]
    rfl
  | .str s, _, f, r, hf, _ => by
    obtain ⟨f, rfl⟩ : ∃ g, f = g + 1 := ⟨f - 1, by omega⟩
    simp only [UTree.render, uQuote, List.length_cons, List.length_append] at hf
    simp only [UTree.render, uQuote, List.cons_append, uValue, skipWs_cons (show jsonWs '"' = false by decide), if_true,
      List.append_assoc, List.nil_append]
    rw [uChars_quoted s f r (by omega)]
    rfl
  | .arr l, hl, f, r, hf, _ => by
    obtain ⟨f, rfl⟩ : ∃ g, f = g + 1 := ⟨f - 1, by omega⟩
    simp only [UTree.Lits] at hl
    simp only [UTree.render, List.length_cons, List.length_append, List.length_nil] at hf
    simp only [UTree.render, List.cons_append, List.append_assoc, List.nil_append, uValue, skipWs_cons (show jsonWs '[' = false by decide)]
    rw [if_neg (by decide), if_pos trivial]
    cases l with
    | nil => simp [uRenderItems, skipWs, jsonWs]
    | cons t ts =>
      have hne : (skipWs (uRenderItems (t :: ts) ++ ']' :: r)).head? ≠ some ']' := by
        rw [uLitsItems] at hl
        obtain ⟨c, u, h1, h2, h3, -⟩ := uRender_head t hl.1
        cases ts with
        | nil => simp only [uRenderItems, h1, List.cons_append, skipWs_cons h2, List.head?_cons]; simpa using h3
        | cons x xs => simp only [uRenderItems, h1, List.cons_append, skipWs_cons h2, List.head?_cons]; simpa using h3
      rw [if_neg hne, uItems_render (t :: ts) hl (by simp) f r (by omega)]
      rfl
  | .obj l, hl, f, r, hf, _ => by
    obtain ⟨f, rfl⟩ : ∃ g, f = g + 1 := ⟨f - 1, by omega⟩
    simp only [UTree.Lits] at hl
    simp only [UTree.render, List.length_cons, List.length_append, List.length_nil] at hf
    simp only [UTree.render, List.cons_append, List.append_assoc, List.nil_append, uValue, skipWs_cons (show jsonWs '{' = false by decide)]
    rw [if_neg (by decide), if_neg (by decide), if_pos trivial]
    cases l with
    | nil => simp [uRenderFields, skipWs, jsonWs]
    | cons t ts =>
      have hne : (skipWs (uRenderFields (t :: ts) ++ '}' :: r)).head? ≠ some '}' := by
        obtain ⟨k, t⟩ := t
        cases ts with
        | nil => simp [uRenderFields, uQuote, skipWs, jsonWs]
        | cons x xs => simp [uRenderFields, uQuote, skipWs, jsonWs]
      rw [if_neg hne, uObjFields_render (t :: ts) hl (by simp) f r (by omega)]
      rfl
theorem uItems_render : ∀ (l : List UTree), uLitsItems l → l ≠ [] → ∀ (f : Nat) (r : Str), 2 * (uRenderItems l).length + 2 ≤ f →
    uItems f (uRenderItems l ++ ']' :: r) = some (l, r)
  | [], _, h, _, _, _ => absurd rfl h
  | [t], hl, _, f, r, hf => by
    obtain ⟨f, rfl⟩ : ∃ g, f = g + 1 := ⟨f - 1, by omega⟩
    simp only [uLitsItems] at hl
    simp only [uRenderItems] at hf ⊢
    rw [uItems, uValue_render t hl.1 f _ (by omega) (stops_bracket r)]
    simp [skipWs, jsonWs]
  | t :: u :: ts, hl, _, f, r, hf => by
    obtain ⟨f, rfl⟩ : ∃ g, f = g + 1 := ⟨f - 1, by omega⟩
    rw [uLitsItems] at hl
    simp only [uRenderItems, List.length_append, List.length_cons] at hf
    simp only [uRenderItems, List.append_assoc, List.cons_append]
    rw [uItems, uValue_render t hl.1 f _ (by omega) (stops_comma _)]
    simp only [skipWs_cons (show jsonWs ',' = false by decide), if_true]
    rw [uItems_render (u :: ts) hl.2 (by simp) f r (by omega)]
    rfl
theorem uObjFields_render : ∀ (l : List (JStr × UTree)), uLitsFields l → l ≠ [] → ∀ (f : Nat) (r : Str),
    2 * (uRenderFields l).length + 2 ≤ f → uObjFields f (uRenderFields l ++ '}' :: r) = some (l, r)
  | [], _, h, _, _, _ => absurd rfl h
  | [(k, t)], hl, _, f, r, hf => by
    obtain ⟨f, rfl⟩ : ∃ g, f = g + 1 := ⟨f - 1, by omega⟩
    simp only [uLitsFields] at hl
    simp only [uRenderFields, uQuote, List.length_append, List.length_cons, List.length_nil] at hf
    simp only [uRenderFields, uQuote, List.cons_append, List.append_assoc, List.nil_append, uObjFields,
      skipWs_cons (show jsonWs '"' = false by decide), if_true]
    rw [uChars_quoted k f _ (by omega)]
    simp only [skipWs_cons (show jsonWs ':' = false by decide), if_true]
    rw [uValue_render t hl.1 f _ (by omega) (stops_brace r)]
    simp [skipWs, jsonWs]
  | (k, t) :: u :: ts, hl, _, f, r, hf => by
    obtain ⟨f, rfl⟩ : ∃ g, f = g + 1 := ⟨f - 1, by omega⟩
    rw [uLitsFields] at hl
    simp only [uRenderFields, uQuote, List.length_append, List.length_cons, List.length_nil] at hf
    simp only [uRenderFields, uQuote, List.cons_append, List.append_assoc, List.nil_append, uObjFields,
      skipWs_cons (show jsonWs '"' = false by decide), if_true]
    rw [uChars_quoted k f _ (by omega)]
    simp only [skipWs_cons (show jsonWs ':' = false by decide), if_true]
    rw [uValue_render t hl.1 f _ (by omega) (stops_comma _)]
    simp only [skipWs_cons (show jsonWs ',' = false by decide), if_true]
    rw [uObjFields_render (u :: ts) hl.2 (by simp) f r (by omega)]
    rfl
end

/-- Reading a written tree gives the tree back. -/
theorem uText_render (t : UTree) (h : t.Lits) : uText t.render = some t := by
  unfold uText
  have := uValue_render t h (2 * t.render.length + 2) [] (by omega) stops_nil
  rw [List.append_nil] at this
  rw [this]
  simp [skipWs]

theorem uObjInsert_last {k : JStr} {v : UVal} {l : List (JStr × UVal)} (h : ∀ e ∈ l, uKeyBefore e.1 k = true) :
    uObjInsert k v l = l ++ [(k, v)] := by
  induction l with
  | nil => rfl
  | cons e l ih =>
    rw [uObjInsert, if_pos (h e (by simp)), ih fun x hx => h x (by simp [hx])]; rfl

theorem uKeyBefore_ne {a b : JStr} (h : uKeyBefore a b = true) : a ≠ b := by
  intro e
  subst e
  unfold uKeyBefore at h
  cases hk : uKeyIndex a with
  | none => rw [hk] at h; simp at h
  | some i => rw [hk] at h; simp at h

theorem uKeyIndex_none (k : JStr) : uKeyIndex k = none ↔ ∀ n, ¬ UIsIndex k n := by
  simp only [← uKeyIndex_iff]
  cases uKeyIndex k <;> simp

theorem uKeyBefore_iff (a b : JStr) : uKeyBefore a b = true ↔ UOrdered a b := by
  unfold uKeyBefore UOrdered
  simp only [← uKeyIndex_none]
  simp only [← uKeyIndex_iff]
  cases uKeyIndex a <;> cases uKeyIndex b <;> simp

theorem uObjSet_last {k : JStr} {v : UVal} {l : List (JStr × UVal)} (h : ∀ e ∈ l, uKeyBefore e.1 k = true) :
    uObjSet l k v = l ++ [(k, v)] := by
  unfold uObjSet
  rw [if_neg, uObjInsert_last h]
  simp only [List.any_eq_true, decide_eq_true_eq, not_exists, not_and]
  intro e he
  exact uKeyBefore_ne (h e he)

mutual
theorem uTree_spec (D : Doubles) : ∀ v : UVal, UReal D v → ∀ o, uTree v = .ok o →
    (∀ t, o = some t → t.Lits ∧ t.toJs D = uKept v) ∧ (o = none ↔ v = .undef)
  | .null, _, o, h => by
    simp only [uTree] at h; cases h
    exact ⟨fun t ht => by cases ht; exact ⟨trivial, by simp [UTree.toJs, uKept]⟩, by simp⟩
  | .undef, _, o, h => by
    simp only [uTree] at h; cases h
    exact ⟨fun t ht => (by cases ht), by simp⟩
  | .bool b, _, o, h => by
    simp only [uTree] at h; cases h
    exact ⟨fun t ht => by cases ht; exact ⟨trivial, by simp [UTree.toJs, uKept]⟩, by simp⟩
  | .num z, hr, o, h => by
    simp only [uTree] at h; cases h
    simp only [UReal] at hr
    exact ⟨fun t ht => by cases ht; exact ⟨by simp only [UTree.Lits]; exact numLit_intDec z, by simp [UTree.toJs, uKept, hr, JsVal.units]⟩, by simp⟩
  | .numText s, hr, o, h => by
    simp only [uTree] at h; cases h
    simp only [UReal] at hr
    refine ⟨fun t ht => ?_, by simp⟩
    cases ht
    by_cases hn : nonFinite s = true
    · rw [if_pos hn]; exact ⟨trivial, by simp [UTree.toJs, uKept, hn]⟩
    · rw [if_neg hn]
      obtain ⟨h1, h2⟩ := hr.resolve_left hn
      exact ⟨by simp only [UTree.Lits]; exact h1, by simp [UTree.toJs, uKept, hn, h2, JsVal.units]⟩
  | .bigint z, _, o, h => by simp only [uTree] at h; cases h
  | .str s, _, o, h => by
    simp only [uTree] at h; cases h
    exact ⟨fun t ht => by cases ht; exact ⟨trivial, by simp [UTree.toJs, uKept]⟩, by simp⟩
  | .arr l, hr, o, h => by
    simp only [uTree] at h
    obtain ⟨ts, h1, h⟩ := Res.bind_eq_ok.1 h
    cases h
    simp only [UReal] at hr
    obtain ⟨h2, h3⟩ := uTrees_spec D l hr ts h1
    exact ⟨fun t ht => by cases ht; exact ⟨by simp only [UTree.Lits]; exact h2, by simp [UTree.toJs, uKept, h3]⟩, by simp⟩
  | .obj l, hr, o, h => by
    simp only [uTree] at h
    obtain ⟨ts, h1, h⟩ := Res.bind_eq_ok.1 h
    cases h
    simp only [UReal] at hr
    obtain ⟨h2, h3⟩ := uFields_spec D l hr.2 ts h1
    refine ⟨fun t ht => ?_, by simp⟩
    cases ht
    refine ⟨by simp only [UTree.Lits]; exact h2, ?_⟩
    simp only [UTree.toJs, uKept]
    rw [h3 [] (by simpa [uKeyBefore_iff] using hr.1)]
    rfl
theorem uTrees_spec (D : Doubles) : ∀ l : List UVal, URealItems D l → ∀ ts, uTrees l = .ok ts →
    uLitsItems ts ∧ uTreesToJs D ts = uKeptItems l
  | [], _, ts, h => by
    simp only [uTrees] at h; cases h
    exact ⟨by simp [uLitsItems], by simp [uTreesToJs, uKeptItems]⟩
  | v :: vs, hr, ts, h => by
    simp only [uTrees] at h
    obtain ⟨o, h1, h⟩ := Res.bind_eq_ok.1 h
    obtain ⟨us, h2, h⟩ := Res.bind_eq_ok.1 h
    cases h
    simp only [URealItems] at hr
    obtain ⟨h3, h4⟩ := uTree_spec D v hr.1 o h1
    obtain ⟨h5, h6⟩ := uTrees_spec D vs hr.2 us h2
    cases o with
    | none =>
      have := h4.1 rfl
      subst this
      exact ⟨by simp only [uLitsItems]; exact ⟨by simp [UTree.Lits], h5⟩, by simp [uTreesToJs, uKeptItems, uKept, h6, UTree.toJs]⟩
    | some t =>
      obtain ⟨h7, h8⟩ := h3 t rfl
      exact ⟨by simp only [uLitsItems]; exact ⟨h7, h5⟩, by simp [uTreesToJs, uKeptItems, h6, h8]⟩
theorem uFields_spec (D : Doubles) : ∀ l : List (JStr × UVal), URealFields D l → ∀ ts, uFields l = .ok ts →
    uLitsFields ts ∧ ∀ acc : List (JStr × UVal), (acc ++ l).Pairwise (fun a b => uKeyBefore a.1 b.1 = true) →
      uFieldsToJs D ts acc = acc ++ uKeptFields l
  | [], _, ts, h => by
    simp only [uFields] at h; cases h
    exact ⟨by simp [uLitsFields], fun acc _ => by simp [uFieldsToJs, uKeptFields]⟩
  | (k, v) :: vs, hr, ts, h => by
    simp only [uFields] at h
    obtain ⟨o, h1, h⟩ := Res.bind_eq_ok.1 h
    obtain ⟨us, h2, h⟩ := Res.bind_eq_ok.1 h
    simp only [URealFields] at hr
    obtain ⟨h3, h4⟩ := uTree_spec D v hr.1 o h1
    obtain ⟨h5, h6⟩ := uFields_spec D vs hr.2 us h2
    cases o with
    | none =>
      cases h
      have := h4.1 rfl
      subst this
      refine ⟨h5, fun acc hp => ?_⟩
      rw [uKeptFields]
      apply h6
      exact hp.sublist (by simp)
    | some t =>
      cases h
      obtain ⟨h7, h8⟩ := h3 t rfl
      refine ⟨by simp only [uLitsFields]; exact ⟨h7, h5⟩, fun acc hp => ?_⟩
      have hv : v ≠ .undef := fun e => by have := h4.2 e; cases this
      have hk : uKeptFields ((k, v) :: vs) = (k, uKept v) :: uKeptFields vs := by
        cases v <;> first | exact absurd rfl hv | simp [uKeptFields]
      rw [hk]
      simp only [uFieldsToJs]
      rw [uObjSet_last, h8, h6 (acc ++ [(k, uKept v)])]
      · simp
      · rw [List.append_assoc, List.pairwise_append] at *
        refine ⟨hp.1, ?_, ?_⟩
        · have := hp.2.1
          rw [List.pairwise_cons] at this
          simp only [List.cons_append, List.nil_append, List.pairwise_cons]
          exact this
        · intro a ha b hb
          simp only [List.cons_append, List.nil_append, List.mem_cons] at hb
          rcases hb with rfl | hb
          · exact hp.2.2 a ha (k, v) (by simp)
          · exact hp.2.2 a ha b (by simp [hb])
      · intro e he
        rw [List.pairwise_append] at hp
        exact hp.2.2 e he (k, v) (by simp)
end

mutual
theorem uTree_outcome : ∀ v : UVal, (UHasBig v → uTree v = Res.fail "TypeError") ∧ (¬ UHasBig v → ∃ o, uTree v = .ok o)
  | .null => by simp [UHasBig, uTree]
  | .undef => by simp [UHasBig, uTree]
  | .bool b => by simp [UHasBig, uTree]
  | .num z => by simp [UHasBig, uTree]
  | .numText s => by simp [UHasBig, uTree]
  | .bigint z => by simp [UHasBig, uTree]
  | .str s => by simp [UHasBig, uTree]
  | .arr l => by
    obtain ⟨h1, h2⟩ := uTrees_outcome l
    simp only [UHasBig, uTree]
    refine ⟨fun h => by rw [h1 h]; rfl, fun h => ?_⟩
    obtain ⟨ts, h3⟩ := h2 h
    exact ⟨_, by rw [h3]; rfl⟩
  | .obj l => by
    obtain ⟨h1, h2⟩ := uFields_outcome l
    simp only [UHasBig, uTree]
    refine ⟨fun h => by rw [h1 h]; rfl, fun h => ?_⟩
    obtain ⟨ts, h3⟩ := h2 h
    exact ⟨_, by rw [h3]; rfl⟩
theorem uTrees_outcome : ∀ l : List UVal, (UHasBigItems l → uTrees l = Res.fail "TypeError") ∧ (¬ UHasBigItems l → ∃ ts, uTrees l = .ok ts)
  | [] => by simp [UHasBigItems, uTrees]
  | v :: vs => by
    obtain ⟨h1, h2⟩ := uTree_outcome v
    obtain ⟨h3, h4⟩ := uTrees_outcome vs
    simp only [UHasBigItems, uTrees]
    refine ⟨fun h => ?_, fun h => ?_⟩
    · by_cases hv : UHasBig v
      · rw [h1 hv]; rfl
      · obtain ⟨o, ho⟩ := h2 hv
        rw [ho, Res.ok_bind, h3 (h.resolve_left hv)]; rfl
    · push Not at h
      obtain ⟨o, ho⟩ := h2 h.1
      obtain ⟨ts, ht⟩ := h4 h.2
      exact ⟨_, by rw [ho, Res.ok_bind, ht, Res.ok_bind]⟩
theorem uFields_outcome : ∀ l : List (JStr × UVal), (UHasBigFields l → uFields l = Res.fail "TypeError") ∧
    (¬ UHasBigFields l → ∃ ts, uFields l = .ok ts)
  | [] => by simp [UHasBigFields, uFields]
  | (k, v) :: vs => by
    obtain ⟨h1, h2⟩ := uTree_outcome v
    obtain ⟨h3, h4⟩ := uFields_outcome vs
    simp only [UHasBigFields, uFields]
    refine ⟨fun h => ?_, fun h => ?_⟩
    · by_cases hv : UHasBig v
      · rw [h1 hv]; rfl
      · obtain ⟨o, ho⟩ := h2 hv
        rw [ho, Res.ok_bind, h3 (h.resolve_left hv)]; rfl
    · push Not at h
      obtain ⟨o, ho⟩ := h2 h.1
      obtain ⟨ts, ht⟩ := h4 h.2
      rw [ho, Res.ok_bind, ht, Res.ok_bind]
      cases o with
      | none => exact ⟨_, rfl⟩
      | some t => exact ⟨_, rfl⟩
end

mutual
theorem uValue_text : ∀ (f : Nat) (s : Str) (t : UTree) (r : Str), uValue f s = some (t, r) →
    ∃ w b, s = w ++ (b ++ r) ∧ Ws w ∧ UValueText b t
  | 0, _, _, _, h => by simp only [uValue] at h; cases h
  | f + 1, s, t, r, h => by
    simp only [uValue] at h
    obtain ⟨w, hs, hw⟩ := skipWs_split s
    split at h
    · cases h
    · rename_i c r1 hc
      rw [hc] at hs
      obtain ⟨w1, hs1, hw1⟩ := skipWs_split r1
      split_ifs at h with h1 h2 h3 h4 h5 h6 h7 h8 h9 h10 h11
      · rw [Option.map_eq_some_iff] at h
        obtain ⟨⟨k, r'⟩, h', h⟩ := h
        cases h
        obtain ⟨b, rfl, hb⟩ := uChars_text _ _ _ _ h'
        exact ⟨w, _, by rw [hs, h1]; simp, hw, .str hb⟩
      · cases h
        have := head_tail h3
        refine ⟨w, '[' :: (w1 ++ [']']), ?_, hw, .noItems hw1⟩
        rw [hs, h2]
        rw [this] at hs1
        conv_lhs => rw [hs1]
        simp
      · rw [Option.map_eq_some_iff] at h
        obtain ⟨⟨k, r'⟩, h', h⟩ := h
        cases h
        obtain ⟨b, rfl, hb⟩ := uItems_text f r1 k r' h'
        exact ⟨w, _, by rw [hs, h2]; simp, hw, .arr hb⟩
      · cases h
        have := head_tail h5
        refine ⟨w, '{' :: (w1 ++ ['}']), ?_, hw, .noFields hw1⟩
        rw [hs, h4]
        rw [this] at hs1
        conv_lhs => rw [hs1]
        simp
      · rw [Option.map_eq_some_iff] at h
        obtain ⟨⟨k, r'⟩, h', h⟩ := h
        cases h
        obtain ⟨b, rfl, hb⟩ := uObjFields_text f r1 k r' h'
        exact ⟨w, _, by rw [hs, h4]; simp, hw, .obj hb⟩
      · cases h
        refine ⟨w, ['n', 'u', 'l', 'l'], ?_, hw, .null⟩
        conv_lhs => rw [hs, h6, ← List.take_append_drop 3 r1, h7]
        simp
      · cases h
        refine ⟨w, ['t', 'r', 'u', 'e'], ?_, hw, .true⟩
        conv_lhs => rw [hs, h8, ← List.take_append_drop 3 r1, h9]
        simp
      · cases h
        refine ⟨w, ['f', 'a', 'l', 's', 'e'], ?_, hw, .false⟩
        conv_lhs => rw [hs, h10, ← List.take_append_drop 4 r1, h11]
        simp
      · rw [Option.map_eq_some_iff] at h
        obtain ⟨⟨k, r'⟩, h', h⟩ := h
        cases h
        obtain ⟨hl, hn⟩ := pNum_spec h'
        exact ⟨w, k, by rw [hs, hl], hw, .num hn⟩
theorem uItems_text : ∀ (f : Nat) (s : Str) (l : List UTree) (r : Str), uItems f s = some (l, r) → ∃ b, s = b ++ ']' :: r ∧ UItemsText b l
  | 0, _, _, _, h => by simp only [uItems] at h; cases h
  | f + 1, s, l, r, h => by
    simp only [uItems] at h
    split at h
    · cases h
    · rename_i t r1 h1
      obtain ⟨w, b, hs, hw, hb⟩ := uValue_text f s t r1 h1
      obtain ⟨w1, hs1, hw1⟩ := skipWs_split r1
      split at h
      · cases h
      · rename_i c r2 hc
        rw [hc] at hs1
        split_ifs at h with h2 h3
        · rw [Option.map_eq_some_iff] at h
          obtain ⟨⟨k, r'⟩, h', h⟩ := h
          cases h
          obtain ⟨b', rfl, hb'⟩ := uItems_text f r2 k r' h'
          exact ⟨_, by rw [hs, hs1, h2]; simp, .more hw hb hw1 hb'⟩
        · cases h
          exact ⟨_, by rw [hs, hs1, h3]; simp, .one hw hb hw1⟩
theorem uObjFields_text : ∀ (f : Nat) (s : Str) (l : List (JStr × UTree)) (r : Str), uObjFields f s = some (l, r) →
    ∃ b, s = b ++ '}' :: r ∧ UFieldsText b l
  | 0, _, _, _, h => by simp only [uObjFields] at h; cases h
  | f + 1, s, l, r, h => by
    simp only [uObjFields] at h
    obtain ⟨w, hs, hw⟩ := skipWs_split s
    split at h
    · cases h
    · rename_i c1 r1 hc1
      rw [hc1] at hs
      split_ifs at h with h1
      split at h
      · cases h
      · rename_i k r2 h2
        obtain ⟨n, rfl, hn⟩ := uChars_text _ _ _ _ h2
        obtain ⟨w2, hs2, hw2⟩ := skipWs_split r2
        split at h
        · cases h
        · rename_i c3 r3 hc3
          rw [hc3] at hs2
          split_ifs at h with h3
          split at h
          · cases h
          · rename_i t r4 h4
            obtain ⟨w3, b, rfl, hw3, hb⟩ := uValue_text f r3 t r4 h4
            obtain ⟨w4, hs4, hw4⟩ := skipWs_split r4
            split at h
            · cases h
            · rename_i c5 r5 hc5
              rw [hc5] at hs4
              split_ifs at h with h5 h6
              · rw [Option.map_eq_some_iff] at h
                obtain ⟨⟨k, r'⟩, h', h⟩ := h
                cases h
                obtain ⟨b', rfl, hb'⟩ := uObjFields_text f r5 k r' h'
                exact ⟨_, by rw [hs, h1, hs2, h3, hs4, h5]; simp, .more hw hn hw2 hw3 hb hw4 hb'⟩
              · cases h
                exact ⟨_, by rw [hs, h1, hs2, h3, hs4, h6]; simp, .one hw hn hw2 hw3 hb hw4⟩
end

/-- How a value starts. -/
theorem uValueText_head {b : Str} {t : UTree} (h : UValueText b t) : ∃ c b', b = c :: b' ∧ jsonWs c = false ∧ c ≠ ']' ∧ c ≠ '}' := by
  cases h with
  | null => exact ⟨'n', _, rfl, by decide, by decide, by decide⟩
  | true => exact ⟨'t', _, rfl, by decide, by decide, by decide⟩
  | false => exact ⟨'f', _, rfl, by decide, by decide, by decide⟩
  | num hl =>
    obtain ⟨c, t, h1, h2, -, -, -, -, -, -, h3, h4⟩ := NumLit.head hl
    exact ⟨c, t, h1, h2, h3, h4⟩
  | str _ => exact ⟨'"', _, rfl, by decide, by decide, by decide⟩
  | noItems _ => exact ⟨'[', _, rfl, by decide, by decide, by decide⟩
  | arr _ => exact ⟨'[', _, rfl, by decide, by decide, by decide⟩
  | noFields _ => exact ⟨'{', _, rfl, by decide, by decide, by decide⟩
  | obj _ => exact ⟨'{', _, rfl, by decide, by decide, by decide⟩

theorem uItemsText_head {b : Str} {l : List UTree} (h : UItemsText b l) (r : Str) : (skipWs (b ++ r)).head? ≠ some ']' ∧ 1 ≤ b.length := by
  cases h with
  | one hw hb hw' =>
    obtain ⟨c, b', rfl, h1, h2, -⟩ := uValueText_head hb
    refine ⟨?_, by simp; omega⟩
    rw [List.append_assoc, skipWs_ws hw, List.cons_append, List.cons_append, skipWs_cons h1]
    simpa using h2
  | more hw hb hw' _ =>
    obtain ⟨c, b', rfl, h1, h2, -⟩ := uValueText_head hb
    refine ⟨?_, by simp; omega⟩
    rw [List.append_assoc, skipWs_ws hw, List.cons_append, List.cons_append, skipWs_cons h1]
    simpa using h2

theorem uFieldsText_head {b : Str} {l : List (JStr × UTree)} (h : UFieldsText b l) (r : Str) : (skipWs (b ++ r)).head? ≠ some '}' ∧ 1 ≤ b.length := by
  cases h with
  | one hw =>
    refine ⟨?_, by simp; omega⟩
    rw [List.append_assoc, skipWs_ws hw, List.cons_append, skipWs_cons (by decide)]
    simp
  | more hw =>
    refine ⟨?_, by simp; omega⟩
    rw [List.append_assoc, skipWs_ws hw, List.cons_append, skipWs_cons (by decide)]
    simp

mutual
theorem text_uValue {b : Str} {t : UTree} : UValueText b t → ∀ (f : Nat) (w r : Str), Ws w → 2 * b.length + 1 ≤ f → Stops r →
    uValue f (w ++ (b ++ r)) = some (t, r)
  | .null, f, w, r, hw, hf, _ => by
    obtain ⟨f, rfl⟩ : ∃ g, f = g + 1 := ⟨f - 1, by omega⟩
    simp only [uValue, skipWs_ws hw]
    simp [skipWs, jsonWs]
  | .true, f, w, r, hw, hf, _ => by
    obtain ⟨f, rfl⟩ : ∃ g, f = g + 1 := ⟨f - 1, by omega⟩
    simp only [uValue, skipWs_ws hw]
    simp [skipWs, jsonWs]
  | .false, f, w, r, hw, hf, _ => by
    obtain ⟨f, rfl⟩ : ∃ g, f = g + 1 := ⟨f - 1, by omega⟩
    simp only [uValue, skipWs_ws hw]
    simp [skipWs, jsonWs]
  | .num hl, f, w, r, hw, hf, hr => by
    obtain ⟨f, rfl⟩ : ∃ g, f = g + 1 := ⟨f - 1, by omega⟩
    obtain ⟨c, t, h1, h2, h3, h4, h5, h6, h7, h8, h9, h10⟩ := NumLit.head hl
    have hp := pNum_append hl hr
    simp only [uValue, skipWs_ws hw]
    rw [h1] at hp ⊢
    rw [List.cons_append] at hp ⊢
    rw [skipWs_cons h2]
    simp only
    simp only [h3, h4, h5, h6, h7, h8, if_false, hp, Option.map_some]
  | .str hb, f, w, r, hw, hf, _ => by
    obtain ⟨f, rfl⟩ : ∃ g, f = g + 1 := ⟨f - 1, by omega⟩
    simp only [List.length_cons, List.length_append, List.length_nil] at hf
    simp only [uValue, skipWs_ws hw]
    rw [List.cons_append, skipWs_cons (by decide), List.append_assoc]
    simp only [if_true, List.cons_append, List.nil_append]
    rw [text_uChars hb f r (by omega)]
    rfl
  | .noItems hw', f, w, r, hw, hf, _ => by
    obtain ⟨f, rfl⟩ : ∃ g, f = g + 1 := ⟨f - 1, by omega⟩
    simp only [uValue, skipWs_ws hw]
    rw [List.cons_append, skipWs_cons (by decide), List.append_assoc]
    simp only [skipWs_ws hw', List.cons_append, List.nil_append, skipWs_cons (show jsonWs ']' = false by decide)]
    simp
  | .arr hb, f, w, r, hw, hf, _ => by
    obtain ⟨f, rfl⟩ : ∃ g, f = g + 1 := ⟨f - 1, by omega⟩
    simp only [List.length_cons, List.length_append, List.length_nil] at hf
    simp only [uValue, skipWs_ws hw]
    rw [List.cons_append, skipWs_cons (by decide), List.append_assoc]
    have := text_uItems hb f r (by omega)
    simp only [List.cons_append, List.nil_append]
    rw [if_neg (by decide), if_pos trivial, if_neg (uItemsText_head hb _).1, this]
    rfl
  | .noFields hw', f, w, r, hw, hf, _ => by
    obtain ⟨f, rfl⟩ : ∃ g, f = g + 1 := ⟨f - 1, by omega⟩
    simp only [uValue, skipWs_ws hw]
    rw [List.cons_append, skipWs_cons (by decide), List.append_assoc]
    simp only [skipWs_ws hw', List.cons_append, List.nil_append, skipWs_cons (show jsonWs '}' = false by decide)]
    simp
  | .obj hb, f, w, r, hw, hf, _ => by
    obtain ⟨f, rfl⟩ : ∃ g, f = g + 1 := ⟨f - 1, by omega⟩
    simp only [List.length_cons, List.length_append, List.length_nil] at hf
    simp only [uValue, skipWs_ws hw]
    rw [List.cons_append, skipWs_cons (by decide), List.append_assoc]
    have := text_uObjFields hb f r (by omega)
    simp only [List.cons_append, List.nil_append]
    rw [if_neg (by decide), if_neg (by decide), if_pos trivial, if_neg (uFieldsText_head hb _).1, this]
    rfl
theorem text_uItems {b : Str} {l : List UTree} : UItemsText b l → ∀ (f : Nat) (r : Str), 2 * b.length + 2 ≤ f →
    uItems f (b ++ ']' :: r) = some (l, r)
  | .one hw hb hw', f, r, hf => by
    obtain ⟨f, rfl⟩ : ∃ g, f = g + 1 := ⟨f - 1, by omega⟩
    simp only [List.length_append] at hf
    rw [List.append_assoc, List.append_assoc, uItems, text_uValue hb f _ _ hw (by omega) (stops_ws hw' (stops_bracket r))]
    simp only [skipWs_ws hw', skipWs_cons (show jsonWs ']' = false by decide)]
    simp
  | .more hw hb hw' hb', f, r, hf => by
    obtain ⟨f, rfl⟩ : ∃ g, f = g + 1 := ⟨f - 1, by omega⟩
    simp only [List.length_append, List.length_cons] at hf
    rw [List.append_assoc, List.append_assoc, List.append_assoc, uItems, List.cons_append,
      text_uValue hb f _ _ hw (by omega) (stops_ws hw' (stops_comma _))]
    simp only [skipWs_ws hw', skipWs_cons (show jsonWs ',' = false by decide), if_true]
    rw [text_uItems hb' f r (by omega)]
    rfl
theorem text_uObjFields {b : Str} {l : List (JStr × UTree)} : UFieldsText b l → ∀ (f : Nat) (r : Str), 2 * b.length + 2 ≤ f →
    uObjFields f (b ++ '}' :: r) = some (l, r)
  | .one hw hn hw1 hw2 hb hw3, f, r, hf => by
    obtain ⟨f, rfl⟩ : ∃ g, f = g + 1 := ⟨f - 1, by omega⟩
    simp only [List.length_append, List.length_cons] at hf
    simp only [List.append_assoc, List.cons_append]
    simp only [uObjFields, skipWs_ws hw, skipWs_cons (show jsonWs '"' = false by decide), if_true, text_uChars hn f _ (by omega), skipWs_ws hw1,
      skipWs_cons (show jsonWs ':' = false by decide), text_uValue hb f _ _ hw2 (by omega) (stops_ws hw3 (stops_brace r)), skipWs_ws hw3,
      skipWs_cons (show jsonWs '}' = false by decide)]
    simp
  | .more hw hn hw1 hw2 hb hw3 hb', f, r, hf => by
    obtain ⟨f, rfl⟩ : ∃ g, f = g + 1 := ⟨f - 1, by omega⟩
    simp only [List.length_append, List.length_cons] at hf
    simp only [List.append_assoc, List.cons_append]
    simp only [uObjFields, skipWs_ws hw, skipWs_cons (show jsonWs '"' = false by decide), if_true, text_uChars hn f _ (by omega), skipWs_ws hw1,
      skipWs_cons (show jsonWs ':' = false by decide), text_uValue hb f _ _ hw2 (by omega) (stops_ws hw3 (stops_comma _)), skipWs_ws hw3,
      skipWs_cons (show jsonWs ',' = false by decide), text_uObjFields hb' f r (by omega)]
    simp
end

/-- The parser accepts exactly the JSON texts. -/
theorem uText_iff (s : Str) (t : UTree) : uText s = some t ↔ UText s t := by
  constructor
  · intro h
    unfold uText at h
    split at h
    · cases h
    · rename_i t' r h1
      split_ifs at h with h2
      cases h
      obtain ⟨w, b, hs, hw, hb⟩ := uValue_text _ _ _ _ h1
      exact ⟨w, b, r, hs, hw, hb, ws_of_skip h2⟩
  · rintro ⟨w, b, w', rfl, hw, hb, hw'⟩
    unfold uText
    rw [text_uValue hb _ w w' hw (by simp only [List.length_append]; omega) (by simpa using stops_ws hw' stops_nil)]
    simp only
    rw [if_pos (skipWs_nil hw')]

end Zkenc
