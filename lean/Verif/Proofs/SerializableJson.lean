import Verif.Model.SerializableJson
import Verif.Proofs.JsonText
/-! Helper lemmas: reading pretty-printed JSON. -/

namespace Zkenc

open JsonSpec

theorem skipWs_newline (n : Nat) (s : Str) : skipWs (newline n ++ s) = skipWs s := by
  unfold skipWs newline
  rw [List.cons_append, List.dropWhile_cons_of_pos (by decide)]
  generalize 2 * n = m
  induction m with
  | zero => rfl
  | succ m ih => rw [List.replicate_succ, List.cons_append, List.dropWhile_cons_of_pos (by decide), ih]

theorem skipWs_blank (s : Str) : skipWs (' ' :: s) = skipWs s := by
  unfold skipWs
  rw [List.dropWhile_cons_of_pos (by decide)]

theorem pValue_skip {s s' : Str} (h : skipWs s = skipWs s') (f : Nat) : pValue f s = pValue f s' := by
  cases f with
  | zero => rfl
  | succ f => simp only [pValue, h]

theorem pItems_skip {s s' : Str} (h : skipWs s = skipWs s') (f : Nat) : pItems f s = pItems f s' := by
  cases f with
  | zero => rfl
  | succ f => simp only [pItems, pValue_skip h]

theorem pFields_skip {s s' : Str} (h : skipWs s = skipWs s') (f : Nat) : pFields f s = pFields f s' := by
  cases f with
  | zero => rfl
  | succ f => simp only [pFields, h]

theorem stops_newline (n : Nat) (r : Str) : Stops (newline n ++ r) := by
  intro c t h; simp only [newline, List.cons_append, List.cons.injEq] at h; rw [← h.1]; decide

theorem pretty_head (n : Nat) : ∀ t : JTree, t.Lits → ∃ c u, t.pretty n = c :: u ∧ jsonWs c = false ∧ c ≠ ']' ∧ c ≠ '}'
  | .null, _ => ⟨'n', _, by simp only [JTree.pretty]; rfl, by decide, by decide, by decide⟩
  | .bool true, _ => ⟨'t', _, by simp [JTree.pretty, boolText]; rfl, by decide, by decide, by decide⟩
  | .bool false, _ => ⟨'f', _, by simp [JTree.pretty, boolText]; rfl, by decide, by decide, by decide⟩
  | .num lit, h => by
    rw [JTree.Lits] at h
    obtain ⟨c, t, h1, h2, h3, h4, h5, h6, h7, h8, h9, h10⟩ := NumLit.head h
    exact ⟨c, t, by rw [JTree.pretty, h1], h2, h9, h10⟩
  | .str s, _ => ⟨'"', _, by simp only [JTree.pretty, quote]; rfl, by decide, by decide, by decide⟩
  | .arr [], _ => ⟨'[', _, by simp [JTree.pretty]; rfl, by decide, by decide, by decide⟩
  | .arr (_ :: _), _ => ⟨'[', _, by simp [JTree.pretty]; rfl, by decide, by decide, by decide⟩
  | .obj [], _ => ⟨'{', _, by simp [JTree.pretty]; rfl, by decide, by decide, by decide⟩
  | .obj (_ :: _), _ => ⟨'{', _, by simp [JTree.pretty]; rfl, by decide, by decide, by decide⟩

mutual
theorem pValue_pretty : ∀ (t : JTree), t.Lits → ∀ (n f : Nat) (r : Str), 2 * (t.pretty n).length + 1 ≤ f → Stops r →
    pValue f (t.pretty n ++ r) = some (t, r)
  | .null, _, n, f, r, hf, _ => by
    obtain ⟨f, rfl⟩ : ∃ g, f = g + 1 := ⟨f - 1, by omega⟩
    simp [JTree.pretty, pValue, skipWs, jsonWs]
  | .bool true, _, n, f, r, hf, _ => by
    obtain ⟨f, rfl⟩ : ∃ g, f = g + 1 := ⟨f - 1, by omega⟩
    simp [JTree.pretty, boolText, pValue, skipWs, jsonWs]
  | .bool false, _, n, f, r, hf, _ => by
    obtain ⟨f, rfl⟩ : ∃ g, f = g + 1 := ⟨f - 1, by omega⟩
    simp [JTree.pretty, boolText, pValue, skipWs, jsonWs]
  | .num lit, hl, n, f, r, hf, hr => by
    obtain ⟨f, rfl⟩ : ∃ g, f = g + 1 := ⟨f - 1, by omega⟩
    simp only [JTree.Lits] at hl
    obtain ⟨c, t, h1, h2, h3, h4, h5, h6, h7, h8, -⟩ := NumLit.head hl
    have hp := pNum_append hl hr
    simp only [JTree.pretty]
    rw [h1] at hp ⊢
    simp only [pValue, List.cons_append, skipWs_cons h2] at hp ⊢
    rw [if_neg h3, if_neg h4, if_neg h5, if_neg h6, if_neg h7, if_neg h8, hp]
    rfl
  | .str s, _, n, f, r, hf, _ => by
    obtain ⟨f, rfl⟩ : ∃ g, f = g + 1 := ⟨f - 1, by omega⟩
    simp only [JTree.pretty, quote, List.length_cons, List.length_append] at hf
    simp only [JTree.pretty, quote, List.cons_append, pValue, skipWs_cons (show jsonWs '"' = false by decide), if_true,
      List.append_assoc, List.nil_append]
    rw [pChars_quoted s f r (by omega)]
    rfl
  | .arr [], _, n, f, r, hf, _ => by
    obtain ⟨f, rfl⟩ : ∃ g, f = g + 1 := ⟨f - 1, by omega⟩
    simp [JTree.pretty, pValue, skipWs, jsonWs]
  | .arr (t :: ts), hl, n, f, r, hf, _ => by
    obtain ⟨f, rfl⟩ : ∃ g, f = g + 1 := ⟨f - 1, by omega⟩
    simp only [JTree.Lits] at hl
    simp only [JTree.pretty, List.isEmpty_cons, Bool.false_eq_true, if_false, List.length_cons, List.length_append, List.length_nil] at hf
    simp only [JTree.pretty, List.isEmpty_cons, Bool.false_eq_true, if_false, List.cons_append, List.append_assoc, List.nil_append, pValue,
      skipWs_cons (show jsonWs '[' = false by decide)]
    rw [if_neg (by decide), if_pos trivial]
    have hne : (skipWs (prettyItems (n + 1) (t :: ts) ++ (newline n ++ ']' :: r))).head? ≠ some ']' := by
      rw [litsItems] at hl
      obtain ⟨c, u, h1, h2, h3, -⟩ := pretty_head (n + 1) t hl.1
      cases ts with
      | nil => simp only [prettyItems, h1, List.append_assoc, skipWs_newline, List.cons_append, skipWs_cons h2, List.head?_cons]; simpa using h3
      | cons x xs => simp only [prettyItems, h1, List.append_assoc, skipWs_newline, List.cons_append, skipWs_cons h2, List.head?_cons]; simpa using h3
    rw [if_neg hne, pItems_pretty (t :: ts) hl (by simp) (n + 1) n f r (by omega)]
    rfl
  | .obj [], _, n, f, r, hf, _ => by
    obtain ⟨f, rfl⟩ : ∃ g, f = g + 1 := ⟨f - 1, by omega⟩
    simp [JTree.pretty, pValue, skipWs, jsonWs]
  | .obj (t :: ts), hl, n, f, r, hf, _ => by
    obtain ⟨f, rfl⟩ : ∃ g, f = g + 1 := ⟨f - 1, by omega⟩
    simp only [JTree.Lits] at hl
    simp only [JTree.pretty, List.isEmpty_cons, Bool.false_eq_true, if_false, List.length_cons, List.length_append, List.length_nil] at hf
    simp only [JTree.pretty, List.isEmpty_cons, Bool.false_eq_true, if_false, List.cons_append, List.append_assoc, List.nil_append, pValue,
      skipWs_cons (show jsonWs '{' = false by decide)]
    rw [if_neg (by decide), if_neg (by decide), if_pos trivial]
    have hne : (skipWs (prettyFields (n + 1) (t :: ts) ++ (newline n ++ '}' :: r))).head? ≠ some '}' := by
      obtain ⟨k, t⟩ := t
      cases ts with
      | nil => simp [prettyFields, quote, skipWs_newline]; simp [skipWs, jsonWs]
      | cons x xs => simp [prettyFields, quote, skipWs_newline]; simp [skipWs, jsonWs]
    rw [if_neg hne, pFields_pretty (t :: ts) hl (by simp) (n + 1) n f r (by omega)]
    rfl
theorem pItems_pretty : ∀ (l : List JTree), litsItems l → l ≠ [] → ∀ (n k f : Nat) (r : Str), 2 * (prettyItems n l).length + 2 ≤ f →
    pItems f (prettyItems n l ++ (newline k ++ ']' :: r)) = some (l, r)
  | [], _, h, _, _, _, _, _ => absurd rfl h
  | [t], hl, _, n, k, f, r, hf => by
    obtain ⟨f, rfl⟩ : ∃ g, f = g + 1 := ⟨f - 1, by omega⟩
    simp only [litsItems] at hl
    simp only [prettyItems, List.length_append] at hf ⊢
    rw [List.append_assoc, pItems_skip (skipWs_newline _ _), pItems, pValue_pretty t hl.1 n f _ (by omega) (stops_newline _ _)]
    simp only [skipWs_newline]
    simp [skipWs, jsonWs]
  | t :: u :: ts, hl, _, n, k, f, r, hf => by
    obtain ⟨f, rfl⟩ : ∃ g, f = g + 1 := ⟨f - 1, by omega⟩
    rw [litsItems] at hl
    simp only [prettyItems, List.length_append, List.length_cons] at hf
    simp only [prettyItems, List.append_assoc, List.cons_append]
    rw [pItems_skip (skipWs_newline _ _), pItems, pValue_pretty t hl.1 n f _ (by omega) (stops_comma _)]
    simp only [skipWs_cons (show jsonWs ',' = false by decide), if_true]
    rw [pItems_pretty (u :: ts) hl.2 (by simp) n k f r (by omega)]
    rfl
theorem pFields_pretty : ∀ (l : List (Str × JTree)), litsFields l → l ≠ [] → ∀ (n k f : Nat) (r : Str),
    2 * (prettyFields n l).length + 2 ≤ f → pFields f (prettyFields n l ++ (newline k ++ '}' :: r)) = some (l, r)
  | [], _, h, _, _, _, _, _ => absurd rfl h
  | [(key, t)], hl, _, n, k, f, r, hf => by
    obtain ⟨f, rfl⟩ : ∃ g, f = g + 1 := ⟨f - 1, by omega⟩
    simp only [litsFields] at hl
    simp only [prettyFields, quote, List.length_append, List.length_cons, List.length_nil] at hf
    simp only [prettyFields, List.append_assoc]
    rw [pFields_skip (skipWs_newline _ _)]
    simp only [quote, List.cons_append, List.append_assoc, List.nil_append, pFields,
      skipWs_cons (show jsonWs '"' = false by decide), if_true]
    rw [pChars_quoted key f _ (by omega)]
    simp only [skipWs_cons (show jsonWs ':' = false by decide), if_true]
    rw [pValue_skip (skipWs_blank _), pValue_pretty t hl.1 n f _ (by omega) (stops_newline _ _)]
    simp only [skipWs_newline]
    simp [skipWs, jsonWs]
  | (key, t) :: u :: ts, hl, _, n, k, f, r, hf => by
    obtain ⟨f, rfl⟩ : ∃ g, f = g + 1 := ⟨f - 1, by omega⟩
    rw [litsFields] at hl
    simp only [prettyFields, quote, List.length_append, List.length_cons, List.length_nil] at hf
    simp only [prettyFields, List.append_assoc]
    rw [pFields_skip (skipWs_newline _ _)]
    simp only [quote, List.cons_append, List.append_assoc, List.nil_append, pFields,
      skipWs_cons (show jsonWs '"' = false by decide), if_true]
    rw [pChars_quoted key f _ (by omega)]
    simp only [skipWs_cons (show jsonWs ':' = false by decide), if_true]
    rw [pValue_skip (skipWs_blank _), pValue_pretty t hl.1 n f _ (by omega) (stops_comma _)]
    simp only [skipWs_cons (show jsonWs ',' = false by decide), if_true]
    rw [pFields_pretty (u :: ts) hl.2 (by simp) n k f r (by omega)]
    rfl
end

/-- Reading a pretty-printed tree gives the tree back. -/
theorem pText_pretty (t : JTree) (h : t.Lits) : pText (t.pretty 0) = some t := by
  unfold pText
  have := pValue_pretty t h 0 (2 * (t.pretty 0).length + 2) [] (by omega) stops_nil
  rw [List.append_nil] at this
  rw [this]
  simp [skipWs]

end Zkenc
