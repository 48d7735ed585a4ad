import Mathlib.Data.List.Induction
import Verif.Spec.SymLines
import Verif.Props.ParseMore
/-!
# C36: the table read from any symbol file
-/

namespace Zkenc.Props

open Zkenc SymSpec

theorem cliSymLine_names (l name : Str) (w : Nat) : cliSymLine l = .ok (some (name, w)) ↔ LineNames rustWs WireField l name w := by
  rw [cliSymLine_eq]
  unfold symFields LineNames
  constructor
  · intro h
    split at h
    · simp at h
    rename_i p1 n hs
    split at hs
    · rename_i a p b c hl
      simp only [Option.some.injEq, Prod.mk.injEq] at hs
      obtain ⟨rfl, rfl⟩ := hs
      split at h
      · simp [Res.fail] at h
      rename_i z hz
      split at h
      · simp at h
      · simp only [Except.ok.injEq, Option.some.injEq, Prod.mk.injEq] at h
        obtain ⟨rfl, rfl⟩ := h
        refine ⟨a, p, b, c, hl, rfl, (parseI32_iff _ _).1 ?_⟩
        rw [hz]
        congr 1
        omega
    · simp at hs
  · rintro ⟨a, p, b, c, hl, rfl, hf⟩
    rw [hl]
    simp only
    rw [(parseI32_iff _ _).2 hf]
    simp only
    rw [if_neg (by omega)]
    rfl

theorem jsSymLine_names (l name : Str) (w : Nat) : jsSymLine l = some (name, w) ↔ LineNames jsWs JsWireField l name w := by
  constructor
  · intro h
    have h' := h
    unfold jsSymLine at h'
    split at h'
    · rename_i a p b c hl
      exact ⟨a, p, b, c, hl, ((C36_js_line a p b c hl).1 name w).1 h⟩
    · simp at h'
  · rintro ⟨a, p, b, c, hl, h⟩
    exact ((C36_js_line a p b c hl).1 name w).2 h

theorem lastNames_nil {ws : Char → Bool} {f : Str → Int → Prop} {name : Str} {w : Nat} : ¬ LastNames ws f [] name w := by
  rintro ⟨pre, line, post, h, -⟩
  simp at h

/-- One more line at the end (proof helper). -/
theorem lastNames_append {ws : Char → Bool} {f : Str → Int → Prop} {ls : List Str} {l name : Str} {w : Nat} :
    LastNames ws f (ls ++ [l]) name w ↔ LineNames ws f l name w ∨ ((∀ w', ¬ LineNames ws f l name w') ∧ LastNames ws f ls name w) := by
  constructor
  · rintro ⟨pre, line, post, h1, h2, h3⟩
    rcases List.eq_nil_or_concat post with rfl | ⟨post', x, rfl⟩
    · obtain ⟨-, h⟩ := List.append_inj' h1 (by simp)
      cases h
      exact .inl h2
    · have h1' : ls ++ [l] = (pre ++ line :: post') ++ [x] := by rw [h1]; simp
      obtain ⟨rfl, h⟩ := List.append_inj' h1' (by simp)
      cases h
      refine .inr ⟨fun w' => h3 l (by simp) w', pre, line, post', rfl, h2, fun y hy => h3 y (by simp [hy])⟩
  · rintro (h | ⟨h1, pre, line, post, rfl, h2, h3⟩)
    · exact ⟨ls, l, [], rfl, h, by simp⟩
    · refine ⟨pre, line, post ++ [l], by simp, h2, ?_⟩
      intro y hy w'
      rw [List.mem_append, List.mem_singleton] at hy
      rcases hy with hy | rfl
      · exact h3 y hy w'
      · exact h1 w'

/-- The last-wins table of lines read by `g` (proof helper). -/
theorem insertAll_lastNames {ws : Char → Bool} {f : Str → Int → Prop} (g : Str → Option (Str × Nat))
    (hg : ∀ l name w, g l = some (name, w) ↔ LineNames ws f l name w) (ls : List Str) (name : Str) (w : Nat) :
    (insertAll (ls.filterMap g) []).get name = some w ↔ LastNames ws f ls name w := by
  have hget : (insertAll (ls.filterMap g) []).get name = ((ls.filterMap g).reverse.find? (fun s => s.1 = name)).map Prod.snd := by
    refine (AMap.get_foldl_insert _ _ name).trans ?_
    cases ((ls.filterMap g).reverse.find? (fun s => s.1 = name)) <;> rfl
  rw [hget]
  clear hget
  induction ls using List.reverseRecOn with
  | nil => simp [lastNames_nil]
  | append_singleton ls l ih =>
    have ih' : (((ls.filterMap g).reverse.find? (fun s => s.1 = name)).map Prod.snd = some w ↔ LastNames ws f ls name w) := ih
    rw [lastNames_append, ← ih', List.filterMap_append]
    cases hl : g l with
    | none =>
      have hn : ∀ w', ¬ LineNames ws f l name w' := by
        intro w' h
        rw [(hg l name w').2 h] at hl
        cases hl
      simp [hl, hn]
    | some r =>
      obtain ⟨n, v⟩ := r
      have hr := (hg l n v).1 hl
      by_cases hnm : n = name
      · subst hnm
        have hne : ¬ ∀ w', ¬ LineNames ws f l n w' := fun h => h v hr
        simp only [List.filterMap_cons, hl, List.filterMap_nil, List.reverse_append, List.reverse_cons, List.reverse_nil, List.nil_append,
          List.cons_append, List.find?_cons, decide_true, Option.map_some, Option.some.injEq, hne, false_and, or_false]
        rw [← hg, hl]
        simp
      · have hn : ∀ w', ¬ LineNames ws f l name w' := by
          intro w' h
          rw [(hg l name w').2 h] at hl
          cases hl
          exact hnm rfl
        simp [List.filterMap_cons, hl, hn, hnm]

/-- **C36/C35** (exactly) — the table which the CLI reads from any text it accepts: a name has the wire which the last line that names it gives (a line with a negative wire id does
not name anything). -/
theorem C36_cli_table {content : Str} {m : AMap Nat} (h : parseSymFile content = .ok m) :
    AMap.Nodup m ∧ ∀ name w, m.get name = some w ↔ LastNames rustWs WireField (splitOn '\n' content) name w := by
  rw [parseSymFile_eq, cliSymLoop_ok_iff] at h
  obtain ⟨rs, hr, rfl⟩ := h
  refine ⟨AMap.nodup_foldl _ (fun m w hm => AMap.nodup_insert hm _ _) _ _ List.nodup_nil, ?_⟩
  intro name w
  have key : ∀ (ls : List Str) (rs : List (Option (Str × Nat))), ls.map cliSymLine = rs.map Except.ok →
      rs.filterMap id = ls.filterMap fun l => match cliSymLine l with | .ok o => o | .error _ => none := by
    intro ls
    induction ls with
    | nil =>
      intro rs hr
      cases rs with
      | nil => rfl
      | cons r rs => simp at hr
    | cons l ls ih =>
      intro rs hr
      cases rs with
      | nil => simp at hr
      | cons r rs =>
        simp only [List.map_cons, List.cons.injEq] at hr
        rw [List.filterMap_cons, List.filterMap_cons, hr.1, ih rs hr.2]
        rfl
  rw [key _ _ hr]
  refine insertAll_lastNames _ ?_ _ _ _
  intro l n v
  rw [← cliSymLine_names]
  cases cliSymLine l with
  | ok o => simp
  | error e => simp

/-- **C36/C35** (exactly) — the table which the JS library reads from any text. -/
theorem C36_js_table_exactly (content name : Str) (w : Nat) :
    (jsParseSymFile content).get name = some w ↔ LastNames jsWs JsWireField (splitOn '\n' content) name w := by
  rw [jsParseSymFile_eq]
  exact insertAll_lastNames jsSymLine jsSymLine_names _ _ _

/-- A signal listed three times, the last time without wire: both tools keep the second wire; a line of five fields means nothing. -/
example : ∃ m, parseSymFile "1,4,0,main.a\n1, +5 ,0, main.a \n1,-1,0,main.a\n1,6,0,main.a,x".toList = .ok m ∧ m.get "main.a".toList = some 5 ∧
    LastNames rustWs WireField (splitOn '\n' "1,4,0,main.a\n1, +5 ,0, main.a \n1,-1,0,main.a\n1,6,0,main.a,x".toList) "main.a".toList 5 := by
  have h : parseSymFile "1,4,0,main.a\n1, +5 ,0, main.a \n1,-1,0,main.a\n1,6,0,main.a,x".toList = .ok [("main.a".toList, 5)] := by decide +kernel
  exact ⟨_, h, by decide +kernel, ((C36_cli_table h).2 _ _).1 (by decide +kernel)⟩

example : LastNames jsWs JsWireField (splitOn '\n' "1,4,0,main.a\n1, +5x,0, main.a \n1,-1,0,main.a\n".toList) "main.a".toList 5 :=
  (C36_js_table_exactly _ _ _).1 (by decide +kernel)

end Zkenc.Props
