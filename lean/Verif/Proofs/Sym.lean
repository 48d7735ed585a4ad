import Verif.Proofs.Str
import Verif.Model.Sym
import Verif.Spec.Sym
/-!
# Lemmas about the symbol-file parsers
-/

namespace Zkenc

open SymSpec

/-- The two fields of a four-field line that matter. -/
def symFields (ws : Char → Bool) (l : Str) : Option (Str × Str) :=
  match splitOn ',' l with
  | [_, p1, _, p3] => some (p1, trim ws p3)
  | _ => none

theorem symFields_cons {ws : Char → Bool} {x : Char} (hx : x ≠ ',') (l : Str) : symFields ws (x :: l) = symFields ws l := by
  obtain ⟨p, ps, h1, h2⟩ := splitOn_cons_ne hx l
  unfold symFields
  rw [h1, h2]
  rcases ps with _ | ⟨a, _ | ⟨b, _ | ⟨c, _ | ⟨d, t⟩⟩⟩⟩ <;> rfl

theorem symFields_snoc {ws : Char → Bool} {x : Char} (hx : x ≠ ',') (hw : ws x = true) (l : Str) :
    symFields ws (l ++ [x]) = symFields ws l := by
  obtain ⟨ps, p, h1, h2⟩ := splitOn_snoc_ne hx l
  unfold symFields
  rw [h1, h2]
  rcases ps with _ | ⟨a, _ | ⟨b, _ | ⟨c, _ | ⟨d, t⟩⟩⟩⟩
  · rfl
  · rfl
  · rfl
  · simp only [List.cons_append, List.nil_append, trim_snoc_ws hw]
  · rcases t with _ | ⟨e, t⟩ <;> rfl

theorem symFields_dropWhile {ws : Char → Bool} (hc : ws ',' = false) (l : Str) : symFields ws (l.dropWhile ws) = symFields ws l := by
  induction l with
  | nil => rfl
  | cons x l ih =>
    rw [List.dropWhile_cons]
    split
    · rename_i h
      rw [ih, symFields_cons]
      rintro rfl
      rw [hc] at h; cases h
    · rfl

theorem dropEndWhile_induct {ws : Char → Bool} {α : Type} (f : Str → α) (hf : ∀ s x, ws x = true → f (s ++ [x]) = f s) (s : Str) :
    f (dropEndWhile ws s) = f s := by
  have : ∀ r : Str, f ((r.dropWhile ws).reverse) = f r.reverse := by
    intro r
    induction r with
    | nil => rfl
    | cons x r ih =>
      rw [List.dropWhile_cons]
      split
      · rename_i h
        rw [ih, List.reverse_cons, hf _ _ h]
      · rfl
  have h := this s.reverse
  rwa [List.reverse_reverse] at h

theorem symFields_trim {ws : Char → Bool} (hc : ws ',' = false) (l : Str) : symFields ws (trim ws l) = symFields ws l := by
  unfold trim
  rw [dropEndWhile_induct (symFields ws) (fun s x hx => symFields_snoc (by
    rintro rfl; rw [hc] at hx; cases hx) hx s), symFields_dropWhile hc]

/-- The CLI line function in terms of the raw fields. -/
theorem cliSymLine_eq (l : Str) : cliSymLine l = match symFields rustWs l with
    | none => .ok none
    | some (p1, name) => match parseI32 (trim rustWs p1) with
      | none => Res.fail "Failed to parse wire_id"
      | some w => if w < 0 then .ok none else .ok (some (name, w.toNat)) := by
  rw [← symFields_trim (by decide) l]
  unfold cliSymLine
  simp only
  by_cases h : trim rustWs l = []
  · rw [if_pos h, h]; rfl
  · rw [if_neg h]
    unfold symFields
    rcases hs : splitOn ',' (trim rustWs l) with _ | ⟨a, _ | ⟨b, _ | ⟨c, _ | ⟨d, _ | ⟨e, t⟩⟩⟩⟩⟩ <;> rfl

theorem jsSymLine_eq (l : Str) : jsSymLine l = match symFields jsWs l with
    | none => none
    | some (p1, name) => match parseInt p1 with
      | none => none
      | some w => if 0 ≤ w then some (name, w.toNat) else none := by
  unfold jsSymLine symFields
  rcases hs : splitOn ',' l with _ | ⟨a, _ | ⟨b, _ | ⟨c, _ | ⟨d, _ | ⟨e, t⟩⟩⟩⟩⟩ <;> rfl

theorem cliSymLine_stripCr (l : Str) : cliSymLine (stripCr l) = cliSymLine l := by
  rw [cliSymLine_eq, cliSymLine_eq]
  have : symFields rustWs (stripCr l) = symFields rustWs l := by
    unfold stripCr
    split
    · rename_i h
      obtain ⟨t, rfl⟩ : ∃ t, l = t ++ ['\r'] := by
        obtain ⟨ys, rfl⟩ := List.getLast?_eq_some_iff.1 h
        exact ⟨ys, rfl⟩
      rw [List.dropLast_concat, symFields_snoc (by decide) (by decide)]
    · rfl
  rw [this]

theorem cliSymLine_nil : cliSymLine [] = .ok none := rfl

theorem cliSymLoop_append (a b : List Str) (m : AMap Nat) :
    cliSymLoop (a ++ b) m = match cliSymLoop a m with
      | .error e => .error e
      | .ok m' => cliSymLoop b m' := by
  induction a generalizing m with
  | nil => rfl
  | cons l a ih =>
    rw [List.cons_append, cliSymLoop, cliSymLoop]
    split
    · rfl
    · exact ih m
    · exact ih _

theorem cliSymLoop_stripCr (ls : List Str) (m : AMap Nat) : cliSymLoop (ls.map stripCr) m = cliSymLoop ls m := by
  induction ls generalizing m with
  | nil => rfl
  | cons l ls ih =>
    rw [List.map_cons, cliSymLoop, cliSymLoop, cliSymLine_stripCr]
    split
    · rfl
    · exact ih m
    · exact ih _

/-- The CLI parser works on the pieces between line feeds. -/
theorem parseSymFile_eq (s : Str) : parseSymFile s = cliSymLoop (splitOn '\n' s) [] := by
  unfold parseSymFile rustLines
  simp only
  rw [cliSymLoop_stripCr]
  split
  · rename_i h
    obtain ⟨t, ht⟩ : ∃ t, splitOn '\n' s = t ++ [[]] := by
      obtain ⟨ys, h'⟩ := List.getLast?_eq_some_iff.1 h
      exact ⟨ys, h'⟩
    rw [ht, List.dropLast_concat, cliSymLoop_append]
    cases cliSymLoop t [] with
    | error e => rfl
    | ok m => simp [cliSymLoop, cliSymLine_nil]
  · rfl

/-- Insert all entries, later ones win. -/
def insertAll (l : List (Str × Nat)) (m : AMap Nat) : AMap Nat := l.foldl (fun m e => AMap.insert m e.1 e.2) m

theorem cliSymLoop_ok_iff (ls : List Str) (m m' : AMap Nat) :
    cliSymLoop ls m = .ok m' ↔ ∃ rs : List (Option (Str × Nat)), ls.map cliSymLine = rs.map Except.ok ∧ m' = insertAll (rs.filterMap id) m := by
  induction ls generalizing m with
  | nil =>
    simp only [cliSymLoop, List.map_nil, Except.ok.injEq]
    constructor
    · rintro rfl; exact ⟨[], rfl, rfl⟩
    · rintro ⟨rs, h1, rfl⟩
      cases rs with
      | nil => rfl
      | cons _ _ => simp at h1
  | cons l ls ih =>
    rw [cliSymLoop]
    cases h : cliSymLine l with
    | error e =>
      simp only [reduceCtorEq, List.map_cons, h, false_iff, not_exists]
      rintro rs ⟨h1, -⟩
      cases rs with
      | nil => simp at h1
      | cons r rs => simp at h1
    | ok r =>
      cases r with
      | none =>
        simp only [ih, List.map_cons, h]
        constructor
        · rintro ⟨rs, h1, rfl⟩; exact ⟨none :: rs, by simp [h1], rfl⟩
        · rintro ⟨rs, h1, rfl⟩
          cases rs with
          | nil => simp at h1
          | cons r rs =>
            simp only [List.map_cons, List.cons.injEq, Except.ok.injEq] at h1
            obtain ⟨rfl, h1⟩ := h1
            exact ⟨rs, h1, rfl⟩
      | some e =>
        obtain ⟨k, w⟩ := e
        simp only [ih, List.map_cons, h]
        constructor
        · rintro ⟨rs, h1, rfl⟩; exact ⟨some (k, w) :: rs, by simp [h1], rfl⟩
        · rintro ⟨rs, h1, rfl⟩
          cases rs with
          | nil => simp at h1
          | cons r rs =>
            simp only [List.map_cons, List.cons.injEq, Except.ok.injEq] at h1
            obtain ⟨rfl, h1⟩ := h1
            exact ⟨rs, h1, rfl⟩

theorem cliSymLoop_cases (ls : List Str) (m : AMap Nat) :
    (∃ m', cliSymLoop ls m = .ok m') ∨
      (cliSymLoop ls m = Res.fail "Failed to parse wire_id" ∧ ∃ l ∈ ls, cliSymLine l = Res.fail "Failed to parse wire_id") := by
  induction ls generalizing m with
  | nil => exact Or.inl ⟨m, rfl⟩
  | cons l ls ih =>
    rw [cliSymLoop]
    have hl : (∃ r, cliSymLine l = .ok r) ∨ cliSymLine l = Res.fail "Failed to parse wire_id" := by
      rw [cliSymLine_eq]
      split
      · exact Or.inl ⟨_, rfl⟩
      · split
        · exact Or.inr rfl
        · split
          · exact Or.inl ⟨_, rfl⟩
          · exact Or.inl ⟨_, rfl⟩
    rcases hl with ⟨r, hr⟩ | hr
    · rw [hr]
      rcases r with _ | ⟨k, w⟩ <;> simp only
      · rcases ih m with h | ⟨h1, l', h2, h3⟩
        · exact Or.inl h
        · exact Or.inr ⟨h1, l', by simp [h2], h3⟩
      · rcases ih (AMap.insert m k w) with h | ⟨h1, l', h2, h3⟩
        · exact Or.inl h
        · exact Or.inr ⟨h1, l', by simp [h2], h3⟩
    · rw [hr]
      exact Or.inr ⟨rfl, l, by simp, hr⟩

/-! ## JS -/

theorem jsSymLoop_eq (ls : List Str) (m : AMap Nat) :
    ls.foldl (fun m l => match jsSymLine l with
      | some (k, w) => AMap.insert m k w
      | none => m) m = insertAll (ls.filterMap jsSymLine) m := by
  induction ls generalizing m with
  | nil => rfl
  | cons l ls ih =>
    rw [List.foldl_cons, ih, List.filterMap_cons]
    cases h : jsSymLine l with
    | none => rfl
    | some e => rfl

theorem jsSymLine_congr {l l' : Str} (h : symFields jsWs l = symFields jsWs l') : jsSymLine l = jsSymLine l' := by
  rw [jsSymLine_eq, jsSymLine_eq, h]

theorem jsLines_dropWhile (s : Str) :
    (splitOn '\n' (s.dropWhile jsWs)).filterMap jsSymLine = (splitOn '\n' s).filterMap jsSymLine := by
  induction s with
  | nil => rfl
  | cons x s ih =>
    rw [List.dropWhile_cons]
    split
    · rename_i h
      rw [ih]
      by_cases hn : x = '\n'
      · subst hn
        rw [splitOn_cons_eq, List.filterMap_cons]
        rfl
      · obtain ⟨p, ps, h1, h2⟩ := splitOn_cons_ne hn s
        rw [h1, h2, List.filterMap_cons, List.filterMap_cons]
        rw [jsSymLine_congr (symFields_cons (by rintro rfl; revert h; decide) p)]
    · rfl

theorem jsLines_dropEnd (s : Str) :
    (splitOn '\n' (dropEndWhile jsWs s)).filterMap jsSymLine = (splitOn '\n' s).filterMap jsSymLine := by
  refine dropEndWhile_induct (fun s => (splitOn '\n' s).filterMap jsSymLine) ?_ s
  intro s x h
  by_cases hn : x = '\n'
  · subst hn
    rw [splitOn_snoc_eq, List.filterMap_append]
    simp [show jsSymLine [] = none from rfl]
  · obtain ⟨ps, p, h1, h2⟩ := splitOn_snoc_ne hn s
    rw [h1, h2, List.filterMap_append, List.filterMap_append]
    congr 1
    rw [List.filterMap_cons, List.filterMap_cons,
      jsSymLine_congr (symFields_snoc (by rintro rfl; revert h; decide) h p)]

/-- The JS parser works on the pieces between line feeds too. -/
theorem jsParseSymFile_eq (s : Str) : jsParseSymFile s = insertAll ((splitOn '\n' s).filterMap jsSymLine) [] := by
  refine (jsSymLoop_eq _ _).trans ?_
  unfold trim
  rw [jsLines_dropEnd, jsLines_dropWhile]

/-! ## agreement -/

theorem ws_agree {c : Char} (h : c.toNat ≠ 0x85 ∧ c.toNat ≠ 0xFEFF) : rustWs c = jsWs c := by
  obtain ⟨h1, h2⟩ := h
  have e1 : (c.toNat == 0x85) = false := by simpa using h1
  have e2 : (c.toNat == 0xFEFF) = false := by simpa using h2
  unfold rustWs jsWs
  simp only [e1, e2, Bool.or_false]

theorem takeWhile_digits {ds t : Str} (hd : ds.all isDig = true) (ht : ∀ c ∈ t, isDig c = false) : (ds ++ t).takeWhile isDig = ds := by
  rw [List.all_eq_true] at hd
  induction ds with
  | nil =>
    cases t with
    | nil => rfl
    | cons x t => simp [ht x (by simp)]
  | cons x ds ih =>
    rw [List.cons_append, List.takeWhile_cons, if_pos (hd x (by simp)), ih (fun c hc => hd c (by simp [hc]))]

/-- `parseInt` reads sign and leading digits, whatever follows. -/
theorem parseInt_prefix (pre ds t : Str) (hp : ∀ c ∈ pre, jsWs c = true) (hd : ds.all isDig = true) (hne : ds ≠ [])
    (ht : ∀ c ∈ t.head?, isDig c = false) :
    parseInt (pre ++ (ds ++ t)) = some (decVal ds : Int) ∧ parseInt (pre ++ ('-' :: (ds ++ t))) = some (-(decVal ds : Int)) ∧
    parseInt (pre ++ ('+' :: (ds ++ t))) = some (decVal ds : Int) := by
  have htw : (ds ++ t).takeWhile isDig = ds := by
    rw [List.all_eq_true] at hd
    clear hne
    induction ds with
    | nil =>
      cases t with
      | nil => rfl
      | cons x t => simp [ht x (by simp)]
    | cons x ds ih =>
      rw [List.cons_append, List.takeWhile_cons, if_pos (hd x (by simp)), ih (fun c hc => hd c (by simp [hc]))]
  obtain ⟨x, ds', rfl⟩ : ∃ x ds', ds = x :: ds' := by
    cases ds with
    | nil => exact absurd rfl hne
    | cons x ds' => exact ⟨x, ds', rfl⟩
  have hx : isDig x = true := by
    rw [List.all_eq_true] at hd; exact hd x (by simp)
  have hxw := (not_ws_of_isDig hx).2
  have hx1 : x ≠ '-' := isDig_ne hx (by decide)
  have hx2 : x ≠ '+' := isDig_ne hx (by decide)
  refine ⟨?_, ?_, ?_⟩
  · unfold parseInt
    rw [dropWhile_append_of_all hp, List.cons_append, List.dropWhile_cons, hxw]
    simp only [Bool.false_eq_true, if_false]
    rw [List.cons_append] at htw
    split
    · rename_i h; rw [List.cons.injEq] at h; exact absurd h.1 hx1
    · rename_i h; rw [List.cons.injEq] at h; exact absurd h.1 hx2
    · rw [htw, if_neg (by simp)]
  · unfold parseInt
    rw [dropWhile_append_of_all hp, List.dropWhile_cons, show jsWs '-' = false by decide]
    simp only [Bool.false_eq_true, if_false]
    rw [htw, if_neg (by simp)]
  · unfold parseInt
    rw [dropWhile_append_of_all hp, List.dropWhile_cons, show jsWs '+' = false by decide]
    simp only [Bool.false_eq_true, if_false]
    rw [htw, if_neg (by simp)]

theorem parseInt_of_parseI32 {p : Str} {w : Int} (h : parseI32 (trim jsWs p) = some w) : parseInt p = some w := by
  obtain ⟨t, ht1, ht2⟩ := dropEndWhile_append jsWs (p.dropWhile jsWs)
  have hp : p = p.takeWhile jsWs ++ (trim jsWs p ++ t) := by
    unfold trim
    rw [← ht1, List.takeWhile_append_dropWhile]
  have hpre : ∀ c ∈ p.takeWhile jsWs, jsWs c = true := fun c hc => List.mem_takeWhile_imp hc
  have htd : ∀ c ∈ t.head?, isDig c = false := by
    intro c hc
    have hm : c ∈ t := List.mem_of_mem_head? hc
    cases hd : isDig c with
    | false => rfl
    | true => have := (not_ws_of_isDig hd).2; rw [ht2 c hm] at this; cases this
  rw [hp]
  unfold parseI32 at h
  split at h
  · rename_i ds he
    split at h
    · rename_i hc
      rw [Option.some.injEq] at h
      rw [he, List.cons_append, (parseInt_prefix _ ds t hpre hc.2.1 hc.1 htd).2.1, h]
    · cases h
  · rename_i ds he
    split at h
    · rename_i hc
      rw [Option.some.injEq] at h
      rw [he, List.cons_append, (parseInt_prefix _ ds t hpre hc.2.1 hc.1 htd).2.2, h]
    · cases h
  · split at h
    · rename_i hc
      rw [Option.some.injEq] at h
      rw [(parseInt_prefix _ _ t hpre hc.2.1 hc.1 htd).1, h]
    · cases h

theorem symFields_congr {l : Str} (h : PlainWs l) : symFields rustWs l = symFields jsWs l := by
  unfold symFields
  split
  · rename_i a p1 b p3 he
    rw [trim_congr p3 (ws' := jsWs)]
    intro c hc
    exact ws_agree (h c (mem_of_mem_splitOn (c := ',') (p := p3) (by rw [he]; simp) hc))
  · rfl

theorem jsSymLine_of_cli {l : Str} (hl : PlainWs l) {r : Option (Str × Nat)} (h : cliSymLine l = .ok r) : jsSymLine l = r := by
  rw [cliSymLine_eq] at h
  rw [jsSymLine_eq, ← symFields_congr hl]
  split at h
  · simpa using h
  · rename_i p1 name hs
    have hp1 : PlainWs p1 := by
      unfold symFields at hs
      split at hs
      · rename_i a p1' b p3 he
        rw [Option.some.injEq, Prod.mk.injEq] at hs
        obtain ⟨rfl, -⟩ := hs
        exact fun c hc => hl c (mem_of_mem_splitOn (c := ',') (p := p1') (by rw [he]; simp) hc)
      · cases hs
    split at h
    · simp [Res.fail] at h
    · rename_i w hw
      rw [trim_congr p1 (ws' := jsWs) (fun c hc => ws_agree (hp1 c hc))] at hw
      rw [parseInt_of_parseI32 hw]
      simp only
      split at h
      · rename_i hneg
        rw [if_neg (by omega)]
        simpa using h
      · rename_i hneg
        rw [if_pos (by omega)]
        simpa using h

theorem parseI32_intDec {z : Int} (h1 : -2 ^ 31 ≤ z) (h2 : z < 2 ^ 31) : parseI32 (intDec z) = some z := by
  obtain ⟨d1, d2, d3⟩ := natDec_spec z.natAbs
  unfold intDec
  split
  · rename_i hz
    unfold parseI32
    simp only
    rw [if_pos ⟨d2, d1, by rw [d3]; omega⟩, d3]
    congr 1; omega
  · rename_i hz
    obtain ⟨c, s, hcs, hc⟩ := natDec_head z.natAbs
    have hx1 : c ≠ '-' := isDig_ne hc (by decide)
    have hx2 : c ≠ '+' := isDig_ne hc (by decide)
    unfold parseI32
    split
    · rename_i h; rw [hcs, List.cons.injEq] at h; exact absurd h.1 hx1
    · rename_i h; rw [hcs, List.cons.injEq] at h; exact absurd h.1 hx2
    · rw [if_pos ⟨d2, d1, by rw [d3]; omega⟩, d3]
      congr 1; omega

theorem trim_of_no_ws {ws : Char → Bool} (s : Str) (h : ∀ c ∈ s, ws c = false) : trim ws s = s := by
  have hd : ∀ s : Str, (∀ c ∈ s, ws c = false) → s.dropWhile ws = s := by
    intro s hs
    cases s with
    | nil => rfl
    | cons x s => rw [List.dropWhile_cons, hs x (by simp)]; rfl
  unfold trim dropEndWhile
  rw [hd s h, hd _ (by simpa using h), List.reverse_reverse]

theorem intDec_chars (z : Int) : ∀ c ∈ intDec z, isDig c = true ∨ c = '-' := by
  intro c hc
  have h := (natDec_spec z.natAbs).1
  rw [List.all_eq_true] at h
  unfold intDec at hc
  split at hc
  · rcases List.mem_cons.1 hc with rfl | hc
    · exact Or.inr rfl
    · exact Or.inl (h c hc)
  · exact Or.inl (h c hc)

theorem intDec_plain (z : Int) : ∀ c ∈ intDec z, c ≠ ',' ∧ c ≠ '\n' ∧ rustWs c = false := by
  intro c hc
  rcases intDec_chars z c hc with h | rfl
  · exact ⟨isDig_ne h (by decide), isDig_ne h (by decide), (not_ws_of_isDig h).1⟩
  · decide

/-- What the CLI makes of a well-formed line. -/
theorem cliSymLine_item (i : Item) (h : i.Ok) : cliSymLine i.text = .ok (match i with
    | .entry e => if 0 ≤ e.wire then some (e.name, e.wire.toNat) else none
    | .junk _ => none) ∧ '\n' ∉ i.text := by
  cases i with
  | entry e =>
    obtain ⟨h1, h2, h3, h4, h5, h6⟩ := h
    have hw := intDec_plain e.wire
    constructor
    · have hs : splitOn ',' (Item.entry e).text = [e.label, intDec e.wire, e.comp, e.name] := by
        simp only [Item.text]
        rw [splitOn_append_sep _ _ _ (fun hm => (h1 _ hm).1 rfl), splitOn_append_sep _ _ _ (fun hm => (hw _ hm).1 rfl),
          splitOn_append_sep _ _ _ (fun hm => (h2 _ hm).1 rfl), splitOn_none _ _ (fun hm => (h3 _ hm).1 rfl)]
      rw [cliSymLine_eq]
      unfold symFields
      rw [hs]
      simp only [h4]
      rw [trim_of_no_ws _ (fun c hc => (hw c hc).2.2), parseI32_intDec h5 h6]
      simp only
      by_cases hn : e.wire < 0
      · rw [if_pos hn, if_neg (by omega)]
      · rw [if_neg hn, if_pos (by omega)]
    · simp only [Item.text, List.mem_append, List.mem_cons]
      rintro (hm | hm | hm | hm | hm | hm | hm)
      · exact (h1 _ hm).2 rfl
      · revert hm; decide
      · exact (hw _ hm).2.1 rfl
      · revert hm; decide
      · exact (h2 _ hm).2 rfl
      · revert hm; decide
      · exact (h3 _ hm).2 rfl
  | junk s =>
    obtain ⟨h1, h2⟩ := h
    refine ⟨?_, h1⟩
    rw [cliSymLine_eq]
    have : symFields rustWs (Item.junk s).text = none := by
      have hl := splitOn_length ',' s
      simp only [Item.text]
      unfold symFields
      split
      · rename_i he
        rw [he] at hl
        simp at hl
        omega
      · rfl
    rw [this]

theorem cliSymLoop_items (is : List Item) (h : ∀ i ∈ is, i.Ok) (m : AMap Nat) :
    cliSymLoop (is.map Item.text) m = .ok (insertAll (signals is) m) := by
  induction is generalizing m with
  | nil => rfl
  | cons i is ih =>
    rw [List.map_cons, cliSymLoop, (cliSymLine_item i (h i (by simp))).1]
    have ih' := fun m => ih (fun j hj => h j (by simp [hj])) m
    cases i with
    | entry e =>
      simp only [signals]
      by_cases he : 0 ≤ e.wire
      · simp only [if_pos he]
        exact ih' _
      · simp only [if_neg he]
        exact ih' _
    | junk s => exact ih' m

theorem splitOn_text (is : List Item) (h : ∀ i ∈ is, i.Ok) (hne : is ≠ []) : splitOn '\n' (text is) = is.map Item.text := by
  induction is with
  | nil => exact absurd rfl hne
  | cons i is ih =>
    have hi := (cliSymLine_item i (h i (by simp))).2
    cases is with
    | nil => simp only [text, List.map_cons, List.map_nil]; exact splitOn_none _ _ hi
    | cons j js =>
      simp only [text]
      rw [splitOn_append_sep _ _ _ hi, ih (fun k hk => h k (by simp [hk])) (by simp)]
      rfl

end Zkenc
