import Verif.Proofs.Sym
/-!
# C35, C36: symbol files
-/

namespace Zkenc.Props

open Zkenc SymSpec

/-! ## C35 -/

/-- On a plain file (no character on which the two notions of white space differ) that the CLI accepts, the JS parser returns the
very same table. -/
theorem C35_tools_agree {content : Str} (hp : PlainWs content) {m : AMap Nat} (h : parseSymFile content = .ok m) :
    jsParseSymFile content = m := by
  rw [parseSymFile_eq, cliSymLoop_ok_iff] at h
  obtain ⟨rs, hr, rfl⟩ := h
  rw [jsParseSymFile_eq]
  have key : ∀ (ls : List Str) (rs : List (Option (Str × Nat))), (∀ l ∈ ls, PlainWs l) → ls.map cliSymLine = rs.map Except.ok →
      ls.filterMap jsSymLine = rs.filterMap id := by
    intro ls
    induction ls with
    | nil =>
      intro rs _ hr
      cases rs with
      | nil => rfl
      | cons a b => simp at hr
    | cons l ls ih =>
      intro rs hl hr
      cases rs with
      | nil => simp at hr
      | cons r rs =>
        simp only [List.map_cons, List.cons.injEq] at hr
        rw [List.filterMap_cons, List.filterMap_cons, jsSymLine_of_cli (hl l (by simp)) hr.1, ih rs (fun x hx => hl x (by simp [hx])) hr.2]
        rfl
  rw [key _ rs (fun l hl c hc => hp c (mem_of_mem_splitOn hl hc)) hr]

/-- **C35** — for every file made of well-formed lines (lines that do not have four fields are allowed anywhere) in which no signal
name occurs with two different wires, the CLI parser succeeds, and its table holds exactly the named signals with a
non-negative wire; the JS parser returns the same table. -/
theorem C35_parses {is : List Item} (hne : is ≠ []) (hok : ∀ i ∈ is, i.Ok)
    (hd : ∀ s ∈ signals is, ∀ s' ∈ signals is, s.1 = s'.1 → s.2 = s'.2) :
    ∃ m, parseSymFile (text is) = .ok m ∧ AMap.Nodup m ∧ (∀ name w, m.get name = some w ↔ (name, w) ∈ signals is) ∧
      (PlainWs (text is) → jsParseSymFile (text is) = m) := by
  have h : parseSymFile (text is) = .ok (insertAll (signals is) []) := by
    rw [parseSymFile_eq, splitOn_text is hok hne, cliSymLoop_items is hok]
  refine ⟨_, h, ?_, ?_, fun hp => C35_tools_agree hp h⟩
  · exact AMap.nodup_foldl _ (fun m w hm => AMap.nodup_insert hm _ _) _ _ List.nodup_nil
  · intro name w
    refine (AMap.get_foldl_insert_consistent _ _ hd name w).trans ?_
    simp [AMap.get]

/-- A name that occurs several times keeps the wire of its last line, in both tools. -/
theorem C35_last_wins {is : List Item} (hne : is ≠ []) (hok : ∀ i ∈ is, i.Ok) :
    ∃ m, parseSymFile (text is) = .ok m ∧
      ∀ name, m.get name = ((signals is).reverse.find? (fun s => s.1 = name)).map Prod.snd := by
  refine ⟨_, by rw [parseSymFile_eq, splitOn_text is hok hne, cliSymLoop_items is hok], ?_⟩
  intro name
  refine (AMap.get_foldl_insert _ _ name).trans ?_
  cases (signals is).reverse.find? (fun s => s.1 = name) <;> rfl

/-- Wires above the bound are skipped (proof helper). -/
def wireSkipped (max : Option Nat) (w : Nat) : Bool := match max with | some k => decide (k < w) | none => false

theorem wireSkipped_iff (max : Option Nat) (w : Nat) : wireSkipped max w = false ↔ ∀ k, max = some k → w ≤ k := by
  cases max <;> simp [wireSkipped]

/-- **C35** (input lookup) — whatever the iteration order of the table, the input table holds `name` exactly if the symbol table holds
`main.name` with an admissible wire. -/
theorem C35_input_lookup {m : AMap Nat} (hm : AMap.Nodup m) {entries : List (Str × Nat)} (hperm : entries.Perm m) (max : Option Nat)
    (name : Str) (w : Nat) :
    (inputSignals entries max).get name = some w ↔
      m.get ("main.".toList ++ name) = some w ∧ (∀ k, max = some k → w ≤ k) := by
  have hstrip : ∀ s t : Str, stripMain s = some t ↔ s = "main.".toList ++ t := by
    intro s t
    unfold stripMain
    constructor
    · intro h
      split at h
      · rename_i h5
        cases h
        rw [show "main.".toList = mainDot from rfl, ← h5, List.take_append_drop]
      · cases h
    · rintro rfl
      rw [if_pos (by rfl)]
      rfl
  have hf : inputSignals entries max = (entries.filterMap (fun e =>
      if wireSkipped max e.2 then none else (stripMain e.1).map (fun s => (s, e.2)))).foldl
        (fun m e => AMap.insert m e.1 e.2) [] := by
    unfold inputSignals
    generalize ([] : AMap Nat) = m0
    clear hperm
    induction entries generalizing m0 with
    | nil => rfl
    | cons e es ih =>
      rw [List.foldl_cons, List.filterMap_cons, ih]
      have hstep : inputSignalStep max m0 e = if wireSkipped max e.2 then m0 else match stripMain e.1 with
        | some s => AMap.insert m0 s e.2
        | none => m0 := rfl
      rw [hstep]
      cases wireSkipped max e.2
      · cases stripMain e.1 <;> rfl
      · rfl
  have hmem : ∀ k v, (k, v) ∈ (entries.filterMap (fun e =>
      if wireSkipped max e.2 then none else (stripMain e.1).map (fun s => (s, e.2)))) ↔
        ("main.".toList ++ k, v) ∈ m ∧ (∀ b, max = some b → v ≤ b) := by
    intro k v
    rw [List.mem_filterMap]
    constructor
    · rintro ⟨⟨a, b⟩, he, h⟩
      split at h
      · cases h
      · rename_i hc
        rw [Option.map_eq_some_iff] at h
        obtain ⟨s, hs, h⟩ := h
        cases h
        rw [hstrip] at hs
        subst hs
        exact ⟨hperm.mem_iff.1 he, (wireSkipped_iff _ _).1 (by simpa using hc)⟩
    · rintro ⟨h1, h2⟩
      refine ⟨_, hperm.mem_iff.2 h1, ?_⟩
      rw [if_neg, (hstrip _ _).2 rfl]
      · rfl
      · rw [(wireSkipped_iff max v).2 h2]; simp
  rw [hf, AMap.get_foldl_insert_consistent, hmem, AMap.get_iff_mem hm]
  · simp [AMap.get]
  · rintro ⟨k, v⟩ he ⟨k', v'⟩ he' rfl
    rw [hmem] at he he'
    have h1 := (AMap.get_iff_mem hm _ _).2 he.1
    rw [(AMap.get_iff_mem hm _ _).2 he'.1] at h1
    cases h1
    rfl

/-- A four-line file: a comment, a public signal, a signal without wire and a trailing line feed. -/
def exampleSym : List Item :=
  [.junk "a, b".toList, .entry ⟨"1".toList, 2, "0".toList, "main.a[3]".toList⟩,
    .entry ⟨"2".toList, -1, "0".toList, "main.t".toList⟩, .junk []]

theorem exampleSym_ok : ∀ i ∈ exampleSym, i.Ok := by
  intro i hi
  simp only [exampleSym, List.mem_cons, List.not_mem_nil, or_false] at hi
  rcases hi with rfl | rfl | rfl | rfl
  · exact ⟨by decide, by decide⟩
  · exact ⟨by decide, by decide, by decide, by decide, by decide, by decide⟩
  · exact ⟨by decide, by decide, by decide, by decide, by decide, by decide⟩
  · exact ⟨by decide, by decide⟩

/-- Example: the file meets the hypotheses, its only signal is `main.a[3]` with wire 2. -/
example : ∃ m, parseSymFile (text exampleSym) = .ok m ∧ m.get "main.a[3]".toList = some 2 ∧ m.get "main.t".toList = none ∧
    (inputSignals m (some 2)).get "a[3]".toList = some 2 ∧ (inputSignals m (some 1)).get "a[3]".toList = none := by
  have hs : signals exampleSym = [("main.a[3]".toList, 2)] := rfl
  obtain ⟨m, h1, h2, h3, -⟩ := C35_parses (is := exampleSym) (by decide) exampleSym_ok (by rw [hs]; simp)
  have ha : m.get "main.a[3]".toList = some 2 := (h3 _ _).2 (by rw [hs]; simp)
  refine ⟨m, h1, ha, ?_, ?_, ?_⟩
  · cases hg : m.get "main.t".toList with
    | none => rfl
    | some w =>
      rw [h3, hs] at hg
      revert hg
      simp
  · exact (C35_input_lookup h2 (List.Perm.refl m) _ _ _).2 ⟨ha, by simp⟩
  · cases hg : (inputSignals m (some 1)).get "a[3]".toList with
    | none => rfl
    | some w =>
      rw [C35_input_lookup h2 (List.Perm.refl m)] at hg
      have : m.get "main.a[3]".toList = some w := hg.1
      rw [ha] at this
      cases this
      have := hg.2 1 rfl
      omega

/-! ## C36 -/

/-- The wire field of a line is the text of a 32-bit signed number: optional sign, digits, nothing else (surrounding white space is
ignored). -/
def WireField (p : Str) (w : Int) : Prop :=
  (∃ ds : Str, ds ≠ [] ∧ (∀ c ∈ ds, isDig c = true) ∧
    ((trim rustWs p = ds ∧ w = decVal ds) ∨ (trim rustWs p = '+' :: ds ∧ w = decVal ds) ∨ (trim rustWs p = '-' :: ds ∧ w = -(decVal ds : Int)))) ∧
  -2 ^ 31 ≤ w ∧ w < 2 ^ 31

theorem parseI32_iff (p : Str) (w : Int) : parseI32 (trim rustWs p) = some w ↔ WireField p w := by
  unfold WireField
  generalize trim rustWs p = s
  have hmd : isDig '-' = false := by decide
  have hpd : isDig '+' = false := by decide
  constructor
  · intro h
    unfold parseI32 at h
    split at h
    · rename_i ds
      split at h
      · rename_i hc
        cases h
        refine ⟨⟨ds, hc.1, by simpa using hc.2.1, Or.inr (Or.inr ⟨rfl, rfl⟩)⟩, ?_, ?_⟩ <;> omega
      · cases h
    · rename_i ds
      split at h
      · rename_i hc
        cases h
        refine ⟨⟨ds, hc.1, by simpa using hc.2.1, Or.inr (Or.inl ⟨rfl, rfl⟩)⟩, ?_, ?_⟩ <;> omega
      · cases h
    · split at h
      · rename_i hc
        cases h
        refine ⟨⟨s, hc.1, by simpa using hc.2.1, Or.inl ⟨rfl, rfl⟩⟩, ?_, ?_⟩ <;> omega
      · cases h
  · rintro ⟨⟨ds, hne, hd, h⟩, h1, h2⟩
    have hall : ds.all isDig = true := by simpa using hd
    rcases h with ⟨rfl, rfl⟩ | ⟨rfl, rfl⟩ | ⟨rfl, rfl⟩
    · unfold parseI32
      split
      · rename_i t
        have := hd '-' (by simp)
        rw [hmd] at this; cases this
      · rename_i t
        have := hd '+' (by simp)
        rw [hpd] at this; cases this
      · rw [if_pos ⟨hne, hall, by omega⟩]
    · simp only [parseI32]
      rw [if_pos ⟨hne, hall, by omega⟩]
    · simp only [parseI32]
      rw [if_pos ⟨hne, hall, by omega⟩]

/-- **C36** — the CLI rejects a symbol file exactly if some line with four fields has a wire field that is not a 32-bit signed
number; in every other case it returns a table. It never panics. -/
theorem C36_cli_rejects_iff (content : Str) :
    parseSymFile content = Res.fail "Failed to parse wire_id" ↔
      ∃ line ∈ splitOn '\n' content, ∃ a p b c, splitOn ',' line = [a, p, b, c] ∧ ∀ w, ¬ WireField p w := by
  have hline : ∀ l : Str, cliSymLine l = Res.fail "Failed to parse wire_id" ↔
      ∃ a p b c, splitOn ',' l = [a, p, b, c] ∧ ∀ w, ¬ WireField p w := by
    intro l
    rw [cliSymLine_eq]
    unfold symFields
    rcases hs : splitOn ',' l with _ | ⟨a, _ | ⟨p, _ | ⟨b, _ | ⟨c, _ | ⟨d, t⟩⟩⟩⟩⟩
    · simp [Res.fail]
    · simp [Res.fail]
    · simp [Res.fail]
    · simp [Res.fail]
    · simp only
      constructor
      · intro h
        refine ⟨a, p, b, c, rfl, ?_⟩
        intro w hw
        rw [← parseI32_iff] at hw
        rw [hw] at h
        simp only [Res.fail] at h
        split at h <;> cases h
      · rintro ⟨a', p', b', c', he, h⟩
        cases he
        have : parseI32 (trim rustWs p) = none := by
          cases hp : parseI32 (trim rustWs p) with
          | none => rfl
          | some w => exact absurd ((parseI32_iff p w).1 hp) (h w)
        rw [this]
    · simp [Res.fail]
  constructor
  · intro h
    rw [parseSymFile_eq] at h
    rcases cliSymLoop_cases (splitOn '\n' content) [] with ⟨m', hm⟩ | ⟨-, l, hl, he⟩
    · rw [hm] at h; cases h
    · exact ⟨l, hl, (hline l).1 he⟩
  · rintro ⟨l, hl, he⟩
    have he := (hline l).2 he
    rw [parseSymFile_eq]
    rcases cliSymLoop_cases (splitOn '\n' content) [] with ⟨m', hm⟩ | ⟨h, -⟩
    · rw [cliSymLoop_ok_iff] at hm
      obtain ⟨rs, hr, -⟩ := hm
      have : cliSymLine l ∈ rs.map Except.ok := hr ▸ List.mem_map_of_mem hl
      rw [he] at this
      simp [Res.fail] at this
    · exact h

/-- The CLI parser returns a table or that error, nothing else. -/
theorem C36_cli_total (content : Str) :
    (∃ m, parseSymFile content = .ok m) ∨ parseSymFile content = Res.fail "Failed to parse wire_id" := by
  rw [parseSymFile_eq]
  rcases cliSymLoop_cases (splitOn '\n' content) [] with h | h
  · exact Or.inl h
  · exact Or.inr h.1

/-- **C36** (JS, wire field with a numeric prefix) — a line whose wire field is white space, digits and then anything that does not
start with a digit is read as that number. -/
theorem C36_js_reads_prefix (a pre ds t b c : Str) (hp : ∀ x ∈ pre, jsWs x = true) (hd : ∀ x ∈ ds, isDig x = true) (hne : ds ≠ [])
    (ht : ∀ x ∈ t.head?, isDig x = false) {line : Str} (hl : splitOn ',' line = [a, pre ++ (ds ++ t), b, c]) :
    jsSymLine line = some (trim jsWs c, decVal ds) := by
  unfold jsSymLine
  rw [hl]
  simp only
  rw [(parseInt_prefix pre ds t hp (by simpa using hd) hne ht).1]
  simp

/-- **C36** (JS, other wire fields) — a line whose wire field, after white space and an optional sign, does not start with a digit is skipped. -/
theorem C36_js_skips (a p b c : Str) {line : Str} (hl : splitOn ',' line = [a, p, b, c])
    (hp : ∀ x ∈ (p.dropWhile jsWs).head?, isDig x = false ∧ x ≠ '-' ∧ x ≠ '+') : jsSymLine line = none := by
  have : parseInt p = none := by
    unfold parseInt
    cases hq : p.dropWhile jsWs with
    | nil => rfl
    | cons x q =>
      rw [hq] at hp
      obtain ⟨h1, h2, h3⟩ := hp x (by simp)
      split
      · rename_i h; cases h; exact absurd rfl h2
      · rename_i h; cases h; exact absurd rfl h3
      · rw [if_pos]
        simp [h1]
  unfold jsSymLine
  rw [hl]
  simp only
  rw [this]

/-- The JS parser is total: it is the last-wins table of the lines it reads. -/
theorem C36_js_table (content name : Str) :
    (jsParseSymFile content).get name =
      (((splitOn '\n' content).filterMap jsSymLine).reverse.find? (fun s => s.1 = name)).map Prod.snd := by
  rw [jsParseSymFile_eq]
  refine (AMap.get_foldl_insert _ _ name).trans ?_
  cases (((splitOn '\n' content).filterMap jsSymLine).reverse.find? (fun s => s.1 = name)) <;> rfl

/-- Example: the two tools on one file. One wire field is `7x`, another one is not a number, a third is `2^31`: the CLI fails, JS
assigns 7 and `2^31` and skips the other line. -/
example : parseSymFile "1,7x,0,main.a\n2,q,0,main.b\n3,2147483648,0,main.c".toList = Res.fail "Failed to parse wire_id" ∧
    (jsParseSymFile "1,7x,0,main.a\n2,q,0,main.b\n3,2147483648,0,main.c".toList).get "main.a".toList = some 7 ∧
    (jsParseSymFile "1,7x,0,main.a\n2,q,0,main.b\n3,2147483648,0,main.c".toList).get "main.b".toList = none ∧
    (jsParseSymFile "1,7x,0,main.a\n2,q,0,main.b\n3,2147483648,0,main.c".toList).get "main.c".toList = some (2 ^ 31) := by
  refine ⟨by rfl, by rfl, by rfl, by rfl⟩

end Zkenc.Props
