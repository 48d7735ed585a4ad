import Verif.Spec.JsonText
import Verif.Proofs.Str
/-!
# The JSON parser reads what the writer writes
-/

namespace Zkenc

open JsonSpec

/-! ## Strings -/

theorem hexVal_hexDigit {d : Nat} (h : d < 16) : hexVal (escChar.hexDigit d) = some d := by
  interval_cases d <;> decide

theorem char_ofNat_toNat (c : Char) : Char.ofNat c.toNat = c := Char.ofNat_toNat c

theorem pChars_esc (f : Nat) (c : Char) (t : Str) :
    pChars (f + 1) (escChar c ++ t) = (pChars f t).map fun u => (c :: u.1, u.2) := by
  unfold escChar
  by_cases h1 : c = '"'
  · subst h1; simp [pChars, pEscape]
  rw [if_neg h1]
  by_cases h2 : c = '\\'
  · subst h2; simp [pChars, pEscape]
  rw [if_neg h2]
  have key : ∀ n, c.toNat = n → Char.ofNat n = c := fun n h => by rw [← h]; exact char_ofNat_toNat c
  by_cases h : c.toNat = 8
  · rw [if_pos h]; have := key _ h; simp only [List.cons_append, List.nil_append, pChars, pEscape]; simp; rw [this]
  rw [if_neg h]
  by_cases h : c.toNat = 9
  · rw [if_pos h]; have := key _ h; simp only [List.cons_append, List.nil_append, pChars, pEscape]; simp; rw [this]
  rw [if_neg h]
  by_cases h : c.toNat = 10
  · rw [if_pos h]; have := key _ h; simp only [List.cons_append, List.nil_append, pChars, pEscape]; simp; rw [this]
  rw [if_neg h]
  by_cases h : c.toNat = 12
  · rw [if_pos h]; have := key _ h; simp only [List.cons_append, List.nil_append, pChars, pEscape]; simp; rw [this]
  rw [if_neg h]
  by_cases h : c.toNat = 13
  · rw [if_pos h]; have := key _ h; simp only [List.cons_append, List.nil_append, pChars, pEscape]; simp; rw [this]
  rw [if_neg h]
  by_cases h32 : c.toNat < 32
  · rw [if_pos h32]
    have hd : hexVal (escChar.hexDigit (c.toNat % 16)) = some (c.toNat % 16) := hexVal_hexDigit (Nat.mod_lt _ (by decide))
    have h0 : hexVal '0' = some 0 := by decide
    have h1' : hexVal '1' = some 1 := by decide
    have hx : hex4 ('0' :: '0' :: (if c.toNat < 16 then '0' else '1') :: escChar.hexDigit (c.toNat % 16) :: t) = some (c.toNat, t) := by
      simp only [hex4, h0, hd]
      by_cases h16 : c.toNat < 16
      · simp only [if_pos h16, h0]; rw [Nat.mod_eq_of_lt h16]; simp
      · simp only [if_neg h16, h1']
        have : (0 * 16 + 0) * 16 + 1 = 1 := rfl
        have : ((0 * 16 + 0) * 16 + 1) * 16 + c.toNat % 16 = c.toNat := by omega
        rw [this]
    have hu : pUnicode ('0' :: '0' :: (if c.toNat < 16 then '0' else '1') :: escChar.hexDigit (c.toNat % 16) :: t) = some (c, t) := by
      unfold pUnicode
      rw [hx]
      simp only
      rw [if_neg (by omega), if_neg (by omega), char_ofNat_toNat]
    have he : pEscape ('u' :: '0' :: '0' :: (if c.toNat < 16 then '0' else '1') :: escChar.hexDigit (c.toNat % 16) :: t) = some (c, t) := by
      rw [pEscape]
      rw [if_neg (by decide), if_neg (by decide), if_neg (by decide), if_neg (by decide), if_neg (by decide), if_neg (by decide),
        if_neg (by decide), if_neg (by decide), if_pos rfl]
      exact hu
    simp only [List.cons_append, List.nil_append, pChars]
    rw [if_neg (by decide), if_pos trivial, he]
  · rw [if_neg h32]
    simp only [List.cons_append, List.nil_append, pChars]
    rw [if_neg h1, if_neg h2, if_neg h32]

theorem pChars_quoted (s : Str) : ∀ (f : Nat) (r : Str), (s.flatMap escChar).length + 1 ≤ f →
    pChars f (s.flatMap escChar ++ '"' :: r) = some (s, r) := by
  induction s with
  | nil =>
    intro f r h
    obtain ⟨f, rfl⟩ : ∃ g, f = g + 1 := ⟨f - 1, by omega⟩
    simp [pChars]
  | cons c s ih =>
    intro f r h
    obtain ⟨f, rfl⟩ : ∃ g, f = g + 1 := ⟨f - 1, by omega⟩
    have hc : 1 ≤ (escChar c).length := by unfold escChar; split_ifs <;> simp
    simp only [List.flatMap_cons, List.length_append] at h
    rw [List.flatMap_cons, List.append_assoc, pChars_esc, ih f r (by omega)]
    rfl

/-! ## Numbers -/

/-- What may follow a number. -/
def Stops (r : Str) : Prop := ∀ c t, r = c :: t → isDig c = false ∧ c ≠ '.' ∧ c ≠ 'e' ∧ c ≠ 'E'

theorem takeWhile_digs {ds r : Str} (h : ds.all isDig = true) (hr : ∀ c t, r = c :: t → isDig c = false) :
    (ds ++ r).takeWhile isDig = ds ∧ (ds ++ r).dropWhile isDig = r := by
  induction ds with
  | nil =>
    cases r with
    | nil => simp
    | cons c t => simp [hr c t rfl]
  | cons d ds ih =>
    simp only [List.all_cons, Bool.and_eq_true] at h
    obtain ⟨h1, h2⟩ := ih h.2
    simp [h.1, h1, h2]

theorem pDigits_append {ds r : Str} (h : ds.all isDig = true) (hne : ds ≠ []) (hr : ∀ c t, r = c :: t → isDig c = false) :
    pDigits (ds ++ r) = some (ds, r) := by
  obtain ⟨h1, h2⟩ := takeWhile_digs h hr
  unfold pDigits
  rw [h1, h2, if_neg hne]

theorem isDig_facts {c : Char} (h : isDig c = true) : c ≠ '-' ∧ c ≠ '+' ∧ c ≠ '.' ∧ c ≠ 'e' ∧ c ≠ 'E' ∧ c ≠ '"' ∧ c ≠ '[' ∧ c ≠ '{' ∧ c ≠ 'n' ∧
    c ≠ 't' ∧ c ≠ 'f' ∧ jsonWs c = false := by
  have hh := h
  simp only [isDig, Bool.and_eq_true, decide_eq_true_eq] at h
  refine ⟨isDig_ne hh (by decide), isDig_ne hh (by decide), isDig_ne hh (by decide), isDig_ne hh (by decide), isDig_ne hh (by decide),
    isDig_ne hh (by decide), isDig_ne hh (by decide), isDig_ne hh (by decide), isDig_ne hh (by decide), isDig_ne hh (by decide),
    isDig_ne hh (by decide), ?_⟩
  have h1 : c ≠ ' ' := isDig_ne hh (by decide)
  have h2 : c ≠ '\t' := isDig_ne hh (by decide)
  have h3 : c ≠ '\n' := isDig_ne hh (by decide)
  have h4 : c ≠ '\r' := isDig_ne hh (by decide)
  simp [jsonWs, h1, h2, h3, h4]

theorem pExp_append {exp r : Str} (he : exp = [] ∨ ∃ c sg ds, exp = c :: (sg ++ ds) ∧ (c = 'e' ∨ c = 'E') ∧
      (sg = [] ∨ sg = ['+'] ∨ sg = ['-']) ∧ ds ≠ [] ∧ ds.all isDig = true) (hr : Stops r) :
    pExp (exp ++ r) = some (exp, r) := by
  rcases he with rfl | ⟨c, sg, ds, rfl, hc, hsg, hne, hds⟩
  · cases r with
    | nil => rfl
    | cons c t =>
      obtain ⟨-, -, h2, h3⟩ := hr c t rfl
      simp [pExp, h2, h3]
  · have hdr : ∀ c t, r = c :: t → isDig c = false := fun c t h => (hr c t h).1
    have hp := pDigits_append hds hne hdr
    rcases hsg with rfl | rfl | rfl
    · obtain ⟨d, ds', rfl⟩ : ∃ d ds', ds = d :: ds' := by cases ds with
        | nil => exact absurd rfl hne
        | cons d ds' => exact ⟨d, ds', rfl⟩
      have hd : isDig d = true := by simp only [List.all_cons, Bool.and_eq_true] at hds; exact hds.1
      obtain ⟨h1, h2, -⟩ := isDig_facts hd
      simp only [List.nil_append, List.cons_append, pExp] at hp ⊢
      rw [if_pos hc, if_neg (by simp [h1, h2]), hp]; rfl
    · simp only [List.cons_append, List.nil_append, pExp]
      rw [if_pos hc, if_pos (Or.inl trivial), hp]; rfl
    · simp only [List.cons_append, List.nil_append, pExp]
      rw [if_pos hc, if_pos (Or.inr trivial), hp]; rfl

theorem pNum_append {lit r : Str} (h : NumLit lit) (hr : Stops r) : pNum (lit ++ r) = some (lit, r) := by
  obtain ⟨sign, int, frac, exp, hs, hi, hf, he⟩ := h
  have hexp := pExp_append he hr
  -- what follows the fraction does not start with a digit
  have hE : ∀ c t, exp ++ r = c :: t → isDig c = false ∧ c ≠ '.' := by
    intro c t h
    rcases he with rfl | ⟨c', sg, ds, rfl, hc, -⟩
    · have := hr c t h; exact ⟨this.1, this.2.1⟩
    · simp only [List.cons_append, List.cons.injEq] at h
      rw [← h.1]
      rcases hc with rfl | rfl <;> decide
  have hfrac : pFrac (frac ++ (exp ++ r)) = some (frac, exp ++ r) := by
    rcases hf with rfl | ⟨ds, rfl, hne, hds⟩
    · rw [List.nil_append]
      cases hx : exp ++ r with
      | nil => rfl
      | cons c t => simp only [pFrac]; rw [if_neg (hE c t hx).2]
    · simp only [List.cons_append, pFrac]
      rw [if_pos trivial, pDigits_append hds hne (fun c t h => (hE c t h).1)]; rfl
  have hF : ∀ c t, frac ++ (exp ++ r) = c :: t → isDig c = false := by
    intro c t h
    rcases hf with rfl | ⟨ds, rfl, -⟩
    · exact (hE c t h).1
    · simp only [List.cons_append, List.cons.injEq] at h
      rw [← h.1]; decide
  have hint : pInt (int ++ (frac ++ (exp ++ r))) = some (int, frac ++ (exp ++ r)) := by
    rcases hi with rfl | ⟨c, ds, rfl, hc, hc0, hds⟩
    · simp [pInt]
    · obtain ⟨h1, h2⟩ := takeWhile_digs hds hF
      simp only [List.cons_append, pInt]
      rw [if_neg hc0, if_pos hc, h1, h2]
  have hhead : ∃ c t, int = c :: t ∧ isDig c = true := by
    rcases hi with rfl | ⟨c, ds, rfl, hc, -⟩
    · exact ⟨_, _, rfl, by decide⟩
    · exact ⟨c, ds, rfl, hc⟩
  unfold pNum
  rcases hs with rfl | rfl
  · obtain ⟨c, t, rfl, hc⟩ := hhead
    have hm := (isDig_facts hc).1
    simp only [List.nil_append, List.cons_append, List.head?_cons, Option.some.injEq, if_neg hm, List.length_nil, List.drop_zero,
      List.append_assoc] at *
    rw [hint]
    simp only [Option.bind_eq_bind, Option.bind_some]
    rw [hfrac]
    simp only [Option.bind_some]
    rw [hexp]
    rfl
  · simp only [List.cons_append, List.nil_append, List.append_assoc, List.head?_cons, if_true, List.length_cons, List.length_nil,
      List.drop_succ_cons, List.drop_zero]
    rw [hint]
    simp only [Option.bind_eq_bind, Option.bind_some]
    rw [hfrac]
    simp only [Option.bind_some]
    rw [hexp]
    rfl

/-- First character of a number literal. -/
theorem NumLit.head {lit : Str} (h : NumLit lit) : ∃ c t, lit = c :: t ∧ jsonWs c = false ∧ c ≠ '"' ∧ c ≠ '[' ∧ c ≠ '{' ∧ c ≠ 'n' ∧ c ≠ 't' ∧
    c ≠ 'f' ∧ c ≠ ']' ∧ c ≠ '}' := by
  obtain ⟨sign, int, frac, exp, hs, hi, hf, he⟩ := h
  have hhead : ∃ c t, int = c :: t ∧ isDig c = true := by
    rcases hi with rfl | ⟨c, ds, rfl, hc, -⟩
    · exact ⟨_, _, rfl, by decide⟩
    · exact ⟨c, ds, rfl, hc⟩
  obtain ⟨c, t, rfl, hc⟩ := hhead
  rcases hs with rfl | rfl
  · obtain ⟨h1, h2, h3, h4, h5, h6, h7, h8, h9, h10, h11, h12⟩ := isDig_facts hc
    exact ⟨c, _, rfl, h12, h6, h7, h8, h9, h10, h11, isDig_ne hc (by decide), isDig_ne hc (by decide)⟩
  · exact ⟨'-', _, rfl, by decide, by decide, by decide, by decide, by decide, by decide, by decide, by decide, by decide⟩

theorem natDec_lit (n : Nat) : natDec n = ['0'] ∨ ∃ c ds, natDec n = c :: ds ∧ isDig c = true ∧ c ≠ '0' ∧ ds.all isDig = true := by
  induction n using Nat.strong_induction_on with
  | _ n ih =>
    rw [natDec]
    split_ifs with h
    · by_cases h0 : n = 0
      · subst h0; left; decide
      · right
        refine ⟨digChar n, [], rfl, (isDig_digChar h).1, ?_, rfl⟩
        interval_cases n <;> first | omega | decide
    · right
      rcases ih (n / 10) (by omega) with h' | ⟨c, ds, h', hc, hc0, hds⟩
      · have := (natDec_spec (n / 10)).2.2
        rw [h'] at this
        have h0 : decVal ['0'] = 0 := by decide
        omega
      · refine ⟨c, ds ++ [digChar (n % 10)], by rw [h']; rfl, hc, hc0, ?_⟩
        simp [List.all_append, hds, (isDig_digChar (show n % 10 < 10 by omega)).1]

/-- Decimal integers are number literals. -/
theorem numLit_intDec (z : Int) : NumLit (intDec z) := by
  have h := natDec_lit z.natAbs
  unfold intDec
  split_ifs
  · have := NumLit.mk ['-'] (natDec z.natAbs) [] [] (Or.inr rfl) h (Or.inl rfl) (Or.inl rfl)
    simpa using this
  · have := NumLit.mk [] (natDec z.natAbs) [] [] (Or.inl rfl) h (Or.inl rfl) (Or.inl rfl)
    simpa using this

/-! ## Values -/

mutual
/-- All number literals are well-formed. -/
def JTree.Lits : JTree → Prop
  | .num lit => NumLit lit
  | .arr l => litsItems l
  | .obj l => litsFields l
  | _ => True
def litsItems : List JTree → Prop
  | [] => True
  | t :: ts => t.Lits ∧ litsItems ts
def litsFields : List (Str × JTree) → Prop
  | [] => True
  | (_, t) :: ts => t.Lits ∧ litsFields ts
end

theorem quote_ne (s : Str) : ∃ t, quote s = '"' :: t := ⟨_, rfl⟩

theorem render_head : ∀ t : JTree, t.Lits → ∃ c u, t.render = c :: u ∧ jsonWs c = false ∧ c ≠ ']' ∧ c ≠ '}'
  | .null, _ => ⟨'n', _, by simp only [JTree.render]; rfl, by decide, by decide, by decide⟩
  | .bool true, _ => ⟨'t', _, by simp [JTree.render, boolText]; rfl, by decide, by decide, by decide⟩
  | .bool false, _ => ⟨'f', _, by simp [JTree.render, boolText]; rfl, by decide, by decide, by decide⟩
  | .num lit, h => by
    rw [JTree.Lits] at h
    obtain ⟨c, t, h1, h2, -, -, -, -, -, -, h3, h4⟩ := NumLit.head h
    exact ⟨c, t, by simp only [JTree.render]; exact h1, h2, h3, h4⟩
  | .str s, _ => ⟨'"', _, by simp only [JTree.render, quote]; rfl, by decide, by decide, by decide⟩
  | .arr l, _ => ⟨'[', _, by simp only [JTree.render]; rfl, by decide, by decide, by decide⟩
  | .obj l, _ => ⟨'{', _, by simp only [JTree.render]; rfl, by decide, by decide, by decide⟩

theorem skipWs_cons {c : Char} (h : jsonWs c = false) (r : Str) : skipWs (c :: r) = c :: r := by
  simp [skipWs, h]

theorem stops_comma (r : Str) : Stops (',' :: r) := by
  intro c t h; simp only [List.cons.injEq] at h; rw [← h.1]; decide
theorem stops_bracket (r : Str) : Stops (']' :: r) := by
  intro c t h; simp only [List.cons.injEq] at h; rw [← h.1]; decide
theorem stops_brace (r : Str) : Stops ('}' :: r) := by
  intro c t h; simp only [List.cons.injEq] at h; rw [← h.1]; decide
theorem stops_nil : Stops [] := by intro c t h; cases h

mutual
theorem pValue_render : ∀ (t : JTree), t.Lits → ∀ (f : Nat) (r : Str), 2 * t.render.length + 1 ≤ f → Stops r →
    pValue f (t.render ++ r) = some (t, r)
  | .null, _, f, r, hf, _ => by
    obtain ⟨f, rfl⟩ : ∃ g, f = g + 1 := ⟨f - 1, by omega⟩
    simp [JTree.render, pValue, skipWs, jsonWs]
  | .bool true, _, f, r, hf, _ => by
    obtain ⟨f, rfl⟩ : ∃ g, f = g + 1 := ⟨f - 1, by omega⟩
    simp [JTree.render, boolText, pValue, skipWs, jsonWs]
  | .bool false, _, f, r, hf, _ => by
    obtain ⟨f, rfl⟩ : ∃ g, f = g + 1 := ⟨f - 1, by omega⟩
    simp [JTree.render, boolText, pValue, skipWs, jsonWs]
  | .num lit, hl, f, r, hf, hr => by
    obtain ⟨f, rfl⟩ : ∃ g, f = g + 1 := ⟨f - 1, by omega⟩
    simp only [JTree.Lits] at hl
    obtain ⟨c, t, h1, h2, h3, h4, h5, h6, h7, h8, -⟩ := NumLit.head hl
    have hp := pNum_append hl hr
    simp only [JTree.render]
    rw [h1] at hp ⊢
    simp only [pValue, List.cons_append, skipWs_cons h2] at hp ⊢
    rw [if_neg h3, if_neg h4, if_neg h5, if_neg h6, if_neg h7, if_neg h8, hp]
    rfl
  | .str s, _, f, r, hf, _ => by
    obtain ⟨f, rfl⟩ : ∃ g, f = g + 1 := ⟨f - 1, by omega⟩
    simp only [JTree.render, quote, List.length_cons, List.length_append] at hf
    simp only [JTree.render, quote, List.cons_append, pValue, skipWs_cons (show jsonWs '"' = false by decide), if_true,
      List.append_assoc, List.nil_append]
    rw [pChars_quoted s f r (by omega)]
    rfl
  | .arr l, hl, f, r, hf, _ => by
    obtain ⟨f, rfl⟩ : ∃ g, f = g + 1 := ⟨f - 1, by omega⟩
    simp only [JTree.Lits] at hl
    simp only [JTree.render, List.length_cons, List.length_append, List.length_nil] at hf
    simp only [JTree.render, List.cons_append, List.append_assoc, List.nil_append, pValue, skipWs_cons (show jsonWs '[' = false by decide)]
    rw [if_neg (by decide), if_pos trivial]
    cases l with
    | nil => simp [renderItems, skipWs, jsonWs]
    | cons t ts =>
      have hne : (skipWs (renderItems (t :: ts) ++ ']' :: r)).head? ≠ some ']' := by
        rw [litsItems] at hl
        obtain ⟨c, u, h1, h2, h3, -⟩ := render_head t hl.1
        cases ts with
        | nil => simp only [renderItems, h1, List.cons_append, skipWs_cons h2, List.head?_cons]; simpa using h3
        | cons x xs => simp only [renderItems, h1, List.cons_append, skipWs_cons h2, List.head?_cons]; simpa using h3
      rw [if_neg hne, pItems_render (t :: ts) hl (by simp) f r (by omega)]
      rfl
  | .obj l, hl, f, r, hf, _ => by
    obtain ⟨f, rfl⟩ : ∃ g, f = g + 1 := ⟨f - 1, by omega⟩
    simp only [JTree.Lits] at hl
    simp only [JTree.render, List.length_cons, List.length_append, List.length_nil] at hf
    simp only [JTree.render, List.cons_append, List.append_assoc, List.nil_append, pValue, skipWs_cons (show jsonWs '{' = false by decide)]
    rw [if_neg (by decide), if_neg (by decide), if_pos trivial]
    cases l with
    | nil => simp [renderFields, skipWs, jsonWs]
    | cons t ts =>
      have hne : (skipWs (renderFields (t :: ts) ++ '}' :: r)).head? ≠ some '}' := by
        obtain ⟨k, t⟩ := t
        cases ts with
        | nil => simp [renderFields, quote, skipWs, jsonWs]
        | cons x xs => simp [renderFields, quote, skipWs, jsonWs]
      rw [if_neg hne, pFields_render (t :: ts) hl (by simp) f r (by omega)]
      rfl
theorem pItems_render : ∀ (l : List JTree), litsItems l → l ≠ [] → ∀ (f : Nat) (r : Str), 2 * (renderItems l).length + 2 ≤ f →
    pItems f (renderItems l ++ ']' :: r) = some (l, r)
  | [], _, h, _, _, _ => absurd rfl h
  | [t], hl, _, f, r, hf => by
    obtain ⟨f, rfl⟩ : ∃ g, f = g + 1 := ⟨f - 1, by omega⟩
    simp only [litsItems] at hl
    simp only [renderItems] at hf ⊢
    rw [pItems, pValue_render t hl.1 f _ (by omega) (stops_bracket r)]
    simp [skipWs, jsonWs]
  | t :: u :: ts, hl, _, f, r, hf => by
    obtain ⟨f, rfl⟩ : ∃ g, f = g + 1 := ⟨f - 1, by omega⟩
    rw [litsItems] at hl
    simp only [renderItems, List.length_append, List.length_cons] at hf
    simp only [renderItems, List.append_assoc, List.cons_append]
    rw [pItems, pValue_render t hl.1 f _ (by omega) (stops_comma _)]
    simp only [skipWs_cons (show jsonWs ',' = false by decide), if_true]
    rw [pItems_render (u :: ts) hl.2 (by simp) f r (by omega)]
    rfl
theorem pFields_render : ∀ (l : List (Str × JTree)), litsFields l → l ≠ [] → ∀ (f : Nat) (r : Str),
    2 * (renderFields l).length + 2 ≤ f → pFields f (renderFields l ++ '}' :: r) = some (l, r)
  | [], _, h, _, _, _ => absurd rfl h
  | [(k, t)], hl, _, f, r, hf => by
    obtain ⟨f, rfl⟩ : ∃ g, f = g + 1 := ⟨f - 1, by omega⟩
    simp only [litsFields] at hl
    simp only [renderFields, quote, List.length_append, List.length_cons, List.length_nil] at hf
    simp only [renderFields, quote, List.cons_append, List.append_assoc, List.nil_append, pFields,
      skipWs_cons (show jsonWs '"' = false by decide), if_true]
    rw [pChars_quoted k f _ (by omega)]
    simp only [skipWs_cons (show jsonWs ':' = false by decide), if_true]
    rw [pValue_render t hl.1 f _ (by omega) (stops_brace r)]
    simp [skipWs, jsonWs]
  | (k, t) :: u :: ts, hl, _, f, r, hf => by
    obtain ⟨f, rfl⟩ : ∃ g, f = g + 1 := ⟨f - 1, by omega⟩
    rw [litsFields] at hl
    simp only [renderFields, quote, List.length_append, List.length_cons, List.length_nil] at hf
    simp only [renderFields, quote, List.cons_append, List.append_assoc, List.nil_append, pFields,
      skipWs_cons (show jsonWs '"' = false by decide), if_true]
    rw [pChars_quoted k f _ (by omega)]
    simp only [skipWs_cons (show jsonWs ':' = false by decide), if_true]
    rw [pValue_render t hl.1 f _ (by omega) (stops_comma _)]
    simp only [skipWs_cons (show jsonWs ',' = false by decide), if_true]
    rw [pFields_render (u :: ts) hl.2 (by simp) f r (by omega)]
    rfl
end

/-- Reading a written tree gives the tree back. -/
theorem pText_render (t : JTree) (h : t.Lits) : pText t.render = some t := by
  unfold pText
  have := pValue_render t h (2 * t.render.length + 2) [] (by omega) stops_nil
  rw [List.append_nil] at this
  rw [this]
  simp [skipWs]

/-! ## Values -/

theorem objInsert_last {k : Str} {v : JsVal} {l : List (Str × JsVal)} (h : ∀ e ∈ l, keyBefore e.1 k = true) :
    objInsert k v l = l ++ [(k, v)] := by
  induction l with
  | nil => rfl
  | cons e l ih =>
    rw [objInsert, if_pos (h e (by simp)), ih fun x hx => h x (by simp [hx])]; rfl

theorem keyBefore_ne {a b : Str} (h : keyBefore a b = true) : a ≠ b := by
  intro e
  subst e
  unfold keyBefore at h
  cases hk : keyIndex a with
  | none => rw [hk] at h; simp at h
  | some i => rw [hk] at h; simp at h

theorem keyIndex_iff (k : Str) (n : Nat) : keyIndex k = some n ↔ IsIndex k n := by
  unfold keyIndex IsIndex
  constructor
  · intro h
    split_ifs at h with hc
    cases h
    exact ⟨hc.2.2.1.symm, hc.2.2.2⟩
  · rintro ⟨rfl, hn⟩
    obtain ⟨h1, h2, h3⟩ := natDec_spec n
    rw [if_pos ⟨h2, h1, by rw [h3], by rw [h3]; exact hn⟩, h3]

theorem keyIndex_none (k : Str) : keyIndex k = none ↔ ∀ n, ¬ IsIndex k n := by
  simp only [← keyIndex_iff]
  cases keyIndex k <;> simp

theorem keyBefore_iff (a b : Str) : keyBefore a b = true ↔ Ordered a b := by
  unfold keyBefore Ordered
  simp only [← keyIndex_none]
  simp only [← keyIndex_iff]
  cases keyIndex a <;> cases keyIndex b <;> simp

theorem objSet_last {k : Str} {v : JsVal} {l : List (Str × JsVal)} (h : ∀ e ∈ l, keyBefore e.1 k = true) :
    objSet l k v = l ++ [(k, v)] := by
  unfold objSet
  rw [if_neg, objInsert_last h]
  simp only [List.any_eq_true, decide_eq_true_eq, not_exists, not_and]
  intro e he
  exact keyBefore_ne (h e he)

mutual
theorem jsTree_spec (D : Doubles) : ∀ v : JsVal, Real D v → ∀ o, jsTree v = .ok o →
    (∀ t, o = some t → t.Lits ∧ t.toJs D = kept v) ∧ (o = none ↔ v = .undef)
  | .null, _, o, h => by
    simp only [jsTree] at h; cases h
    exact ⟨fun t ht => by cases ht; exact ⟨trivial, by simp [JTree.toJs, kept]⟩, by simp⟩
  | .undef, _, o, h => by
    simp only [jsTree] at h; cases h
    exact ⟨fun t ht => (by cases ht), by simp⟩
  | .bool b, _, o, h => by
    simp only [jsTree] at h; cases h
    exact ⟨fun t ht => by cases ht; exact ⟨trivial, by simp [JTree.toJs, kept]⟩, by simp⟩
  | .num z, hr, o, h => by
    simp only [jsTree] at h; cases h
    simp only [Real] at hr
    exact ⟨fun t ht => by cases ht; exact ⟨by simp only [JTree.Lits]; exact numLit_intDec z, by simp [JTree.toJs, kept, hr]⟩, by simp⟩
  | .numText s, hr, o, h => by
    simp only [jsTree] at h; cases h
    simp only [Real] at hr
    refine ⟨fun t ht => ?_, by simp⟩
    cases ht
    by_cases hn : nonFinite s = true
    · rw [if_pos hn]; exact ⟨trivial, by simp [JTree.toJs, kept, hn]⟩
    · rw [if_neg hn]
      obtain ⟨h1, h2⟩ := hr.resolve_left hn
      exact ⟨by simp only [JTree.Lits]; exact h1, by simp [JTree.toJs, kept, hn, h2]⟩
  | .bigint z, _, o, h => by simp only [jsTree] at h; cases h
  | .str s, _, o, h => by
    simp only [jsTree] at h; cases h
    exact ⟨fun t ht => by cases ht; exact ⟨trivial, by simp [JTree.toJs, kept]⟩, by simp⟩
  | .arr l, hr, o, h => by
    simp only [jsTree] at h
    obtain ⟨ts, h1, h⟩ := Res.bind_eq_ok.1 h
    cases h
    simp only [Real] at hr
    obtain ⟨h2, h3⟩ := jsTrees_spec D l hr ts h1
    exact ⟨fun t ht => by cases ht; exact ⟨by simp only [JTree.Lits]; exact h2, by simp [JTree.toJs, kept, h3]⟩, by simp⟩
  | .obj l, hr, o, h => by
    simp only [jsTree] at h
    obtain ⟨ts, h1, h⟩ := Res.bind_eq_ok.1 h
    cases h
    simp only [Real] at hr
    obtain ⟨h2, h3⟩ := jsonFields_spec D l hr.2 ts h1
    refine ⟨fun t ht => ?_, by simp⟩
    cases ht
    refine ⟨by simp only [JTree.Lits]; exact h2, ?_⟩
    simp only [JTree.toJs, kept]
    rw [h3 [] (by simpa [keyBefore_iff] using hr.1)]
    rfl
theorem jsTrees_spec (D : Doubles) : ∀ l : List JsVal, RealItems D l → ∀ ts, jsTrees l = .ok ts →
    litsItems ts ∧ treesToJs D ts = keptItems l
  | [], _, ts, h => by
    simp only [jsTrees] at h; cases h
    exact ⟨by simp [litsItems], by simp [treesToJs, keptItems]⟩
  | v :: vs, hr, ts, h => by
    simp only [jsTrees] at h
    obtain ⟨o, h1, h⟩ := Res.bind_eq_ok.1 h
    obtain ⟨us, h2, h⟩ := Res.bind_eq_ok.1 h
    cases h
    simp only [RealItems] at hr
    obtain ⟨h3, h4⟩ := jsTree_spec D v hr.1 o h1
    obtain ⟨h5, h6⟩ := jsTrees_spec D vs hr.2 us h2
    cases o with
    | none =>
      have := h4.1 rfl
      subst this
      exact ⟨by simp only [litsItems]; exact ⟨by simp [JTree.Lits], h5⟩, by simp [treesToJs, keptItems, kept, h6, JTree.toJs]⟩
    | some t =>
      obtain ⟨h7, h8⟩ := h3 t rfl
      exact ⟨by simp only [litsItems]; exact ⟨h7, h5⟩, by simp [treesToJs, keptItems, h6, h8]⟩
theorem jsonFields_spec (D : Doubles) : ∀ l : List (Str × JsVal), RealFields D l → ∀ ts, jsonFields l = .ok ts →
    litsFields ts ∧ ∀ acc : List (Str × JsVal), (acc ++ l).Pairwise (fun a b => keyBefore a.1 b.1 = true) →
      fieldsToJs D ts acc = acc ++ keptFields l
  | [], _, ts, h => by
    simp only [jsonFields] at h; cases h
    exact ⟨by simp [litsFields], fun acc _ => by simp [fieldsToJs, keptFields]⟩
  | (k, v) :: vs, hr, ts, h => by
    simp only [jsonFields] at h
    obtain ⟨o, h1, h⟩ := Res.bind_eq_ok.1 h
    obtain ⟨us, h2, h⟩ := Res.bind_eq_ok.1 h
    simp only [RealFields] at hr
    obtain ⟨h3, h4⟩ := jsTree_spec D v hr.1 o h1
    obtain ⟨h5, h6⟩ := jsonFields_spec D vs hr.2 us h2
    cases o with
    | none =>
      cases h
      have := h4.1 rfl
      subst this
      refine ⟨h5, fun acc hp => ?_⟩
      rw [keptFields]
      apply h6
      exact hp.sublist (by simp)
    | some t =>
      cases h
      obtain ⟨h7, h8⟩ := h3 t rfl
      refine ⟨by simp only [litsFields]; exact ⟨h7, h5⟩, fun acc hp => ?_⟩
      have hv : v ≠ .undef := fun e => by have := h4.2 e; cases this
      have hk : keptFields ((k, v) :: vs) = (k, kept v) :: keptFields vs := by
        cases v <;> first | exact absurd rfl hv | simp [keptFields]
      rw [hk]
      simp only [fieldsToJs]
      rw [objSet_last, h8, h6 (acc ++ [(k, kept v)])]
      · simp
      · rw [List.append_assoc, List.pairwise_append] at *
        refine ⟨hp.1, ?_, ?_⟩
        · have := hp.2.1
          rw [List.pairwise_cons] at this
          simp only [List.cons_append, List.nil_append, List.pairwise_cons]
          exact this
        · intro a ha b hb
          simp only [List.cons_append, List.nil_append, List.mem_cons] at hb
          rcases hb with rfl | hb
          · exact hp.2.2 a ha (k, v) (by simp)
          · exact hp.2.2 a ha b (by simp [hb])
      · intro e he
        rw [List.pairwise_append] at hp
        exact hp.2.2 e he (k, v) (by simp)
end

mutual
theorem jsTree_outcome : ∀ v : JsVal, (HasBig v → jsTree v = Res.fail "TypeError") ∧ (¬ HasBig v → ∃ o, jsTree v = .ok o)
  | .null => by simp [HasBig, jsTree]
  | .undef => by simp [HasBig, jsTree]
  | .bool b => by simp [HasBig, jsTree]
  | .num z => by simp [HasBig, jsTree]
  | .numText s => by simp [HasBig, jsTree]
  | .bigint z => by simp [HasBig, jsTree]
  | .str s => by simp [HasBig, jsTree]
  | .arr l => by
    obtain ⟨h1, h2⟩ := jsTrees_outcome l
    simp only [HasBig, jsTree]
    refine ⟨fun h => by rw [h1 h]; rfl, fun h => ?_⟩
    obtain ⟨ts, h3⟩ := h2 h
    exact ⟨_, by rw [h3]; rfl⟩
  | .obj l => by
    obtain ⟨h1, h2⟩ := jsonFields_outcome l
    simp only [HasBig, jsTree]
    refine ⟨fun h => by rw [h1 h]; rfl, fun h => ?_⟩
    obtain ⟨ts, h3⟩ := h2 h
    exact ⟨_, by rw [h3]; rfl⟩
theorem jsTrees_outcome : ∀ l : List JsVal, (HasBigItems l → jsTrees l = Res.fail "TypeError") ∧ (¬ HasBigItems l → ∃ ts, jsTrees l = .ok ts)
  | [] => by simp [HasBigItems, jsTrees]
  | v :: vs => by
    obtain ⟨h1, h2⟩ := jsTree_outcome v
    obtain ⟨h3, h4⟩ := jsTrees_outcome vs
    simp only [HasBigItems, jsTrees]
    refine ⟨fun h => ?_, fun h => ?_⟩
    · by_cases hv : HasBig v
      · rw [h1 hv]; rfl
      · obtain ⟨o, ho⟩ := h2 hv
        rw [ho, Res.ok_bind, h3 (h.resolve_left hv)]; rfl
    · push Not at h
      obtain ⟨o, ho⟩ := h2 h.1
      obtain ⟨ts, ht⟩ := h4 h.2
      exact ⟨_, by rw [ho, Res.ok_bind, ht, Res.ok_bind]⟩
theorem jsonFields_outcome : ∀ l : List (Str × JsVal), (HasBigFields l → jsonFields l = Res.fail "TypeError") ∧
    (¬ HasBigFields l → ∃ ts, jsonFields l = .ok ts)
  | [] => by simp [HasBigFields, jsonFields]
  | (k, v) :: vs => by
    obtain ⟨h1, h2⟩ := jsTree_outcome v
    obtain ⟨h3, h4⟩ := jsonFields_outcome vs
    simp only [HasBigFields, jsonFields]
    refine ⟨fun h => ?_, fun h => ?_⟩
    · by_cases hv : HasBig v
      · rw [h1 hv]; rfl
      · obtain ⟨o, ho⟩ := h2 hv
        rw [ho, Res.ok_bind, h3 (h.resolve_left hv)]; rfl
    · push Not at h
      obtain ⟨o, ho⟩ := h2 h.1
      obtain ⟨ts, ht⟩ := h4 h.2
      rw [ho, Res.ok_bind, ht, Res.ok_bind]
      cases o with
      | none => exact ⟨_, rfl⟩
      | some t => exact ⟨_, rfl⟩
end

end Zkenc
