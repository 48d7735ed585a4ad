import Mathlib.Data.List.TakeWhile
import Mathlib.Tactic.IntervalCases
import Mathlib.Tactic.Tauto
import Verif.Basic.Bytes
import Verif.Basic.Str
/-!
# Lemmas about strings and association lists
-/

namespace Zkenc

theorem splitOn_ne_nil (c : Char) (s : Str) : splitOn c s ≠ [] := by
  cases s with
  | nil => simp [splitOn]
  | cons x xs =>
    unfold splitOn
    split
    · simp
    · split <;> simp

theorem splitOn_cons_ne {c x : Char} (h : x ≠ c) (s : Str) :
    ∃ p ps, splitOn c s = p :: ps ∧ splitOn c (x :: s) = (x :: p) :: ps := by
  cases hs : splitOn c s with
  | nil => exact absurd hs (splitOn_ne_nil c s)
  | cons p ps => exact ⟨p, ps, rfl, by rw [splitOn, if_neg h, hs]⟩

theorem splitOn_cons_eq (c : Char) (s : Str) : splitOn c (c :: s) = [] :: splitOn c s := by
  rw [splitOn, if_pos rfl]

theorem splitOn_append_sep (c : Char) (a b : Str) (h : c ∉ a) : splitOn c (a ++ c :: b) = a :: splitOn c b := by
  induction a with
  | nil => exact splitOn_cons_eq c b
  | cons x a ih =>
    have hx : x ≠ c := fun e => h (by simp [e])
    rw [List.cons_append, splitOn, if_neg hx, ih (fun hm => h (by simp [hm]))]

theorem splitOn_none (c : Char) (a : Str) (h : c ∉ a) : splitOn c a = [a] := by
  induction a with
  | nil => rfl
  | cons x a ih =>
    have hx : x ≠ c := fun e => h (by simp [e])
    rw [splitOn, if_neg hx, ih (fun hm => h (by simp [hm]))]

theorem splitOn_length (c : Char) (s : Str) : (splitOn c s).length = s.count c + 1 := by
  induction s with
  | nil => rfl
  | cons x s ih =>
    by_cases hx : x = c
    · subst hx; rw [splitOn_cons_eq]; simp [ih]
    · obtain ⟨p, ps, h1, h2⟩ := splitOn_cons_ne hx s
      rw [h2, List.count_cons_of_ne hx, ← ih, h1]; simp

/-- Appending a non-separator at the end extends the last piece. -/
theorem splitOn_snoc_ne {c x : Char} (h : x ≠ c) (s : Str) :
    ∃ ps p, splitOn c s = ps ++ [p] ∧ splitOn c (s ++ [x]) = ps ++ [p ++ [x]] := by
  induction s with
  | nil => exact ⟨[], [], rfl, by simp [splitOn, h]⟩
  | cons y s ih =>
    obtain ⟨ps, p, h1, h2⟩ := ih
    by_cases hy : y = c
    · subst hy
      exact ⟨[] :: ps, p, by rw [splitOn_cons_eq, h1]; rfl, by rw [List.cons_append, splitOn_cons_eq, h2]; rfl⟩
    · obtain ⟨q, qs, g1, g2⟩ := splitOn_cons_ne hy s
      obtain ⟨q', qs', g1', g2'⟩ := splitOn_cons_ne hy (s ++ [x])
      rw [List.cons_append, g2, g2']
      cases ps with
      | nil =>
        rw [h1] at g1; rw [h2] at g1'
        simp only [List.nil_append, List.cons.injEq] at g1 g1'
        refine ⟨[], y :: p, ?_, ?_⟩
        · rw [← g1.1, ← g1.2]; rfl
        · rw [← g1'.1, ← g1'.2]; rfl
      | cons r rs =>
        rw [h1] at g1; rw [h2] at g1'
        simp only [List.cons_append, List.cons.injEq] at g1 g1'
        refine ⟨(y :: r) :: rs, p, ?_, ?_⟩
        · rw [← g1.1, ← g1.2]; rfl
        · rw [← g1'.1, ← g1'.2]; rfl

theorem splitOn_snoc_eq (c : Char) (s : Str) : splitOn c (s ++ [c]) = splitOn c s ++ [[]] := by
  induction s with
  | nil => simp [splitOn]
  | cons y s ih =>
    by_cases hy : y = c
    · subst hy
      rw [List.cons_append, splitOn_cons_eq, splitOn_cons_eq, ih]; rfl
    · obtain ⟨q, qs, g1, g2⟩ := splitOn_cons_ne hy s
      obtain ⟨q', qs', g1', g2'⟩ := splitOn_cons_ne hy (s ++ [c])
      rw [List.cons_append, g2, g2']
      rw [ih, g1] at g1'
      simp only [List.cons_append, List.cons.injEq] at g1'
      rw [← g1'.1, ← g1'.2]; rfl

theorem mem_of_mem_splitOn {c : Char} {s p : Str} (hp : p ∈ splitOn c s) {x : Char} (hx : x ∈ p) : x ∈ s := by
  induction s generalizing p with
  | nil => simp [splitOn] at hp; subst hp; simp at hx
  | cons y s ih =>
    by_cases hy : y = c
    · subst hy
      rw [splitOn_cons_eq] at hp
      rcases List.mem_cons.1 hp with rfl | hp
      · simp at hx
      · exact List.mem_cons_of_mem _ (ih hp hx)
    · obtain ⟨q, qs, g1, g2⟩ := splitOn_cons_ne hy s
      rw [g2] at hp
      rcases List.mem_cons.1 hp with rfl | hp
      · rcases List.mem_cons.1 hx with rfl | hx
        · simp
        · exact List.mem_cons_of_mem _ (ih (by rw [g1]; simp) hx)
      · exact List.mem_cons_of_mem _ (ih (by rw [g1]; simp [hp]) hx)

theorem not_mem_splitOn {c : Char} {s p : Str} (hp : p ∈ splitOn c s) : c ∉ p := by
  induction s generalizing p with
  | nil => simp [splitOn] at hp; subst hp; simp
  | cons y s ih =>
    by_cases hy : y = c
    · subst hy
      rw [splitOn_cons_eq] at hp
      rcases List.mem_cons.1 hp with rfl | hp
      · simp
      · exact ih hp
    · obtain ⟨q, qs, g1, g2⟩ := splitOn_cons_ne hy s
      rw [g2] at hp
      rcases List.mem_cons.1 hp with rfl | hp
      · intro hc
        rcases List.mem_cons.1 hc with h | h
        · exact hy h.symm
        · exact ih (by rw [g1]; simp) h
      · exact ih (by rw [g1]; simp [hp])

/-! ## trim -/

theorem dropEndWhile_append (p : Char → Bool) (s : Str) : ∃ t, s = dropEndWhile p s ++ t ∧ ∀ c ∈ t, p c = true := by
  refine ⟨(s.reverse.takeWhile p).reverse, ?_, ?_⟩
  · unfold dropEndWhile
    rw [← List.reverse_append, List.takeWhile_append_dropWhile, List.reverse_reverse]
  · intro c hc
    rw [List.mem_reverse] at hc
    exact List.mem_takeWhile_imp hc

theorem dropEndWhile_snoc {p : Char → Bool} {x : Char} (h : p x = true) (s : Str) : dropEndWhile p (s ++ [x]) = dropEndWhile p s := by
  unfold dropEndWhile
  rw [List.reverse_append]
  simp [h]

theorem dropWhile_append_of_all {p : Char → Bool} {a : Str} (h : ∀ c ∈ a, p c = true) (b : Str) :
    (a ++ b).dropWhile p = b.dropWhile p := by
  induction a with
  | nil => rfl
  | cons x a ih => rw [List.cons_append, List.dropWhile_cons, if_pos (h x (by simp)), ih (fun c hc => h c (by simp [hc]))]

theorem trim_cons_ws {ws : Char → Bool} {x : Char} (h : ws x = true) (s : Str) : trim ws (x :: s) = trim ws s := by
  unfold trim
  rw [List.dropWhile_cons, if_pos h]

theorem trim_snoc_ws {ws : Char → Bool} {x : Char} (h : ws x = true) (s : Str) : trim ws (s ++ [x]) = trim ws s := by
  unfold trim
  by_cases ha : s.dropWhile ws = []
  · have hall : ∀ c ∈ s, ws c = true := by
      rw [List.dropWhile_eq_nil_iff] at ha
      exact ha
    rw [dropWhile_append_of_all hall, ha, List.dropWhile_cons, if_pos h]
    rfl
  · have : (s ++ [x]).dropWhile ws = s.dropWhile ws ++ [x] := by
      rw [List.dropWhile_append]
      cases hd : s.dropWhile ws with
      | nil => exact absurd hd ha
      | cons a b => simp
    rw [this, dropEndWhile_snoc h]

theorem trim_congr {ws ws' : Char → Bool} (s : Str) (h : ∀ c ∈ s, ws c = ws' c) : trim ws s = trim ws' s := by
  have hd : ∀ s : Str, (∀ c ∈ s, ws c = ws' c) → s.dropWhile ws = s.dropWhile ws' := by
    intro s
    induction s with
    | nil => intro _; rfl
    | cons x s ih =>
      intro h
      rw [List.dropWhile_cons, List.dropWhile_cons, h x (by simp), ih (fun c hc => h c (by simp [hc]))]
  unfold trim dropEndWhile
  rw [hd s h, hd]
  intro c hc
  rw [List.mem_reverse] at hc
  exact h c ((List.dropWhile_suffix ws').subset hc)

/-! ## numbers -/

theorem isDig_digChar {d : Nat} (h : d < 10) : isDig (digChar d) = true ∧ digVal (digChar d) = d := by
  interval_cases d <;> decide

theorem natDec_spec (n : Nat) : (natDec n).all isDig = true ∧ natDec n ≠ [] ∧ decVal (natDec n) = n := by
  induction n using Nat.strong_induction_on with
  | _ n ih =>
    rw [natDec]
    split
    · rename_i h
      obtain ⟨h1, h2⟩ := isDig_digChar h
      simp [h1, h2, decVal]
    · rename_i h
      obtain ⟨h1, h2, h3⟩ := ih (n / 10) (by omega)
      obtain ⟨g1, g2⟩ := isDig_digChar (d := n % 10) (Nat.mod_lt _ (by decide))
      refine ⟨by simp [h1, g1], by simp, ?_⟩
      unfold decVal at h3 ⊢
      rw [List.foldl_append, h3]
      simp only [List.foldl_cons, List.foldl_nil, g2]
      omega

theorem natDec_head (n : Nat) : ∃ c s, natDec n = c :: s ∧ isDig c = true := by
  obtain ⟨h1, h2, -⟩ := natDec_spec n
  cases h : natDec n with
  | nil => exact absurd h h2
  | cons c s =>
    rw [h] at h1
    simp only [List.all_cons, Bool.and_eq_true] at h1
    exact ⟨c, s, rfl, h1.1⟩

theorem isDig_ne {c : Char} (h : isDig c = true) {d : Char} (hd : isDig d = false) : c ≠ d := by
  intro e; rw [e, hd] at h; cases h

theorem not_ws_of_isDig {c : Char} (h : isDig c = true) : rustWs c = false ∧ jsWs c = false := by
  unfold isDig at h
  simp only [Bool.and_eq_true, decide_eq_true_eq] at h
  unfold rustWs jsWs
  simp
  omega

/-! ## association lists -/

theorem AMap.get_insert {V : Type} (m : AMap V) (k k' : Str) (v : V) :
    (AMap.insert m k v).get k' = if k = k' then some v else m.get k' := by
  induction m with
  | nil => simp [AMap.insert, AMap.get]
  | cons e m ih =>
    obtain ⟨a, b⟩ := e
    simp only [AMap.insert]
    by_cases h : a = k
    · subst h
      simp only [if_true, AMap.get]
      split <;> rfl
    · simp only [if_neg h, AMap.get, ih]
      by_cases ha : a = k'
      · rw [if_pos ha, if_pos ha, if_neg]
        rintro rfl; exact h ha
      · rw [if_neg ha, if_neg ha]

theorem AMap.keys_insert {V : Type} (m : AMap V) (k : Str) (v : V) (x : Str) :
    x ∈ (AMap.insert m k v).map Prod.fst ↔ x = k ∨ x ∈ m.map Prod.fst := by
  induction m with
  | nil => simp [AMap.insert]
  | cons e m ih =>
    obtain ⟨a, b⟩ := e
    simp only [AMap.insert]
    by_cases h : a = k
    · subst h; simp
    · simp only [if_neg h, List.map_cons, List.mem_cons, ih]
      tauto

/-- Keys are unique. -/
def AMap.Nodup {V : Type} (m : AMap V) : Prop := (m.map Prod.fst).Nodup

theorem AMap.nodup_insert {V : Type} {m : AMap V} (h : AMap.Nodup m) (k : Str) (v : V) : AMap.Nodup (AMap.insert m k v) := by
  induction m with
  | nil => simp [AMap.insert, AMap.Nodup]
  | cons e m ih =>
    obtain ⟨a, b⟩ := e
    unfold AMap.Nodup at h ⊢
    simp only [List.map_cons, List.nodup_cons] at h
    simp only [AMap.insert]
    by_cases hk : a = k
    · subst hk; simpa using h
    · simp only [if_neg hk, List.map_cons, List.nodup_cons, AMap.keys_insert]
      exact ⟨fun hc => hc.elim hk h.1, ih h.2⟩

theorem AMap.get_iff_mem {V : Type} {m : AMap V} (h : AMap.Nodup m) (k : Str) (v : V) : m.get k = some v ↔ (k, v) ∈ m := by
  induction m with
  | nil => simp [AMap.get]
  | cons e m ih =>
    obtain ⟨a, b⟩ := e
    unfold AMap.Nodup at h
    simp only [List.map_cons, List.nodup_cons] at h
    simp only [AMap.get, List.mem_cons, Prod.mk.injEq]
    by_cases hk : a = k
    · subst hk
      simp only [if_true, Option.some.injEq, true_and]
      constructor
      · intro e; exact Or.inl e.symm
      · rintro (e | hm)
        · exact e.symm
        · exact absurd (List.mem_map_of_mem (f := Prod.fst) hm) h.1
    · rw [if_neg hk, ih h.2]
      constructor
      · exact Or.inr
      · rintro (⟨e, -⟩ | hm)
        · exact absurd e.symm hk
        · exact hm

theorem AMap.nodup_foldl {V W : Type} (f : AMap V → W → AMap V) (hf : ∀ m w, AMap.Nodup m → AMap.Nodup (f m w)) (l : List W) (m : AMap V)
    (h : AMap.Nodup m) : AMap.Nodup (l.foldl f m) := by
  induction l generalizing m with
  | nil => exact h
  | cons w l ih => exact ih _ (hf m w h)

/-- Result of inserting a list of entries one after the other. -/
theorem AMap.get_foldl_insert {V : Type} (l : List (Str × V)) (m : AMap V) (k : Str) :
    (l.foldl (fun m e => AMap.insert m e.1 e.2) m).get k = match l.reverse.find? (fun e => e.1 = k) with
      | some e => some e.2
      | none => m.get k := by
  induction l generalizing m with
  | nil => rfl
  | cons e l ih =>
    rw [List.foldl_cons, ih, List.reverse_cons, List.find?_append]
    cases h : l.reverse.find? (fun e => e.1 = k) with
    | some e' => simp
    | none =>
      simp only [Option.none_or, List.find?_cons, List.find?_nil, AMap.get_insert]
      by_cases hk : e.1 = k <;> simp [hk]

/-- If entries with equal keys have equal values, the order of insertion is irrelevant for lookups. -/
theorem AMap.get_foldl_insert_consistent {V : Type} (l : List (Str × V)) (m : AMap V)
    (hc : ∀ e ∈ l, ∀ e' ∈ l, e.1 = e'.1 → e.2 = e'.2) (k : Str) (v : V) :
    (l.foldl (fun m e => AMap.insert m e.1 e.2) m).get k = some v ↔
      (k, v) ∈ l ∨ ((∀ e ∈ l, e.1 ≠ k) ∧ m.get k = some v) := by
  rw [AMap.get_foldl_insert]
  cases h : l.reverse.find? (fun e => e.1 = k) with
  | some e =>
    have h1 := List.mem_of_find?_eq_some h
    have h2 := List.find?_some h
    simp only [List.mem_reverse, decide_eq_true_eq] at h1 h2
    simp only [Option.some.injEq]
    constructor
    · intro e'; left; rw [← e', ← h2]; exact h1
    · rintro (hm | ⟨hn, -⟩)
      · exact hc e h1 (k, v) hm h2
      · exact absurd h2 (hn e h1)
  | none =>
    rw [List.find?_eq_none] at h
    simp only [List.mem_reverse, decide_eq_true_eq] at h
    simp only
    constructor
    · intro hg; exact Or.inr ⟨h, hg⟩
    · rintro (hm | ⟨-, hg⟩)
      · exact absurd rfl (h _ hm)
      · exact hg

end Zkenc
