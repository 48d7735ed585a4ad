import Verif.Model.CommandLine
import Verif.Spec.CommandLine
/-!
# Lemmas about command lines
-/

namespace Zkenc

open CmdSpec

theorem splitEq_none {b n : Str} : splitEq b = (n, none) ↔ b = n ∧ '=' ∉ n := by
  induction b generalizing n with
  | nil =>
    simp only [splitEq, Prod.mk.injEq, and_true]
    constructor
    · rintro rfl; simp
    · rintro ⟨rfl, -⟩; rfl
  | cons c t ih =>
    unfold splitEq
    split
    · rename_i hc
      subst hc
      simp only [Prod.mk.injEq, reduceCtorEq, and_false, false_iff]
      rintro ⟨rfl, h⟩
      simp at h
    · rename_i hc
      cases n with
      | nil => simp
      | cons d n =>
        have := @ih n
        simp only [Prod.mk.injEq, List.cons.injEq, List.mem_cons, not_or, and_assoc]
        constructor
        · rintro ⟨rfl, h1, h2⟩
          obtain ⟨h3, h4⟩ := this.1 (Prod.ext h1 h2)
          exact ⟨rfl, h3, fun h => hc h.symm, h4⟩
        · rintro ⟨rfl, h3, -, h4⟩
          have := this.2 ⟨h3, h4⟩
          exact ⟨rfl, by rw [this], by rw [this]⟩

theorem splitEq_some {b n v : Str} : splitEq b = (n, some v) ↔ b = n ++ '=' :: v ∧ '=' ∉ n := by
  induction b generalizing n with
  | nil => simp [splitEq]
  | cons c t ih =>
    unfold splitEq
    split
    · rename_i hc
      subst hc
      cases n with
      | nil => simp
      | cons d n =>
        simp only [Prod.mk.injEq, reduceCtorEq, false_and, List.cons_append, List.cons.injEq, false_iff]
        rintro ⟨⟨rfl, -⟩, h⟩
        simp at h
    · rename_i hc
      cases n with
      | nil => simp [hc]
      | cons d n =>
        have := @ih n
        simp only [Prod.mk.injEq, List.cons.injEq, List.mem_cons, not_or, and_assoc, List.cons_append]
        constructor
        · rintro ⟨rfl, h1, h2⟩
          obtain ⟨h3, h4⟩ := this.1 (Prod.ext h1 h2)
          exact ⟨rfl, h3, fun h => hc h.symm, h4⟩
        · rintro ⟨rfl, h3, -, h4⟩
          have := this.2 ⟨h3, h4⟩
          exact ⟨rfl, by rw [this], by rw [this]⟩

theorem isDash_false {v : Str} : isDash v = false ↔ Plain v := by
  unfold Plain
  match v with
  | [] => simp [isDash]
  | [c] => simp [isDash]; exact Decidable.em _
  | c :: d :: t =>
    by_cases h : c = '-'
    · subst h; simp [isDash]
    · simp only [List.cons.injEq, reduceCtorEq, and_false, List.head?_cons, ne_eq, Option.some.injEq, h, not_false_eq_true, or_true, iff_true]
      unfold isDash
      split
      · rename_i heq
        simp only [List.cons.injEq] at heq
        exact absurd heq.1 h
      · rfl

/-- One option, in terms of the table. -/
inductive SetsO (opts : List OptSpec) (o : OptSpec) : List Str → Option Str → Prop
  | long {v} : o.flag = false → Plain v → SetsO opts o ['-' :: '-' :: o.long, v] (some v)
  | longEq {v} : o.flag = false → SetsO opts o ['-' :: '-' :: (o.long ++ '=' :: v)] (some v)
  | short {x v} : opts.find? (fun o => o.short = some x) = some o → Plain v → SetsO opts o [['-', x], v] (some v)
  | shortEq {x v} : opts.find? (fun o => o.short = some x) = some o → SetsO opts o ['-' :: x :: '=' :: v] (some v)
  | attached {x v} : opts.find? (fun o => o.short = some x) = some o → v ≠ [] → v.head? ≠ some '=' → SetsO opts o ['-' :: x :: v] (some v)
  | switch : o.flag = true → SetsO opts o ['-' :: '-' :: o.long] none

/-- What the proof needs of a table. -/
structure GoodOpts (opts : List OptSpec) : Prop where
  long_inj : ∀ o ∈ opts, ∀ o' ∈ opts, o.long = o'.long → o = o'
  no_eq : ∀ o ∈ opts, '=' ∉ o.long
  ne_nil : ∀ o ∈ opts, o.long ≠ []
  short_value : ∀ o ∈ opts, ∀ x, o.short = some x → o.flag = false ∧ x ≠ '-'

theorem find_long {opts : List OptSpec} (hg : GoodOpts opts) {n : Str} {o : OptSpec} :
    opts.find? (fun o => o.long = n) = some o ↔ o ∈ opts ∧ o.long = n := by
  constructor
  · intro h
    have h1 := List.find?_some h
    exact ⟨List.mem_of_find?_eq_some h, by simpa using h1⟩
  · rintro ⟨h1, rfl⟩
    cases h : opts.find? (fun o' => o'.long = o.long) with
    | none =>
      have := List.find?_eq_none.1 h o h1
      simp at this
    | some o' =>
      have h2 := List.find?_some h
      rw [hg.long_inj o' (List.mem_of_find?_eq_some h) o h1 (by simpa using h2)]

theorem optValue_iff {o : OptSpec} {att : Option Str} {rest rest' : List Str} {p : Str × Option Str} :
    optValue o att rest = some (p, rest') ↔ p.1 = o.long ∧
      ((o.flag = true ∧ att = none ∧ p.2 = none ∧ rest' = rest) ∨
       (o.flag = false ∧ ∃ v, p.2 = some v ∧ ((att = some v ∧ rest' = rest) ∨ (att = none ∧ rest = v :: rest' ∧ Plain v)))) := by
  obtain ⟨n, w⟩ := p
  unfold optValue
  cases hf : o.flag with
  | true =>
    cases att with
    | none => simp [and_comm, and_left_comm, eq_comm]
    | some v => simp
  | false =>
    cases att with
    | some v => simp [and_comm, and_left_comm, eq_comm]
    | none =>
      cases rest with
      | nil => simp
      | cons v rest =>
        have hd : isDash v = true ↔ ¬ Plain v := by rw [← isDash_false]; simp
        by_cases hp : Plain v
        · have : isDash v = false := isDash_false.2 hp
          simp only [this, Bool.false_eq_true, if_false, Option.some.injEq, Prod.mk.injEq, reduceCtorEq, false_and, true_and, List.cons.injEq,
            false_or]
          constructor
          · rintro ⟨⟨rfl, rfl⟩, rfl⟩; exact ⟨rfl, v, rfl, ⟨rfl, rfl⟩, hp⟩
          · rintro ⟨rfl, v', rfl, ⟨rfl, rfl⟩, -⟩; exact ⟨⟨rfl, rfl⟩, rfl⟩
        · simp only [hd.2 hp, if_true, reduceCtorEq, false_and, true_and, List.cons.injEq, false_or, false_iff, Bool.false_eq_true, if_false]
          rintro ⟨-, v', -, ⟨rfl, -⟩, h⟩
          exact hp h

theorem readOption_iff {opts : List OptSpec} (hg : GoodOpts opts) {tok : Str} {rest rest' : List Str} {p : Str × Option Str} :
    readOption opts tok rest = some (p, rest') ↔
      ∃ o ∈ opts, p.1 = o.long ∧ ∃ toks, SetsO opts o toks p.2 ∧ tok :: rest = toks ++ rest' := by
  obtain ⟨n, w⟩ := p
  constructor
  · intro h
    unfold readOption at h
    split at h
    · rename_i body
      rw [Option.bind_eq_some_iff] at h
      obtain ⟨o, ho, h⟩ := h
      obtain ⟨hm, hl⟩ := (find_long hg).1 ho
      obtain ⟨h1, h⟩ := optValue_iff.1 h
      refine ⟨o, hm, h1, ?_⟩
      rcases h with ⟨hf, ha, h2, rfl⟩ | ⟨hf, v, h2, ⟨ha, rfl⟩ | ⟨ha, rfl, hp⟩⟩
      · obtain ⟨rfl, -⟩ := splitEq_none.1 (Prod.ext hl.symm ha)
        simp only at h2
        subst h2
        exact ⟨_, .switch hf, rfl⟩
      · obtain ⟨rfl, -⟩ := splitEq_some.1 (Prod.ext hl.symm ha)
        simp only at h2
        subst h2
        exact ⟨_, .longEq hf, rfl⟩
      · obtain ⟨rfl, -⟩ := splitEq_none.1 (Prod.ext hl.symm ha)
        simp only at h2
        subst h2
        exact ⟨_, .long hf hp, rfl⟩
    · rename_i c body _
      rw [Option.bind_eq_some_iff] at h
      obtain ⟨o, ho, h⟩ := h
      have hm := List.mem_of_find?_eq_some ho
      have hs : o.short = some c := by simpa using List.find?_some ho
      obtain ⟨hv, hx⟩ := hg.short_value o hm c hs
      obtain ⟨h1, h2⟩ := optValue_iff.1 h
      clear h
      rename' h2 => h
      refine ⟨o, hm, h1, ?_⟩
      rw [hv] at h
      simp only [Bool.false_eq_true, false_and, true_and, false_or] at h
      obtain ⟨v, rfl, h⟩ := h
      split at h
      · simp only [reduceCtorEq, false_and, true_and, false_or] at h
        obtain ⟨rfl, hp⟩ := h
        exact ⟨_, .short ho hp, rfl⟩
      · simp only [Option.some.injEq, reduceCtorEq, false_and, or_false] at h
        obtain ⟨rfl, rfl⟩ := h
        exact ⟨_, .shortEq ho, rfl⟩
      · rename_i hb1 hb2
        simp only [Option.some.injEq, reduceCtorEq, false_and, or_false] at h
        obtain ⟨rfl, rfl⟩ := h
        refine ⟨_, .attached ho (fun h => hb1 h) (fun h => ?_), rfl⟩
        cases body with
        | nil => cases h
        | cons d t =>
          simp only [List.head?_cons, Option.some.injEq] at h
          subst h
          exact hb2 t rfl
    · cases h
  · rintro ⟨o, hm, hn, toks, hs, heq⟩
    simp only at hn hs
    subst hn
    have hl := (find_long hg).2 ⟨hm, rfl⟩
    cases hs with
    | long hf hp =>
      simp only [List.cons_append, List.nil_append, List.cons.injEq] at heq
      obtain ⟨rfl, rfl⟩ := heq
      simp only [readOption, splitEq_none.2 ⟨rfl, hg.no_eq o hm⟩, hl, Option.bind_some]
      exact optValue_iff.2 ⟨rfl, .inr ⟨hf, _, rfl, .inr ⟨rfl, rfl, hp⟩⟩⟩
    | longEq hf =>
      simp only [List.cons_append, List.nil_append, List.cons.injEq] at heq
      obtain ⟨rfl, rfl⟩ := heq
      simp only [readOption, splitEq_some.2 ⟨rfl, hg.no_eq o hm⟩, hl, Option.bind_some]
      exact optValue_iff.2 ⟨rfl, .inr ⟨hf, _, rfl, .inl ⟨rfl, rfl⟩⟩⟩
    | switch hf =>
      simp only [List.cons_append, List.nil_append, List.cons.injEq] at heq
      obtain ⟨rfl, rfl⟩ := heq
      simp only [readOption, splitEq_none.2 ⟨rfl, hg.no_eq o hm⟩, hl, Option.bind_some]
      exact optValue_iff.2 ⟨rfl, .inl ⟨hf, rfl, rfl, rfl⟩⟩
    | @short x v ho hp =>
      have hs : o.short = some x := by simpa using List.find?_some ho
      obtain ⟨hv, hx⟩ := hg.short_value o hm x hs
      simp only [List.cons_append, List.nil_append, List.cons.injEq] at heq
      obtain ⟨rfl, rfl⟩ := heq
      unfold readOption
      split
      · rename_i h; simp only [List.cons.injEq] at h; exact absurd h.2.1 hx
      · rename_i h
        simp only [List.cons.injEq, true_and] at h
        obtain ⟨rfl, rfl⟩ := h
        rw [ho, Option.bind_some]
        exact optValue_iff.2 ⟨rfl, .inr ⟨hv, _, rfl, .inr ⟨rfl, rfl, hp⟩⟩⟩
      · rename_i h; exact absurd rfl (h x [])
    | @shortEq x v ho =>
      have hs : o.short = some x := by simpa using List.find?_some ho
      obtain ⟨hv, hx⟩ := hg.short_value o hm x hs
      simp only [List.cons_append, List.nil_append, List.cons.injEq] at heq
      obtain ⟨rfl, rfl⟩ := heq
      unfold readOption
      split
      · rename_i h; simp only [List.cons.injEq] at h; exact absurd h.2.1 hx
      · rename_i h
        simp only [List.cons.injEq, true_and] at h
        obtain ⟨rfl, rfl⟩ := h
        rw [ho, Option.bind_some]
        exact optValue_iff.2 ⟨rfl, .inr ⟨hv, _, rfl, .inl ⟨rfl, rfl⟩⟩⟩
      · rename_i h; exact absurd rfl (h x ('=' :: v))
    | @attached x v ho h0 h1 =>
      have hs : o.short = some x := by simpa using List.find?_some ho
      obtain ⟨hv, hx⟩ := hg.short_value o hm x hs
      simp only [List.cons_append, List.nil_append, List.cons.injEq] at heq
      obtain ⟨rfl, rfl⟩ := heq
      unfold readOption
      split
      · rename_i h; simp only [List.cons.injEq] at h; exact absurd h.2.1 hx
      · rename_i h
        simp only [List.cons.injEq, true_and] at h
        obtain ⟨rfl, rfl⟩ := h
        rw [ho, Option.bind_some]
        refine optValue_iff.2 ⟨rfl, .inr ⟨hv, _, rfl, .inl ⟨?_, rfl⟩⟩⟩
        split
        · exact absurd rfl h0
        · exact absurd rfl h1
        · rfl
      · rename_i h; exact absurd rfl (h x v)

theorem setsO_ne {opts : List OptSpec} (hg : GoodOpts opts) {o : OptSpec} (ho : o ∈ opts) {toks : List Str} {w : Option Str}
    (h : SetsO opts o toks w) : ∃ t ts, toks = t :: ts ∧ t ≠ ['-', '-'] := by
  have hn := hg.ne_nil o ho
  have sh : ∀ x, opts.find? (fun o => o.short = some x) = some o → x ≠ '-' := fun x hx =>
    (hg.short_value o ho x (by simpa using List.find?_some hx)).2
  cases h with
  | long _ _ => exact ⟨_, _, rfl, by simp [hn]⟩
  | longEq _ => exact ⟨_, _, rfl, by simp⟩
  | short hx _ => exact ⟨_, _, rfl, by simp [sh _ hx]⟩
  | shortEq hx => exact ⟨_, _, rfl, by simp⟩
  | attached hx h0 _ => exact ⟨_, _, rfl, by simp [h0]⟩
  | switch _ => exact ⟨_, _, rfl, by simp [hn]⟩

/-- All options, in terms of the table. -/
theorem readOptions_iff {opts : List OptSpec} (hg : GoodOpts opts) (n : Nat) (toks : List Str) (acc out : List (Str × Option Str))
    (hn : toks.length ≤ n) (hacc : (acc.map Prod.fst).Nodup) :
    readOptions opts n toks acc = some out ↔ (out.map Prod.fst).Nodup ∧
      ∃ items : List (List Str × (Str × Option Str)), out = acc ++ items.map Prod.snd ∧
        (∀ it ∈ items, ∃ o ∈ opts, it.2.1 = o.long ∧ SetsO opts o it.1 it.2.2) ∧
        ∃ tail, (tail = [] ∨ tail = [['-', '-']]) ∧ toks = (items.map Prod.fst).flatten ++ tail := by
  induction n generalizing toks acc with
  | zero =>
    have : toks = [] := by simpa using hn
    subst this
    simp only [readOptions, Option.some.injEq]
    constructor
    · rintro rfl
      exact ⟨hacc, [], by simp, by simp, [], .inl rfl, by simp⟩
    · rintro ⟨-, items, rfl, hi, tail, -, ht⟩
      cases items with
      | nil => simp
      | cons it items =>
        obtain ⟨o, ho, -, hs⟩ := hi it (by simp)
        obtain ⟨t, ts, h1, -⟩ := setsO_ne hg ho hs
        simp [h1] at ht
  | succ n ih =>
    cases toks with
    | nil =>
      simp only [readOptions, Option.some.injEq]
      constructor
      · rintro rfl
        exact ⟨hacc, [], by simp, by simp, [], .inl rfl, by simp⟩
      · rintro ⟨-, items, rfl, hi, tail, -, ht⟩
        cases items with
        | nil => simp
        | cons it items =>
          obtain ⟨o, ho, -, hs⟩ := hi it (by simp)
          obtain ⟨t, ts, h1, -⟩ := setsO_ne hg ho hs
          simp [h1] at ht
    | cons tok rest =>
      unfold readOptions
      by_cases hd : tok = ['-', '-']
      · subst hd
        rw [if_pos rfl]
        constructor
        · intro h
          split at h
          · rename_i hr
            subst hr
            simp only [Option.some.injEq] at h
            subst h
            exact ⟨hacc, [], by simp, by simp, _, .inr rfl, by simp⟩
          · cases h
        · rintro ⟨-, items, rfl, hi, tail, htail, ht⟩
          cases items with
          | nil =>
            rcases htail with rfl | rfl
            · simp at ht
            · simp only [List.map_nil, List.flatten_nil, List.nil_append, List.cons.injEq, true_and] at ht
              subst ht
              simp
          | cons it items =>
            obtain ⟨o, ho, -, hs⟩ := hi it (by simp)
            obtain ⟨t, ts, h1, h2⟩ := setsO_ne hg ho hs
            simp only [List.map_cons, h1, List.flatten_cons, List.cons_append, List.cons.injEq] at ht
            exact absurd ht.1.symm h2
      · rw [if_neg hd]
        constructor
        · intro h
          rw [Option.bind_eq_some_iff] at h
          obtain ⟨⟨p, rest'⟩, h1, h⟩ := h
          simp only at h
          split at h
          · cases h
          · rename_i hnot
            obtain ⟨o, ho, hl, toks, hs, heq⟩ := (readOption_iff hg).1 h1
            obtain ⟨t, ts, ht, -⟩ := setsO_ne hg ho hs
            have hlen : rest'.length ≤ n := by
              have := congrArg List.length heq
              rw [ht] at this
              simp only [List.length_cons, List.length_append, List.cons_append] at this
              simp only [List.length_cons] at hn
              omega
            have hacc' : ((acc ++ [p]).map Prod.fst).Nodup := by
              rw [List.map_append, List.nodup_append]
              refine ⟨hacc, by simp, ?_⟩
              intro a ha b hb hab
              simp only [List.map_cons, List.map_nil, List.mem_singleton] at hb
              subst hb; subst hab
              exact hnot ha
            obtain ⟨hnd, items, hout, hi, tail, htail, hr⟩ := (ih rest' (acc ++ [p]) hlen hacc').1 h
            refine ⟨hnd, (toks, p) :: items, by simp [hout], ?_, tail, htail, ?_⟩
            · intro it hit
              rcases List.mem_cons.1 hit with rfl | hit
              · exact ⟨o, ho, hl, hs⟩
              · exact hi it hit
            · rw [heq, hr]
              simp
        · rintro ⟨hnd, items, hout, hi, tail, htail, ht⟩
          cases items with
          | nil =>
            rcases htail with rfl | rfl
            · simp at ht
            · simp only [List.map_nil, List.flatten_nil, List.nil_append, List.cons.injEq] at ht
              exact absurd ht.1 hd
          | cons it items =>
            obtain ⟨toks, p⟩ := it
            obtain ⟨o, ho, hl, hs⟩ := hi _ (List.mem_cons_self ..)
            simp only at hl hs
            simp only [List.map_cons, List.flatten_cons, List.append_assoc] at ht
            have h1 := (readOption_iff hg).2 ⟨o, ho, hl, toks, hs, ht⟩
            rw [h1, Option.bind_some]
            simp only
            have hout' : out = (acc ++ [p]) ++ items.map Prod.snd := by rw [hout]; simp
            have hacc' : ((acc ++ [p]).map Prod.fst).Nodup := by
              rw [hout', List.map_append] at hnd
              exact (List.nodup_append.1 hnd).1
            have hnot : p.1 ∉ acc.map Prod.fst := by
              intro hc
              rw [List.map_append, List.nodup_append] at hacc'
              exact hacc'.2.2 _ hc p.1 (by simp) rfl
            rw [if_neg hnot]
            obtain ⟨t, ts, htt, -⟩ := setsO_ne hg ho hs
            have hlen : ((items.map Prod.fst).flatten ++ tail).length ≤ n := by
              have := congrArg List.length ht
              rw [htt] at this
              simp only [List.length_cons, List.length_append, List.cons_append] at this hn ⊢
              omega
            exact (ih _ _ hlen hacc').2 ⟨hnd, items, hout', fun it hit => hi it (by simp [hit]), tail, htail, rfl⟩

end Zkenc
