import Verif.Proofs.InputOrder
import Verif.Props.EndToEndOutcome
import Verif.Props.EndToEndExactly
import Verif.Props.EndToEndExactlyKem
/-!
# C101: several values for one wire

The theorems on the inputs of JS elsewhere assume that no two values of the object with different texts are for one wire. Here: what happens
without that assumption. The last value counts, everywhere; the earlier ones only must not be null or undefined. In the CLI, the last value for a
name counts, and of several names for one wire any one may: the possible wire assignments are exactly those that choose one.
-/

namespace Zkenc.Props

open Zkenc Zkenc.Spec Zkenc.InputSpec

theorem mem_valuesInOrder (inputs : List (Str × JsVal)) (name : Str) (v : JsVal) : (name, v) ∈ valuesInOrder inputs ↔ JsGives inputs name v := by
  unfold valuesInOrder
  rw [← jsFields_eq, mem_jsInputs]

/-- **C101** (the values) — the list holds exactly the values that the object gives, with the names of their signals. -/
theorem C101_values (inputs : List (Str × JsVal)) (name : Str) (v : JsVal) : (name, v) ∈ valuesInOrder inputs ↔ JsGives inputs name v :=
  mem_valuesInOrder inputs name v

/-- **C101** (one value counts) — for a wire that is given a value, one value counts; if it counts, it is given; and for no wire two values count. -/
theorem C101_counts (symtab : AMap Nat) (inputs : List (Str × JsVal)) (i : Nat) :
    (JsSupplies symtab inputs i ↔ ∃ v, JsCounts symtab inputs i v) ∧
    (∀ v, JsCounts symtab inputs i v → ∃ name, Resolves symtab none name i ∧ JsGives inputs name v) ∧
    ∀ v v', JsCounts symtab inputs i v → JsCounts symtab inputs i v' → v = v' := by
  classical
  have hgiv : ∀ v, JsCounts symtab inputs i v → ∃ name, Resolves symtab none name i ∧ JsGives inputs name v := by
    rintro v ⟨l₁, name, l₂, he, hr, -⟩
    exact ⟨name, hr, (mem_valuesInOrder _ _ _).1 (by rw [he]; simp)⟩
  refine ⟨⟨?_, ?_⟩, hgiv, ?_⟩
  · rintro ⟨name, v, hr, hg⟩
    have key : ∀ l : List (Str × JsVal), (∃ e ∈ l, Resolves symtab none e.1 i) →
        ∃ l₁ n x l₂, l = l₁ ++ (n, x) :: l₂ ∧ Resolves symtab none n i ∧ ∀ e ∈ l₂, ¬ Resolves symtab none e.1 i := by
      intro l
      induction l with
      | nil => rintro ⟨e, he, -⟩; cases he
      | cons a l ih =>
        intro hex
        by_cases hl : ∃ e ∈ l, Resolves symtab none e.1 i
        · obtain ⟨l₁, n, x, l₂, rfl, g⟩ := ih hl
          exact ⟨a :: l₁, n, x, l₂, rfl, g⟩
        · obtain ⟨e, he, h⟩ := hex
          rcases List.mem_cons.1 he with rfl | he
          · exact ⟨[], _, _, l, rfl, h, fun e he hr => hl ⟨e, he, hr⟩⟩
          · exact absurd ⟨e, he, h⟩ hl
    obtain ⟨l₁, n, x, l₂, he, g1, g2⟩ := key _ ⟨_, (mem_valuesInOrder _ _ _).2 hg, hr⟩
    exact ⟨x, l₁, n, l₂, he, g1, g2⟩
  · rintro ⟨v, hv⟩
    obtain ⟨name, g⟩ := hgiv v hv
    exact ⟨name, v, g⟩
  · rintro v v' ⟨l₁, n, l₂, he, hr, hl⟩ ⟨l₁', n', l₂', he', hr', hl'⟩
    rw [he] at he'
    rcases List.append_eq_append_iff.1 he' with ⟨a, h1, h2⟩ | ⟨a, h1, h2⟩
    · cases a with
      | nil => cases h2; rfl
      | cons b a =>
        cases h2
        exact absurd hr' (hl (n', v') (List.mem_append_right a (List.mem_cons_self)))
    · cases a with
      | nil => cases h2; rfl
      | cons b a =>
        cases h2
        exact absurd hr (hl' (n, v) (List.mem_append_right a (List.mem_cons_self)))

/-- **C101** (witness) — for every input object: JS builds the witness in which wires 1, 2, … have the integers read from the texts of the values that
count for them, up to the first wire that is given no value; it fails exactly if a value that has a wire is null or undefined (even one that does
not count), or if a text that counts within that range is not an integer. -/
theorem C101_witness (sym : Str) (inputs : List (Str × JsVal)) (b : Bytes) :
    jsEncapWitness sym inputs = .ok b ↔
      (∀ name v i, Resolves (jsParseSymFile sym) none name i → JsGives inputs name v → v ≠ .null ∧ v ≠ .undef) ∧
      ∃ zs : List Int, b = serializeWitnessSimple (1 :: zs) ∧
        (∀ k (h : k < zs.length), ∃ v s, JsCounts (jsParseSymFile sym) inputs (k + 1) v ∧ v.toStr = .ok s ∧ jsBigInt s = some zs[k]) ∧
        ∀ name v, Resolves (jsParseSymFile sym) none name (zs.length + 1) → ¬ JsGives inputs name v := by
  have hsig : ∀ name i, (inputSignals (jsParseSymFile sym) none).get name = some i ↔ Resolves (jsParseSymFile sym) none name i :=
    fun name i => C35_input_lookup (jsParseSymFile_nodup sym) (List.Perm.refl _) none name i
  have hnull : ∀ v : JsVal, (∃ s, v.toStr = .ok s) ↔ v ≠ .null ∧ v ≠ .undef := JsVal.toStr_isOk
  obtain ⟨hok, -⟩ := setAll_isOk (inputSignals (jsParseSymFile sym) none) (jsFields inputs []) []
  have hfirst : (∃ m', mapInputsToWires inputs (inputSignals (jsParseSymFile sym) none) = .ok m') ↔
      (∀ name v i, Resolves (jsParseSymFile sym) none name i → JsGives inputs name v → v ≠ .null ∧ v ≠ .undef) := by
    rw [mapInputsToWires_eq, hok]
    constructor
    · intro h name v i hr hg
      exact (hnull v).1 (h (name, v) ((mem_jsInputs _ _ _).2 hg) (by rw [(hsig _ _).2 hr]; rfl))
    · rintro h ⟨name, v⟩ he hs
      obtain ⟨i, hi⟩ := Option.isSome_iff_exists.1 hs
      exact (hnull v).2 (h name v i ((hsig _ _).1 hi) ((mem_jsInputs _ _ _).1 he))
  have hget : ∀ m', mapInputsToWires inputs (inputSignals (jsParseSymFile sym) none) = .ok m' → ∀ i s, m'.get i = some s ↔
      ∃ v, JsCounts (jsParseSymFile sym) inputs i v ∧ v.toStr = .ok s := by
    intro m' hm i s
    rw [mapInputsToWires_eq] at hm
    rw [setAll_last _ _ _ _ hm]
    simp only [NMap.get, reduceCtorEq, and_false, or_false]
    unfold JsCounts valuesInOrder
    rw [← jsFields_eq]
    simp only [hsig, ne_eq]
    constructor
    · rintro ⟨l₁, k, v, l₂, h1, h2, h3, h4⟩
      exact ⟨v, ⟨l₁, k, l₂, h1, h2, h4⟩, h3⟩
    · rintro ⟨v, ⟨l₁, k, l₂, h1, h2, h4⟩, h3⟩
      exact ⟨l₁, k, v, l₂, h1, h2, h3, h4⟩
  have hnone : ∀ m', mapInputsToWires inputs (inputSignals (jsParseSymFile sym) none) = .ok m' → ∀ i, m'.get i = none ↔
      ∀ name v, Resolves (jsParseSymFile sym) none name i → ¬ JsGives inputs name v := by
    intro m' hm i
    constructor
    · intro hg name v hr hgv
      obtain ⟨v', hc⟩ := (C101_counts (jsParseSymFile sym) inputs i).1.1 ⟨name, v, hr, hgv⟩
      obtain ⟨name', hr', hgv'⟩ := (C101_counts (jsParseSymFile sym) inputs i).2.1 v' hc
      obtain ⟨s, hs⟩ := (hnull v').2 ((hfirst.1 ⟨m', hm⟩) name' v' i hr' hgv')
      rw [(hget m' hm i s).2 ⟨v', hc, hs⟩] at hg
      cases hg
    · intro h
      cases hg : m'.get i with
      | none => rfl
      | some s =>
        obtain ⟨v, hc, -⟩ := (hget m' hm i s).1 hg
        obtain ⟨name, h1, h2⟩ := (C101_counts (jsParseSymFile sym) inputs i).2.1 v hc
        exact absurd h2 (h name v h1)
  have hfill : ∀ m' : NMap, ∀ zs : List Int, fillWitness m' 1 (maxKey m') = .ok zs ↔
      (∀ k (h : k < zs.length), ∃ s, m'.get (k + 1) = some s ∧ jsBigInt s = some zs[k]) ∧ m'.get (zs.length + 1) = none := by
    intro m' zs
    rw [fillWitness_ok]
    constructor
    · rintro ⟨h1, h2, h3⟩
      refine ⟨fun k hk => ?_, ?_⟩
      · obtain ⟨s, hs⟩ := h2 k hk
        exact ⟨s, by rw [Nat.add_comm]; exact hs⟩
      · by_cases hl : zs.length < maxKey m'
        · rw [Nat.add_comm]; exact h3 hl
        · cases hg : m'.get (zs.length + 1) with
          | none => rfl
          | some s =>
            have := NMap.le_maxKey m' _ _ hg
            omega
    · rintro ⟨h2, h3⟩
      refine ⟨?_, fun k hk => ?_, fun _ => by rw [Nat.add_comm]; exact h3⟩
      · cases hz : zs.length with
        | zero => exact Nat.zero_le _
        | succ l =>
          obtain ⟨s, hs, -⟩ := h2 l (by omega)
          exact NMap.le_maxKey m' _ _ hs
      · obtain ⟨s, hs⟩ := h2 k hk
        exact ⟨s, by rw [Nat.add_comm 1 k]; exact hs⟩
  unfold jsEncapWitness
  simp only
  rw [Res.bind_eq_ok]
  simp only [Res.bind_eq_ok]
  constructor
  · rintro ⟨m', hm, zs, hz, hb⟩
    cases hb
    refine ⟨hfirst.1 ⟨m', hm⟩, zs, rfl, ?_, ?_⟩
    · intro k hk
      obtain ⟨s, hs, hbi⟩ := ((hfill m' zs).1 hz).1 k hk
      obtain ⟨v, h1, h3⟩ := (hget m' hm _ _).1 hs
      exact ⟨v, s, h1, h3, hbi⟩
    · exact (hnone m' hm _).1 ((hfill m' zs).1 hz).2
  · rintro ⟨hn, zs, rfl, h1, h2⟩
    obtain ⟨m', hm⟩ := hfirst.2 hn
    refine ⟨m', hm, zs, (hfill m' zs).2 ⟨fun k hk => ?_, (hnone m' hm _).2 h2⟩, rfl⟩
    obtain ⟨v, s, h3, h5, h6⟩ := h1 k hk
    exact ⟨s, (hget m' hm _ _).2 ⟨v, h3, h5⟩, h6⟩

/-! ## The object of the values that count -/

theorem exists_winners (symtab : AMap Nat) (l : List (Str × JsVal)) : ∃ l' : List (Str × JsVal), (∀ e ∈ l', ∃ s, e.2 = .str s) ∧
    ∀ name s, (name, JsVal.str s) ∈ l' ↔ ∃ l₁ v l₂, l = l₁ ++ (name, v) :: l₂ ∧ v.toStr = .ok s ∧
      ∀ i, Resolves symtab none name i → ∀ e ∈ l₂, ¬ Resolves symtab none e.1 i := by
  classical
  induction l with
  | nil => exact ⟨[], by simp, by simp⟩
  | cons a l ih =>
    obtain ⟨k, v⟩ := a
    obtain ⟨l', h1, h2⟩ := ih
    have hsplit : ∀ name s, (∃ l₁ x l₂, (k, v) :: l = l₁ ++ (name, x) :: l₂ ∧ x.toStr = .ok s ∧
        ∀ i, Resolves symtab none name i → ∀ e ∈ l₂, ¬ Resolves symtab none e.1 i) ↔
        (k = name ∧ v.toStr = .ok s ∧ ∀ i, Resolves symtab none k i → ∀ e ∈ l, ¬ Resolves symtab none e.1 i) ∨
        (∃ l₁ x l₂, l = l₁ ++ (name, x) :: l₂ ∧ x.toStr = .ok s ∧
          ∀ i, Resolves symtab none name i → ∀ e ∈ l₂, ¬ Resolves symtab none e.1 i) := by
      intro name s
      constructor
      · rintro ⟨l₁, x, l₂, he, g⟩
        cases l₁ with
        | nil => cases he; exact .inl ⟨rfl, g⟩
        | cons a l₁ => cases he; exact .inr ⟨l₁, x, l₂, rfl, g⟩
      · rintro (⟨rfl, g⟩ | ⟨l₁, x, l₂, rfl, g⟩)
        · exact ⟨[], v, l, rfl, g⟩
        · exact ⟨(k, v) :: l₁, x, l₂, rfl, g⟩
    by_cases hw : (∃ t, v.toStr = .ok t) ∧ ∀ i, Resolves symtab none k i → ∀ e ∈ l, ¬ Resolves symtab none e.1 i
    · obtain ⟨⟨t, ht⟩, hw⟩ := hw
      refine ⟨(k, .str t) :: l', by simpa using h1, fun name s => ?_⟩
      rw [hsplit, ← h2, List.mem_cons, Prod.mk.injEq, JsVal.str.injEq, ht]
      refine or_congr ?_ Iff.rfl
      constructor
      · rintro ⟨rfl, rfl⟩; exact ⟨rfl, rfl, hw⟩
      · rintro ⟨rfl, hs, -⟩; cases hs; exact ⟨rfl, rfl⟩
    · refine ⟨l', h1, fun name s => ?_⟩
      rw [hsplit, ← h2]
      constructor
      · exact .inr
      · rintro (⟨-, g1, g2⟩ | g)
        · exact absurd ⟨⟨s, g1⟩, g2⟩ hw
        · exact g

theorem jsGives_strings {l : List (Str × JsVal)} (h : ∀ e ∈ l, ∃ s, e.2 = .str s) (name : Str) (v : JsVal) : JsGives l name v ↔ (name, v) ∈ l := by
  constructor
  · rintro ⟨⟨k, x⟩, he, ha⟩
    obtain ⟨s, hs⟩ := h _ he
    simp only at hs ha
    subst hs
    cases ha with
    | scalar h1 h2 => exact he
  · intro he
    obtain ⟨s, hs⟩ := h _ he
    simp only at hs
    subst hs
    exact ⟨_, he, .scalar (fun l => by simp) (fun l => by simp)⟩

/-- **C101** (the object that is used) — to every input object in which no value with a wire is null or undefined there is one in which no two values are
for one wire, with the same witness, that gives each wire the text of the value that counts for it. -/
theorem C101_effective (sym : Str) (inputs : List (Str × JsVal))
    (hn : ∀ name v i, Resolves (jsParseSymFile sym) none name i → JsGives inputs name v → v ≠ .null ∧ v ≠ .undef) :
    ∃ inputs', JsNoAlias (jsParseSymFile sym) inputs' ∧ (∀ b, jsEncapWitness sym inputs = .ok b ↔ jsEncapWitness sym inputs' = .ok b) ∧
      ∀ i v', (∃ name, Resolves (jsParseSymFile sym) none name i ∧ JsGives inputs' name v') ↔
        ∃ v s, JsCounts (jsParseSymFile sym) inputs i v ∧ v.toStr = .ok s ∧ v' = .str s := by
  obtain ⟨l', h1, h2⟩ := exists_winners (jsParseSymFile sym) (valuesInOrder inputs)
  have hc := C101_counts (jsParseSymFile sym) inputs
  have key : ∀ i v', (∃ name, Resolves (jsParseSymFile sym) none name i ∧ JsGives l' name v') ↔
      ∃ v s, JsCounts (jsParseSymFile sym) inputs i v ∧ v.toStr = .ok s ∧ v' = .str s := by
    intro i v'
    constructor
    · rintro ⟨name, hr, hg⟩
      rw [jsGives_strings h1] at hg
      obtain ⟨s, rfl⟩ := h1 _ hg
      obtain ⟨l₁, v, l₂, he, hs, ha⟩ := (h2 name s).1 hg
      exact ⟨v, s, ⟨l₁, name, l₂, he, hr, ha i hr⟩, hs, rfl⟩
    · rintro ⟨v, s, ⟨l₁, name, l₂, he, hr, ha⟩, hs, rfl⟩
      refine ⟨name, hr, (jsGives_strings h1 _ _).2 ((h2 name s).2 ⟨l₁, v, l₂, he, hs, fun j hj => ?_⟩)⟩
      have : i = j := by
        have := hr.1.symm.trans hj.1
        simpa using this
      exact this ▸ ha
  have hna : JsNoAlias (jsParseSymFile sym) l' := by
    intro n n' i v v' hr hr' hg hg'
    obtain ⟨x, s, hx, hs, rfl⟩ := (key i v).1 ⟨n, hr, hg⟩
    obtain ⟨x', s', hx', hs', rfl⟩ := (key i v').1 ⟨n', hr', hg'⟩
    have := (hc i).2.2 x x' hx hx'
    subst this
    rw [hs] at hs'
    cases hs'
    rfl
  have hsup : ∀ i, JsSupplies (jsParseSymFile sym) inputs i ↔ ∃ name v, Resolves (jsParseSymFile sym) none name i ∧ JsGives l' name v := by
    intro i
    rw [(hc i).1]
    constructor
    · rintro ⟨v, hv⟩
      obtain ⟨name, g1, g2⟩ := (hc i).2.1 v hv
      obtain ⟨s, hs⟩ := (JsVal.toStr_isOk v).2 (hn name v i g1 g2)
      obtain ⟨name', g⟩ := (key i (.str s)).2 ⟨v, s, hv, hs, rfl⟩
      exact ⟨name', _, g⟩
    · rintro ⟨name, v', g⟩
      obtain ⟨v, s, hv, -⟩ := (key i v').1 ⟨name, g⟩
      exact ⟨v, hv⟩
  refine ⟨l', hna, fun b => ?_, key⟩
  rw [C101_witness, C38_js_witness sym l' hna]
  have htext : ∀ i s, (∃ v, JsCounts (jsParseSymFile sym) inputs i v ∧ v.toStr = .ok s) ↔
      ∃ name v, Resolves (jsParseSymFile sym) none name i ∧ JsGives l' name v ∧ v.toStr = .ok s := by
    intro i s
    constructor
    · rintro ⟨v, hv, hs⟩
      obtain ⟨name, g1, g2⟩ := (key i (.str s)).2 ⟨v, s, hv, hs, rfl⟩
      exact ⟨name, _, g1, g2, rfl⟩
    · rintro ⟨name, v', g1, g2, g3⟩
      obtain ⟨v, t, hv, ht, rfl⟩ := (key i v').1 ⟨name, g1, g2⟩
      cases g3
      exact ⟨v, hv, ht⟩
  constructor
  · rintro ⟨-, zs, rfl, h3, h4⟩
    refine ⟨fun name v i hr hg => ?_, zs, rfl, fun k hk => ?_, fun name v hr hg => ?_⟩
    · rw [jsGives_strings h1] at hg
      obtain ⟨s, rfl⟩ := h1 _ hg
      simp
    · obtain ⟨v, s, g1, g2, g3⟩ := h3 k hk
      obtain ⟨name, v', g⟩ := (htext (k + 1) s).1 ⟨v, g1, g2⟩
      exact ⟨name, v', s, g.1, g.2.1, g.2.2, g3⟩
    · obtain ⟨name', v', g1, g2⟩ := (hsup _).2 ⟨name, v, hr, hg⟩
      exact h4 name' v' g1 g2
  · rintro ⟨-, zs, rfl, h3, h4⟩
    refine ⟨hn, zs, rfl, fun k hk => ?_, fun name v hr hg => ?_⟩
    · obtain ⟨name, v', s, g1, g2, g3, g4⟩ := h3 k hk
      obtain ⟨v, g⟩ := (htext (k + 1) s).2 ⟨name, v', g1, g2, g3⟩
      exact ⟨v, s, g.1, g.2, g4⟩
    · obtain ⟨name', v', g1, g2⟩ := (hsup _).1 ⟨name, v, hr, hg⟩
      exact h4 name' v' g1 g2

/-- Transfer of the other notions to that object. -/
theorem effective_facts {sym : Str} {inputs : List (Str × JsVal)}
    (hn : ∀ name v i, Resolves (jsParseSymFile sym) none name i → JsGives inputs name v → v ≠ .null ∧ v ≠ .undef) :
    ∃ inputs', JsNoAlias (jsParseSymFile sym) inputs' ∧ (∀ b, jsEncapWitness sym inputs = .ok b ↔ jsEncapWitness sym inputs' = .ok b) ∧
      (JsSmall (jsParseSymFile sym) inputs → JsSmall (jsParseSymFile sym) inputs') ∧
      (JsUsableLast (jsParseSymFile sym) inputs ↔ JsUsable (jsParseSymFile sym) inputs') ∧
      ∀ n vals, JsEnforcedLast (jsParseSymFile sym) n inputs vals ↔ JsEnforced (jsParseSymFile sym) n inputs' vals := by
  obtain ⟨l', hna, hwit, key⟩ := C101_effective sym inputs hn
  have hc := C101_counts (jsParseSymFile sym) inputs
  have hsup : ∀ i, JsSupplies (jsParseSymFile sym) inputs i ↔ JsSupplies (jsParseSymFile sym) l' i := by
    intro i
    rw [(hc i).1]
    constructor
    · rintro ⟨v, hv⟩
      obtain ⟨name, g1, g2⟩ := (hc i).2.1 v hv
      obtain ⟨s, hs⟩ := (JsVal.toStr_isOk v).2 (hn name v i g1 g2)
      obtain ⟨name', g⟩ := (key i (.str s)).2 ⟨v, s, hv, hs, rfl⟩
      exact ⟨name', _, g⟩
    · rintro ⟨name, v', g⟩
      obtain ⟨v, s, hv, -⟩ := (key i v').1 ⟨name, g⟩
      exact ⟨v, hv⟩
  refine ⟨l', hna, hwit, ?_, ⟨fun h => ⟨?_, ?_⟩, fun h => ⟨hn, ?_⟩⟩, fun n vals => ⟨fun h => ?_, fun h => ?_⟩⟩
  · rintro ⟨i, h1, h2, h3⟩
    exact ⟨i, h1, h2, fun h => h3 ((hsup i).2 h)⟩
  · intro name v' i hr hg
    obtain ⟨v, s, -, -, rfl⟩ := (key i v').1 ⟨name, hr, hg⟩
    simp
  · intro i hi hrun name v' s hr hg hs
    obtain ⟨v, t, g1, g2, rfl⟩ := (key i v').1 ⟨name, hr, hg⟩
    cases hs
    exact h.integer i hi (fun j h1 h2 => (hsup j).2 (hrun j h1 h2)) v t g1 g2
  · intro i hi hrun v s hv hs
    obtain ⟨name, g1, g2⟩ := (key i (.str s)).2 ⟨v, s, hv, hs, rfl⟩
    exact h.integer i hi (fun j h1 h2 => (hsup j).1 (hrun j h1 h2)) name _ s g1 g2 rfl
  · intro j hj hjn hrun name v' s z hr hg hs hz
    obtain ⟨v, t, g1, g2, rfl⟩ := (key j v').1 ⟨name, hr, hg⟩
    cases hs
    exact h j hj hjn (fun i h1 h2 => (hsup i).2 (hrun i h1 h2)) v t z g1 g2 hz
  · intro j hj hjn hrun v s z hv hs hz
    obtain ⟨name, g1, g2⟩ := (key j (.str s)).2 ⟨v, s, hv, hs, rfl⟩
    exact h j hj hjn (fun i h1 h2 => (hsup i).1 (hrun i h1 h2)) name _ s z g1 g2 rfl hz

theorem not_null_of_ok {sym : Str} {inputs : List (Str × JsVal)} {b : Bytes} (h : jsEncapWitness sym inputs = .ok b) :
    ∀ name v i, Resolves (jsParseSymFile sym) none name i → JsGives inputs name v → v ≠ .null ∧ v ≠ .undef :=
  ((C101_witness sym inputs b).1 h).1

theorem jsAssign_effective {n : Nat} {sym : Str} {inputs inputs' : List (Str × JsVal)}
    (hw : ∀ b, jsEncapWitness sym inputs = .ok b ↔ jsEncapWitness sym inputs' = .ok b) {w : WireMap} :
    jsAssign n sym inputs = .ok w ↔ jsAssign n sym inputs' = .ok w := by
  unfold jsAssign
  simp only [Res.bind_eq_ok, hw]

/-- **C101** (no two values for one wire) — for objects in which no two values with different texts are for one wire, the notions here are those used
in the other theorems. -/
theorem C101_noalias (sym : Str) (inputs : List (Str × JsVal)) (hna : JsNoAlias (jsParseSymFile sym) inputs) :
    (JsUsableLast (jsParseSymFile sym) inputs ↔ JsUsable (jsParseSymFile sym) inputs) ∧
    ∀ n vals, JsEnforcedLast (jsParseSymFile sym) n inputs vals ↔ JsEnforced (jsParseSymFile sym) n inputs vals := by
  have hc := C101_counts (jsParseSymFile sym) inputs
  have ht : ∀ i s, (∃ v, JsCounts (jsParseSymFile sym) inputs i v ∧ v.toStr = .ok s) ↔
      ∃ name v, Resolves (jsParseSymFile sym) none name i ∧ JsGives inputs name v ∧ v.toStr = .ok s := by
    intro i s
    constructor
    · rintro ⟨v, hv, hs⟩
      obtain ⟨name, g1, g2⟩ := (hc i).2.1 v hv
      exact ⟨name, v, g1, g2, hs⟩
    · rintro ⟨name, v, hr, hg, hs⟩
      obtain ⟨v', hv'⟩ := (hc i).1.1 ⟨name, v, hr, hg⟩
      obtain ⟨name', g1, g2⟩ := (hc i).2.1 v' hv'
      exact ⟨v', hv', by rw [← hna name name' i v v' hr g1 hg g2, hs]⟩
  refine ⟨⟨fun h => ⟨h.not_null, ?_⟩, fun h => ⟨h.not_null, ?_⟩⟩, fun n vals => ⟨fun h => ?_, fun h => ?_⟩⟩
  · intro i hi hrun name v s hr hg hs
    obtain ⟨v', hv', hs'⟩ := (ht i s).2 ⟨name, v, hr, hg, hs⟩
    exact h.integer i hi hrun v' s hv' hs'
  · intro i hi hrun v s hv hs
    obtain ⟨name, v', g1, g2, g3⟩ := (ht i s).1 ⟨v, hv, hs⟩
    exact h.integer i hi hrun name v' s g1 g2 g3
  · intro j hj hjn hrun name v s z hr hg hs hz
    obtain ⟨v', hv', hs'⟩ := (ht j s).2 ⟨name, v, hr, hg, hs⟩
    exact h j hj hjn hrun v' s z hv' hs' hz
  · intro j hj hjn hrun v s z hv hs hz
    obtain ⟨name, v', g1, g2, g3⟩ := (ht j s).1 ⟨v, hv, hs⟩
    exact h j hj hjn hrun name v' s z g1 g2 g3 hz

/-! ## CLI -/

/-- **C101** (CLI, names) — if all values stand for field elements, for every name that is given a value exactly one value counts, and it is one that is given. -/
theorem C101_cli_counts (entries : List (Str × Json)) (hall : AllDenote entries) (name : Str) :
    ((∃ x, Gives entries name x) ↔ ∃ x, CliCounts entries name x) ∧ (∀ x, CliCounts entries name x → Gives entries name x) ∧
    ∀ x x', CliCounts entries name x → CliCounts entries name x' → x = x' := by
  obtain ⟨m, hm⟩ : ∃ m, cliInputs (.obj entries) = .ok m := ⟨_, (cliInputs_ok_iff entries _).2 ⟨hall, rfl⟩⟩
  have hg : ∀ x, CliCounts entries name x → Gives entries name x := by
    rintro x ⟨l₁, y, l₂, h1, h2, -⟩
    rw [gives_iff, List.mem_filterMap, allLeaves_eq, h1]
    exact ⟨(name, y), by simp, by rw [(cliScalar_iff _ _).2 h2]; rfl⟩
  refine ⟨⟨?_, fun ⟨x, hx⟩ => ⟨x, hg x hx⟩⟩, hg, fun x x' h1 h2 => ?_⟩
  · rintro ⟨x, hx⟩
    rw [gives_iff] at hx
    have hk := key_foldl_insert _ ([] : AMap Fr) name (Or.inl (List.mem_map_of_mem hx))
    rw [← ((cliInputs_ok_iff entries m).1 hm).2] at hk
    have hnod : AMap.Nodup m := by
      rw [((cliInputs_ok_iff entries m).1 hm).2]
      exact AMap.nodup_foldl _ (fun m w h => AMap.nodup_insert h w.1 w.2) _ _ (by simp [AMap.Nodup])
    rw [List.mem_map] at hk
    obtain ⟨⟨k, x'⟩, hk, rfl⟩ := hk
    exact ⟨x', (cliInputs_get hm k x').1 ((AMap.get_iff_mem hnod k x').2 hk)⟩
  · rw [← cliInputs_get hm] at h1 h2
    rw [h1] at h2
    cases h2
    rfl

/-- **C101** (CLI, exactly the choices) — the wire assignments that `zkenc encap` and `zkenc encrypt` may use, over all iteration orders of the hash maps,
are exactly those that choose, for each wire that is given values, the value that counts for one of its names. -/
theorem C101_cli_choices (n : Nat) (sym : Str) (entries : List (Str × Json)) (w : WireMap) {symtab : AMap Nat}
    (hsym : parseSymFile sym = .ok symtab) :
    (∃ h : HashOrder, cliAssign h n sym (.obj entries) = .ok w) ↔ AllDenote entries ∧ CliChoice symtab n entries w := by
  classical
  have hsig : ∀ (h : HashOrder) name i, (inputSignals (h.ord symtab) (some n)).get name = some i ↔ Resolves symtab (some n) name i :=
    fun h name i => C35_input_lookup (parseSymFile_nodup hsym) (h.perm symtab) (some n) name i
  have hfun : ∀ {name i j}, Resolves symtab (some n) name i → Resolves symtab (some n) name j → i = j := by
    intro name i j h1 h2
    have := h1.1.symm.trans h2.1
    simpa using this
  constructor
  · rintro ⟨h, hw⟩
    unfold cliAssign at hw
    rw [hsym, Res.ok_bind] at hw
    obtain ⟨m, hm, hw⟩ := Res.bind_eq_ok.1 hw
    cases hw
    have hall := ((cliInputs_ok_iff entries m).1 hm).1
    have hc := C101_cli_counts entries hall
    have hnod : AMap.Nodup m := by
      rw [((cliInputs_ok_iff entries m).1 hm).2]
      exact AMap.nodup_foldl _ (fun m w h => AMap.nodup_insert h w.1 w.2) _ _ (by simp [AMap.Nodup])
    have hmem : ∀ k x, (k, x) ∈ h.ord m ↔ CliCounts entries k x := by
      intro k x
      rw [(h.perm m).mem_iff, ← AMap.get_iff_mem hnod, cliInputs_get hm]
    refine ⟨hall, ⟨?_, ?_⟩⟩
    · rintro i ⟨name, x, hr, hg⟩
      obtain ⟨x', hx'⟩ := (hc name).1.1 ⟨x, hg⟩
      cases hv : cliWires (inputSignals (h.ord symtab) (some n)) (h.ord m) i with
      | none =>
        exfalso
        have key : ∀ l : List (Str × Fr), (∃ e ∈ l, (inputSignals (h.ord symtab) (some n)).get e.1 = some i) →
            cliWires (inputSignals (h.ord symtab) (some n)) l i ≠ none := by
          intro l hl hn
          have hex : ∃ l₁ k y l₂, l = l₁ ++ (k, y) :: l₂ ∧ (inputSignals (h.ord symtab) (some n)).get k = some i ∧
              ∀ e ∈ l₂, (inputSignals (h.ord symtab) (some n)).get e.1 ≠ some i := by
            clear hn
            induction l with
            | nil => obtain ⟨e, he, -⟩ := hl; cases he
            | cons a l ih =>
              by_cases hl' : ∃ e ∈ l, (inputSignals (h.ord symtab) (some n)).get e.1 = some i
              · obtain ⟨l₁, k, y, l₂, rfl, g⟩ := ih hl'
                exact ⟨a :: l₁, k, y, l₂, rfl, g⟩
              · obtain ⟨e, he, hi⟩ := hl
                rcases List.mem_cons.1 he with rfl | he
                · exact ⟨[], _, _, l, rfl, hi, fun e he hr => hl' ⟨e, he, hr⟩⟩
                · exact absurd ⟨e, he, hi⟩ hl'
          obtain ⟨l₁, k, y, l₂, h1, h2, h3⟩ := hex
          rw [(cliWires_last _ l i y).2 (.inl ⟨l₁, k, l₂, h1, h2, h3⟩)] at hn
          cases hn
        exact key _ ⟨_, (hmem name x').2 hx', (hsig h name i).2 hr⟩ hv
      | some v =>
        rcases (cliWires_last _ _ i v).1 hv with ⟨l₁, k, l₂, h1, h2, -⟩ | ⟨h1, -⟩
        · exact ⟨k, v, (hsig h k i).1 h2, (hmem k v).1 (by rw [h1]; simp), rfl⟩
        · exact absurd ((hsig h name i).2 hr) (h1 _ ((hmem name x').2 hx'))
    · intro i hno
      have hno' : ∀ e ∈ h.ord m, (inputSignals (h.ord symtab) (some n)).get e.1 ≠ some i := by
        rintro ⟨k, x⟩ he hi
        exact hno ⟨k, x, (hsig h k i).1 hi, (hc k).2.1 x ((hmem k x).1 he)⟩
      split_ifs with h0
      · exact (cliWires_last _ _ i 1).2 (.inr ⟨hno', h0, rfl⟩)
      · cases hv : cliWires (inputSignals (h.ord symtab) (some n)) (h.ord m) i with
        | none => rfl
        | some v =>
          rcases (cliWires_last _ _ i v).1 hv with ⟨l₁, k, l₂, h1, h2, -⟩ | ⟨-, h1, -⟩
          · exact absurd h2 (hno' (k, v) (by rw [h1]; simp))
          · exact absurd h1 h0
  · rintro ⟨hall, hch⟩
    have hc := C101_cli_counts entries hall
    have hch' : ∀ i, ∃ name, CliGivesWire symtab n entries i → ∃ x, Resolves symtab (some n) name i ∧ CliCounts entries name x ∧ w i = some x := by
      intro i
      by_cases hs : CliGivesWire symtab n entries i
      · obtain ⟨name, x, h⟩ := hch.given i hs
        exact ⟨name, fun _ => ⟨x, h⟩⟩
      · exact ⟨[], fun h => absurd h hs⟩
    choose f hf using hch'
    let h := HashOrder.keysLast (fun k => decide (∃ i, CliGivesWire symtab n entries i ∧ f i = k))
    obtain ⟨m, hm⟩ : ∃ m, cliInputs (.obj entries) = .ok m := ⟨_, (cliInputs_ok_iff entries _).2 ⟨hall, rfl⟩⟩
    have hnod : AMap.Nodup m := by
      rw [((cliInputs_ok_iff entries m).1 hm).2]
      exact AMap.nodup_foldl _ (fun m w h => AMap.nodup_insert h w.1 w.2) _ _ (by simp [AMap.Nodup])
    have hmem : ∀ k x, (k, x) ∈ m ↔ CliCounts entries k x := by
      intro k x
      rw [← AMap.get_iff_mem hnod, cliInputs_get hm]
    refine ⟨h, ?_⟩
    unfold cliAssign
    rw [hsym, Res.ok_bind]
    simp only [hm, Res.ok_bind]
    refine congrArg Except.ok ?_
    funext i
    by_cases hs : CliGivesWire symtab n entries i
    · obtain ⟨x, h1, h2, h3⟩ := hf i hs
      rw [h3, cliWires_last]
      left
      obtain ⟨l₁, l₂, hl⟩ := List.append_of_mem (List.mem_filter (p := fun e : Str × Fr =>
        decide (∃ j, CliGivesWire symtab n entries j ∧ f j = e.1)).2 ⟨(hmem (f i) x).2 h2, by simpa using ⟨i, hs, rfl⟩⟩)
      refine ⟨m.filter (fun e : Str × Fr => ! decide (∃ j, CliGivesWire symtab n entries j ∧ f j = e.1)) ++ l₁, f i, l₂, ?_, (hsig h _ _).2 h1, ?_⟩
      · show m.filter _ ++ m.filter (fun e : Str × Fr => decide (∃ j, CliGivesWire symtab n entries j ∧ f j = e.1)) = _
        rw [hl, List.append_assoc]
      · rintro ⟨k, y⟩ he hi
        have hin : (k, y) ∈ m.filter (fun e : Str × Fr => decide (∃ j, CliGivesWire symtab n entries j ∧ f j = e.1)) := by
          rw [hl]; simp [he]
        rw [List.mem_filter, decide_eq_true_eq] at hin
        obtain ⟨hin, j, hj, hfj⟩ := hin
        simp only at hfj
        obtain ⟨x', g1, g2, g3⟩ := hf j hj
        rw [hfj] at g1 g2
        have hij : i = j := hfun ((hsig h k i).1 hi) g1
        subst hij
        -- the key of the chosen entry occurs once
        have hnd : (m.filter (fun e : Str × Fr => decide (∃ j, CliGivesWire symtab n entries j ∧ f j = e.1))).map Prod.fst |>.Nodup :=
          List.Nodup.sublist (List.Sublist.map _ List.filter_sublist) hnod
        rw [hl, List.map_append, List.map_cons] at hnd
        have := (List.nodup_append.1 hnd).2.1
        rw [List.nodup_cons] at this
        exact this.1 (List.mem_map.2 ⟨(k, y), he, hfj.symm⟩)
    · rw [hch.other i hs]
      have hno : ∀ e ∈ h.ord m, (inputSignals (h.ord symtab) (some n)).get e.1 ≠ some i := by
        rintro ⟨k, x⟩ he hi
        rw [(h.perm m).mem_iff, hmem] at he
        exact hs ⟨k, x, (hsig h k i).1 hi, (hc k).2.1 x he⟩
      split_ifs with h0
      · exact (cliWires_last _ _ i 1).2 (.inr ⟨hno, h0, rfl⟩)
      · cases hv : cliWires (inputSignals (h.ord symtab) (some n)) (h.ord m) i with
        | none => rfl
        | some v =>
          rcases (cliWires_last _ _ i v).1 hv with ⟨l₁, k, l₂, h1, h2, -⟩ | ⟨-, h1, -⟩
          · exact absurd h2 (hno (k, v) (by rw [h1]; simp))
          · exact absurd h1 h0

/-! ## Encapsulation, encryption and decryption -/

variable {G1 G2 GT : Type} [AddCommGroup G1] [Module Fr G1] [AddCommGroup G2] [Module Fr G2] [AddCommGroup GT] [Module Fr GT]
  (S : Sys G1 G2 GT)

/-- **C101** (`encap`) — on a readable circuit, JS `encap` succeeds exactly if the object is usable, in the sense that the last value for a wire counts, and
the random `δ` is not zero. -/
theorem C101_encap_outcome (data : Bytes) (r : R1csFile) (hr : jsParseR1cs data = .ok r.toJs) (sym : Str)
    (inputs : List (Str × JsVal)) (hmax : JsSmall (jsParseSymFile sym) inputs) (ρ : Rand Fr) :
    (JsUsableLast (jsParseSymFile sym) inputs ∧ ρ.delta ≠ 0 → ∃ ct k, jsEncap S data sym inputs ρ = .ok (ct, k) ∧ k.length = 32) ∧
    (¬ (JsUsableLast (jsParseSymFile sym) inputs ∧ ρ.delta ≠ 0) → ∃ e, jsEncap S data sym inputs ρ = .error e) := by
  by_cases hn : ∀ name v i, Resolves (jsParseSymFile sym) none name i → JsGives inputs name v → v ≠ .null ∧ v ≠ .undef
  · obtain ⟨inputs', hna, hwit, hs, hu, -⟩ := effective_facts hn
    have hout := C55_js_encap_outcome S data r hr sym inputs' hna (hs hmax) ρ
    rw [← hu] at hout
    have hsame : ∀ x, jsEncap S data sym inputs ρ = .ok x ↔ jsEncap S data sym inputs' ρ = .ok x := by
      intro x
      unfold jsEncap
      simp only [Res.bind_eq_ok, hwit]
    refine ⟨fun h => ?_, fun h => ?_⟩
    · obtain ⟨ct, k, g1, g2⟩ := hout.1 h
      exact ⟨ct, k, (hsame _).2 g1, g2⟩
    · obtain ⟨e, he⟩ := hout.2 h
      cases hx : jsEncap S data sym inputs ρ with
      | error e => exact ⟨e, rfl⟩
      | ok x =>
        rw [(hsame x).1 hx] at he
        cases he
  · refine ⟨fun h => absurd h.1.not_null hn, fun _ => ?_⟩
    cases hx : jsEncap S data sym inputs ρ with
    | error e => exact ⟨e, rfl⟩
    | ok x =>
      unfold jsEncap at hx
      obtain ⟨b, hb, -⟩ := Res.bind_eq_ok.1 hx
      exact absurd (not_null_of_ok hb) hn

/-- **C101** (`encrypt`) — on a readable circuit, JS `encrypt` succeeds exactly if the object is usable in the sense that the last value for a wire counts, the
random `δ` is not zero, the message is within the limit of WebCrypto and, if the public input is to be included, `JSON.stringify` does not
throw. -/
theorem C101_encrypt_outcome (data : Bytes) (r : R1csFile) (hr : jsParseR1cs data = .ok r.toJs) (sym : Str)
    (inputs : List (Str × JsVal)) (hmax : JsSmall (jsParseSymFile sym) inputs)
    (m : Bytes) (incl : Bool) (ρ : Rand Fr) (nonce : Bytes) (hn : nonce.length = 12) :
    (∃ ct k, jsEncrypt S data sym inputs m incl ρ nonce = .ok (ct, k)) ↔
      JsUsableLast (jsParseSymFile sym) inputs ∧ ρ.delta ≠ 0 ∧ m.length ≤ S.cipher.maxEnc .js ∧
      (incl = true → ∃ s, S.stringify inputs = .ok s) := by
  have hout := C101_encap_outcome S data r hr sym inputs hmax ρ
  constructor
  · rintro ⟨ct, k, h⟩
    unfold jsEncrypt at h
    obtain ⟨⟨ctB, key⟩, h1, h⟩ := Res.bind_eq_ok.1 h
    obtain ⟨enc, h2, h⟩ := Res.bind_eq_ok.1 h
    obtain ⟨pub, h3, h⟩ := Res.bind_eq_ok.1 h
    have hud : JsUsableLast (jsParseSymFile sym) inputs ∧ ρ.delta ≠ 0 := by
      by_contra hc
      obtain ⟨e, he⟩ := hout.2 hc
      rw [he] at h1; cases h1
    refine ⟨hud.1, hud.2, ?_, ?_⟩
    · by_contra hc
      obtain ⟨e, he⟩ := (C41_encrypt_outcome S.cipher .js key nonce m hn).2 (by omega)
      rw [he] at h2; cases h2
    · rintro rfl
      rw [if_pos rfl] at h3
      obtain ⟨s, hs, -⟩ := Res.bind_eq_ok.1 h3
      exact ⟨s, hs⟩
  · rintro ⟨hu, hδ, hm, hs⟩
    obtain ⟨ctB, key, h1, hk⟩ := hout.1 ⟨hu, hδ⟩
    obtain ⟨enc, h2, -⟩ := (C41_encrypt_outcome S.cipher .js key nonce m hn).1 ⟨hk, hm⟩
    unfold jsEncrypt
    cases incl with
    | false => exact ⟨_, _, by simp only [h1, h2, Res.ok_bind, Bool.false_eq_true, if_false]; rfl⟩
    | true =>
      obtain ⟨s, hs⟩ := hs rfl
      exact ⟨_, _, by simp only [h1, h2, hs, Res.ok_bind, if_true]; rfl⟩

theorem js_run_iff_last {n : Nat} {sym : Str} {inputs : List (Str × JsVal)} {w : WireMap} {vals : List Fr}
    (hmax : JsSmall (jsParseSymFile sym) inputs) (hw : jsAssign n sym inputs = .ok w) :
    RunAgrees n w vals ↔ JsEnforcedLast (jsParseSymFile sym) n inputs vals := by
  have hn : ∀ name v i, Resolves (jsParseSymFile sym) none name i → JsGives inputs name v → v ≠ .null ∧ v ≠ .undef := by
    have hw' := hw
    unfold jsAssign at hw'
    obtain ⟨b, hb, -⟩ := Res.bind_eq_ok.1 hw'
    exact not_null_of_ok hb
  obtain ⟨inputs', hna, hwit, hs, -, he⟩ := effective_facts hn
  rw [he n vals]
  exact ⟨js_enforced hna (hs hmax) ((jsAssign_effective hwit).1 hw), js_run_of_enforced hna (hs hmax) ((jsAssign_effective hwit).1 hw)⟩

/-- **C101** (JS to JS) — for every input object, whatever values it has for one wire: with the circuit the message was encrypted for, `decrypt` returns exactly
the message if the witness has the right length, satisfies the circuit and carries, on the unbroken run of public wires that are given values, the
values that count; otherwise it fails. -/
theorem C101_js_to_js_exactly (data : Bytes) (r : R1csFile) (hr : jsParseR1cs data = .ok r.toJs) (sym : Str) (inputs : List (Str × JsVal))
    (hmax : JsSmall (jsParseSymFile sym) inputs) (m : Bytes) (incl : Bool) (ρ : Rand Fr)
    (nonce : Bytes) (hn : nonce.length = 12) (hj : incl = true → ∀ s, S.stringify inputs = .ok s → (utf8Enc s).length < 2 ^ 32)
    (combined key : Bytes) (henc : jsEncrypt S data sym inputs m incl ρ nonce = .ok (combined, key))
    (hwf : WellFormed r) (hs : CtFits r) (hpriv : r.nPubOut + r.nPubIn + 1 < r.nWires)
    (wtns : Bytes) (vals : List Fr) (hwit : jsParseWtns wtns = .ok vals) :
    (vals.length = r.nWires ∧ Accepted r vals ∧ JsEnforcedLast (jsParseSymFile sym) (r.nPubOut + r.nPubIn) inputs vals →
      jsDecrypt S data (.ok wtns) combined = .ok m) ∧
    (¬ (vals.length = r.nWires ∧ Accepted r vals ∧ JsEnforcedLast (jsParseSymFile sym) (r.nPubOut + r.nPubIn) inputs vals) →
      ∃ e, jsDecrypt S data (.ok wtns) combined = .error e) := by
  obtain ⟨w, hw, hse⟩ := js_sealed hr hwf.fits hn hj henc
  have h := sealed_exactly_js hse hwf.fits hs (fun i hi => js_beyond hw i hi) (js_missing hwf hpriv hw) hr hwit hse.message_le
  rw [js_run_iff_last hmax hw] at h
  exact h

/-- **C101** (JS to CLI). -/
theorem C101_js_to_cli_exactly (data : Bytes) (hd : data.length < 2 ^ 31) (r : R1csFile) (hr : cliParseR1cs S.lim data = .ok r) (sym : Str)
    (inputs : List (Str × JsVal)) (hmax : JsSmall (jsParseSymFile sym) inputs) (m : Bytes)
    (incl : Bool) (ρ : Rand Fr) (nonce : Bytes) (hn : nonce.length = 12)
    (hj : incl = true → ∀ s, S.stringify inputs = .ok s → (utf8Enc s).length < 2 ^ 32)
    (combined key : Bytes) (henc : jsEncrypt S data sym inputs m incl ρ nonce = .ok (combined, key))
    (hwf : WellFormed r) (hs : CtFits r) (hpriv : r.nPubOut + r.nPubIn + 1 < r.nWires)
    (fs : FS) (circuit witness ciphertext output : Path) (wdata : Bytes) (vals : List Fr)
    (hdata : fs circuit = some data) (hct : fs ciphertext = some combined) (hwd : fs witness = some wdata)
    (hwit : CliWitness wdata vals) (hl : m.length ≤ S.cipher.maxDec .cli) :
    (Accepted r vals ∧ JsEnforcedLast (jsParseSymFile sym) (r.nPubOut + r.nPubIn) inputs vals →
      (decryptCommand S circuit witness ciphertext output).exec fs = (fs.set output m, .ok ())) ∧
    (¬ (Accepted r vals ∧ JsEnforcedLast (jsParseSymFile sym) (r.nPubOut + r.nPubIn) inputs vals) →
      ∃ e, (decryptCommand S circuit witness ciphertext output).exec fs = (fs, .error e)) := by
  obtain ⟨w, hw, hse⟩ := js_sealed (C23_js_agrees hd hr) hwf.fits hn hj henc
  have h := sealed_exactly_cli (output := output) hse hwf.fits hs (fun i hi => js_beyond hw i hi) (js_missing hwf hpriv hw) hdata hr hwd hwit hct hl
  rw [js_run_iff_last hmax hw] at h
  exact h

theorem cli_choice {h : HashOrder} {n : Nat} {sym : Str} {entries : List (Str × Json)} {w : WireMap} {symtab : AMap Nat}
    (hsym : parseSymFile sym = .ok symtab) (hw : cliAssign h n sym (.obj entries) = .ok w) : CliChoice symtab n entries w :=
  ((C101_cli_choices n sym entries w hsym).1 ⟨h, hw⟩).2

/-- **C101** (CLI to CLI) — for every input object: some choice among its values is made at encryption, and with the circuit the message was encrypted for,
`zkenc decrypt` writes exactly the message if the witness satisfies the circuit and carries the chosen values on the unbroken run of wires that were
given values; otherwise it fails and changes no file. -/
theorem C101_cli_to_cli_exactly (fs fs' : FS) (circuit sym input message output : Path) (r : R1csFile) (symtab : AMap Nat)
    (entries : List (Str × Json)) (hfiles : CliFiles S fs circuit sym input r symtab entries) (m : Bytes) (hm : fs message = some m)
    (incl : Bool) (ρ : Rand Fr) (nonce : Bytes) (hn : nonce.length = 12)
    (hj : incl = true → ∀ j, fs input = some j → j.length < 2 ^ 32)
    (henc : (encryptCommand S circuit sym input message output incl ρ nonce).exec fs = (fs', .ok ()))
    (hwf : WellFormed r) (hs : CtFits r) (hpriv : r.nPubIn + 1 < r.nWires) :
    ∃ c, CliChoice symtab r.nPubIn entries c ∧
      ∀ (fs₂ : FS) (circuit₂ witness ciphertext output₂ : Path) (data wdata : Bytes) (vals : List Fr),
        fs₂ circuit₂ = some data → cliParseR1cs S.lim data = .ok r → fs₂ ciphertext = fs' output → fs₂ witness = some wdata →
        CliWitness wdata vals →
        (Accepted r vals ∧ RunAgrees r.nPubIn c vals →
          (decryptCommand S circuit₂ witness ciphertext output₂).exec fs₂ = (fs₂.set output₂ m, .ok ())) ∧
        (¬ (Accepted r vals ∧ RunAgrees r.nPubIn c vals) →
          ∃ e, (decryptCommand S circuit₂ witness ciphertext output₂).exec fs₂ = (fs₂, .error e)) := by
  obtain ⟨w, symText, combined, h1, h2, rfl, hse⟩ := cli_sealed hfiles hm hn hj henc
  refine ⟨w, cli_choice h1 h2, ?_⟩
  intro fs₂ circuit₂ witness ciphertext output₂ data wdata vals hdata hcirc hct hwd hwit
  rw [FS.set_same] at hct
  have hb := C40_cli_bound S.hash _ _ _ w h2
  have h := sealed_exactly_cli (output := output₂) hse hwf.fits hs (fun i hi => hb i (by omega))
    (cli_missing hwf hpriv rfl h2) hdata hcirc hwd hwit hct hse.message_le
  have hrun : RunAgrees (r.nPubOut + r.nPubIn) w vals ↔ RunAgrees r.nPubIn w vals := by
    constructor
    · intro g j hj1 hjn
      exact g j hj1 (by omega)
    · intro g j hj1 hjn hr
      refine g j hj1 ?_ hr
      by_contra hc
      exact hr j hj1 le_rfl (hb j (by omega))
  rw [hrun] at h
  exact h

end Zkenc.Props
