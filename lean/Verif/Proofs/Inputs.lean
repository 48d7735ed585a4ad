import Verif.Spec.Inputs
import Verif.Proofs.Sym
import Verif.Props.Sym
/-!
# Lemmas about input objects
-/

namespace Zkenc

open InputSpec

/-! ## numbers -/

theorem bigUintDigits_iff (s : Str) (n : Nat) : bigUintDigits s = some n ↔
    ∃ d t, isDig d = true ∧ (∀ c ∈ t, isDig c = true ∨ c = '_') ∧ (s = d :: t ∨ s = '+' :: d :: t) ∧
      n = decVal ((d :: t).filter (· ≠ '_')) := by
  have core : ∀ u : Str, (if u = [] then none else if u.head? = some '_' then none else
      if (u.filter (fun c => c ≠ '_')).all isDig then some (decVal (u.filter (fun c => c ≠ '_'))) else none) = some n ↔
      ∃ d t, isDig d = true ∧ (∀ c ∈ t, isDig c = true ∨ c = '_') ∧ u = d :: t ∧ n = decVal ((d :: t).filter (· ≠ '_')) := by
    intro u
    cases u with
    | nil => simp
    | cons d t =>
      rw [if_neg (by simp)]
      by_cases hd : d = '_'
      · subst hd
        rw [if_pos (by simp)]
        simp only [reduceCtorEq, false_iff]
        rintro ⟨d', t', h1, -, h3, -⟩
        cases h3
        revert h1; decide
      · rw [if_neg (by simpa using hd)]
        constructor
        · intro h
          split at h
          · rename_i hall
            cases h
            rw [List.all_eq_true] at hall
            refine ⟨d, t, hall d (by simp [hd]), ?_, rfl, rfl⟩
            intro c hc
            by_cases hc' : c = '_'
            · exact Or.inr hc'
            · exact Or.inl (hall c (by simp [hc, hc']))
          · cases h
        · rintro ⟨d', t', h1, h2, h3, rfl⟩
          cases h3
          rw [if_pos]
          rw [List.all_eq_true]
          intro c hc
          rw [List.mem_filter] at hc
          rcases List.mem_cons.1 hc.1 with rfl | hm
          · exact h1
          · rcases h2 c hm with h | rfl
            · exact h
            · simp at hc
  have hdp : isDig '+' = false := by decide
  unfold bigUintDigits
  cases s with
  | nil => refine (core _).trans ?_; simp
  | cons a t =>
    by_cases ha : a = '+'
    · subst ha
      simp only
      by_cases ht : t.head? = some '+'
      · rw [if_pos ht]
        refine (core _).trans ?_
        constructor
        · rintro ⟨d, t', h1, h2, h3, h4⟩
          exact ⟨d, t', h1, h2, Or.inl h3, h4⟩
        · rintro ⟨d, t', h1, h2, h3 | h3, h4⟩
          · exact ⟨d, t', h1, h2, h3, h4⟩
          · cases h3
            simp only [List.head?_cons, Option.some.injEq] at ht
            subst ht
            rw [hdp] at h1; cases h1
      · rw [if_neg ht]
        refine (core _).trans ?_
        constructor
        · rintro ⟨d, t', h1, h2, rfl, h4⟩
          exact ⟨d, t', h1, h2, Or.inr rfl, h4⟩
        · rintro ⟨d, t', h1, h2, h3 | h3, h4⟩
          · cases h3
            rw [hdp] at h1; cases h1
          · cases h3
            exact ⟨d, t', h1, h2, rfl, h4⟩
    · refine (core _).trans ?_
      split
      · rename_i h; cases h; exact absurd rfl ha
      constructor
      · rintro ⟨d, t', h1, h2, h3, h4⟩
        exact ⟨d, t', h1, h2, Or.inl h3, h4⟩
      · rintro ⟨d, t', h1, h2, h3 | h3, h4⟩
        · exact ⟨d, t', h1, h2, h3, h4⟩
        · cases h3; exact absurd rfl ha

theorem bigIntFromStr_iff (s : Str) (z : Int) : bigIntFromStr s = some z ↔ DecText s z := by
  have hdp : isDig '+' = false := by decide
  have hdm : isDig '-' = false := by decide
  unfold DecText
  cases s with
  | nil =>
    simp [bigIntFromStr, bigUintDigits]
  | cons a t =>
    by_cases ha : a = '-'
    · subst ha
      have key : ∀ n : Nat, (if t.head? = some '+' then bigUintDigits ('-' :: t) else bigUintDigits t) = some n ↔
          ∃ d t', isDig d = true ∧ (∀ c ∈ t', isDig c = true ∨ c = '_') ∧ t = d :: t' ∧ n = decVal ((d :: t').filter (· ≠ '_')) := by
        intro n
        split
        · rename_i ht
          rw [bigUintDigits_iff]
          constructor
          · rintro ⟨d, t', h1, h2, h3 | h3, h4⟩
            · cases h3; rw [hdm] at h1; cases h1
            · cases h3
          · rintro ⟨d, t', h1, h2, rfl, h4⟩
            simp only [List.head?_cons, Option.some.injEq] at ht
            subst ht
            rw [hdp] at h1; cases h1
        · rename_i ht
          rw [bigUintDigits_iff]
          constructor
          · rintro ⟨d, t', h1, h2, rfl | rfl, h4⟩
            · exact ⟨d, t', h1, h2, rfl, h4⟩
            · simp at ht
          · rintro ⟨d, t', h1, h2, rfl, h4⟩
            exact ⟨d, t', h1, h2, Or.inl rfl, h4⟩
      have he : bigIntFromStr ('-' :: t) =
          (if t.head? = some '+' then bigUintDigits ('-' :: t) else bigUintDigits t).map (fun n : Nat => -(n : Int)) := by
        simp only [bigIntFromStr]; split <;> rfl
      rw [he, Option.map_eq_some_iff]
      constructor
      · rintro ⟨n, h, rfl⟩
        obtain ⟨d, t', h1, h2, rfl, rfl⟩ := (key n).1 h
        exact ⟨d, t', h1, h2, Or.inr (Or.inr ⟨rfl, rfl⟩)⟩
      · rintro ⟨d, t', h1, h2, ⟨h, -⟩ | ⟨h, -⟩ | ⟨h, rfl⟩⟩
        · cases h; rw [hdm] at h1; cases h1
        · cases h
        · cases h
          exact ⟨_, (key _).2 ⟨d, t', h1, h2, rfl, rfl⟩, rfl⟩
    · have he : bigIntFromStr (a :: t) = (bigUintDigits (a :: t)).map (fun n : Nat => (n : Int)) := by
        unfold bigIntFromStr
        split
        · rename_i h; cases h; exact absurd rfl ha
        · rfl
      rw [he, Option.map_eq_some_iff]
      constructor
      · rintro ⟨n, h, rfl⟩
        obtain ⟨d, t', h1, h2, h3, rfl⟩ := (bigUintDigits_iff _ n).1 h
        rcases h3 with h3 | h3
        · exact ⟨d, t', h1, h2, Or.inl ⟨h3, rfl⟩⟩
        · exact ⟨d, t', h1, h2, Or.inr (Or.inl ⟨h3, rfl⟩)⟩
      · rintro ⟨d, t', h1, h2, ⟨h, rfl⟩ | ⟨h, rfl⟩ | ⟨h, rfl⟩⟩
        · exact ⟨_, (bigUintDigits_iff _ _).2 ⟨d, t', h1, h2, Or.inl h, rfl⟩, rfl⟩
        · exact ⟨_, (bigUintDigits_iff _ _).2 ⟨d, t', h1, h2, Or.inr h, rfl⟩, rfl⟩
        · cases h; exact absurd rfl ha

/-! ## the CLI flattening -/

/-- The value of a scalar (proof helper). -/
def cliScalar : Json → Option Fr
  | .int z => frFromJsonInt z
  | .str s => frFromStr s
  | _ => none

theorem frFromJsonInt_iff (z : Int) (x : Fr) : frFromJsonInt z = some x ↔ Denotes (.int z) x := by
  unfold frFromJsonInt
  constructor
  · intro h
    split at h
    · rename_i hz
      cases h
      have := Denotes.nat z hz.1 hz.2
      rwa [show ((z : Int) : Fr) = ((z.toNat : Nat) : Fr) by rw [← Int.cast_natCast, Int.toNat_of_nonneg hz.1]] at this
    · split at h
      · rename_i hz
        cases h
        have := Denotes.neg z hz.1 hz.2
        rwa [show ((z + 2 ^ 64 : Int) : Fr) = (((z + 2 ^ 64).toNat : Nat) : Fr) by
          rw [← Int.cast_natCast, Int.toNat_of_nonneg (by omega)]] at this
      · cases h
  · intro h
    cases h with
    | nat _ h1 h2 =>
      rw [if_pos ⟨h1, h2⟩, ← Int.cast_natCast (R := Fr), Int.toNat_of_nonneg h1]
    | neg _ h1 h2 =>
      rw [if_neg (by omega), if_pos ⟨h1, h2⟩, ← Int.cast_natCast (R := Fr), Int.toNat_of_nonneg (by omega)]

theorem cliScalar_iff (j : Json) (x : Fr) : cliScalar j = some x ↔ Denotes j x := by
  cases j with
  | int z => exact frFromJsonInt_iff z x
  | str s =>
    simp only [cliScalar, frFromStr, Option.map_eq_some_iff]
    constructor
    · rintro ⟨z, h, rfl⟩
      exact Denotes.str s z ((bigIntFromStr_iff s z).1 h)
    · intro h
      cases h with
      | str _ z h => exact ⟨z, (bigIntFromStr_iff s z).2 h, rfl⟩
  | null => constructor <;> intro h <;> cases h
  | bool b => constructor <;> intro h <;> cases h
  | float => constructor <;> intro h <;> cases h
  | arr l => constructor <;> intro h <;> cases h
  | obj l => constructor <;> intro h <;> cases h

mutual
/-- All the leaves with their names (proof helper). -/
def leaves : Json → Str → List (Str × Json)
  | .arr l, key => leavesArr l 0 key
  | .null, key => [(key, .null)]
  | .bool b, key => [(key, .bool b)]
  | .int z, key => [(key, .int z)]
  | .float, key => [(key, .float)]
  | .str s, key => [(key, .str s)]
  | .obj l, key => [(key, .obj l)]
/-- The leaves of array items. -/
def leavesArr : List Json → Nat → Str → List (Str × Json)
  | [], _, _ => []
  | x :: xs, i, key => leaves x (idxKey key i) ++ leavesArr xs (i + 1) key
end

mutual
theorem mem_leaves : ∀ (j : Json) (key name : Str) (y : Json),
    (name, y) ∈ leaves j key ↔ ∃ path, AtPath j path y ∧ NotArr y ∧ name = signalName key path
  | .arr l, key, name, y => by
    rw [leaves, mem_leavesArr l 0 key name y]
    constructor
    · rintro ⟨i, x, path, h1, h2, h3, h4⟩
      refine ⟨i :: path, AtPath.elem h1 h2, h3, ?_⟩
      rw [h4, Nat.zero_add]; rfl
    · rintro ⟨path, h1, h2, h3⟩
      cases h1 with
      | here => exact absurd h2 (by simp [NotArr])
      | elem ha hb => exact ⟨_, _, _, ha, hb, h2, by rw [h3, Nat.zero_add]; rfl⟩
  | .null, key, name, y => by
    simp only [leaves, List.mem_singleton, Prod.mk.injEq]
    constructor
    · rintro ⟨rfl, rfl⟩; exact ⟨[], AtPath.here _, trivial, rfl⟩
    · rintro ⟨path, h1, h2, h3⟩; cases h1; exact ⟨h3, rfl⟩
  | .bool b, key, name, y => by
    simp only [leaves, List.mem_singleton, Prod.mk.injEq]
    constructor
    · rintro ⟨rfl, rfl⟩; exact ⟨[], AtPath.here _, trivial, rfl⟩
    · rintro ⟨path, h1, h2, h3⟩; cases h1; exact ⟨h3, rfl⟩
  | .int z, key, name, y => by
    simp only [leaves, List.mem_singleton, Prod.mk.injEq]
    constructor
    · rintro ⟨rfl, rfl⟩; exact ⟨[], AtPath.here _, trivial, rfl⟩
    · rintro ⟨path, h1, h2, h3⟩; cases h1; exact ⟨h3, rfl⟩
  | .float, key, name, y => by
    simp only [leaves, List.mem_singleton, Prod.mk.injEq]
    constructor
    · rintro ⟨rfl, rfl⟩; exact ⟨[], AtPath.here _, trivial, rfl⟩
    · rintro ⟨path, h1, h2, h3⟩; cases h1; exact ⟨h3, rfl⟩
  | .str s, key, name, y => by
    simp only [leaves, List.mem_singleton, Prod.mk.injEq]
    constructor
    · rintro ⟨rfl, rfl⟩; exact ⟨[], AtPath.here _, trivial, rfl⟩
    · rintro ⟨path, h1, h2, h3⟩; cases h1; exact ⟨h3, rfl⟩
  | .obj l, key, name, y => by
    simp only [leaves, List.mem_singleton, Prod.mk.injEq]
    constructor
    · rintro ⟨rfl, rfl⟩; exact ⟨[], AtPath.here _, trivial, rfl⟩
    · rintro ⟨path, h1, h2, h3⟩; cases h1; exact ⟨h3, rfl⟩
theorem mem_leavesArr : ∀ (l : List Json) (n : Nat) (key name : Str) (y : Json),
    (name, y) ∈ leavesArr l n key ↔
      ∃ i x path, l[i]? = some x ∧ AtPath x path y ∧ NotArr y ∧ name = signalName (idxKey key (n + i)) path
  | [], n, key, name, y => by simp [leavesArr]
  | x :: xs, n, key, name, y => by
    rw [leavesArr, List.mem_append, mem_leaves x (idxKey key n) name y, mem_leavesArr xs (n + 1) key name y]
    constructor
    · rintro (⟨path, h1, h2, h3⟩ | ⟨i, x', path, h1, h2, h3, h4⟩)
      · exact ⟨0, x, path, rfl, h1, h2, h3⟩
      · exact ⟨i + 1, x', path, by simpa using h1, h2, h3, by rw [h4]; congr 2; omega⟩
    · rintro ⟨i, x', path, h1, h2, h3, h4⟩
      cases i with
      | zero =>
        simp only [List.getElem?_cons_zero, Option.some.injEq] at h1
        subst h1
        exact Or.inl ⟨path, h2, h3, h4⟩
      | succ i =>
        exact Or.inr ⟨i, x', path, by simpa using h1, h2, h3, by rw [h4]; congr 2; omega⟩
end

/-- Insert the leaves one by one (proof helper). -/
def insLeaves : List (Str × Json) → AMap Fr → Option (AMap Fr)
  | [], m => some m
  | (k, y) :: rest, m =>
    match cliScalar y with
    | none => none
    | some v => insLeaves rest (AMap.insert m k v)

theorem insLeaves_append (a b : List (Str × Json)) (m : AMap Fr) :
    insLeaves (a ++ b) m = (insLeaves a m).bind (insLeaves b) := by
  induction a generalizing m with
  | nil => rfl
  | cons e a ih =>
    obtain ⟨k, y⟩ := e
    simp only [List.cons_append, insLeaves]
    split
    · rfl
    · exact ih _

/-- The outcome is that of the leaf loop: a value, or an ordinary error. -/
def Follows {α : Type} (r : Res α) (o : Option α) : Prop := (∃ a, r = .ok a ∧ o = some a) ∨ (∃ e, r = .error (.err e) ∧ o = none)

theorem Follows.bind {α β : Type} {r : Res α} {o : Option α} (h : Follows r o) {f : α → Res β} {g : α → Option β}
    (hf : ∀ a, Follows (f a) (g a)) {r' : Res β} (he : ∀ e, r = .error e → r' = .error e) (ho : ∀ a, r = .ok a → r' = f a) :
    Follows r' (o.bind g) := by
  rcases h with ⟨a, rfl, rfl⟩ | ⟨e, rfl, rfl⟩
  · rw [ho a rfl]; exact hf a
  · rw [he _ rfl]; exact Or.inr ⟨e, rfl, rfl⟩

mutual
theorem flattenValue_follows : ∀ (j : Json) (key : Str) (m : AMap Fr), Follows (flattenValue j key m) (insLeaves (leaves j key) m)
  | .arr l, key, m => by rw [flattenValue, leaves]; exact flattenArr_follows l 0 key m
  | .null, key, m => Or.inr ⟨_, rfl, rfl⟩
  | .bool b, key, m => Or.inr ⟨_, rfl, rfl⟩
  | .float, key, m => Or.inr ⟨_, rfl, rfl⟩
  | .obj l, key, m => Or.inr ⟨_, rfl, rfl⟩
  | .int z, key, m => by
    simp only [flattenValue, leaves, insLeaves, cliScalar]
    cases frFromJsonInt z
    · exact Or.inr ⟨_, rfl, rfl⟩
    · exact Or.inl ⟨_, rfl, rfl⟩
  | .str s, key, m => by
    simp only [flattenValue, leaves, insLeaves, cliScalar]
    cases frFromStr s
    · exact Or.inr ⟨_, rfl, rfl⟩
    · exact Or.inl ⟨_, rfl, rfl⟩
theorem flattenArr_follows : ∀ (l : List Json) (n : Nat) (key : Str) (m : AMap Fr),
    Follows (flattenArr l n key m) (insLeaves (leavesArr l n key) m)
  | [], n, key, m => Or.inl ⟨_, rfl, rfl⟩
  | x :: xs, n, key, m => by
    rw [flattenArr, leavesArr, insLeaves_append]
    exact (flattenValue_follows x (idxKey key n) m).bind (fun m' => flattenArr_follows xs (n + 1) key m')
      (fun e h => by rw [h]) (fun a h => by rw [h])
end

/-- All the leaves of an object (proof helper). -/
def allLeaves (entries : List (Str × Json)) : List (Str × Json) := entries.flatMap fun e => leaves e.2 e.1

theorem flattenEntries_follows (entries : List (Str × Json)) (m : AMap Fr) :
    Follows (flattenEntries entries m) (insLeaves (allLeaves entries) m) := by
  induction entries generalizing m with
  | nil => exact Or.inl ⟨_, rfl, rfl⟩
  | cons e entries ih =>
    obtain ⟨k, v⟩ := e
    rw [flattenEntries, allLeaves, List.flatMap_cons, insLeaves_append]
    exact (flattenValue_follows v k m).bind ih (fun e h => by rw [h]) (fun a h => by rw [h])

theorem mem_allLeaves (entries : List (Str × Json)) (name : Str) (y : Json) :
    (name, y) ∈ allLeaves entries ↔ ∃ e ∈ entries, ∃ path, AtPath e.2 path y ∧ NotArr y ∧ name = signalName e.1 path := by
  unfold allLeaves
  rw [List.mem_flatMap]
  constructor
  · rintro ⟨e, he, h⟩; exact ⟨e, he, (mem_leaves _ _ _ _).1 h⟩
  · rintro ⟨e, he, h⟩; exact ⟨e, he, (mem_leaves _ _ _ _).2 h⟩

/-- The successful runs of the leaf loop. -/
theorem insLeaves_some (l : List (Str × Json)) (m m' : AMap Fr) : insLeaves l m = some m' ↔
    (∀ e ∈ l, (cliScalar e.2).isSome) ∧
      m' = (l.filterMap fun e => (cliScalar e.2).map fun v => (e.1, v)).foldl (fun m e => AMap.insert m e.1 e.2) m := by
  induction l generalizing m with
  | nil => exact ⟨fun h => (by cases h; exact ⟨fun e he => (by cases he), rfl⟩), fun h => (by rw [h.2]; rfl)⟩
  | cons e l ih =>
    obtain ⟨k, y⟩ := e
    simp only [insLeaves, List.filterMap_cons, List.forall_mem_cons]
    cases hy : cliScalar y with
    | none => simp
    | some v => simp [ih]

theorem gives_iff (entries : List (Str × Json)) (name : Str) (x : Fr) :
    Gives entries name x ↔ (name, x) ∈ (allLeaves entries).filterMap fun e => (cliScalar e.2).map fun v => (e.1, v) := by
  rw [List.mem_filterMap]
  constructor
  · rintro ⟨e, he, path, y, h1, h2, h3, h4⟩
    refine ⟨(name, y), (mem_allLeaves _ _ _).2 ⟨e, he, path, h1, h2, h3⟩, ?_⟩
    rw [(cliScalar_iff y x).2 h4]; rfl
  · rintro ⟨⟨n, y⟩, hl, h⟩
    rw [Option.map_eq_some_iff] at h
    obtain ⟨v, hv, h⟩ := h
    cases h
    obtain ⟨e, he, path, h1, h2, h3⟩ := (mem_allLeaves _ _ _).1 hl
    exact ⟨e, he, path, y, h1, h2, h3, (cliScalar_iff y _).1 hv⟩

theorem allDenote_iff (entries : List (Str × Json)) :
    AllDenote entries ↔ ∀ e ∈ allLeaves entries, (cliScalar e.2).isSome := by
  constructor
  · rintro h ⟨n, y⟩ hl
    obtain ⟨e, he, path, h1, h2, -⟩ := (mem_allLeaves _ _ _).1 hl
    obtain ⟨x, hx⟩ := h e he path y h1 h2
    rw [(cliScalar_iff y x).2 hx]; rfl
  · intro h e he path y h1 h2
    obtain ⟨x, hx⟩ := Option.isSome_iff_exists.1 (h (_, y) ((mem_allLeaves _ _ _).2 ⟨e, he, path, h1, h2, rfl⟩))
    exact ⟨x, (cliScalar_iff y x).1 hx⟩

/-- The successful runs of the CLI flattening. -/
theorem cliInputs_ok_iff (entries : List (Str × Json)) (m : AMap Fr) : cliInputs (.obj entries) = .ok m ↔
    AllDenote entries ∧ m = ((allLeaves entries).filterMap fun e => (cliScalar e.2).map fun v => (e.1, v)).foldl
      (fun m e => AMap.insert m e.1 e.2) [] := by
  rw [allDenote_iff, ← insLeaves_some]
  rw [show cliInputs (.obj entries) = flattenEntries entries [] from rfl]
  rcases flattenEntries_follows entries [] with ⟨a, h1, h2⟩ | ⟨e, h1, h2⟩
  · rw [h1, h2]; simp
  · rw [h1, h2]; simp

/-- An order-independent view of the wire loop. -/
theorem cliWires_get (sig : AMap Nat) (inputs : List (Str × Fr))
    (hc : ∀ e ∈ inputs, ∀ e' ∈ inputs, ∀ i, sig.get e.1 = some i → sig.get e'.1 = some i → e.2 = e'.2) (i : Nat) (v : Fr) :
    cliWires sig inputs i = some v ↔
      (∃ e ∈ inputs, sig.get e.1 = some i ∧ e.2 = v) ∨ ((∀ e ∈ inputs, sig.get e.1 ≠ some i) ∧ i = 0 ∧ v = 1) := by
  unfold cliWires
  have gen : ∀ (l : List (Str × Fr)) (w : WireMap),
      (∀ e ∈ l, ∀ e' ∈ l, ∀ i, sig.get e.1 = some i → sig.get e'.1 = some i → e.2 = e'.2) →
      (l.foldl (wireStep sig) w i = some v ↔
        (∃ e ∈ l, sig.get e.1 = some i ∧ e.2 = v) ∨ ((∀ e ∈ l, sig.get e.1 ≠ some i) ∧ w i = some v)) := by
    intro l
    induction l with
    | nil => intro w _; simp
    | cons e l ih =>
      intro w hc
      rw [List.foldl_cons, ih _ (fun a ha b hb => hc a (by simp [ha]) b (by simp [hb]))]
      unfold wireStep
      cases hs : sig.get e.1 with
      | none => simp [hs]
      | some k =>
        simp only [WireMap.insert]
        by_cases hk : i = k
        · subst hk
          simp only [if_true, Option.some.injEq]
          constructor
          · rintro (⟨a, ha, h1, h2⟩ | ⟨h1, h2⟩)
            · exact Or.inl ⟨a, by simp [ha], h1, h2⟩
            · exact Or.inl ⟨e, by simp, hs, h2⟩
          · rintro (⟨a, ha, h1, h2⟩ | ⟨h1, h2⟩)
            · rcases List.mem_cons.1 ha with rfl | ha
              · by_cases hex : ∃ b ∈ l, sig.get b.1 = some i
                · obtain ⟨b, hb, hbi⟩ := hex
                  exact Or.inl ⟨b, hb, hbi, by rw [← h2]; exact hc b (by simp [hb]) a (by simp) i hbi hs⟩
                · push Not at hex
                  exact Or.inr ⟨hex, h2⟩
              · exact Or.inl ⟨a, ha, h1, h2⟩
            · exact absurd hs (h1 e (by simp))
        · rw [if_neg hk]
          have hne : sig.get e.1 ≠ some i := by rw [hs]; intro h; cases h; exact hk rfl
          simp only [List.exists_mem_cons_iff, List.forall_mem_cons, hne, false_and, false_or, ne_eq, not_false_eq_true, true_and]
  rw [gen inputs _ hc]
  simp only [WireMap.insert]
  by_cases h0 : i = 0
  · simp [h0, eq_comm]
  · simp [h0]

/-- Keys and values of a flattened map come from the leaves. -/
theorem mem_foldl_insert {V : Type} (l : List (Str × V)) (m : AMap V) (k : Str) (v : V)
    (h : (k, v) ∈ l.foldl (fun m e => AMap.insert m e.1 e.2) m) : (k, v) ∈ l ∨ (k, v) ∈ m := by
  induction l generalizing m with
  | nil => exact Or.inr h
  | cons e l ih =>
    rcases ih _ h with h | h
    · exact Or.inl (by simp [h])
    · have : ∀ m : AMap V, (k, v) ∈ AMap.insert m e.1 e.2 → (k, v) = (e.1, e.2) ∨ (k, v) ∈ m := by
        intro m
        induction m with
        | nil => intro h; simp [AMap.insert] at h; exact Or.inl (by simp [h])
        | cons a m ihm =>
          obtain ⟨a1, a2⟩ := a
          unfold AMap.insert
          split
          · intro h
            rcases List.mem_cons.1 h with h | h
            · exact Or.inl h
            · exact Or.inr (by simp [h])
          · intro h
            rcases List.mem_cons.1 h with h | h
            · exact Or.inr (by simp [h])
            · rcases ihm h with h | h
              · exact Or.inl h
              · exact Or.inr (by simp [h])
      rcases this m h with h | h
      · exact Or.inl (by simp [h])
      · exact Or.inr h

/-- Every key that was inserted is in the map. -/
theorem key_foldl_insert {V : Type} (l : List (Str × V)) (m : AMap V) (k : Str) (h : k ∈ l.map Prod.fst ∨ k ∈ m.map Prod.fst) :
    k ∈ (l.foldl (fun m e => AMap.insert m e.1 e.2) m).map Prod.fst := by
  induction l generalizing m with
  | nil => simpa using h
  | cons e l ih =>
    refine ih _ ?_
    rw [AMap.keys_insert]
    rcases h with h | h
    · rcases List.mem_cons.1 h with h | h
      · exact Or.inr (Or.inl h)
      · exact Or.inl h
    · exact Or.inr (Or.inr h)

/-- The CLI wire assignment in full. -/
theorem cliAssign_ok_iff (h : HashOrder) (n : Nat) (sym : Str) (entries : List (Str × Json)) (w : WireMap)
    (symtab : AMap Nat) (hsym : parseSymFile sym = .ok symtab) (hnod : AMap.Nodup symtab)
    (hna : NoAlias symtab (some n) entries) :
    cliAssign h n sym (.obj entries) = .ok w ↔ AllDenote entries ∧ ∀ i v, w i = some v ↔
      (∃ name, Resolves symtab (some n) name i ∧ Gives entries name v) ∨
        ((∀ name x, Resolves symtab (some n) name i → ¬ Gives entries name x) ∧ i = 0 ∧ v = 1) := by
  have hsig : ∀ name i, (inputSignals (h.ord symtab) (some n)).get name = some i ↔ Resolves symtab (some n) name i :=
    fun name i => Props.C35_input_lookup hnod (h.perm symtab) (some n) name i
  unfold cliAssign
  rw [hsym, Res.ok_bind]
  simp only
  rw [Res.bind_eq_ok]
  -- the map and its entries
  have hmap : ∀ m : AMap Fr, cliInputs (.obj entries) = .ok m → ∀ i v,
      cliWires (inputSignals (h.ord symtab) (some n)) (h.ord m) i = some v ↔
      (∃ name, Resolves symtab (some n) name i ∧ Gives entries name v) ∨
        ((∀ name x, Resolves symtab (some n) name i → ¬ Gives entries name x) ∧ i = 0 ∧ v = 1) := by
    intro m hm i v
    obtain ⟨hall, hm⟩ := (cliInputs_ok_iff entries m).1 hm
    have hmem : ∀ k x, (k, x) ∈ m → Gives entries k x := by
      intro k x hk
      rw [hm] at hk
      rcases mem_foldl_insert _ _ _ _ hk with hk | hk
      · exact (gives_iff _ _ _).2 hk
      · simp at hk
    have hkey : ∀ k x, Gives entries k x → ∃ x', (k, x') ∈ m := by
      intro k x hg
      have := key_foldl_insert _ ([] : AMap Fr) k (Or.inl (List.mem_map_of_mem ((gives_iff _ _ _).1 hg)))
      rw [← hm, List.mem_map] at this
      obtain ⟨⟨k', x'⟩, h1, rfl⟩ := this
      exact ⟨x', h1⟩
    have hmord : ∀ k x, (k, x) ∈ h.ord m ↔ (k, x) ∈ m := fun k x => (h.perm m).mem_iff
    rw [cliWires_get]
    · constructor
      · rintro (⟨⟨k, x⟩, he, h1, rfl⟩ | ⟨h1, rfl, rfl⟩)
        · exact Or.inl ⟨k, (hsig k i).1 h1, hmem k x ((hmord k x).1 he)⟩
        · refine Or.inr ⟨?_, rfl, rfl⟩
          intro name x hr hg
          obtain ⟨x', hx'⟩ := hkey name x hg
          exact h1 _ ((hmord _ _).2 hx') ((hsig _ _).2 hr)
      · rintro (⟨name, hr, hg⟩ | ⟨h1, rfl, rfl⟩)
        · obtain ⟨x', hx'⟩ := hkey name v hg
          exact Or.inl ⟨_, (hmord _ _).2 hx', (hsig _ _).2 hr, hna name name i x' v hr hr (hmem _ _ hx') hg⟩
        · refine Or.inr ⟨?_, rfl, rfl⟩
          rintro ⟨k, x⟩ he hs
          exact h1 k x ((hsig _ _).1 hs) (hmem _ _ ((hmord _ _).1 he))
    · rintro ⟨k, x⟩ he ⟨k', x'⟩ he' i hi hi'
      exact hna k k' i x x' ((hsig _ _).1 hi) ((hsig _ _).1 hi') (hmem _ _ ((hmord _ _).1 he)) (hmem _ _ ((hmord _ _).1 he'))
  constructor
  · rintro ⟨m, hm, hw⟩
    cases hw
    exact ⟨((cliInputs_ok_iff entries m).1 hm).1, hmap m hm⟩
  · rintro ⟨hall, hw⟩
    obtain ⟨m, hm⟩ : ∃ m, cliInputs (.obj entries) = .ok m := ⟨_, (cliInputs_ok_iff entries _).2 ⟨hall, rfl⟩⟩
    refine ⟨m, hm, ?_⟩
    refine congrArg Except.ok ?_
    funext i
    apply Option.ext
    intro v
    rw [hw, hmap m hm]

/-! ## JS -/

mutual
/-- What JS visits, with full keys (proof helper). -/
def jsLeaves : JsVal → Str → List (Str × JsVal)
  | .arr l, full => jsElems l 0 full
  | .obj l, full => jsFields l full
  | .null, full => [(full, .null)]
  | .undef, full => [(full, .undef)]
  | .bool b, full => [(full, .bool b)]
  | .num z, full => [(full, .num z)]
  | .numText s, full => [(full, .numText s)]
  | .bigint z, full => [(full, .bigint z)]
  | .str s, full => [(full, .str s)]
/-- Array elements. -/
def jsElems : List JsVal → Nat → Str → List (Str × JsVal)
  | [], _, _ => []
  | x :: xs, i, full => (idxKey full i, x) :: jsElems xs (i + 1) full
/-- Object entries. -/
def jsFields : List (Str × JsVal) → Str → List (Str × JsVal)
  | [], _ => []
  | (k, v) :: rest, pre => jsLeaves v (dotKey pre k) ++ jsFields rest pre
end

theorem mem_jsElems (l : List JsVal) (n : Nat) (full name : Str) (y : JsVal) :
    (name, y) ∈ jsElems l n full ↔ ∃ i, l[i]? = some y ∧ name = idxKey full (n + i) := by
  induction l generalizing n with
  | nil => simp [jsElems]
  | cons x xs ih =>
    rw [jsElems, List.mem_cons, ih]
    constructor
    · rintro (h | ⟨i, h1, h2⟩)
      · cases h; exact ⟨0, rfl, rfl⟩
      · exact ⟨i + 1, by simpa using h1, by rw [h2]; congr 1; omega⟩
    · rintro ⟨i, h1, h2⟩
      cases i with
      | zero =>
        simp only [List.getElem?_cons_zero, Option.some.injEq] at h1
        subst h1
        exact Or.inl (by rw [h2]; rfl)
      | succ i => exact Or.inr ⟨i, by simpa using h1, by rw [h2]; congr 1; omega⟩

mutual
theorem mem_jsLeaves : ∀ (v : JsVal) (full name : Str) (y : JsVal), (name, y) ∈ jsLeaves v full ↔ JsAt v full name y
  | .arr l, full, name, y => by
    rw [jsLeaves, mem_jsElems]
    constructor
    · rintro ⟨i, h1, rfl⟩
      rw [Nat.zero_add]
      exact JsAt.elem h1
    · intro h
      cases h with
      | elem h => exact ⟨_, h, by rw [Nat.zero_add]; rfl⟩
      | scalar h1 h2 => exact absurd rfl (h1 l)
  | .obj l, full, name, y => by
    rw [jsLeaves, mem_jsFields l full name y]
    constructor
    · rintro ⟨k, v, h1, h2⟩
      exact JsAt.field h1 h2
    · intro h
      cases h with
      | field h1 h2 => exact ⟨_, _, h1, h2⟩
      | scalar h1 h2 => exact absurd rfl (h2 l)
  | .null, full, name, y => by
    simp only [jsLeaves, List.mem_singleton, Prod.mk.injEq]
    constructor
    · rintro ⟨rfl, rfl⟩; exact JsAt.scalar (fun l h => by cases h) (fun l h => by cases h)
    · intro h; cases h; exact ⟨rfl, rfl⟩
  | .undef, full, name, y => by
    simp only [jsLeaves, List.mem_singleton, Prod.mk.injEq]
    constructor
    · rintro ⟨rfl, rfl⟩; exact JsAt.scalar (fun l h => by cases h) (fun l h => by cases h)
    · intro h; cases h; exact ⟨rfl, rfl⟩
  | .bool b, full, name, y => by
    simp only [jsLeaves, List.mem_singleton, Prod.mk.injEq]
    constructor
    · rintro ⟨rfl, rfl⟩; exact JsAt.scalar (fun l h => by cases h) (fun l h => by cases h)
    · intro h; cases h; exact ⟨rfl, rfl⟩
  | .num z, full, name, y => by
    simp only [jsLeaves, List.mem_singleton, Prod.mk.injEq]
    constructor
    · rintro ⟨rfl, rfl⟩; exact JsAt.scalar (fun l h => by cases h) (fun l h => by cases h)
    · intro h; cases h; exact ⟨rfl, rfl⟩
  | .numText s, full, name, y => by
    simp only [jsLeaves, List.mem_singleton, Prod.mk.injEq]
    constructor
    · rintro ⟨rfl, rfl⟩; exact JsAt.scalar (fun l h => by cases h) (fun l h => by cases h)
    · intro h; cases h; exact ⟨rfl, rfl⟩
  | .bigint z, full, name, y => by
    simp only [jsLeaves, List.mem_singleton, Prod.mk.injEq]
    constructor
    · rintro ⟨rfl, rfl⟩; exact JsAt.scalar (fun l h => by cases h) (fun l h => by cases h)
    · intro h; cases h; exact ⟨rfl, rfl⟩
  | .str s, full, name, y => by
    simp only [jsLeaves, List.mem_singleton, Prod.mk.injEq]
    constructor
    · rintro ⟨rfl, rfl⟩; exact JsAt.scalar (fun l h => by cases h) (fun l h => by cases h)
    · intro h; cases h; exact ⟨rfl, rfl⟩
theorem mem_jsFields : ∀ (l : List (Str × JsVal)) (pre name : Str) (y : JsVal),
    (name, y) ∈ jsFields l pre ↔ ∃ k v, (k, v) ∈ l ∧ JsAt v (dotKey pre k) name y
  | [], pre, name, y => by simp [jsFields]
  | (k, v) :: rest, pre, name, y => by
    rw [jsFields, List.mem_append, mem_jsLeaves v (dotKey pre k) name y, mem_jsFields rest pre name y]
    constructor
    · rintro (h | ⟨k', v', h1, h2⟩)
      · exact ⟨k, v, by simp, h⟩
      · exact ⟨k', v', by simp [h1], h2⟩
    · rintro ⟨k', v', h1, h2⟩
      rcases List.mem_cons.1 h1 with h | h
      · cases h; exact Or.inl h2
      · exact Or.inr ⟨k', v', h, h2⟩
end

/-- The loop over what is visited (proof helper). -/
def setAll (sig : AMap Nat) : List (Str × JsVal) → NMap → Res NMap
  | [], m => .ok m
  | (k, v) :: rest, m => setWire sig k v m >>= fun m' => setAll sig rest m'

theorem setAll_append (sig : AMap Nat) (a b : List (Str × JsVal)) (m : NMap) :
    setAll sig (a ++ b) m = setAll sig a m >>= fun m' => setAll sig b m' := by
  induction a generalizing m with
  | nil => rfl
  | cons e a ih =>
    obtain ⟨k, v⟩ := e
    simp only [List.cons_append, setAll]
    cases setWire sig k v m with
    | error e => rfl
    | ok m' => simp only [Res.ok_bind]; exact ih m'

theorem setAll_one (sig : AMap Nat) (k : Str) (v : JsVal) (m : NMap) : setAll sig [(k, v)] m = setWire sig k v m := by
  simp only [setAll]
  cases setWire sig k v m <;> rfl

theorem setWires_eq (sig : AMap Nat) (full : Str) (l : List JsVal) (n : Nat) (m : NMap) :
    setWires sig full l n m = setAll sig (jsElems l n full) m := by
  induction l generalizing n m with
  | nil => rfl
  | cons x xs ih =>
    simp only [setWires, jsElems, setAll]
    cases setWire sig (idxKey full n) x m with
    | error e => rfl
    | ok m' => simp only [Res.ok_bind]; exact ih _ _

mutual
theorem flattenInput_eq (sig : AMap Nat) : ∀ (v : JsVal) (full : Str) (m : NMap),
    flattenInput sig v full m = setAll sig (jsLeaves v full) m
  | .arr l, full, m => by rw [flattenInput, jsLeaves]; exact setWires_eq sig full l 0 m
  | .obj l, full, m => by rw [flattenInput, jsLeaves]; exact flattenFields_eq sig l full m
  | .null, full, m => (setAll_one sig full _ m).symm
  | .undef, full, m => (setAll_one sig full _ m).symm
  | .bool b, full, m => (setAll_one sig full _ m).symm
  | .num z, full, m => (setAll_one sig full _ m).symm
  | .numText s, full, m => (setAll_one sig full _ m).symm
  | .bigint z, full, m => (setAll_one sig full _ m).symm
  | .str s, full, m => (setAll_one sig full _ m).symm
theorem flattenFields_eq (sig : AMap Nat) : ∀ (l : List (Str × JsVal)) (pre : Str) (m : NMap),
    flattenFields sig l pre m = setAll sig (jsFields l pre) m
  | [], pre, m => rfl
  | (k, v) :: rest, pre, m => by
    rw [flattenFields, jsFields, setAll_append, flattenInput_eq sig v (dotKey pre k) m]
    cases setAll sig (jsLeaves v (dotKey pre k)) m with
    | error e => rfl
    | ok m' => exact flattenFields_eq sig rest pre m'
end

theorem NMap.get_set (m : NMap) (k k' : Nat) (v : Str) : (NMap.set m k v).get k' = if k = k' then some v else m.get k' := by
  induction m with
  | nil => simp [NMap.set, NMap.get]
  | cons e m ih =>
    obtain ⟨a, b⟩ := e
    unfold NMap.set
    split
    · rename_i h
      subst h
      simp only [NMap.get]
      split <;> rfl
    · rename_i h
      simp only [NMap.get, ih]
      by_cases h1 : a = k'
      · subst h1
        simp [Ne.symm h]
      · simp [h1]

theorem JsVal.toStr_cases (v : JsVal) : (∃ s, v.toStr = .ok s) ∨ v.toStr = Res.fail "TypeError" := by
  cases v <;> simp [JsVal.toStr]

/-- The successful runs, when values for one wire have equal texts. -/
theorem setAll_ok (sig : AMap Nat) (l : List (Str × JsVal)) (m m' : NMap) (h : setAll sig l m = .ok m')
    (hc : ∀ e ∈ l, ∀ e' ∈ l, ∀ i, sig.get e.1 = some i → sig.get e'.1 = some i → e.2.toStr = e'.2.toStr) (i : Nat) (s : Str) :
    m'.get i = some s ↔ (∃ e ∈ l, sig.get e.1 = some i ∧ e.2.toStr = .ok s) ∨ ((∀ e ∈ l, sig.get e.1 ≠ some i) ∧ m.get i = some s) := by
  induction l generalizing m with
  | nil => cases h; simp
  | cons e l ih =>
    obtain ⟨k, v⟩ := e
    rw [setAll, Res.bind_eq_ok] at h
    obtain ⟨m1, h1, h2⟩ := h
    rw [ih m1 h2 (fun a ha b hb => hc a (by simp [ha]) b (by simp [hb]))]
    unfold setWire at h1
    cases hs : sig.get k with
    | none =>
      rw [hs] at h1
      cases h1
      simp [hs]
    | some w =>
      rw [hs] at h1
      simp only at h1
      rw [Res.bind_eq_ok] at h1
      obtain ⟨t, ht, h1⟩ := h1
      cases h1
      rw [NMap.get_set]
      by_cases hw : w = i
      · subst hw
        rw [if_pos rfl]
        constructor
        · rintro (⟨a, ha, ha1, ha2⟩ | ⟨ha, hb⟩)
          · exact Or.inl ⟨a, by simp [ha], ha1, ha2⟩
          · cases hb; exact Or.inl ⟨(k, v), by simp, hs, ht⟩
        · rintro (⟨a, ha, ha1, ha2⟩ | ⟨ha, hb⟩)
          · rcases List.mem_cons.1 ha with rfl | ha
            · by_cases hex : ∃ b ∈ l, sig.get b.1 = some w
              · obtain ⟨b, hb, hbi⟩ := hex
                exact Or.inl ⟨b, hb, hbi, by rw [← ha2]; exact hc b (by simp [hb]) (k, v) (by simp) w hbi hs⟩
              · push Not at hex
                simp only at ha2
                rw [ht] at ha2
                cases ha2
                exact Or.inr ⟨hex, rfl⟩
            · exact Or.inl ⟨a, ha, ha1, ha2⟩
          · exact absurd hs (ha (k, v) (by simp))
      · rw [if_neg hw]
        have hne : sig.get k ≠ some i := by rw [hs]; intro h; cases h; exact hw rfl
        simp only [List.exists_mem_cons_iff, List.forall_mem_cons, hne, false_and, false_or, ne_eq, not_false_eq_true, true_and]

/-- When the JS loop succeeds. -/
theorem setAll_isOk (sig : AMap Nat) (l : List (Str × JsVal)) (m : NMap) :
    ((∃ m', setAll sig l m = .ok m') ↔ ∀ e ∈ l, (sig.get e.1).isSome → ∃ s, e.2.toStr = .ok s) ∧
      ((∃ m', setAll sig l m = .ok m') ∨ setAll sig l m = Res.fail "TypeError") := by
  induction l generalizing m with
  | nil => exact ⟨⟨fun _ e he => (by cases he), fun _ => ⟨m, rfl⟩⟩, Or.inl ⟨m, rfl⟩⟩
  | cons e l ih =>
    obtain ⟨k, v⟩ := e
    rw [setAll, List.forall_mem_cons]
    unfold setWire
    simp only
    cases hs : sig.get k with
    | none => simpa using ih m
    | some w =>
      rcases v.toStr_cases with ⟨s, hv⟩ | hv
      · simpa [hv] using ih (m.set w s)
      · rw [hv]
        simp [Res.fail]

theorem mapInputsToWires_eq (inputs : List (Str × JsVal)) (sig : AMap Nat) :
    mapInputsToWires inputs sig = setAll sig (jsFields inputs []) [] := flattenFields_eq sig inputs [] []

theorem mem_jsInputs (inputs : List (Str × JsVal)) (name : Str) (v : JsVal) :
    (name, v) ∈ jsFields inputs [] ↔ JsGives inputs name v := by
  rw [mem_jsFields]
  constructor
  · rintro ⟨k, x, h1, h2⟩; exact ⟨(k, x), h1, h2⟩
  · rintro ⟨⟨k, x⟩, h1, h2⟩; exact ⟨k, x, h1, h2⟩

theorem NMap.le_maxKey (m : NMap) (i : Nat) (s : Str) (h : m.get i = some s) : i ≤ maxKey m := by
  unfold maxKey
  have hm : i ∈ m.map Prod.fst := by
    induction m with
    | nil => cases h
    | cons e m ih =>
      obtain ⟨a, b⟩ := e
      simp only [NMap.get] at h
      split at h
      · rename_i ha; simp [ha]
      · simp only [List.map_cons, List.mem_cons]; exact Or.inr (ih h)
  have gen : ∀ (l : List Nat) (a : Nat), a ≤ l.foldl max a ∧ (i ∈ l → i ≤ l.foldl max a) := by
    intro l
    induction l with
    | nil => intro a; simp
    | cons x l ih =>
      intro a
      rw [List.foldl_cons]
      obtain ⟨h1, h2⟩ := ih (max a x)
      refine ⟨by omega, fun h => ?_⟩
      rcases List.mem_cons.1 h with rfl | h
      · omega
      · exact h2 h
  exact (gen _ 0).2 hm

/-- The filled witness: integers of the wires 1, 2, … up to the first one without value. -/
theorem fillWitness_ok (m : NMap) (i n : Nat) (zs : List Int) : fillWitness m i n = .ok zs ↔
    zs.length ≤ n ∧ (∀ k (h : k < zs.length), ∃ s, m.get (i + k) = some s ∧ jsBigInt s = some zs[k]) ∧
      (zs.length < n → m.get (i + zs.length) = none) := by
  induction n generalizing i zs with
  | zero =>
    simp only [fillWitness, Except.ok.injEq]
    constructor
    · rintro rfl; simp
    · rintro ⟨h, -⟩; exact (List.eq_nil_of_length_eq_zero (by omega)).symm
  | succ n ih =>
    rw [fillWitness]
    cases hg : m.get i with
    | none =>
      simp only [Except.ok.injEq]
      constructor
      · rintro rfl; simpa using hg
      · rintro ⟨-, h, -⟩
        cases zs with
        | nil => rfl
        | cons z zs =>
          obtain ⟨s, hs, -⟩ := h 0 (by simp)
          rw [Nat.add_zero, hg] at hs; cases hs
    | some s =>
      simp only
      cases hb : jsBigInt s with
      | none =>
        simp only [Res.fail, reduceCtorEq, false_iff]
        rintro ⟨h0, h, h'⟩
        cases zs with
        | nil =>
          have := h' (by simp)
          simp only [List.length_nil, Nat.add_zero] at this
          rw [hg] at this; cases this
        | cons z zs =>
          obtain ⟨s', hs, hz⟩ := h 0 (by simp)
          rw [Nat.add_zero, hg] at hs
          cases hs
          rw [hb] at hz; cases hz
      | some z =>
        simp only [Res.bind_eq_ok]
        constructor
        · rintro ⟨zs', h, he⟩
          cases he
          obtain ⟨h1, h2, h3⟩ := (ih (i + 1) zs').1 h
          refine ⟨by simp; omega, ?_, ?_⟩
          · intro k hk
            cases k with
            | zero => exact ⟨s, by simpa using hg, by simpa using hb⟩
            | succ k =>
              simp only [List.length_cons] at hk
              obtain ⟨t, ht⟩ := h2 k (by omega)
              exact ⟨t, by rw [show i + (k + 1) = i + 1 + k by omega]; simpa using ht⟩
          · intro hk
            simp only [List.length_cons] at hk ⊢
            rw [show i + (zs'.length + 1) = i + 1 + zs'.length by omega]
            exact h3 (by omega)
        · rintro ⟨h1, h2, h3⟩
          cases zs with
          | nil =>
            have := h3 (by simp)
            simp only [List.length_nil, Nat.add_zero] at this
            rw [hg] at this; cases this
          | cons z' zs' =>
            have hz : z' = z := by
              obtain ⟨t, ht, hz⟩ := h2 0 (by simp)
              rw [Nat.add_zero, hg] at ht
              cases ht
              rw [hb] at hz
              simpa using hz.symm
            subst hz
            refine ⟨zs', (ih (i + 1) zs').2 ⟨by simp at h1; omega, ?_, ?_⟩, rfl⟩
            · intro k hk
              obtain ⟨t, ht⟩ := h2 (k + 1) (by simp; omega)
              exact ⟨t, by rw [show i + 1 + k = i + (k + 1) by omega]; simpa using ht⟩
            · intro hk
              have := h3 (by simp; omega)
              rw [List.length_cons] at this
              rw [show i + 1 + zs'.length = i + (zs'.length + 1) by omega]; exact this

end Zkenc
