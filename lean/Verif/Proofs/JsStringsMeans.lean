import Verif.Proofs.JsStringsText
import Verif.Props.Inputs
/-!
# The value of a JSON text with arbitrary JS strings
-/

namespace Zkenc

open JsonSpec

mutual
theorem sameVal_units : ∀ v : JsVal, SameVal v v.units
  | .null => by simp only [JsVal.units]; exact .null
  | .undef => by simp only [JsVal.units]; exact .undef
  | .bool b => by simp only [JsVal.units]; exact .bool b
  | .num z => by simp only [JsVal.units]; exact .num z
  | .numText s => by simp only [JsVal.units]; exact .numText s
  | .bigint z => by simp only [JsVal.units]; exact .bigint z
  | .str s => by simp only [JsVal.units]; exact .str ((utf16_iff _ _).2 rfl)
  | .arr l => by simp only [JsVal.units]; exact .arr (sameVals_units l)
  | .obj l => by simp only [JsVal.units]; exact .obj (sameEntries_units l)
theorem sameVals_units : ∀ l : List JsVal, SameVals l (unitsItems l)
  | [] => by simp only [unitsItems]; exact .nil
  | v :: vs => by simp only [unitsItems]; exact .cons (sameVal_units v) (sameVals_units vs)
theorem sameEntries_units : ∀ l : List (Str × JsVal), SameEntries l (unitsFields l)
  | [] => by simp only [unitsFields]; exact .nil
  | (k, v) :: vs => by simp only [unitsFields]; exact .cons ((utf16_iff _ _).2 rfl) (sameVal_units v) (sameEntries_units vs)
end

mutual
theorem units_of_sameVal : ∀ {v : JsVal} {v' : UVal}, SameVal v v' → v' = v.units
  | _, _, .null => by simp only [JsVal.units]
  | _, _, .undef => by simp only [JsVal.units]
  | _, _, .bool b => by simp only [JsVal.units]
  | _, _, .num z => by simp only [JsVal.units]
  | _, _, .numText s => by simp only [JsVal.units]
  | _, _, .bigint z => by simp only [JsVal.units]
  | _, _, .str h => by simp only [JsVal.units]; rw [(utf16_iff _ _).1 h]
  | _, _, .arr h => by simp only [JsVal.units]; rw [units_of_sameVals h]
  | _, _, .obj h => by simp only [JsVal.units]; rw [units_of_sameEntries h]
theorem units_of_sameVals : ∀ {l : List JsVal} {l' : List UVal}, SameVals l l' → l' = unitsItems l
  | _, _, .nil => by simp only [unitsItems]
  | _, _, .cons h hs => by simp only [unitsItems]; rw [units_of_sameVal h, units_of_sameVals hs]
theorem units_of_sameEntries : ∀ {l : List (Str × JsVal)} {l' : List (JStr × UVal)}, SameEntries l l' → l' = unitsFields l
  | _, _, .nil => by simp only [unitsFields]
  | _, _, .cons hk h hs => by simp only [unitsFields]; rw [units_of_sameVal h, units_of_sameEntries hs, (utf16_iff _ _).1 hk]
end

theorem sameVal_iff (v : JsVal) (v' : UVal) : SameVal v v' ↔ v' = v.units :=
  ⟨units_of_sameVal, fun h => h ▸ sameVal_units v⟩

theorem sameEntries_iff (l : List (Str × JsVal)) (l' : List (JStr × UVal)) : SameEntries l l' ↔ l' = unitsFields l :=
  ⟨units_of_sameEntries, fun h => h ▸ sameEntries_units l⟩

theorem uObjInsert_perm (k : JStr) (v : UVal) (l : List (JStr × UVal)) : (uObjInsert k v l).Perm ((k, v) :: l) := by
  induction l with
  | nil => exact List.Perm.refl _
  | cons e l ih =>
    rw [uObjInsert]
    split_ifs
    · exact (List.Perm.cons e ih).trans (List.Perm.swap _ _ _)
    · exact List.Perm.refl _

theorem mem_uObjSet {l : List (JStr × UVal)} (k : JStr) (v : UVal) (k' : JStr) (v' : UVal) :
    (k', v') ∈ uObjSet l k v ↔ (k' = k ∧ v' = v) ∨ (k' ≠ k ∧ (k', v') ∈ l) := by
  unfold uObjSet
  split_ifs with h
  · simp only [List.any_eq_true, decide_eq_true_eq] at h
    obtain ⟨⟨a, b⟩, hm, hk⟩ := h
    simp only at hk
    subst hk
    rw [List.mem_map]
    constructor
    · rintro ⟨⟨x, y⟩, h1, h2⟩
      simp only at h2
      split_ifs at h2 with hx
      · cases h2; exact Or.inl ⟨rfl, rfl⟩
      · cases h2; exact Or.inr ⟨hx, h1⟩
    · rintro (⟨rfl, rfl⟩ | ⟨h1, h2⟩)
      · exact ⟨_, hm, by simp⟩
      · exact ⟨_, h2, by simp [h1]⟩
  · simp only [List.any_eq_true, decide_eq_true_eq, not_exists, not_and] at h
    rw [(uObjInsert_perm k v l).mem_iff, List.mem_cons]
    constructor
    · rintro (h1 | h1)
      · cases h1; exact Or.inl ⟨rfl, rfl⟩
      · exact Or.inr ⟨h _ h1, h1⟩
    · rintro (⟨rfl, rfl⟩ | ⟨h1, h2⟩)
      · exact Or.inl rfl
      · exact Or.inr h2

theorem nodup_uObjSet {l : List (JStr × UVal)} (k : JStr) (v : UVal) (h : (l.map Prod.fst).Nodup) : ((uObjSet l k v).map Prod.fst).Nodup := by
  unfold uObjSet
  split_ifs with ha
  · have : (l.map fun e => if e.1 = k then (k, v) else e).map Prod.fst = l.map Prod.fst := by
      rw [List.map_map]
      apply List.map_congr_left
      intro e _
      simp only [Function.comp]
      split_ifs with he
      · exact he.symm
      · rfl
    rw [this]; exact h
  · simp only [List.any_eq_true, decide_eq_true_eq, not_exists, not_and] at ha
    have hp := (uObjInsert_perm k v l).map Prod.fst
    rw [hp.nodup_iff, List.map_cons, List.nodup_cons]
    refine ⟨?_, h⟩
    rw [List.mem_map]
    rintro ⟨e, he, hk⟩
    exact ha e he hk

theorem UOccursBefore.mono {l : List (JStr × UTree)} {a b : JStr} (h : UOccursBefore l a b) (m : List (JStr × UTree)) : UOccursBefore (l ++ m) a b := by
  obtain ⟨l₁, l₂, rfl, h1, h2⟩ := h
  exact ⟨l₁, l₂ ++ m, by simp, h1, h2⟩

theorem UPropOrder.mono {l : List (JStr × UTree)} {a b : JStr} (h : UPropOrder l a b) (m : List (JStr × UTree)) : UPropOrder (l ++ m) a b := by
  rcases h with h | h | ⟨h1, h2, h3⟩
  · exact Or.inl h
  · exact Or.inr (Or.inl h)
  · exact Or.inr (Or.inr ⟨h1, h2, UOccursBefore.mono h3 m⟩)

theorem UOccursBefore.asymm {l : List (JStr × UTree)} {a b : JStr} (h : UOccursBefore l a b) (h' : UOccursBefore l b a) : False := by
  obtain ⟨l₁, l₂, e, ⟨x, hx, hxa⟩, h2⟩ := h
  obtain ⟨m₁, m₂, e', ⟨y, hy, hyb⟩, h4⟩ := h'
  rw [e] at e'
  rcases List.append_eq_append_iff.1 e' with ⟨c, rfl, -⟩ | ⟨c, rfl, -⟩
  · exact h4 x (by simp [hx]) hxa
  · exact h2 y (by simp [hy]) hyb

theorem uIsIndex_unique {k : JStr} {i j : Nat} (h : UIsIndex k i) (h' : UIsIndex k j) : i = j :=
  Props.natDec_inj (strUnits_inj (((utf16_iff _ _).1 h.1).symm.trans ((utf16_iff _ _).1 h'.1)))

theorem UPropOrder.asymm {l : List (JStr × UTree)} {a b : JStr} (h : UPropOrder l a b) (h' : UPropOrder l b a) : False := by
  rcases h with ⟨i, j, hi, hj, hij⟩ | ⟨⟨i, hi⟩, hj⟩ | ⟨hi, hj, h⟩ <;> rcases h' with ⟨i', j', hi', hj', hij'⟩ | ⟨⟨i', hi'⟩, hj'⟩ | ⟨hi', hj', h'⟩
  · have := uIsIndex_unique hi hj'
    have := uIsIndex_unique hj hi'
    omega
  · exact hj' _ hi
  · exact hi' _ hj
  · exact hj _ hi'
  · exact hj _ hi'
  · exact hj' _ hi
  · exact hi _ hj'
  · exact hj _ hi'
  · exact UOccursBefore.asymm h h'

/-- A new name is put in its place. -/
theorem uObjInsert_sorted (P : List (JStr × UTree)) (k : JStr) (v : UVal) (o : List (JStr × UVal)) (ho : o.Pairwise (fun a b => UPropOrder P a.1 b.1))
    (hne : ∀ e ∈ o, e.1 ≠ k) (hlast : ∀ e ∈ o, (∀ i, ¬ UIsIndex e.1 i) → (∀ i, ¬ UIsIndex k i) → UOccursBefore P e.1 k) :
    (uObjInsert k v o).Pairwise (fun a b => UPropOrder P a.1 b.1) := by
  induction o with
  | nil => exact List.pairwise_singleton _ _
  | cons e o ih =>
    rw [List.pairwise_cons] at ho
    rw [uObjInsert]
    have hke := hne e (by simp)
    split_ifs with hb
    · rw [List.pairwise_cons]
      refine ⟨fun x hx => ?_, ih ho.2 (fun x hx => hne x (by simp [hx])) fun x hx => hlast x (by simp [hx])⟩
      have hx := (uObjInsert_perm k v o).mem_iff.1 hx
      rcases List.mem_cons.1 hx with rfl | hx
      · rcases (uKeyBefore_iff _ _).1 hb with h | h | ⟨h1, h2, -⟩
        · exact Or.inl h
        · exact Or.inr (Or.inl h)
        · exact Or.inr (Or.inr ⟨h1, h2, hlast e (by simp) h1 h2⟩)
      · exact ho.1 x hx
    · have hb : ¬ UOrdered e.1 k := fun h => hb ((uKeyBefore_iff _ _).2 h)
      -- the new name is an array index, smaller than the one that follows
      have hk : ∃ i, UIsIndex k i ∧ ∀ j, UIsIndex e.1 j → i < j := by
        by_contra hno
        simp only [not_exists, not_and, not_forall] at hno
        by_cases hki : ∃ i, UIsIndex k i
        · obtain ⟨i, hi⟩ := hki
          obtain ⟨j, hj, hij⟩ := hno i hi
          refine hb (Or.inl ⟨j, i, hj, hi, lt_of_le_of_ne (Nat.le_of_not_lt hij) ?_⟩)
          rintro rfl
          exact hke (((utf16_iff _ _).1 hj.1).trans ((utf16_iff _ _).1 hi.1).symm)
        · simp only [not_exists] at hki
          by_cases he : ∃ j, UIsIndex e.1 j
          · exact hb (Or.inr (Or.inl ⟨he, hki⟩))
          · simp only [not_exists] at he
            exact hb (Or.inr (Or.inr ⟨he, hki, hke⟩))
      obtain ⟨i, hi, hlt⟩ := hk
      have hfirst : UPropOrder P k e.1 := by
        by_cases he : ∃ j, UIsIndex e.1 j
        · obtain ⟨j, hj⟩ := he
          exact Or.inl ⟨i, j, hi, hj, hlt j hj⟩
        · simp only [not_exists] at he
          exact Or.inr (Or.inl ⟨⟨i, hi⟩, he⟩)
      rw [List.pairwise_cons, List.pairwise_cons]
      refine ⟨fun x hx => ?_, ho⟩
      rcases List.mem_cons.1 hx with rfl | hx
      · exact hfirst
      · by_cases hxi : ∃ j, UIsIndex x.1 j
        · obtain ⟨j, hj⟩ := hxi
          rcases ho.1 x hx with ⟨a, b, ha, hb', hab⟩ | ⟨-, h⟩ | ⟨-, h, -⟩
          · have := hlt a ha
            exact Or.inl ⟨i, b, hi, hb', by omega⟩
          · exact absurd hj (h j)
          · exact absurd hj (h j)
        · simp only [not_exists] at hxi
          exact Or.inr (Or.inl ⟨⟨i, hi⟩, hxi⟩)

theorem uFieldsToJs_append (D : Doubles) (p q : List (JStr × UTree)) (o : List (JStr × UVal)) :
    uFieldsToJs D (p ++ q) o = uFieldsToJs D q (uFieldsToJs D p o) := by
  induction p generalizing o with
  | nil => simp [uFieldsToJs]
  | cons e p ih =>
    obtain ⟨k, t⟩ := e
    simp only [List.cons_append, uFieldsToJs]
    exact ih _

theorem keys_uObjSet (l : List (JStr × UVal)) (k : JStr) (v : UVal) (h : ∃ e ∈ l, e.1 = k) :
    (uObjSet l k v).map Prod.fst = l.map Prod.fst := by
  unfold uObjSet
  rw [if_pos (by simpa using h), List.map_map]
  apply List.map_congr_left
  intro e _
  simp only [Function.comp]
  split_ifs with he
  · exact he.symm
  · rfl

/-- The object made from the first fields of a text. -/
theorem uFieldsToJs_obj (D : Doubles) (p : List (JStr × UTree)) :
    (∀ k, (∃ v, (k, v) ∈ uFieldsToJs D p []) ↔ ∃ t, (k, t) ∈ p) ∧ (uFieldsToJs D p []).Pairwise (fun a b => UPropOrder p a.1 b.1) ∧
    (∀ k v, (k, v) ∈ uFieldsToJs D p [] → ∃ t, ULastValue p k t ∧ v = t.toJs D) := by
  induction p using List.reverseRecOn with
  | nil => simp [uFieldsToJs]
  | append_singleton p e ih =>
    obtain ⟨k, t⟩ := e
    obtain ⟨h1, h2, h3⟩ := ih
    have hstep : uFieldsToJs D (p ++ [(k, t)]) [] = uObjSet (uFieldsToJs D p []) k (t.toJs D) := by
      rw [uFieldsToJs_append]; simp [uFieldsToJs]
    rw [hstep]
    set o := uFieldsToJs D p [] with ho
    refine ⟨fun k' => ?_, ?_, ?_⟩
    · constructor
      · rintro ⟨v, hv⟩
        rcases (mem_uObjSet k _ k' v).1 hv with ⟨rfl, -⟩ | ⟨-, hm⟩
        · exact ⟨t, by simp⟩
        · obtain ⟨u, hu⟩ := (h1 k').1 ⟨v, hm⟩
          exact ⟨u, by simp [hu]⟩
      · rintro ⟨u, hu⟩
        by_cases hk : k' = k
        · exact ⟨_, (mem_uObjSet k _ k' _).2 (Or.inl ⟨hk, rfl⟩)⟩
        · have hu : (k', u) ∈ p := by
            rcases List.mem_append.1 hu with hu | hu
            · exact hu
            · simp only [List.mem_singleton, Prod.mk.injEq] at hu
              exact absurd hu.1 hk
          obtain ⟨v, hv⟩ := (h1 k').2 ⟨u, hu⟩
          exact ⟨v, (mem_uObjSet k _ k' v).2 (Or.inr ⟨hk, hv⟩)⟩
    · by_cases hex : ∃ e ∈ o, e.1 = k
      · have hkeys := keys_uObjSet o k (t.toJs D) hex
        have hp : (o.map Prod.fst).Pairwise (UPropOrder (p ++ [(k, t)])) :=
          (List.pairwise_map.2 (h2.imp fun {a b} h => UPropOrder.mono h [(k, t)]))
        rw [← hkeys] at hp
        exact List.pairwise_map.1 hp
      · have hnew : uObjSet o k (t.toJs D) = uObjInsert k (t.toJs D) o := by
          unfold uObjSet
          rw [if_neg (by simpa using hex)]
        rw [hnew]
        have hne : ∀ e ∈ o, e.1 ≠ k := fun e he hk => hex ⟨e, he, hk⟩
        refine uObjInsert_sorted _ k _ o (h2.imp fun {a b} h => UPropOrder.mono h _) hne fun e he _ _ => ?_
        refine ⟨p, [(k, t)], rfl, ?_, fun x hx hxk => ?_⟩
        · obtain ⟨u, hu⟩ := (h1 e.1).1 ⟨e.2, he⟩
          exact ⟨_, hu, rfl⟩
        · obtain ⟨v, hv⟩ := (h1 k).2 ⟨x.2, by rw [← hxk]; exact hx⟩
          exact hne _ hv rfl
    · intro k' v hv
      rcases (mem_uObjSet k _ k' v).1 hv with ⟨rfl, rfl⟩ | ⟨hk, hm⟩
      · exact ⟨t, ⟨p, [], by simp, by simp⟩, rfl⟩
      · obtain ⟨u, ⟨l₁, l₂, rfl, hl⟩, hu⟩ := h3 k' v hm
        refine ⟨u, ⟨l₁, l₂ ++ [(k, t)], by simp, fun e he => ?_⟩, hu⟩
        rcases List.mem_append.1 he with he | he
        · exact hl e he
        · rw [List.mem_singleton] at he
          rw [he]
          exact fun h => hk h.symm

theorem ULastValue.unique {l : List (JStr × UTree)} {k : JStr} {t t' : UTree} (h : ULastValue l k t) (h' : ULastValue l k t') : t = t' := by
  obtain ⟨l₁, l₂, rfl, h2⟩ := h
  obtain ⟨m₁, m₂, e, h4⟩ := h'
  have e := congrArg List.reverse e
  simp only [List.reverse_append, List.reverse_cons, List.append_assoc, List.singleton_append] at e
  have h2 : ∀ e ∈ l₂.reverse, e.1 ≠ k := fun e he => h2 e (List.mem_reverse.1 he)
  have h4 : ∀ e ∈ m₂.reverse, e.1 ≠ k := fun e he => h4 e (List.mem_reverse.1 he)
  generalize l₂.reverse = a at e h2
  generalize m₂.reverse = b at e h4
  induction a generalizing b with
  | nil =>
    cases b with
    | nil => simp only [List.nil_append, List.cons.injEq, Prod.mk.injEq, true_and] at e; exact e.1
    | cons y b => simp only [List.nil_append, List.cons_append, List.cons.injEq] at e; exact absurd (by rw [← e.1]) (h4 y (by simp))
  | cons x a ih =>
    cases b with
    | nil => simp only [List.nil_append, List.cons_append, List.cons.injEq] at e; exact absurd (by rw [e.1]) (h2 x (by simp))
    | cons y b =>
      simp only [List.cons_append, List.cons.injEq] at e
      exact ih (fun z hz => h2 z (by simp [hz])) b e.2 fun z hz => h4 z (by simp [hz])

theorem ULastValue.exists {l : List (JStr × UTree)} {k : JStr} {t : UTree} (h : (k, t) ∈ l) : ∃ t', ULastValue l k t' := by
  induction l with
  | nil => cases h
  | cons e l ih =>
    by_cases hl : ∃ u, (k, u) ∈ l
    · obtain ⟨u, hu⟩ := hl
      clear h
      have : ∃ t', ULastValue l k t' := by
        clear ih
        induction l using List.reverseRecOn with
        | nil => cases hu
        | append_singleton l x ih =>
          by_cases hx : x.1 = k
          · exact ⟨x.2, l, [], by rw [← hx], by simp⟩
          · have hu : (k, u) ∈ l := by
              rcases List.mem_append.1 hu with hu | hu
              · exact hu
              · rw [List.mem_singleton] at hu; rw [← hu] at hx; exact absurd rfl hx
            obtain ⟨t', l₁, l₂, rfl, h⟩ := ih hu
            refine ⟨t', l₁, l₂ ++ [x], by simp, fun z hz => ?_⟩
            rcases List.mem_append.1 hz with hz | hz
            · exact h z hz
            · rw [List.mem_singleton] at hz; rw [hz]; exact hx
      obtain ⟨t', l₁, l₂, rfl, h⟩ := this
      exact ⟨t', e :: l₁, l₂, rfl, h⟩
    · rcases List.mem_cons.1 h with rfl | h
      · exact ⟨t, [], l, rfl, fun x hx hk => hl ⟨x.2, by rw [← hk]; exact hx⟩⟩
      · exact absurd ⟨t, h⟩ hl

theorem uTreesToJs_map (D : Doubles) (l : List UTree) : uTreesToJs D l = l.map (UTree.toJs D) := by
  induction l with
  | nil => simp [uTreesToJs]
  | cons t l ih => simp [uTreesToJs, ih]

mutual
/-- `JSON.parse` makes the right value of a tree. -/
theorem uToJs_means (D : Doubles) : ∀ t : UTree, UJsMeans D t (t.toJs D)
  | .null => by simp only [UTree.toJs]; exact .null
  | .bool b => by simp only [UTree.toJs]; exact .bool b
  | .num lit => by simp only [UTree.toJs]; exact .num lit ((sameVal_iff _ _).2 rfl)
  | .str s => by simp only [UTree.toJs]; exact .str s
  | .arr l => by
    have ih := uItems_means D l
    simp only [UTree.toJs]
    rw [uTreesToJs_map]
    refine .arr (by simp) fun i t v h1 h2 => ?_
    rw [List.getElem?_map, h1] at h2
    cases h2
    exact ih t (List.mem_of_getElem? h1)
  | .obj l => by
    have ih := uFields_means D l
    simp only [UTree.toJs]
    obtain ⟨h1, h2, h3⟩ := uFieldsToJs_obj D l
    refine .obj h1 h2 fun k v t hv ht => ?_
    obtain ⟨u, hu, rfl⟩ := h3 k v hv
    rw [← ULastValue.unique hu ht]
    obtain ⟨l₁, l₂, e, -⟩ := hu
    exact ih (k, u) (by rw [e]; simp)
theorem uItems_means (D : Doubles) : ∀ l : List UTree, ∀ t ∈ l, UJsMeans D t (t.toJs D)
  | [], t, h => by cases h
  | u :: l, t, h => by
    have h1 := uToJs_means D u
    have h2 := uItems_means D l
    rcases List.mem_cons.1 h with rfl | h
    · exact h1
    · exact h2 t h
theorem uFields_means (D : Doubles) : ∀ l : List (JStr × UTree), ∀ e ∈ l, UJsMeans D e.2 (e.2.toJs D)
  | [], t, h => by cases h
  | (k, u) :: l, t, h => by
    have h1 := uToJs_means D u
    have h2 := uFields_means D l
    rcases List.mem_cons.1 h with rfl | h
    · exact h1
    · exact h2 t h
end

/-- A tree is one JS value. -/
theorem uJsMeans_unique (D : Doubles) {t : UTree} {v : UVal} (h : UJsMeans D t v) : ∀ v', UJsMeans D t v' → v = v' := by
  induction h with
  | null => intro v' h'; cases h'; rfl
  | bool b => intro v' h'; cases h'; rfl
  | num lit hv => intro v' h'; cases h' with | num _ hv' => rw [(sameVal_iff _ _).1 hv, (sameVal_iff _ _).1 hv']
  | str s => intro v' h'; cases h'; rfl
  | @arr l l' hl _ ih =>
    intro v' h'
    cases h' with
    | @arr _ l'' hl' h' =>
      congr 1
      refine List.ext_getElem (by omega) fun i h1 h2 => ?_
      have h0 : i < l.length := by omega
      exact ih i l[i] _ (List.getElem?_eq_getElem h0) (List.getElem?_eq_getElem h1) _
        (h' i _ _ (List.getElem?_eq_getElem h0) (List.getElem?_eq_getElem h2))
  | @obj l o hk hs _ ih =>
    intro v' h'
    cases h' with
    | @obj _ o' hk' hs' h' =>
      congr 1
      have asym : ∀ (q : List (JStr × UVal)), q.Pairwise (fun a b => UPropOrder l a.1 b.1) → (q.map Prod.fst).Nodup := by
        intro q hq
        rw [List.nodup_iff_pairwise_ne, List.pairwise_map]
        refine hq.imp ?_
        intro a b h e
        rw [e] at h
        exact UPropOrder.asymm h h
      have same : ∀ k v v', (k, v) ∈ o → (k, v') ∈ o' → v = v' := by
        intro k v v' hv hv'
        obtain ⟨t, ht⟩ := (hk k).1 ⟨v, hv⟩
        obtain ⟨t', hl⟩ := ULastValue.exists ht
        exact ih k v t' hv hl v' (h' k v' t' hv' hl)
      have hp : o.Perm o' := by
        rw [List.perm_ext_iff_of_nodup (asym o hs).of_map (asym o' hs').of_map]
        rintro ⟨k, v⟩
        constructor
        · intro hv
          obtain ⟨v', hv'⟩ := (hk' k).2 ((hk k).1 ⟨v, hv⟩)
          rwa [same k v v' hv hv']
        · intro hv'
          obtain ⟨v', hv⟩ := (hk k).2 ((hk' k).1 ⟨v, hv'⟩)
          rwa [← same k v' v hv hv']
      exact hp.eq_of_pairwise (fun a b _ _ h1 h2 => (UPropOrder.asymm h1 h2).elim) hs hs'

end Zkenc
