import Verif.Proofs.JsonGrammar
import Verif.Props.JsonText
/-!
# C81: both tools read exactly the JSON texts

`JSON.parse` (zkenc.ts 522) and `serde_json` (commands.rs 457) against the grammar of RFC 8259 (`Spec/JsonGrammar`).
-/

namespace Zkenc.Props

open Zkenc Zkenc.JsonSpec

/-! ## Objects -/

theorem OccursBefore.mono {l : List (Str × JTree)} {a b : Str} (h : OccursBefore l a b) (m : List (Str × JTree)) : OccursBefore (l ++ m) a b := by
  obtain ⟨l₁, l₂, rfl, h1, h2⟩ := h
  exact ⟨l₁, l₂ ++ m, by simp, h1, h2⟩

theorem PropOrder.mono {l : List (Str × JTree)} {a b : Str} (h : PropOrder l a b) (m : List (Str × JTree)) : PropOrder (l ++ m) a b := by
  rcases h with h | h | ⟨h1, h2, h3⟩
  · exact Or.inl h
  · exact Or.inr (Or.inl h)
  · exact Or.inr (Or.inr ⟨h1, h2, OccursBefore.mono h3 m⟩)

theorem OccursBefore.asymm {l : List (Str × JTree)} {a b : Str} (h : OccursBefore l a b) (h' : OccursBefore l b a) : False := by
  obtain ⟨l₁, l₂, e, ⟨x, hx, hxa⟩, h2⟩ := h
  obtain ⟨m₁, m₂, e', ⟨y, hy, hyb⟩, h4⟩ := h'
  rw [e] at e'
  rcases List.append_eq_append_iff.1 e' with ⟨c, rfl, -⟩ | ⟨c, rfl, -⟩
  · exact h4 x (by simp [hx]) hxa
  · exact h2 y (by simp [hy]) hyb

theorem isIndex_unique {k : Str} {i j : Nat} (h : IsIndex k i) (h' : IsIndex k j) : i = j :=
  natDec_inj (h.1.symm.trans h'.1)

theorem PropOrder.asymm {l : List (Str × JTree)} {a b : Str} (h : PropOrder l a b) (h' : PropOrder l b a) : False := by
  rcases h with ⟨i, j, hi, hj, hij⟩ | ⟨⟨i, hi⟩, hj⟩ | ⟨hi, hj, h⟩ <;> rcases h' with ⟨i', j', hi', hj', hij'⟩ | ⟨⟨i', hi'⟩, hj'⟩ | ⟨hi', hj', h'⟩
  · have := isIndex_unique hi hj'
    have := isIndex_unique hj hi'
    omega
  · exact hj' _ hi
  · exact hi' _ hj
  · exact hj _ hi'
  · exact hj _ hi'
  · exact hj' _ hi
  · exact hi _ hj'
  · exact hj _ hi'
  · exact OccursBefore.asymm h h'

/-- A new name is put in its place. -/
theorem objInsert_sorted (P : List (Str × JTree)) (k : Str) (v : JsVal) (o : List (Str × JsVal)) (ho : o.Pairwise (fun a b => PropOrder P a.1 b.1))
    (hne : ∀ e ∈ o, e.1 ≠ k) (hlast : ∀ e ∈ o, (∀ i, ¬ IsIndex e.1 i) → (∀ i, ¬ IsIndex k i) → OccursBefore P e.1 k) :
    (objInsert k v o).Pairwise (fun a b => PropOrder P a.1 b.1) := by
  induction o with
  | nil => exact List.pairwise_singleton _ _
  | cons e o ih =>
    rw [List.pairwise_cons] at ho
    rw [objInsert]
    have hke := hne e (by simp)
    split_ifs with hb
    · rw [List.pairwise_cons]
      refine ⟨fun x hx => ?_, ih ho.2 (fun x hx => hne x (by simp [hx])) fun x hx => hlast x (by simp [hx])⟩
      have hx := (objInsert_perm k v o).mem_iff.1 hx
      rcases List.mem_cons.1 hx with rfl | hx
      · rcases (keyBefore_iff _ _).1 hb with h | h | ⟨h1, h2, -⟩
        · exact Or.inl h
        · exact Or.inr (Or.inl h)
        · exact Or.inr (Or.inr ⟨h1, h2, hlast e (by simp) h1 h2⟩)
      · exact ho.1 x hx
    · have hb : ¬ Ordered e.1 k := fun h => hb ((keyBefore_iff _ _).2 h)
      -- the new name is an array index, smaller than the one that follows
      have hk : ∃ i, IsIndex k i ∧ ∀ j, IsIndex e.1 j → i < j := by
        by_contra hno
        simp only [not_exists, not_and, not_forall] at hno
        by_cases hki : ∃ i, IsIndex k i
        · obtain ⟨i, hi⟩ := hki
          obtain ⟨j, hj, hij⟩ := hno i hi
          refine hb (Or.inl ⟨j, i, hj, hi, lt_of_le_of_ne (Nat.le_of_not_lt hij) ?_⟩)
          rintro rfl
          exact hke (hj.1.trans hi.1.symm)
        · simp only [not_exists] at hki
          by_cases he : ∃ j, IsIndex e.1 j
          · exact hb (Or.inr (Or.inl ⟨he, hki⟩))
          · simp only [not_exists] at he
            exact hb (Or.inr (Or.inr ⟨he, hki, hke⟩))
      obtain ⟨i, hi, hlt⟩ := hk
      have hfirst : PropOrder P k e.1 := by
        by_cases he : ∃ j, IsIndex e.1 j
        · obtain ⟨j, hj⟩ := he
          exact Or.inl ⟨i, j, hi, hj, hlt j hj⟩
        · simp only [not_exists] at he
          exact Or.inr (Or.inl ⟨⟨i, hi⟩, he⟩)
      rw [List.pairwise_cons, List.pairwise_cons]
      refine ⟨fun x hx => ?_, ho⟩
      rcases List.mem_cons.1 hx with rfl | hx
      · exact hfirst
      · by_cases hxi : ∃ j, IsIndex x.1 j
        · obtain ⟨j, hj⟩ := hxi
          rcases ho.1 x hx with ⟨a, b, ha, hb', hab⟩ | ⟨-, h⟩ | ⟨-, h, -⟩
          · have := hlt a ha
            exact Or.inl ⟨i, b, hi, hb', by omega⟩
          · exact absurd hj (h j)
          · exact absurd hj (h j)
        · simp only [not_exists] at hxi
          exact Or.inr (Or.inl ⟨⟨i, hi⟩, hxi⟩)

theorem fieldsToJs_append (D : Doubles) (p q : List (Str × JTree)) (o : List (Str × JsVal)) :
    fieldsToJs D (p ++ q) o = fieldsToJs D q (fieldsToJs D p o) := by
  induction p generalizing o with
  | nil => simp [fieldsToJs]
  | cons e p ih =>
    obtain ⟨k, t⟩ := e
    simp only [List.cons_append, fieldsToJs]
    exact ih _

theorem keys_objSet (l : List (Str × JsVal)) (k : Str) (v : JsVal) (h : ∃ e ∈ l, e.1 = k) :
    (objSet l k v).map Prod.fst = l.map Prod.fst := by
  unfold objSet
  rw [if_pos (by simpa using h), List.map_map]
  apply List.map_congr_left
  intro e _
  simp only [Function.comp]
  split_ifs with he
  · exact he.symm
  · rfl

/-- The object made from the first fields of a text. -/
theorem fieldsToJs_obj (D : Doubles) (p : List (Str × JTree)) :
    (∀ k, (∃ v, (k, v) ∈ fieldsToJs D p []) ↔ ∃ t, (k, t) ∈ p) ∧ (fieldsToJs D p []).Pairwise (fun a b => PropOrder p a.1 b.1) ∧
    (∀ k v, (k, v) ∈ fieldsToJs D p [] → ∃ t, LastValue p k t ∧ v = t.toJs D) := by
  induction p using List.reverseRecOn with
  | nil => simp [fieldsToJs]
  | append_singleton p e ih =>
    obtain ⟨k, t⟩ := e
    obtain ⟨h1, h2, h3⟩ := ih
    have hstep : fieldsToJs D (p ++ [(k, t)]) [] = objSet (fieldsToJs D p []) k (t.toJs D) := by
      rw [fieldsToJs_append]; simp [fieldsToJs]
    rw [hstep]
    set o := fieldsToJs D p [] with ho
    refine ⟨fun k' => ?_, ?_, ?_⟩
    · constructor
      · rintro ⟨v, hv⟩
        rcases (mem_objSet k _ k' v).1 hv with ⟨rfl, -⟩ | ⟨-, hm⟩
        · exact ⟨t, by simp⟩
        · obtain ⟨u, hu⟩ := (h1 k').1 ⟨v, hm⟩
          exact ⟨u, by simp [hu]⟩
      · rintro ⟨u, hu⟩
        by_cases hk : k' = k
        · exact ⟨_, (mem_objSet k _ k' _).2 (Or.inl ⟨hk, rfl⟩)⟩
        · have hu : (k', u) ∈ p := by
            rcases List.mem_append.1 hu with hu | hu
            · exact hu
            · simp only [List.mem_singleton, Prod.mk.injEq] at hu
              exact absurd hu.1 hk
          obtain ⟨v, hv⟩ := (h1 k').2 ⟨u, hu⟩
          exact ⟨v, (mem_objSet k _ k' v).2 (Or.inr ⟨hk, hv⟩)⟩
    · by_cases hex : ∃ e ∈ o, e.1 = k
      · have hkeys := keys_objSet o k (t.toJs D) hex
        have hp : (o.map Prod.fst).Pairwise (PropOrder (p ++ [(k, t)])) :=
          (List.pairwise_map.2 (h2.imp fun {a b} h => PropOrder.mono h [(k, t)]))
        rw [← hkeys] at hp
        exact List.pairwise_map.1 hp
      · have hnew : objSet o k (t.toJs D) = objInsert k (t.toJs D) o := by
          unfold objSet
          rw [if_neg (by simpa using hex)]
        rw [hnew]
        have hne : ∀ e ∈ o, e.1 ≠ k := fun e he hk => hex ⟨e, he, hk⟩
        refine objInsert_sorted _ k _ o (h2.imp fun {a b} h => PropOrder.mono h _) hne fun e he _ _ => ?_
        refine ⟨p, [(k, t)], rfl, ?_, fun x hx hxk => ?_⟩
        · obtain ⟨u, hu⟩ := (h1 e.1).1 ⟨e.2, he⟩
          exact ⟨_, hu, rfl⟩
        · obtain ⟨v, hv⟩ := (h1 k).2 ⟨x.2, by rw [← hxk]; exact hx⟩
          exact hne _ hv rfl
    · intro k' v hv
      rcases (mem_objSet k _ k' v).1 hv with ⟨rfl, rfl⟩ | ⟨hk, hm⟩
      · exact ⟨t, ⟨p, [], by simp, by simp⟩, rfl⟩
      · obtain ⟨u, ⟨l₁, l₂, rfl, hl⟩, hu⟩ := h3 k' v hm
        refine ⟨u, ⟨l₁, l₂ ++ [(k, t)], by simp, fun e he => ?_⟩, hu⟩
        rcases List.mem_append.1 he with he | he
        · exact hl e he
        · rw [List.mem_singleton] at he
          rw [he]
          exact fun h => hk h.symm

theorem LastValue.unique {l : List (Str × JTree)} {k : Str} {t t' : JTree} (h : LastValue l k t) (h' : LastValue l k t') : t = t' := by
  obtain ⟨l₁, l₂, rfl, h2⟩ := h
  obtain ⟨m₁, m₂, e, h4⟩ := h'
  have e := congrArg List.reverse e
  simp only [List.reverse_append, List.reverse_cons, List.append_assoc, List.singleton_append] at e
  have h2 : ∀ e ∈ l₂.reverse, e.1 ≠ k := fun e he => h2 e (List.mem_reverse.1 he)
  have h4 : ∀ e ∈ m₂.reverse, e.1 ≠ k := fun e he => h4 e (List.mem_reverse.1 he)
  generalize l₂.reverse = a at e h2
  generalize m₂.reverse = b at e h4
  induction a generalizing b with
  | nil =>
    cases b with
    | nil => simp only [List.nil_append, List.cons.injEq, Prod.mk.injEq, true_and] at e; exact e.1
    | cons y b => simp only [List.nil_append, List.cons_append, List.cons.injEq] at e; exact absurd (by rw [← e.1]) (h4 y (by simp))
  | cons x a ih =>
    cases b with
    | nil => simp only [List.nil_append, List.cons_append, List.cons.injEq] at e; exact absurd (by rw [e.1]) (h2 x (by simp))
    | cons y b =>
      simp only [List.cons_append, List.cons.injEq] at e
      exact ih (fun z hz => h2 z (by simp [hz])) b e.2 fun z hz => h4 z (by simp [hz])

theorem LastValue.exists {l : List (Str × JTree)} {k : Str} {t : JTree} (h : (k, t) ∈ l) : ∃ t', LastValue l k t' := by
  induction l with
  | nil => cases h
  | cons e l ih =>
    by_cases hl : ∃ u, (k, u) ∈ l
    · obtain ⟨u, hu⟩ := hl
      clear h
      have : ∃ t', LastValue l k t' := by
        clear ih
        induction l using List.reverseRecOn with
        | nil => cases hu
        | append_singleton l x ih =>
          by_cases hx : x.1 = k
          · exact ⟨x.2, l, [], by rw [← hx], by simp⟩
          · have hu : (k, u) ∈ l := by
              rcases List.mem_append.1 hu with hu | hu
              · exact hu
              · rw [List.mem_singleton] at hu; rw [← hu] at hx; exact absurd rfl hx
            obtain ⟨t', l₁, l₂, rfl, h⟩ := ih hu
            refine ⟨t', l₁, l₂ ++ [x], by simp, fun z hz => ?_⟩
            rcases List.mem_append.1 hz with hz | hz
            · exact h z hz
            · rw [List.mem_singleton] at hz; rw [hz]; exact hx
      obtain ⟨t', l₁, l₂, rfl, h⟩ := this
      exact ⟨t', e :: l₁, l₂, rfl, h⟩
    · rcases List.mem_cons.1 h with rfl | h
      · exact ⟨t, [], l, rfl, fun x hx hk => hl ⟨x.2, by rw [← hk]; exact hx⟩⟩
      · exact absurd ⟨t, h⟩ hl

theorem treesToJs_map (D : Doubles) (l : List JTree) : treesToJs D l = l.map (JTree.toJs D) := by
  induction l with
  | nil => simp [treesToJs]
  | cons t l ih => simp [treesToJs, ih]

mutual
/-- `JSON.parse` makes the right value of a tree. -/
theorem toJs_means (D : Doubles) : ∀ t : JTree, JsMeans D t (t.toJs D)
  | .null => by simp only [JTree.toJs]; exact .null
  | .bool b => by simp only [JTree.toJs]; exact .bool b
  | .num lit => by simp only [JTree.toJs]; exact .num lit
  | .str s => by simp only [JTree.toJs]; exact .str s
  | .arr l => by
    have ih := items_means D l
    simp only [JTree.toJs]
    rw [treesToJs_map]
    refine .arr (by simp) fun i t v h1 h2 => ?_
    rw [List.getElem?_map, h1] at h2
    cases h2
    exact ih t (List.mem_of_getElem? h1)
  | .obj l => by
    have ih := fields_means D l
    simp only [JTree.toJs]
    obtain ⟨h1, h2, h3⟩ := fieldsToJs_obj D l
    refine .obj h1 h2 fun k v t hv ht => ?_
    obtain ⟨u, hu, rfl⟩ := h3 k v hv
    rw [← LastValue.unique hu ht]
    obtain ⟨l₁, l₂, e, -⟩ := hu
    exact ih (k, u) (by rw [e]; simp)
theorem items_means (D : Doubles) : ∀ l : List JTree, ∀ t ∈ l, JsMeans D t (t.toJs D)
  | [], t, h => by cases h
  | u :: l, t, h => by
    have h1 := toJs_means D u
    have h2 := items_means D l
    rcases List.mem_cons.1 h with rfl | h
    · exact h1
    · exact h2 t h
theorem fields_means (D : Doubles) : ∀ l : List (Str × JTree), ∀ e ∈ l, JsMeans D e.2 (e.2.toJs D)
  | [], t, h => by cases h
  | (k, u) :: l, t, h => by
    have h1 := toJs_means D u
    have h2 := fields_means D l
    rcases List.mem_cons.1 h with rfl | h
    · exact h1
    · exact h2 t h
end

/-- A tree is one JS value. -/
theorem jsMeans_unique (D : Doubles) {t : JTree} {v : JsVal} (h : JsMeans D t v) : ∀ v', JsMeans D t v' → v = v' := by
  induction h with
  | null => intro v' h'; cases h'; rfl
  | bool b => intro v' h'; cases h'; rfl
  | num lit => intro v' h'; cases h'; rfl
  | str s => intro v' h'; cases h'; rfl
  | @arr l l' hl _ ih =>
    intro v' h'
    cases h' with
    | @arr _ l'' hl' h' =>
      congr 1
      refine List.ext_getElem (by omega) fun i h1 h2 => ?_
      have h0 : i < l.length := by omega
      exact ih i l[i] _ (List.getElem?_eq_getElem h0) (List.getElem?_eq_getElem h1) _
        (h' i _ _ (List.getElem?_eq_getElem h0) (List.getElem?_eq_getElem h2))
  | @obj l o hk hs _ ih =>
    intro v' h'
    cases h' with
    | @obj _ o' hk' hs' h' =>
      congr 1
      have asym : ∀ (q : List (Str × JsVal)), q.Pairwise (fun a b => PropOrder l a.1 b.1) → (q.map Prod.fst).Nodup := by
        intro q hq
        rw [List.nodup_iff_pairwise_ne, List.pairwise_map]
        refine hq.imp ?_
        intro a b h e
        rw [e] at h
        exact PropOrder.asymm h h
      have same : ∀ k v v', (k, v) ∈ o → (k, v') ∈ o' → v = v' := by
        intro k v v' hv hv'
        obtain ⟨t, ht⟩ := (hk k).1 ⟨v, hv⟩
        obtain ⟨t', hl⟩ := LastValue.exists ht
        exact ih k v t' hv hl v' (h' k v' t' hv' hl)
      have hp : o.Perm o' := by
        rw [List.perm_ext_iff_of_nodup (asym o hs).of_map (asym o' hs').of_map]
        rintro ⟨k, v⟩
        constructor
        · intro hv
          obtain ⟨v', hv'⟩ := (hk' k).2 ((hk k).1 ⟨v, hv⟩)
          rwa [same k v v' hv hv']
        · intro hv'
          obtain ⟨v', hv⟩ := (hk k).2 ((hk' k).1 ⟨v, hv'⟩)
          rwa [← same k v' v hv hv']
      exact hp.eq_of_pairwise (fun a b _ _ h1 h2 => (PropOrder.asymm h1 h2).elim) hs hs'

/-- **C81** — `JSON.parse` returns a value exactly for the texts of the JSON grammar, and it is the value the text denotes: strings with their escapes
decoded, of a repeated name the last value, the properties in the order of a JS object. -/
theorem C81_js (D : Doubles) (s : Str) (x : JsVal) : jsonParse D s = some x ↔ ∃ t, Text s t ∧ JsMeans D t x := by
  unfold jsonParse
  rw [Option.map_eq_some_iff]
  constructor
  · rintro ⟨t, h, rfl⟩
    exact ⟨t, (pText_iff s t).1 h, toJs_means D t⟩
  · rintro ⟨t, h, hm⟩
    exact ⟨t, (pText_iff s t).2 h, jsMeans_unique D (toJs_means D t) x hm⟩

/-- **C81** (no ambiguity) — a text is at most one tree, and a tree at most one value. -/
theorem C81_unambiguous (D : Doubles) (s : Str) (t t' : JTree) (h : Text s t) (h' : Text s t') (x x' : JsVal) (hx : JsMeans D t x)
    (hx' : JsMeans D t' x') : t = t' ∧ x = x' := by
  have := Option.some.inj (((pText_iff s t).2 h).symm.trans ((pText_iff s t').2 h'))
  subst this
  exact ⟨rfl, jsMeans_unique D hx x' hx'⟩

/-! ## serde_json -/

theorem serdeNum_some (D : Doubles) (lit : Str) : (∃ j, serdeNum D lit = some j) ↔ lit = ['-', '0'] ∨ D.outOfRange lit = false := by
  unfold serdeNum
  by_cases h0 : lit = ['-', '0']
  · subst h0
    simp [isDig]
  · cases h : D.outOfRange lit
    · simp only [h0, if_false, Bool.false_eq_true]
      split_ifs <;> simp
    · simp [h0]

mutual
theorem toSerde_some (D : Doubles) (ord : List (Str × Json) → List (Str × Json)) : ∀ (t : JTree) (d : Nat),
    (∃ j, t.toSerde D ord d = some j) ↔ nesting t ≤ d ∧ ∀ lit, HasNum t lit → lit = ['-', '0'] ∨ D.outOfRange lit = false
  | .null, d => by simp only [JTree.toSerde, nesting]; exact ⟨fun _ => ⟨by omega, fun lit h => (by cases h)⟩, fun _ => ⟨_, rfl⟩⟩
  | .bool b, d => by simp only [JTree.toSerde, nesting]; exact ⟨fun _ => ⟨by omega, fun lit h => (by cases h)⟩, fun _ => ⟨_, rfl⟩⟩
  | .str s, d => by simp only [JTree.toSerde, nesting]; exact ⟨fun _ => ⟨by omega, fun lit h => (by cases h)⟩, fun _ => ⟨_, rfl⟩⟩
  | .num lit, d => by
    simp only [JTree.toSerde, nesting]
    rw [serdeNum_some]
    exact ⟨fun h => ⟨by omega, fun l hl => by cases hl; exact h⟩, fun h => h.2 lit (.here lit)⟩
  | .arr l, 0 => by simp [JTree.toSerde, nesting]
  | .arr l, d + 1 => by
    have ih := treesToSerde_some D ord l d
    simp only [JTree.toSerde, nesting, Option.map_eq_some_iff]
    constructor
    · rintro ⟨_, js, h, -⟩
      obtain ⟨h1, h2⟩ := ih.1 ⟨js, h⟩
      refine ⟨by omega, fun lit hl => ?_⟩
      cases hl with
      | item hm hl => exact h2 _ hm lit hl
    · rintro ⟨h1, h2⟩
      obtain ⟨js, h⟩ := ih.2 ⟨by omega, fun t ht lit hl => h2 lit (.item ht hl)⟩
      exact ⟨_, js, h, rfl⟩
  | .obj l, 0 => by simp [JTree.toSerde, nesting]
  | .obj l, d + 1 => by
    have ih := fieldsToSerde_some D ord l d
    simp only [JTree.toSerde, nesting, Option.map_eq_some_iff]
    constructor
    · rintro ⟨_, js, h, -⟩
      obtain ⟨h1, h2⟩ := (ih []).1 ⟨js, h⟩
      refine ⟨by omega, fun lit hl => ?_⟩
      cases hl with
      | field hm hl => exact h2 _ hm lit hl
    · rintro ⟨h1, h2⟩
      obtain ⟨js, h⟩ := (ih []).2 ⟨by omega, fun e he lit hl => h2 lit (.field he hl)⟩
      exact ⟨_, js, h, rfl⟩
theorem treesToSerde_some (D : Doubles) (ord : List (Str × Json) → List (Str × Json)) : ∀ (l : List JTree) (d : Nat),
    (∃ js, treesToSerde D ord d l = some js) ↔ nestingItems l ≤ d ∧ ∀ t ∈ l, ∀ lit, HasNum t lit → lit = ['-', '0'] ∨ D.outOfRange lit = false
  | [], d => by simp [treesToSerde, nestingItems]
  | t :: l, d => by
    have h1 := toSerde_some D ord t d
    have h2 := treesToSerde_some D ord l d
    simp only [treesToSerde, nestingItems, Option.bind_eq_bind, Option.bind_eq_some_iff, List.forall_mem_cons]
    constructor
    · rintro ⟨_, j, hj, js, hjs, -⟩
      obtain ⟨a, b⟩ := h1.1 ⟨j, hj⟩
      obtain ⟨a', b'⟩ := h2.1 ⟨js, hjs⟩
      exact ⟨by omega, b, b'⟩
    · rintro ⟨a, b, b'⟩
      obtain ⟨j, hj⟩ := h1.2 ⟨by omega, b⟩
      obtain ⟨js, hjs⟩ := h2.2 ⟨by omega, b'⟩
      exact ⟨_, j, hj, js, hjs, rfl⟩
theorem fieldsToSerde_some (D : Doubles) (ord : List (Str × Json) → List (Str × Json)) : ∀ (l : List (Str × JTree)) (d : Nat) (o : List (Str × Json)),
    (∃ js, fieldsToSerde D ord d l o = some js) ↔
      nestingFields l ≤ d ∧ ∀ e ∈ l, ∀ lit, HasNum e.2 lit → lit = ['-', '0'] ∨ D.outOfRange lit = false
  | [], d, o => by simp [fieldsToSerde, nestingFields]
  | (k, t) :: l, d, o => by
    have h1 := toSerde_some D ord t d
    have h2 := fun o => fieldsToSerde_some D ord l d o
    simp only [fieldsToSerde, nestingFields, Option.bind_eq_bind, Option.bind_eq_some_iff, List.forall_mem_cons]
    constructor
    · rintro ⟨js, j, hj, hjs⟩
      obtain ⟨a, b⟩ := h1.1 ⟨j, hj⟩
      obtain ⟨a', b'⟩ := (h2 _).1 ⟨js, hjs⟩
      exact ⟨by omega, b, b'⟩
    · rintro ⟨a, b, b'⟩
      obtain ⟨j, hj⟩ := h1.2 ⟨by omega, b⟩
      obtain ⟨js, hjs⟩ := (h2 (AMap.insert o k j)).2 ⟨by omega, b'⟩
      exact ⟨js, j, hj, hjs⟩
end

/-- **C81** (the command line tool) — `serde_json` accepts exactly the texts of the JSON grammar whose arrays and objects are nested at most 127 deep
and whose numbers are within the floating point range. -/
theorem C81_serde (D : Doubles) (ord : List (Str × Json) → List (Str × Json)) (s : Str) :
    (∃ j, serdeFromStr D ord s = some j) ↔
      ∃ t, Text s t ∧ nesting t ≤ 127 ∧ ∀ lit, HasNum t lit → lit = ['-', '0'] ∨ D.outOfRange lit = false := by
  unfold serdeFromStr
  simp only [Option.bind_eq_some_iff]
  constructor
  · rintro ⟨j, t, h1, h2⟩
    exact ⟨t, (pText_iff s t).1 h1, (toSerde_some D ord t 127).1 ⟨j, h2⟩⟩
  · rintro ⟨t, h1, h2⟩
    obtain ⟨j, hj⟩ := (toSerde_some D ord t 127).2 h2
    exact ⟨j, t, (pText_iff s t).2 h1, hj⟩

/-- The text `{"b":1, "10":"\u00e9\ud83d\uDE00" ,"9":[null],"b":2}`. -/
def jsonExample : Str :=
  ['{', '"', 'b', '"', ':', '1', ',', ' ', '"', '1', '0', '"', ':', '"', '\\', 'u', '0', '0', 'e', '9', '\\', 'u', 'd', '8', '3', 'd', '\\', 'u', 'D', 'E', '0', '0', '"', ' ', ',', '"', '9', '"', ':', '[', 'n', 'u', 'l', 'l', ']', ',', '"', 'b', '"', ':', '2', '}']

/-- A concrete text with escapes, a surrogate pair, white space, array indices as names and a repeated name: the tree … -/
theorem jsonExample_text : Text jsonExample (.obj [(['b'], .num ['1']), (['1', '0'], .str ['é', '😀']), (['9'], .arr [.null]), (['b'], .num ['2'])]) :=
  (pText_iff _ _).1 (by rfl)

/-- … and the value: the indices first, then `b` with its last value. -/
example (D : Doubles) : jsonParse D jsonExample = some (.obj [(['9'], .arr [.null]), (['1', '0'], .str ['é', '😀']), (['b'], .num 2)]) := by
  have h1 := (pText_iff _ _).2 jsonExample_text
  have h2 : D.round ['2'] = .num 2 := by
    have : intDec 2 = ['2'] := by decide +kernel
    rw [← this]
    exact D.round_small 2 (by decide)
  have h3 : keyBefore ['1', '0'] ['9'] = false := by decide +kernel
  have h4 : keyBefore ['b'] ['1', '0'] = false := by decide +kernel
  unfold jsonParse
  rw [h1]
  simp [JTree.toJs, fieldsToJs, treesToJs, objSet, objInsert, h2, h3, h4]

end Zkenc.Props
