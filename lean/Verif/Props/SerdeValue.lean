import Verif.Spec.SerdeValue
import Verif.Props.JsonGrammar
import Verif.Props.JsonText
/-!
# C81: the value that the command line tool reads from a JSON text
-/

namespace Zkenc.Props

open Zkenc Zkenc.Spec Zkenc.JsonSpec

/-- A literal of digits and `-` is `-0` or the decimal text of an integer. -/
theorem intLit {lit : Str} (h : NumLit lit) (h1 : lit.all (fun c => isDig c || c = '-') = true) : lit = ['-', '0'] ∨ ∃ z, lit = intDec z := by
  obtain ⟨sign, int, frac, exp, hs, hi, hf, he⟩ := h
  rw [List.all_append, List.all_append, List.all_append] at h1
  simp only [Bool.and_eq_true] at h1
  have hfrac : frac = [] := by
    rcases hf with rfl | ⟨ds, rfl, -⟩
    · rfl
    · exfalso; have := h1.2.2.1; simp [isDig] at this
  have hexp : exp = [] := by
    rcases he with rfl | ⟨c, sg, ds, rfl, hc, -⟩
    · rfl
    · exfalso
      have := h1.2.2.2
      rcases hc with rfl | rfl <;> simp [isDig] at this
  subst hfrac; subst hexp
  simp only [List.append_nil]
  have hn : natDec (decVal int) = int := by
    rcases hi with rfl | ⟨c, ds, rfl, hc, hc0, hds⟩
    · exact natDec_zero
    · exact natDec_decVal (c :: ds) (by simp [hc, hds]) (by simp) (fun t ht => by
        simp only [List.cons.injEq] at ht; exact absurd ht.1 hc0)
  rcases hs with rfl | rfl
  · right
    refine ⟨(decVal int : Int), ?_⟩
    unfold intDec
    rw [if_neg (by omega), Int.natAbs_natCast, hn, List.nil_append]
  · by_cases h0 : decVal int = 0
    · left
      rw [h0, natDec_zero] at hn
      rw [← hn]
      rfl
    · right
      refine ⟨-(decVal int : Int), ?_⟩
      unfold intDec
      rw [if_pos (by omega), Int.natAbs_neg, Int.natAbs_natCast, hn]
      rfl

theorem intDec_all (z : Int) : (intDec z).all (fun c => isDig c || c = '-') = true := by
  have h : ∀ n : Nat, (natDec n).all (fun c => isDig c || c = '-') = true := fun n => by
    rw [List.all_eq_true]
    intro c hc
    rw [List.all_eq_true.1 (natDec_spec n).1 c hc]
    rfl
  unfold intDec
  split_ifs
  · rw [List.all_cons, h]; rfl
  · exact h _

theorem intDec_ne_minus_zero (z : Int) : intDec z ≠ ['-', '0'] := by
  unfold intDec
  split_ifs with h
  · intro he
    have : natDec z.natAbs = natDec 0 := by
      rw [natDec_zero]
      exact (List.cons.inj he).2
    have := natDec_inj this
    omega
  · intro he
    have := (natDec_spec z.natAbs).1
    rw [he] at this
    simp [isDig] at this

theorem intDec_value (z : Int) (D : Doubles) (j : Json) (h : serdeNum D (intDec z) = some j) : j = .int z := by
  unfold serdeNum at h
  rw [if_pos (intDec_all z), if_neg (intDec_ne_minus_zero z)] at h
  split_ifs at h with h1 h2
  · unfold intDec at h2
    split_ifs at h2 with hz
    · cases h
      unfold intDec
      rw [if_pos hz, List.tail_cons, (natDec_spec _).2.2]
      congr 1
      omega
    · obtain ⟨c, s, hc, hd⟩ := natDec_head z.natAbs
      rw [hc, List.head?_cons, Option.some.injEq] at h2
      exact absurd h2 (isDig_facts hd).1
  · cases h
    unfold intDec at h2 ⊢
    split_ifs at h2 ⊢ with hz
    · simp at h2
    · rw [(natDec_spec _).2.2]
      congr 1
      omega

theorem serdeNum_means (D : Doubles) {lit : Str} (h : NumLit lit) {j : Json} (hj : serdeNum D lit = some j) : SerdeMeans (.num lit) j := by
  by_cases hz : ∃ z, lit = intDec z
  · obtain ⟨z, rfl⟩ := hz
    rw [intDec_value z D j hj]
    exact .int z
  · have hf : j = .float := by
      unfold serdeNum at hj
      split_ifs at hj with h1 h2 h3 h4 h5
      · cases hj; rfl
      · exact absurd ((intLit h h1).resolve_left h2) hz
      · exact absurd ((intLit h h1).resolve_left h2) hz
      · cases hj; rfl
    rw [hf]
    exact .float fun z e => hz ⟨z, e⟩

/-- What the accumulated entries `o` have to do with the fields `p` read so far. -/
def SerdeObj (p : List (Str × JTree)) (o : List (Str × Json)) : Prop :=
  (∀ k, (∃ v, (k, v) ∈ o) ↔ ∃ t, (k, t) ∈ p) ∧ (o.map Prod.fst).Nodup ∧ ∀ k v t, (k, v) ∈ o → LastValue p k t → SerdeMeans t v

theorem SerdeObj.add {p : List (Str × JTree)} {o : List (Str × Json)} (h : SerdeObj p o) (k : Str) {t : JTree} {j : Json} (hs : SerdeMeans t j) :
    SerdeObj (p ++ [(k, t)]) (AMap.insert o k j) := by
  obtain ⟨h1, h2, h3⟩ := h
  refine ⟨fun k' => ?_, AMap.nodup_insert h2 k j, fun k' v t' hv hl => ?_⟩
  · constructor
    · rintro ⟨v, hv⟩
      rcases (mem_insert h2 k j k' v).1 hv with ⟨rfl, rfl⟩ | ⟨-, hv⟩
      · exact ⟨t, by simp⟩
      · obtain ⟨u, hu⟩ := (h1 k').1 ⟨v, hv⟩
        exact ⟨u, by simp [hu]⟩
    · rintro ⟨u, hu⟩
      by_cases he : k' = k
      · exact ⟨j, (mem_insert h2 k j k' j).2 (.inl ⟨he, rfl⟩)⟩
      · rcases List.mem_append.1 hu with hu | hu
        · obtain ⟨v, hv⟩ := (h1 k').2 ⟨u, hu⟩
          exact ⟨v, (mem_insert h2 k j k' v).2 (.inr ⟨he, hv⟩)⟩
        · rw [List.mem_singleton] at hu
          cases hu
          exact absurd rfl he
  · rcases (mem_insert h2 k j k' v).1 hv with ⟨rfl, rfl⟩ | ⟨hne, hv⟩
    · rw [LastValue.unique hl ⟨p, [], rfl, by simp⟩]
      exact hs
    · obtain ⟨u, hu⟩ := (h1 k').1 ⟨v, hv⟩
      obtain ⟨t'', ht''⟩ := LastValue.exists hu
      obtain ⟨l₁, l₂, rfl, hlast⟩ := ht''
      have : LastValue ((l₁ ++ (k', t'') :: l₂) ++ [(k, t)]) k' t'' := ⟨l₁, l₂ ++ [(k, t)], by simp, fun e he => by
        rcases List.mem_append.1 he with he | he
        · exact hlast e he
        · rw [List.mem_singleton] at he
          rw [he]
          exact fun e => hne e.symm⟩
      rw [LastValue.unique hl this]
      exact h3 k' v t'' hv ⟨l₁, l₂, rfl, hlast⟩

mutual
theorem toSerde_means (D : Doubles) (ord : List (Str × Json) → List (Str × Json)) (hord : ∀ l, (ord l).Perm l) :
    ∀ (t : JTree) (d : Nat) (j : Json), t.Lits → t.toSerde D ord d = some j → SerdeMeans t j
  | .null, _, j, _, h => by simp only [JTree.toSerde] at h; cases h; exact .null
  | .bool b, _, j, _, h => by simp only [JTree.toSerde] at h; cases h; exact .bool b
  | .num lit, _, j, hl, h => by
    simp only [JTree.toSerde] at h
    simp only [JTree.Lits] at hl
    exact serdeNum_means D hl h
  | .str s, _, j, _, h => by simp only [JTree.toSerde] at h; cases h; exact .str s
  | .arr l, 0, j, _, h => by simp only [JTree.toSerde] at h; cases h
  | .arr l, d + 1, j, hl, h => by
    simp only [JTree.toSerde, Option.map_eq_some_iff] at h
    obtain ⟨js, h1, rfl⟩ := h
    simp only [JTree.Lits] at hl
    obtain ⟨a, b⟩ := treesToSerde_means D ord hord l d js hl h1
    exact .arr a b
  | .obj l, 0, j, _, h => by simp only [JTree.toSerde] at h; cases h
  | .obj l, d + 1, j, hl, h => by
    simp only [JTree.toSerde, Option.map_eq_some_iff] at h
    obtain ⟨es, h1, rfl⟩ := h
    simp only [JTree.Lits] at hl
    obtain ⟨a, b, c⟩ := fieldsToSerde_means D ord hord l d [] [] es hl ⟨by simp, by simp, by simp⟩ h1
    rw [List.nil_append] at a c
    have hp := hord es
    refine .obj (fun k => ?_) ((hp.map Prod.fst).nodup_iff.2 b) fun k v t hv => c k v t (hp.mem_iff.1 hv)
    rw [← a k]
    exact ⟨fun ⟨v, hv⟩ => ⟨v, hp.mem_iff.1 hv⟩, fun ⟨v, hv⟩ => ⟨v, hp.mem_iff.2 hv⟩⟩
theorem treesToSerde_means (D : Doubles) (ord : List (Str × Json) → List (Str × Json)) (hord : ∀ l, (ord l).Perm l) :
    ∀ (ts : List JTree) (d : Nat) (js : List Json), litsItems ts → treesToSerde D ord d ts = some js →
      ts.length = js.length ∧ ∀ (i : Nat) t v, ts[i]? = some t → js[i]? = some v → SerdeMeans t v
  | [], _, js, _, h => by simp only [treesToSerde] at h; cases h; exact ⟨rfl, by simp⟩
  | t :: ts, d, js, hl, h => by
    simp only [treesToSerde, Option.bind_eq_bind, Option.bind_eq_some_iff] at h
    obtain ⟨j, h1, js', h2, h⟩ := h
    cases h
    simp only [litsItems] at hl
    have hj := toSerde_means D ord hord t d j hl.1 h1
    obtain ⟨a, b⟩ := treesToSerde_means D ord hord ts d js' hl.2 h2
    refine ⟨by simp [a], fun i u v hu hv => ?_⟩
    cases i with
    | zero =>
      simp only [List.getElem?_cons_zero, Option.some.injEq] at hu hv
      subst hu; subst hv
      exact hj
    | succ i =>
      simp only [List.getElem?_cons_succ] at hu hv
      exact b i u v hu hv
theorem fieldsToSerde_means (D : Doubles) (ord : List (Str × Json) → List (Str × Json)) (hord : ∀ l, (ord l).Perm l) :
    ∀ (ts : List (Str × JTree)) (d : Nat) (p : List (Str × JTree)) (o es : List (Str × Json)), litsFields ts →
      SerdeObj p o → fieldsToSerde D ord d ts o = some es → SerdeObj (p ++ ts) es
  | [], _, p, o, es, _, hr, h => by simp only [fieldsToSerde] at h; cases h; rw [List.append_nil]; exact hr
  | (k, t) :: ts, d, p, o, es, hl, hr, h => by
    simp only [fieldsToSerde, Option.bind_eq_bind, Option.bind_eq_some_iff] at h
    obtain ⟨j, h1, h⟩ := h
    simp only [litsFields] at hl
    have := fieldsToSerde_means D ord hord ts d (p ++ [(k, t)]) _ es hl.2 (hr.add k (toSerde_means D ord hord t d j hl.1 h1)) h
    rwa [List.append_assoc] at this
end

/-- **C81** (the value in the command line tool) — what `serde_json` makes of a text is the value the text denotes: a literal that is the decimal text of an
integer is that integer, other numbers are floats, escapes are decoded, of a repeated name the last value counts. -/
theorem C81_serde_value (D : Doubles) (ord : List (Str × Json) → List (Str × Json)) (hord : ∀ l, (ord l).Perm l) (s : Str) (j : Json)
    (h : serdeFromStr D ord s = some j) : ∃ t, Text s t ∧ SerdeMeans t j := by
  unfold serdeFromStr at h
  rw [Option.bind_eq_some_iff] at h
  obtain ⟨t, h1, h2⟩ := h
  exact ⟨t, (pText_iff s t).1 h1, toSerde_means D ord hord t 127 j (pText_lits h1) h2⟩

theorem intDec_inj {a b : Int} (h : intDec a = intDec b) : a = b := by
  have hd : ∀ m n : Nat, '-' :: natDec m ≠ natDec n := by
    intro m n he
    obtain ⟨c, s, hc, hd⟩ := natDec_head n
    rw [hc] at he
    exact (isDig_facts hd).1 (List.cons.inj he).1.symm
  unfold intDec at h
  split_ifs at h with h1 h2 h2
  · have := natDec_inj (List.cons.inj h).2
    omega
  · exact absurd h (hd _ _)
  · exact absurd h.symm (hd _ _)
  · have := natDec_inj h
    omega

/-- **C81** (no ambiguity, command line tool) — a text denotes one value, up to the order of the entries of its objects. -/
theorem C81_serde_unambiguous (s : Str) (t t' : JTree) (h : Text s t) (h' : Text s t') (j j' : Json) (hj : SerdeMeans t j) (hj' : SerdeMeans t' j') :
    SameValue j j' := by
  have := Option.some.inj (((pText_iff s t).2 h).symm.trans ((pText_iff s t').2 h'))
  subst this
  clear h h'
  induction hj generalizing j' with
  | null => cases hj'; exact .refl _
  | bool b => cases hj'; exact .refl _
  | str s => cases hj'; exact .refl _
  | int z =>
    generalize hl : intDec z = lit at hj'
    cases hj' with
    | int z' => rw [intDec_inj hl]; exact .refl _
    | float hn => exact absurd hl.symm (hn z)
  | float hn =>
    cases hj' with
    | int z' => exact absurd rfl (hn z')
    | float => exact .refl _
  | @arr l l' hlen _ ih =>
    cases hj' with
    | @arr _ l'' hlen' hi =>
      refine .arr (hlen.symm.trans hlen') fun i u v hu hv => ?_
      have hlt : i < l.length := by
        rw [hlen]
        by_contra hc
        rw [List.getElem?_eq_none (by omega)] at hu
        cases hu
      exact ih i l[i] u (by simp [hlt]) hu v (hi i l[i] v (by simp [hlt]) hv)
  | @obj l o hk _ _ ih =>
    cases hj' with
    | @obj _ o' hk' _ hv' =>
      refine .obj (fun k => by rw [hk, hk']) fun k u v hu hv => ?_
      obtain ⟨t, ht⟩ := (hk k).1 ⟨u, hu⟩
      obtain ⟨t', ht'⟩ := LastValue.exists ht
      exact ih k u t' hu ht' v (hv' k v t' hv ht')

/-- The text of `jsonExample` in the command line tool: `b` keeps its place and has its last value, an integer; the numbers have to be in range. -/
example (D : Doubles) (h2 : D.outOfRange ['1'] = false) (h3 : D.outOfRange ['2'] = false) :
    ∃ j, serdeFromStr D (fun l => l) jsonExample = some j ∧ j = .obj [(['b'], .int 2), (['1', '0'], .str ['é', '😀']), (['9'], .arr [.null])] ∧
      ∃ t, Text jsonExample t ∧ SerdeMeans t j := by
  have h1 := (pText_iff _ _).2 jsonExample_text
  have e : serdeFromStr D (fun l => l) jsonExample = some (.obj [(['b'], .int 2), (['1', '0'], .str ['é', '😀']), (['9'], .arr [.null])]) := by
    unfold serdeFromStr
    rw [h1]
    simp [JTree.toSerde, fieldsToSerde, treesToSerde, serdeNum, h2, h3, isDig, decVal, digVal, AMap.insert]
  exact ⟨_, e, rfl, C81_serde_value D _ (fun _ => List.Perm.refl _) _ _ e⟩

end Zkenc.Props
