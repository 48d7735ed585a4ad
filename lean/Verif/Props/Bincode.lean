import Verif.Spec.Bincode
import Verif.Props.Curve
import Verif.Props.TestFixture
/-!
# Property theorems C96: which bytes are which circuit, in the binary files of `serializable.rs`
-/

namespace Zkenc.Props

open Zkenc Spec Reader BincodeSpec

/-! ## Readers and what they accept -/

theorem acc_num (k : Nat) : Accepts (Reader.bind (Reader.take k) fun b => Reader.pure (leNat b)) (IsNum k) := by
  intro b v t
  rw [bind_some_iff]
  constructor
  · rintro ⟨e, t', h1, h2⟩
    unfold Reader.take at h1
    split at h1
    · cases h1
    · rename_i hl
      simp only [Option.some.injEq, Prod.mk.injEq, Reader.pure] at h1 h2
      obtain ⟨rfl, rfl⟩ := h1
      obtain ⟨rfl, rfl⟩ := h2
      exact ⟨b.take k, ⟨by simp; omega, rfl⟩, (List.take_append_drop _ _).symm⟩
  · rintro ⟨e, ⟨h1, rfl⟩, rfl⟩
    exact ⟨e, t, Reader.Reads.take e h1 t, rfl⟩

theorem acc_u32 : Accepts rdU32 (IsNum 4) := acc_num 4
theorem acc_u64 : Accepts rdU64 (IsNum 8) := acc_num 8

theorem acc_bytes : Accepts rdBytes IsBytes := by
  intro b v t
  unfold rdBytes
  rw [bind_some_iff]
  constructor
  · rintro ⟨n, t', h1, h2⟩
    obtain ⟨e, ⟨he, rfl⟩, rfl⟩ := (acc_u64 _ _ _).1 h1
    unfold Reader.take at h2
    split at h2
    · cases h2
    · rename_i hl
      simp only [Option.some.injEq, Prod.mk.injEq] at h2
      obtain ⟨rfl, rfl⟩ := h2
      exact ⟨e ++ t'.take (leNat e), ⟨e, ⟨he, by simp; omega⟩, rfl⟩, by simp⟩
  · rintro ⟨e, ⟨n, hn, rfl⟩, rfl⟩
    exact ⟨v.length, v ++ t, (acc_u64 _ _ _).2 ⟨n, hn, by simp⟩, Reader.Reads.take v rfl t⟩

theorem utf8Dec_iff (b : Bytes) (s : String) : utf8Dec b = some s ↔ b = s.toUTF8.data.toList := by
  constructor
  · intro h
    unfold utf8Dec String.fromUTF8? at h
    split at h
    · simp only [Option.some.injEq] at h
      subst h
      rfl
    · cases h
  · rintro rfl
    exact utf8Dec_enc s

theorem acc_text : Accepts rdString IsText := by
  intro b s t
  unfold rdString
  rw [bind_some_iff]
  constructor
  · rintro ⟨v, t', h1, h2⟩
    simp only [Reader.lift, Option.map_eq_some_iff, Prod.mk.injEq] at h2
    obtain ⟨s', h3, rfl, rfl⟩ := h2
    obtain ⟨e, he, rfl⟩ := (acc_bytes _ _ _).1 h1
    exact ⟨e, by rw [IsText, ← (utf8Dec_iff _ _).1 h3]; exact he, rfl⟩
  · rintro ⟨e, he, rfl⟩
    exact ⟨_, t, (acc_bytes _ _ _).2 ⟨e, he, rfl⟩, by simp [Reader.lift, utf8Dec_enc]⟩

theorem acc_pair {α β γ : Type} {r : Reader α} {r' : Reader β} {E : Bytes → α → Prop} {E' : Bytes → β → Prop} (h : Accepts r E) (h' : Accepts r' E')
    (mk : α → β → γ) (un : γ → α × β) (hmk : ∀ a b, un (mk a b) = (a, b)) (hun : ∀ c, mk (un c).1 (un c).2 = c) :
    Accepts (Reader.bind r fun a => Reader.bind r' fun b => Reader.pure (mk a b)) (fun e c => IsPair E E' e (un c)) := by
  intro b c t
  rw [bind_some_iff]
  constructor
  · rintro ⟨a, t1, h1, h2⟩
    rw [bind_some_iff] at h2
    obtain ⟨x, t2, h3, h4⟩ := h2
    simp only [Reader.pure, Option.some.injEq, Prod.mk.injEq] at h4
    obtain ⟨rfl, rfl⟩ := h4
    obtain ⟨e, he, rfl⟩ := (h _ _ _).1 h1
    obtain ⟨e', he', rfl⟩ := (h' _ _ _).1 h3
    exact ⟨e ++ e', ⟨e, e', by rw [hmk]; exact he, by rw [hmk]; exact he', rfl⟩, by simp⟩
  · rintro ⟨_, ⟨e, e', he, he', rfl⟩, rfl⟩
    refine ⟨(un c).1, e' ++ t, (h _ _ _).2 ⟨e, he, by simp⟩, (bind_some_iff _ _ _ _ _).2 ⟨(un c).2, t, (h' _ _ _).2 ⟨e', he', rfl⟩, ?_⟩⟩
    simp [Reader.pure, hun]

theorem acc_seq {α : Type} {r : Reader α} {E : Bytes → α → Prop} (h : Accepts r E) : Accepts (rdSeq r) (IsSeq E) := by
  intro b l t
  unfold rdSeq
  rw [bind_some_iff]
  constructor
  · rintro ⟨n, t', h1, h2⟩
    obtain ⟨e, ⟨he, rfl⟩, rfl⟩ := (acc_u64 _ _ _).1 h1
    obtain ⟨_, ⟨hl, es, hes, rfl⟩, rfl⟩ := (many_accepts h _ _ _ _).1 h2
    exact ⟨_, ⟨e, es, ⟨he, hl.symm⟩, hes, rfl⟩, by simp⟩
  · rintro ⟨_, ⟨n, es, hn, hes, rfl⟩, rfl⟩
    exact ⟨l.length, es.flatten ++ t, (acc_u64 _ _ _).2 ⟨n, hn, by simp⟩, (many_accepts h _ _ _ _).2 ⟨_, ⟨rfl, es, hes, rfl⟩, rfl⟩⟩

theorem seq_map {α β : Type} (E : Bytes → β → Prop) (f : α → β) (b : Bytes) (l : List α) : IsSeq (fun e a => E e (f a)) b l ↔ IsSeq E b (l.map f) := by
  unfold IsSeq
  simp only [List.length_map, List.forall₂_map_right_iff]

theorem acc_lc : Accepts (rdSeq rdFactor) IsLc := by
  intro b l t
  have h := acc_seq (acc_pair acc_u32 acc_bytes SFactor.mk (fun f => (f.wireId, f.coefficientBytes)) (fun _ _ => rfl) fun _ => rfl) b l t
  simp only [seq_map] at h
  exact h

theorem acc_constraint : Accepts rdConstraint IsConstraint := by
  intro b k t
  unfold rdConstraint
  simp only [bind_some_iff, acc_lc _ _ _, Reader.pure, Option.some.injEq, Prod.mk.injEq]
  constructor
  · rintro ⟨x, _, ⟨e1, h1, rfl⟩, y, _, ⟨e2, h2, rfl⟩, z, _, ⟨e3, h3, rfl⟩, rfl, rfl⟩
    exact ⟨_, ⟨e1, e2, e3, h1, h2, h3, rfl⟩, by simp⟩
  · rintro ⟨_, ⟨e1, e2, e3, h1, h2, h3, rfl⟩, rfl⟩
    exact ⟨_, _, ⟨e1, h1, by simp⟩, _, _, ⟨e2, h2, rfl⟩, _, _, ⟨e3, h3, rfl⟩, rfl, rfl⟩

/-! ## Maps -/

theorem mapOf_insert {α : Type} (l m : List (Nat × α)) (e : Nat × α) (h : IsMapOf l m) : IsMapOf (l ++ [e]) (insertKV m e) := by
  obtain ⟨hn, hm⟩ := h
  have key : ∀ k v, (∃ l1 l2, l ++ [e] = l1 ++ (k, v) :: l2 ∧ ∀ x ∈ l2, x.1 ≠ k) ↔ ((k, v) = e ∨ (k ≠ e.1 ∧ (k, v) ∈ m)) := by
    intro k v
    constructor
    · rintro ⟨l1, l2, h1, h2⟩
      rcases List.eq_nil_or_concat l2 with rfl | ⟨l2', x, rfl⟩
      · have := List.append_inj' h1 rfl
        simp only [List.cons.injEq, and_true] at this
        exact .inl this.2.symm
      · rw [List.concat_eq_append, ← List.cons_append, ← List.append_assoc] at h1
        have h3 := List.append_inj' h1 rfl
        simp only [List.cons.injEq, and_true] at h3
        obtain ⟨h3, rfl⟩ := h3
        refine .inr ⟨fun hc => h2 e (by simp) hc.symm, (hm k v).2 ⟨l1, l2', h3, fun x hx => h2 x (by simp [hx])⟩⟩
    · rintro (rfl | ⟨hk, hv⟩)
      · exact ⟨l, [], rfl, by simp⟩
      · obtain ⟨l1, l2, rfl, h2⟩ := (hm k v).1 hv
        refine ⟨l1, l2 ++ [e], by simp, fun x hx => ?_⟩
        rcases List.mem_append.1 hx with hx | hx
        · exact h2 x hx
        · rw [List.mem_singleton] at hx
          subst hx
          exact fun hc => hk hc.symm
  unfold insertKV
  by_cases hany : m.any (fun x => x.1 == e.1) = true
  · rw [if_pos hany]
    have hkeys : (m.map fun x => if x.1 = e.1 then e else x).map (·.1) = m.map (·.1) := by
      rw [List.map_map]
      refine List.map_congr_left fun x _ => ?_
      by_cases hx : x.1 = e.1 <;> simp [hx]
    refine ⟨by rw [hkeys]; exact hn, fun k v => ?_⟩
    rw [key, List.mem_map]
    simp only [List.any_eq_true, beq_iff_eq] at hany
    constructor
    · rintro ⟨x, hx, h⟩
      by_cases hxe : x.1 = e.1
      · rw [if_pos hxe] at h; exact .inl h.symm
      · rw [if_neg hxe] at h; subst h; exact .inr ⟨hxe, hx⟩
    · rintro (h | ⟨h1, h2⟩)
      · obtain ⟨x, hx, hxe⟩ := hany
        exact ⟨x, hx, by rw [if_pos hxe, h]⟩
      · exact ⟨(k, v), h2, by rw [if_neg h1]⟩
  · rw [if_neg hany]
    simp only [List.any_eq_true, beq_iff_eq, not_exists, not_and] at hany
    refine ⟨?_, fun k v => ?_⟩
    · rw [List.map_append, List.nodup_append]
      refine ⟨hn, by simp, ?_⟩
      intro a ha b hb
      obtain ⟨x, hx, rfl⟩ := List.mem_map.1 ha
      simp only [List.map_cons, List.map_nil, List.mem_singleton] at hb
      subst hb
      exact hany x hx
    · rw [key, List.mem_append, List.mem_singleton]
      constructor
      · rintro (h | h)
        · exact .inr ⟨hany (k, v) h, h⟩
        · exact .inl h
      · rintro (h | ⟨-, h⟩)
        · exact .inr h
        · exact .inl h

theorem mapOf_fold {α : Type} (l : List (Nat × α)) : IsMapOf l (l.foldl insertKV []) := by
  induction l using List.reverseRecOn with
  | nil => exact ⟨by simp, by simp⟩
  | append_singleton l e ih => rw [List.foldl_append]; exact mapOf_insert l _ e ih

theorem mapOf_perm {α : Type} {l m m' : List (Nat × α)} (h : IsMapOf l m) (h' : IsMapOf l m') : m.Perm m' := by
  refine (List.perm_ext_iff_of_nodup (List.Nodup.of_map _ h.1) (List.Nodup.of_map _ h'.1)).2 fun a => ?_
  rw [h.2 a.1 a.2, h'.2 a.1 a.2]

theorem mapOf_distinct {α : Type} {l : List (Nat × α)} (h : (l.map (·.1)).Nodup) : IsMapOf l l := by
  have := mapOf_fold l
  rwa [foldl_insertKV [] l (by simpa using h), List.nil_append] at this

/-- A map in the listing the model uses. -/
def FoldMap {α : Type} (E : Bytes → α → Prop) (b : Bytes) (m : List (Nat × α)) : Prop :=
  ∃ l, IsSeq (IsPair (IsNum 4) E) b l ∧ m = l.foldl insertKV []

theorem FoldMap.isMap {α : Type} {E : Bytes → α → Prop} {b : Bytes} {m : List (Nat × α)} (h : FoldMap E b m) : IsMap E b m := by
  obtain ⟨l, h, rfl⟩ := h
  exact ⟨l, h, mapOf_fold l⟩

theorem isMap_fold {α : Type} {E : Bytes → α → Prop} {b : Bytes} {m : List (Nat × α)} (h : IsMap E b m) : ∃ m', FoldMap E b m' ∧ m.Perm m' := by
  obtain ⟨l, h, hm⟩ := h
  exact ⟨_, ⟨l, h, rfl⟩, mapOf_perm hm (mapOf_fold l)⟩

theorem acc_tag {α β : Type} {r : Reader α} {E : Bytes → α → Prop} (h : Accepts r E) (f : α → β) :
    Accepts (Reader.bind (Reader.take 1) fun t => if t = [0] then Reader.pure none else if t = [1] then Reader.bind r fun l => Reader.pure (some (f l)) else Reader.fail)
      (IsOption fun e m => ∃ l, E e l ∧ m = f l) := by
  intro b o t
  rw [bind_some_iff]
  constructor
  · rintro ⟨g, t', h1, h2⟩
    unfold Reader.take at h1
    split at h1
    · cases h1
    simp only [Option.some.injEq, Prod.mk.injEq] at h1
    obtain ⟨h1, rfl⟩ := h1
    have hb : b = g ++ b.drop 1 := by rw [← h1]; exact (List.take_append_drop 1 b).symm
    split at h2
    · rename_i hg
      simp only [Reader.pure, Option.some.injEq, Prod.mk.injEq] at h2
      obtain ⟨rfl, rfl⟩ := h2
      exact ⟨g, hg, hb⟩
    split at h2
    · rename_i hg
      rw [bind_some_iff] at h2
      obtain ⟨l, t2, h3, h4⟩ := h2
      simp only [Reader.pure, Option.some.injEq, Prod.mk.injEq] at h4
      obtain ⟨rfl, rfl⟩ := h4
      obtain ⟨e, he, h5⟩ := (h _ _ _).1 h3
      exact ⟨1 :: e, ⟨e, ⟨l, he, rfl⟩, rfl⟩, by rw [hb, hg, h5]; rfl⟩
    · simp [Reader.fail] at h2
  · rintro ⟨e, he, rfl⟩
    cases o with
    | none =>
      have he' : e = [0] := he
      subst he'
      exact ⟨[0], t, Reader.Reads.take [0] rfl t, by simp [Reader.pure]⟩
    | some m =>
      obtain ⟨e', ⟨l, hl, rfl⟩, rfl⟩ := he
      refine ⟨[1], e' ++ t, Reader.Reads.take [1] rfl (e' ++ t), ?_⟩
      rw [if_neg (by decide), if_pos rfl, bind_some_iff]
      exact ⟨l, t, (h _ _ _).2 ⟨e', hl, rfl⟩, rfl⟩

theorem acc_entry : Accepts rdEntry (IsPair (IsNum 4) IsText) :=
  acc_pair acc_u32 acc_text Prod.mk (fun p => p) (fun _ _ => rfl) fun _ => rfl

theorem acc_assignment : Accepts rdAssignment (IsPair (IsNum 4) IsBytes) :=
  acc_pair acc_u32 acc_bytes Prod.mk (fun p => p) (fun _ _ => rfl) fun _ => rfl

theorem acc_labels : Accepts rdLabels (IsOption (FoldMap IsText)) := acc_tag (acc_seq acc_entry) fun l => l.foldl insertKV []

theorem acc_optText : Accepts rdOptString (IsOption IsText) := by
  have h := acc_tag acc_text (fun s => s)
  have he : (IsOption fun e (m : String) => ∃ l, IsText e l ∧ m = l) = IsOption IsText := by
    funext e o
    cases o with
    | none => rfl
    | some s => simp [IsOption]
  rw [he] at h
  exact h

/-- A circuit with the listing of the model. -/
def FoldCircuit (b : Bytes) (c : SCircuit) : Prop :=
  ∃ f p w o i v n k l : Bytes, IsNum 4 f c.fieldSize ∧ IsBytes p c.primeBytes ∧ IsNum 4 w c.nWires ∧ IsNum 4 o c.nPubOut ∧ IsNum 4 i c.nPubIn ∧
    IsNum 4 v c.nPrvIn ∧ IsNum 4 n c.nConstraints ∧ IsSeq IsConstraint k c.constraints ∧ IsOption (FoldMap IsText) l c.wireLabels ∧
    b = f ++ p ++ w ++ o ++ i ++ v ++ n ++ k ++ l

theorem acc_circuit : Accepts rdCircuit FoldCircuit := by
  intro b c t
  have hk := acc_seq acc_constraint
  unfold rdCircuit
  simp only [bind_some_iff, acc_u32 _ _ _, acc_bytes _ _ _, hk _ _ _, acc_labels _ _ _, Reader.pure, Option.some.injEq, Prod.mk.injEq]
  constructor
  · rintro ⟨_, _, ⟨e1, h1, rfl⟩, _, _, ⟨e2, h2, rfl⟩, _, _, ⟨e3, h3, rfl⟩, _, _, ⟨e4, h4, rfl⟩, _, _, ⟨e5, h5, rfl⟩, _, _, ⟨e6, h6, rfl⟩,
      _, _, ⟨e7, h7, rfl⟩, _, _, ⟨e8, h8, rfl⟩, _, _, ⟨e9, h9, rfl⟩, rfl, rfl⟩
    exact ⟨_, ⟨e1, e2, e3, e4, e5, e6, e7, e8, e9, h1, h2, h3, h4, h5, h6, h7, h8, h9, rfl⟩, by simp⟩
  · rintro ⟨_, ⟨e1, e2, e3, e4, e5, e6, e7, e8, e9, h1, h2, h3, h4, h5, h6, h7, h8, h9, rfl⟩, rfl⟩
    exact ⟨_, _, ⟨e1, h1, by simp⟩, _, _, ⟨e2, h2, rfl⟩, _, _, ⟨e3, h3, rfl⟩, _, _, ⟨e4, h4, rfl⟩, _, _, ⟨e5, h5, rfl⟩, _, _, ⟨e6, h6, rfl⟩,
      _, _, ⟨e7, h7, rfl⟩, _, _, ⟨e8, h8, rfl⟩, _, _, ⟨e9, h9, rfl⟩, rfl, rfl⟩

theorem acc_witness : Accepts (Reader.bind (rdSeq rdAssignment) fun w => Reader.pure (w.foldl insertKV [])) (FoldMap IsBytes) := by
  intro b m t
  rw [bind_some_iff]
  constructor
  · rintro ⟨l, t', h1, h2⟩
    simp only [Reader.pure, Option.some.injEq, Prod.mk.injEq] at h2
    obtain ⟨rfl, rfl⟩ := h2
    obtain ⟨e, he, rfl⟩ := (acc_seq acc_assignment _ _ _).1 h1
    exact ⟨e, ⟨l, he, rfl⟩, rfl⟩
  · rintro ⟨e, ⟨l, he, rfl⟩, rfl⟩
    exact ⟨l, t, (acc_seq acc_assignment _ _ _).2 ⟨e, he, rfl⟩, rfl⟩

/-- A test case with the listings of the model. -/
def FoldTestCase (b : Bytes) (t : STestCase) : Prop :=
  ∃ c w n d : Bytes, FoldCircuit c t.circuit ∧ FoldMap IsBytes w t.witness.assignments ∧ IsText n t.name ∧ IsOption IsText d t.description ∧
    b = c ++ w ++ n ++ d

theorem acc_testCase : Accepts rdTestCase FoldTestCase := by
  intro b c t
  have hw := acc_seq acc_assignment
  unfold rdTestCase
  simp only [bind_some_iff, acc_circuit _ _ _, hw _ _ _, acc_text _ _ _, acc_optText _ _ _, Reader.pure, Option.some.injEq, Prod.mk.injEq]
  constructor
  · rintro ⟨_, _, ⟨e1, h1, rfl⟩, l, _, ⟨e2, h2, rfl⟩, _, _, ⟨e3, h3, rfl⟩, _, _, ⟨e4, h4, rfl⟩, rfl, rfl⟩
    exact ⟨_, ⟨e1, e2, e3, e4, h1, ⟨l, h2, rfl⟩, h3, h4, rfl⟩, by simp⟩
  · rintro ⟨_, ⟨e1, e2, e3, e4, h1, ⟨l, h2, h2'⟩, h3, h4, rfl⟩, rfl⟩
    refine ⟨_, _, ⟨e1, h1, by simp⟩, l, _, ⟨e2, h2, rfl⟩, _, _, ⟨e3, h3, rfl⟩, _, _, ⟨e4, h4, rfl⟩, ?_, rfl⟩
    rw [← h2']

theorem FoldCircuit.isCircuit {b : Bytes} {c : SCircuit} (h : FoldCircuit b c) : IsCircuit b c := by
  obtain ⟨e1, e2, e3, e4, e5, e6, e7, e8, e9, h1, h2, h3, h4, h5, h6, h7, h8, h9, rfl⟩ := h
  refine ⟨e1, e2, e3, e4, e5, e6, e7, e8, e9, h1, h2, h3, h4, h5, h6, h7, h8, ?_, rfl⟩
  cases hl : c.wireLabels with
  | none => rw [hl] at h9; exact h9
  | some m =>
    rw [hl] at h9
    obtain ⟨e, he, rfl⟩ := h9
    exact ⟨e, he.isMap, rfl⟩

theorem isCircuit_fold {b : Bytes} {c : SCircuit} (h : IsCircuit b c) : ∃ c', FoldCircuit b c' ∧ SameCircuit c c' := by
  obtain ⟨e1, e2, e3, e4, e5, e6, e7, e8, e9, h1, h2, h3, h4, h5, h6, h7, h8, h9, rfl⟩ := h
  cases hl : c.wireLabels with
  | none =>
    rw [hl] at h9
    exact ⟨c, ⟨e1, e2, e3, e4, e5, e6, e7, e8, e9, h1, h2, h3, h4, h5, h6, h7, h8, by rw [hl]; exact h9, rfl⟩, rfl, by simp [hl]⟩
  | some m =>
    rw [hl] at h9
    obtain ⟨e, he, rfl⟩ := h9
    obtain ⟨m', hm', hp⟩ := isMap_fold he
    exact ⟨{ c with wireLabels := some m' }, ⟨e1, e2, e3, e4, e5, e6, e7, e8, _, h1, h2, h3, h4, h5, h6, h7, h8, ⟨e, hm', rfl⟩, rfl⟩, rfl, by simpa [hl] using hp⟩

/-! ## The property -/

/-- **C96** (circuits: what is accepted) — if the bytes are read as a circuit, they begin with an encoding of that circuit in the sense of the specification. -/
theorem C96_circuit_read (b : Bytes) (c : SCircuit) (h : fromBincode b = some c) : ∃ e t, IsCircuit e c ∧ b = e ++ t := by
  unfold fromBincode at h
  rw [Option.map_eq_some_iff] at h
  obtain ⟨⟨c', t⟩, h, rfl⟩ := h
  obtain ⟨e, he, rfl⟩ := (acc_circuit _ _ _).1 h
  exact ⟨e, t, he.isCircuit, rfl⟩

/-- **C96** (circuits: all of them are accepted) — bytes that begin with an encoding of a circuit are read as that circuit; what follows is ignored. -/
theorem C96_circuit_accepted (e t : Bytes) (c : SCircuit) (h : IsCircuit e c) : ∃ c', fromBincode (e ++ t) = some c' ∧ SameCircuit c c' := by
  obtain ⟨c', h1, h2⟩ := isCircuit_fold h
  exact ⟨c', by unfold fromBincode; rw [(acc_circuit _ _ _).2 ⟨e, h1, rfl⟩]; rfl, h2⟩

/-- **C96** (test cases: what is accepted). -/
theorem C96_test_case_read (b : Bytes) (c : STestCase) (h : testCaseFromBincode b = some c) : ∃ e t, IsTestCase e c ∧ b = e ++ t := by
  unfold testCaseFromBincode at h
  rw [Option.map_eq_some_iff] at h
  obtain ⟨⟨c', t⟩, h, rfl⟩ := h
  obtain ⟨e, ⟨e1, e2, e3, e4, h1, h2, h3, h4, rfl⟩, rfl⟩ := (acc_testCase _ _ _).1 h
  exact ⟨_, t, ⟨e1, e2, e3, e4, h1.isCircuit, h2.isMap, h3, h4, rfl⟩, rfl⟩

/-- **C96** (test cases: all of them are accepted). -/
theorem C96_test_case_accepted (e t : Bytes) (c : STestCase) (h : IsTestCase e c) : ∃ c', testCaseFromBincode (e ++ t) = some c' ∧ SameTestCase c c' := by
  obtain ⟨e1, e2, e3, e4, h1, h2, h3, h4, rfl⟩ := h
  obtain ⟨c', h1, hs⟩ := isCircuit_fold h1
  obtain ⟨m', h2, hp⟩ := isMap_fold h2
  refine ⟨⟨c', ⟨m'⟩, c.name, c.description⟩, ?_, hs, hp, rfl, rfl⟩
  unfold testCaseFromBincode
  rw [(acc_testCase _ ⟨c', ⟨m'⟩, c.name, c.description⟩ _).2 ⟨_, ⟨e1, e2, e3, e4, h1, h2, h3, h4, rfl⟩, rfl⟩]
  rfl

/-- **C96** (what is written) — a circuit and a test case are written as an encoding of themselves. -/
theorem C96_written (c : SCircuit) (t : STestCase) :
    (SCircuit.Typed c → IsCircuit (toBincode c) c) ∧ (t.Typed → IsTestCase (testCaseToBincode t) t) := by
  constructor
  · intro h
    have h1 := rdCircuit_reads c h []
    obtain ⟨e, he, h2⟩ := (acc_circuit _ _ _).1 h1
    simp only [List.append_nil] at h2
    rw [h2]
    exact he.isCircuit
  · intro h
    have h1 := rdTestCase_reads t h []
    obtain ⟨e, ⟨e1, e2, e3, e4, h1, h2, h3, h4, rfl⟩, h5⟩ := (acc_testCase _ _ _).1 h1
    simp only [List.append_nil] at h5
    rw [h5]
    exact ⟨e1, e2, e3, e4, h1.isCircuit, h2.isMap, h3, h4, rfl⟩

/-! ## A concrete case -/

namespace Ex

/-- A label map that is written with the key 1 twice: the last entry counts. -/
def twiceLabelled : Bytes :=
  [32, 0, 0, 0] ++ [2, 0, 0, 0, 0, 0, 0, 0, 7, 9] ++ [3, 0, 0, 0] ++ [0, 0, 0, 0] ++ [1, 0, 0, 0] ++ [1, 0, 0, 0] ++ [1, 0, 0, 0] ++
  [1, 0, 0, 0, 0, 0, 0, 0, 1, 0, 0, 0, 0, 0, 0, 0, 2, 0, 0, 0, 1, 0, 0, 0, 0, 0, 0, 0, 5, 0, 0, 0, 0, 0, 0, 0, 0, 0, 0, 0, 0, 0, 0, 0, 0] ++
  [1, 2, 0, 0, 0, 0, 0, 0, 0, 1, 0, 0, 0, 1, 0, 0, 0, 0, 0, 0, 0, 97, 1, 0, 0, 0, 1, 0, 0, 0, 0, 0, 0, 0, 98]

example : fromBincode (twiceLabelled ++ [1, 2, 3]) = some ⟨32, [7, 9], 3, 0, 1, 1, 1, [⟨[⟨2, [5]⟩], [], []⟩], some [(1, "b")]⟩ := by decide +kernel

/-- The theorem of what is accepted, applied. -/
example : ∃ e t, IsCircuit e ⟨32, [7, 9], 3, 0, 1, 1, 1, [⟨[⟨2, [5]⟩], [], []⟩], some [(1, "b")]⟩ ∧ twiceLabelled ++ [1, 2, 3] = e ++ t :=
  C96_circuit_read _ _ (by decide +kernel)

/-- The encoding of a circuit without constraints, as the specification describes it. -/
theorem emptyEncoding : IsCircuit ([32, 0, 0, 0] ++ [1, 0, 0, 0, 0, 0, 0, 0, 7] ++ [1, 0, 0, 0] ++ [0, 0, 0, 0] ++ [0, 0, 0, 0] ++ [0, 0, 0, 0] ++ [0, 0, 0, 0] ++
    [0, 0, 0, 0, 0, 0, 0, 0] ++ [0]) ⟨32, [7], 1, 0, 0, 0, 0, [], none⟩ :=
  ⟨[32, 0, 0, 0], [1, 0, 0, 0, 0, 0, 0, 0, 7], [1, 0, 0, 0], [0, 0, 0, 0], [0, 0, 0, 0], [0, 0, 0, 0], [0, 0, 0, 0], [0, 0, 0, 0, 0, 0, 0, 0], [0],
    ⟨rfl, rfl⟩, ⟨[1, 0, 0, 0, 0, 0, 0, 0], ⟨rfl, rfl⟩, rfl⟩, ⟨rfl, rfl⟩, ⟨rfl, rfl⟩, ⟨rfl, rfl⟩, ⟨rfl, rfl⟩, ⟨rfl, rfl⟩, ⟨[0, 0, 0, 0, 0, 0, 0, 0], [], ⟨rfl, rfl⟩, .nil, rfl⟩, rfl, rfl⟩

example (t : Bytes) : ∃ b c', fromBincode (b ++ t) = some c' ∧ SameCircuit ⟨32, [7], 1, 0, 0, 0, 0, [], none⟩ c' :=
  ⟨_, C96_circuit_accepted _ t _ emptyEncoding⟩

/-- The same circuit with a witness that gives wire 5 the bytes 8, 9, and the name "x". -/
theorem caseEncoding : ∃ e, IsTestCase e ⟨⟨32, [7], 1, 0, 0, 0, 0, [], none⟩, ⟨[(5, [8, 9])]⟩, "x", none⟩ :=
  ⟨_, _, [1, 0, 0, 0, 0, 0, 0, 0] ++ ([5, 0, 0, 0] ++ [2, 0, 0, 0, 0, 0, 0, 0, 8, 9]), [1, 0, 0, 0, 0, 0, 0, 0, 120], [0], emptyEncoding,
    ⟨[(5, [8, 9])], ⟨[1, 0, 0, 0, 0, 0, 0, 0], [[5, 0, 0, 0] ++ [2, 0, 0, 0, 0, 0, 0, 0, 8, 9]], ⟨rfl, rfl⟩,
      .cons ⟨[5, 0, 0, 0], [2, 0, 0, 0, 0, 0, 0, 0, 8, 9], ⟨rfl, rfl⟩, ⟨[2, 0, 0, 0, 0, 0, 0, 0], ⟨rfl, rfl⟩, rfl⟩, rfl⟩ .nil, rfl⟩, mapOf_distinct (by decide)⟩,
    ⟨[1, 0, 0, 0, 0, 0, 0, 0], ⟨rfl, by decide⟩, by decide⟩, rfl, rfl⟩

/-- It is read, whatever follows it, and the theorem of what is accepted applies. -/
example (t : Bytes) : ∃ b c', testCaseFromBincode b = some c' ∧ c'.name = "x" ∧ ∃ e t, IsTestCase e c' ∧ b = e ++ t := by
  obtain ⟨e, he⟩ := caseEncoding
  obtain ⟨c', h1, h2⟩ := C96_test_case_accepted e t _ he
  exact ⟨_, c', h1, h2.2.2.1.symm, C96_test_case_read _ _ h1⟩

/-- What is written, applied to the exported square circuit. -/
example : IsCircuit (toBincode sq.toSerializable) sq.toSerializable :=
  (C96_written _ ⟨⟨32, [7], 1, 0, 0, 0, 0, [], none⟩, ⟨[]⟩, "", none⟩).1
    ⟨by decide, by decide, by decide, by decide, fun l hl => by simp [R1csFile.toSerializable] at hl⟩

end Ex

end Zkenc.Props
