import Verif.Proofs.SerializableJson
import Verif.Proofs.JsonExt
import Verif.Proofs.Str
import Verif.Props.EndToEndPublic
/-!
# Lemmas on the JSON form of serializable circuits: trees, UTF-8 prefixes
-/

namespace Zkenc

open JsonSpec

theorem allSome_map {α β γ : Type} (f : β → Option γ) (g : α → β) (h : α → γ) : ∀ (l : List α), (∀ a ∈ l, f (g a) = some (h a)) →
    allSome f (l.map g) = some (l.map h)
  | [], _ => rfl
  | a :: l, H => by
    rw [List.map_cons, allSome, H a (by simp), allSome_map f g h l fun x hx => H x (by simp [hx])]
    rfl

theorem allSome_map_id {α β : Type} (f : β → Option α) (g : α → β) (l : List α) (H : ∀ a ∈ l, f (g a) = some a) :
    allSome f (l.map g) = some l := by
  rw [allSome_map f g id l H, List.map_id]

theorem allSome_mem {α β : Type} {f : α → Option β} : ∀ {l : List α} {l' : List β}, allSome f l = some l' → ∀ b ∈ l', ∃ a ∈ l, f a = some b
  | [], l', h, b, hb => by simp only [allSome, Option.some.injEq] at h; subst h; simp at hb
  | a :: l, l', h, b, hb => by
    rw [allSome] at h
    obtain ⟨x, h1, h⟩ := Option.bind_eq_some_iff.1 h
    obtain ⟨xs, h2, h⟩ := Option.bind_eq_some_iff.1 h
    cases h
    rcases List.mem_cons.1 hb with rfl | hb
    · exact ⟨a, by simp, h1⟩
    · obtain ⟨a', h3, h4⟩ := allSome_mem h2 b hb
      exact ⟨a', by simp [h3], h4⟩

theorem treeNat_natTree {b n : Nat} (h : n < b) : treeNat b (natTree n) = some n := by
  obtain ⟨h1, -, h2⟩ := natDec_spec n
  simp only [treeNat, natTree, h1, h2, h, and_self, if_true]

theorem treeNat_lt {b n : Nat} {t : JTree} (h : treeNat b t = some n) : n < b := by
  unfold treeNat at h
  split at h
  · split_ifs at h with hb
    cases h
    exact hb.2
  · cases h

theorem treeByte_natTree (x : UInt8) : treeByte (natTree x.toNat) = some x := by
  rw [treeByte, treeNat_natTree (by have := x.toNat_lt; simpa using this)]
  simp

theorem treeBytes_bytesTree (b : Bytes) : treeBytes (bytesTree b) = some b := by
  simp only [treeBytes, treeSeq, bytesTree]
  exact allSome_map_id _ _ b fun x _ => treeByte_natTree x

theorem treeStr_strTree (s : String) : treeStr (strTree s) = some s := by
  simp [treeStr, strTree]

theorem numLit_natDec (n : Nat) : NumLit (natDec n) := by
  simpa using NumLit.mk [] (natDec n) [] [] (Or.inl rfl) (natDec_lit n) (Or.inl rfl) (Or.inl rfl)

theorem keyNat_natDec {n : Nat} (h : n < 2 ^ 32) : keyNat (natDec n) = some n := by
  have := pNum_append (numLit_natDec n) stops_nil
  rw [List.append_nil] at this
  simp only [keyNat, this]
  exact treeNat_natTree h

theorem keyNat_lt {k : Str} {n : Nat} (h : keyNat k = some n) : n < 2 ^ 32 := by
  unfold keyNat at h
  split at h
  · exact treeNat_lt h
  · cases h

theorem treeMap_mapTree {α : Type} (f : JTree → Option α) (g : α → JTree) (m : List (Nat × α)) (hd : (m.map (·.1)).Nodup)
    (hk : ∀ e ∈ m, e.1 < 2 ^ 32) (hv : ∀ e ∈ m, f (g e.2) = some e.2) : treeMap f (mapTree g m) = some m := by
  simp only [treeMap, mapTree]
  rw [allSome_map_id _ _ m fun e he => ?_]
  · simp [Props.foldl_insertKV [] m (by simpa using hd)]
  · simp only [keyNat_natDec (hk e he), hv e he]
    rfl

theorem insertKV_nodup {α : Type} (m : List (Nat × α)) (e : Nat × α) (h : (m.map (·.1)).Nodup) : ((insertKV m e).map (·.1)).Nodup := by
  unfold insertKV
  split_ifs with hm
  · have : (m.map fun x => if x.1 = e.1 then e else x).map (·.1) = m.map (·.1) := by
      rw [List.map_map]
      apply List.map_congr_left
      intro x _
      simp only [Function.comp]
      split_ifs with hx
      · exact hx.symm
      · rfl
    rwa [this]
  · rw [List.map_append, List.nodup_append]
    refine ⟨h, by simp, ?_⟩
    intro a ha b hb hab
    simp only [List.map_cons, List.map_nil, List.mem_singleton] at hb
    subst hb hab
    obtain ⟨x, hx, hxa⟩ := List.mem_map.1 ha
    apply hm
    simp only [List.any_eq_true, beq_iff_eq]
    exact ⟨x, hx, hxa⟩

theorem insertKV_mem {α : Type} {m : List (Nat × α)} {e x : Nat × α} (h : x ∈ insertKV m e) : x ∈ m ∨ x = e := by
  unfold insertKV at h
  split_ifs at h with hm
  · obtain ⟨y, hy, rfl⟩ := List.mem_map.1 h
    split_ifs
    · exact Or.inr rfl
    · exact Or.inl hy
  · simpa using h

theorem foldl_insertKV_spec {α : Type} : ∀ (l acc : List (Nat × α)), (acc.map (·.1)).Nodup →
    ((l.foldl insertKV acc).map (·.1)).Nodup ∧ ∀ x ∈ l.foldl insertKV acc, x ∈ acc ∨ x ∈ l
  | [], acc, h => ⟨h, fun x hx => Or.inl hx⟩
  | e :: l, acc, h => by
    obtain ⟨h1, h2⟩ := foldl_insertKV_spec l (insertKV acc e) (insertKV_nodup acc e h)
    refine ⟨h1, fun x hx => ?_⟩
    rcases h2 x hx with h3 | h3
    · rcases insertKV_mem h3 with h4 | rfl
      · exact Or.inl h4
      · exact Or.inr (by simp)
    · exact Or.inr (by simp [h3])

theorem treeMap_spec {α : Type} {f : JTree → Option α} {t : JTree} {m : List (Nat × α)} (h : treeMap f t = some m) :
    (m.map (·.1)).Nodup ∧ ∀ e ∈ m, e.1 < 2 ^ 32 := by
  unfold treeMap at h
  split at h
  · obtain ⟨l, h1, rfl⟩ := Option.map_eq_some_iff.1 h
    obtain ⟨h2, h3⟩ := foldl_insertKV_spec l [] (by simp)
    refine ⟨h2, fun e he => ?_⟩
    rcases h3 e he with h4 | h4
    · simp at h4
    · obtain ⟨a, -, h5⟩ := allSome_mem h1 e h4
      obtain ⟨k, h6, h5⟩ := Option.bind_eq_some_iff.1 h5
      obtain ⟨v, -, h5⟩ := Option.bind_eq_some_iff.1 h5
      cases h5
      exact keyNat_lt h6
  · cases h

theorem filter_zip {α : Type} : ∀ {names : List Str} {ts : List α}, names.Nodup → ∀ {n t}, (n, t) ∈ names.zip ts →
    (names.zip ts).filter (fun e => e.1 = n) = [(n, t)]
  | [], _, _, n, t, h => by simp at h
  | _ :: _, [], _, n, t, h => by simp at h
  | m :: names, u :: ts, hd, n, t, h => by
    obtain ⟨hm, hd⟩ := List.nodup_cons.1 hd
    rw [List.zip_cons_cons] at h ⊢
    rcases List.mem_cons.1 h with h | h
    · cases h
      rw [List.filter_cons_of_pos (by simp)]
      congr 1
      rw [List.filter_eq_nil_iff]
      rintro ⟨a, b⟩ hab
      simp only [decide_eq_true_eq]
      rintro rfl
      exact hm (List.of_mem_zip hab).1
    · rw [List.filter_cons_of_neg, filter_zip hd h]
      simp only [decide_eq_true_eq]
      rintro rfl
      exact hm (List.of_mem_zip h).1

theorem allSome_zip {α β : Type} (f : α → Option β) : ∀ (names : List α) (ts : List β), names.length = ts.length →
    (∀ p ∈ names.zip ts, f p.1 = some p.2) → allSome f names = some ts
  | [], [], _, _ => rfl
  | [], _ :: _, h, _ => by simp at h
  | _ :: _, [], h, _ => by simp at h
  | n :: names, t :: ts, h, H => by
    rw [allSome, H (n, t) (by simp), allSome_zip f names ts (by simpa using h) fun p hp => H p (by simp [hp])]
    rfl

theorem structFields_structTree {names opt : List Str} {ts : List JTree} (hd : names.Nodup) (hl : names.length = ts.length) :
    structFields names opt (structTree names ts) = some ts := by
  simp only [structFields, structTree]
  apply allSome_zip _ _ _ hl
  rintro ⟨n, t⟩ hp
  simp only [filter_zip hd hp]

/-! ## Number literals of the trees -/

theorem litsItems_of : ∀ {l : List JTree}, (∀ t ∈ l, t.Lits) → litsItems l
  | [], _ => trivial
  | t :: l, h => ⟨h t (by simp), litsItems_of fun u hu => h u (by simp [hu])⟩
theorem litsFields_of : ∀ {l : List (Str × JTree)}, (∀ t ∈ l, t.2.Lits) → litsFields l
  | [], _ => trivial
  | (_, t) :: l, h => ⟨h _ List.mem_cons_self, litsFields_of fun u hu => h u (by simp [hu])⟩

theorem lits_arr {l : List JTree} (h : ∀ t ∈ l, t.Lits) : (JTree.arr l).Lits := by
  rw [JTree.Lits]; exact litsItems_of h
theorem lits_natTree (n : Nat) : (natTree n).Lits := by rw [natTree, JTree.Lits]; exact numLit_natDec n
theorem lits_strTree (s : String) : (strTree s).Lits := by simp [strTree, JTree.Lits]
theorem lits_null : JTree.null.Lits := by simp [JTree.Lits]
theorem lits_bytesTree (b : Bytes) : (bytesTree b).Lits := by
  refine lits_arr fun t ht => ?_
  obtain ⟨x, -, rfl⟩ := List.mem_map.1 ht
  exact lits_natTree _
theorem lits_mapTree {α : Type} (g : α → JTree) (m : List (Nat × α)) (h : ∀ a, (g a).Lits) : (mapTree g m).Lits := by
  rw [mapTree, JTree.Lits]
  refine litsFields_of fun t ht => ?_
  obtain ⟨x, -, rfl⟩ := List.mem_map.1 ht
  exact h _
theorem lits_structTree {names : List Str} {ts : List JTree} (h : ∀ t ∈ ts, t.Lits) : (structTree names ts).Lits := by
  rw [structTree, JTree.Lits]
  exact litsFields_of fun p hp => h _ (List.of_mem_zip (a := p.1) (b := p.2) hp).2

theorem lits_factorTree (f : SFactor) : (factorTree f).Lits := by
  refine lits_structTree fun t ht => ?_
  simp only [List.mem_cons, List.not_mem_nil, or_false] at ht
  rcases ht with rfl | rfl
  · exact lits_natTree _
  · exact lits_bytesTree _
theorem lits_lcTree (fs : List SFactor) : (lcTree fs).Lits := by
  refine lits_structTree fun t ht => ?_
  simp only [List.mem_cons, List.not_mem_nil, or_false] at ht
  subst ht
  refine lits_arr fun t ht => ?_
  obtain ⟨x, -, rfl⟩ := List.mem_map.1 ht
  exact lits_factorTree _
theorem lits_constraintTree (k : SConstraint) : (constraintTree k).Lits := by
  refine lits_structTree fun t ht => ?_
  simp only [List.mem_cons, List.not_mem_nil, or_false] at ht
  rcases ht with rfl | rfl | rfl <;> exact lits_lcTree _
theorem lits_circuitTree (c : SCircuit) : (circuitTree c).Lits := by
  refine lits_structTree fun t ht => ?_
  simp only [List.mem_cons, List.not_mem_nil, or_false] at ht
  rcases ht with rfl | rfl | rfl | rfl | rfl | rfl | rfl | rfl | rfl
  · exact lits_natTree _
  · exact lits_bytesTree _
  · exact lits_natTree _
  · exact lits_natTree _
  · exact lits_natTree _
  · exact lits_natTree _
  · exact lits_natTree _
  · refine lits_arr fun t ht => ?_
    obtain ⟨x, -, rfl⟩ := List.mem_map.1 ht
    exact lits_constraintTree _
  · split
    · exact lits_null
    · exact lits_mapTree _ _ lits_strTree
theorem lits_witnessTree (w : SWitness) : (witnessTree w).Lits := by
  refine lits_structTree fun t ht => ?_
  simp only [List.mem_cons, List.not_mem_nil, or_false] at ht
  subst ht
  exact lits_mapTree _ _ lits_bytesTree
theorem lits_testCaseTree (c : STestCase) : (testCaseTree c).Lits := by
  refine lits_structTree fun t ht => ?_
  simp only [List.mem_cons, List.not_mem_nil, or_false] at ht
  rcases ht with rfl | rfl | rfl | rfl
  · exact lits_circuitTree _
  · exact lits_witnessTree _
  · exact lits_strTree _
  · split
    · exact lits_null
    · exact lits_strTree _

/-! ## Reading back what was written -/

theorem treeFactor_tree (f : SFactor) (h : f.wireId < 2 ^ 32) : treeFactor (factorTree f) = some f := by
  rw [treeFactor, factorTree, structFields_structTree (by decide) rfl]
  simp only [treeNat_natTree h, treeBytes_bytesTree]
  rfl

theorem treeLc_tree (fs : List SFactor) (h : ∀ f ∈ fs, f.wireId < 2 ^ 32) : treeLc (lcTree fs) = some fs := by
  rw [treeLc, lcTree, structFields_structTree (by decide) rfl]
  exact allSome_map_id _ _ fs fun f hf => treeFactor_tree f (h f hf)

theorem treeConstraint_tree (k : SConstraint) (h : ∀ fs ∈ [k.a, k.b, k.c], ∀ f ∈ fs, f.wireId < 2 ^ 32) :
    treeConstraint (constraintTree k) = some k := by
  rw [treeConstraint, constraintTree, structFields_structTree (by decide) rfl]
  simp only [treeLc_tree _ (h k.a (by simp)), treeLc_tree _ (h k.b (by simp)), treeLc_tree _ (h k.c (by simp))]
  rfl

theorem treeOpt_null {α : Type} (f : JTree → Option α) : treeOpt f .null = some none := rfl

/-! ## UTF-8 -/

theorem utf8EncodeChar_inj {c d : Char} {x y : Bytes} (h : String.utf8EncodeChar c ++ x = String.utf8EncodeChar d ++ y) : c = d := by
  have h1 := @ByteArray.utf8DecodeChar?_utf8EncodeChar_append ⟨x.toArray⟩ c
  have h2 := @ByteArray.utf8DecodeChar?_utf8EncodeChar_append ⟨y.toArray⟩ d
  have : (String.utf8EncodeChar c).toByteArray ++ (⟨x.toArray⟩ : ByteArray) = (String.utf8EncodeChar d).toByteArray ++ ⟨y.toArray⟩ := by
    apply ByteArray.ext
    apply Array.ext'
    simpa using h
  rw [this, h2] at h1
  exact (Option.some.inj h1).symm

theorem utf8Enc_prefix : ∀ (s' s : Str) (rest : Bytes), utf8Enc s' ++ rest = utf8Enc s → ∃ e, s = s' ++ e
  | [], s, _, _ => ⟨s, rfl⟩
  | c :: t, [], rest, h => by
    rw [Props.utf8Enc_cons] at h
    have := congrArg List.length h
    have hc : 0 < (String.utf8EncodeChar c).length := by simp [Char.utf8Size_pos]
    have h0 : (utf8Enc []).length = 0 := by decide
    simp only [List.length_append] at this
    omega
  | c :: t, d :: u, rest, h => by
    rw [Props.utf8Enc_cons, Props.utf8Enc_cons, List.append_assoc] at h
    have hc := utf8EncodeChar_inj h
    subst hc
    obtain ⟨e, rfl⟩ := utf8Enc_prefix t u rest (List.append_cancel_left h)
    exact ⟨e, rfl⟩

theorem utf8Dec_eq {b : Bytes} {s : String} (h : utf8Dec b = some s) : b = utf8Enc s.toList := by
  unfold utf8Dec String.fromUTF8? at h
  split_ifs at h
  cases h
  simp [utf8Enc, String.fromUTF8]

/-- What is decoded from the first bytes of a text is a prefix of the text. -/
theorem utf8Dec_take {s : Str} {n : Nat} {s' : String} (h : utf8Dec ((utf8Enc s).take n) = some s') : ∃ e, s = s'.toList ++ e := by
  apply utf8Enc_prefix _ _ ((utf8Enc s).drop n)
  rw [← utf8Dec_eq h, List.take_append_drop]

end Zkenc
