import Verif.Proofs.JsonRead
import Verif.Props.EndToEndPublic
/-!
# C45 and C56: JSON texts of inputs, concretely

`S.ConcreteJson D ord` says that the JSON text functions of the platform are the ones of `Model/JsonText.lean`.
-/

namespace Zkenc.Props

open Zkenc Zkenc.Spec Zkenc.InputSpec Zkenc.JsonSpec

/-- **C45** (text) — `JSON.parse` of what `JSON.stringify` wrote gives the inputs back, up to what JSON cannot express. -/
theorem C45_json_roundtrip (D : Doubles) (inputs : List (Str × JsVal)) (hreal : Real D (.obj inputs)) (s : Str)
    (h : jsonStringify inputs = .ok s) : jsonParse D s = some (.obj (keptFields inputs)) ∧ ∃ t, s = '{' :: t := by
  unfold jsonStringify at h
  obtain ⟨ts, h1, h⟩ := Res.bind_eq_ok.1 h
  cases h
  simp only [Real] at hreal
  obtain ⟨h2, h3⟩ := jsonFields_spec D inputs hreal.2 ts h1
  refine ⟨?_, _, by simp only [JTree.render]; rfl⟩
  unfold jsonParse
  rw [pText_render (.obj ts) (by simp only [JTree.Lits]; exact h2)]
  simp only [Option.map_some, JTree.toJs]
  rw [h3 [] (by simpa [keyBefore_iff] using hreal.1)]
  rfl

mutual
theorem kept_plain : ∀ v : JsVal, Plain v → kept v = v
  | .null, _ => by simp [kept]
  | .undef, h => by simp [Plain] at h
  | .bool b, _ => by simp [kept]
  | .num z, _ => by simp [kept]
  | .numText s, h => by simp only [Plain] at h; simp [kept, h]
  | .bigint z, h => by simp [Plain] at h
  | .str s, _ => by simp [kept]
  | .arr l, h => by simp only [Plain] at h; simp [kept, keptItems_plain l h]
  | .obj l, h => by simp only [Plain] at h; simp [kept, keptFields_plain l h]
theorem keptItems_plain : ∀ l : List JsVal, PlainItems l → keptItems l = l
  | [], _ => by simp [keptItems]
  | v :: vs, h => by
    simp only [PlainItems] at h
    simp [keptItems, kept_plain v h.1, keptItems_plain vs h.2]
theorem keptFields_plain : ∀ l : List (Str × JsVal), PlainFields l → keptFields l = l
  | [], _ => by simp [keptFields]
  | (k, v) :: vs, h => by
    simp only [PlainFields] at h
    have hk : keptFields ((k, v) :: vs) = (k, kept v) :: keptFields vs := by
      cases v <;> first | (have := h.1; simp only [Plain] at this; done) | simp [keptFields]
    rw [hk, kept_plain v h.1, keptFields_plain vs h.2]
end

mutual
theorem not_hasBig_of_plain : ∀ v : JsVal, Plain v → ¬ HasBig v
  | .null, _ => by simp [HasBig]
  | .undef, h => by simp [Plain] at h
  | .bool b, _ => by simp [HasBig]
  | .num z, _ => by simp [HasBig]
  | .numText s, h => by simp [HasBig]
  | .bigint z, h => by simp [Plain] at h
  | .str s, _ => by simp [HasBig]
  | .arr l, h => by simp only [Plain] at h; simp only [HasBig]; exact not_hasBigItems_of_plain l h
  | .obj l, h => by simp only [Plain] at h; simp only [HasBig]; exact not_hasBigFields_of_plain l h
theorem not_hasBigItems_of_plain : ∀ l : List JsVal, PlainItems l → ¬ HasBigItems l
  | [], _ => by simp [HasBigItems]
  | v :: vs, h => by
    simp only [PlainItems] at h; simp only [HasBigItems, not_or]
    exact ⟨not_hasBig_of_plain v h.1, not_hasBigItems_of_plain vs h.2⟩
theorem not_hasBigFields_of_plain : ∀ l : List (Str × JsVal), PlainFields l → ¬ HasBigFields l
  | [], _ => by simp [HasBigFields]
  | (k, v) :: vs, h => by
    simp only [PlainFields] at h; simp only [HasBigFields, not_or]
    exact ⟨not_hasBig_of_plain v h.1, not_hasBigFields_of_plain vs h.2⟩
end

/-- **C56** (text) — `JSON.stringify` throws exactly on inputs with a `BigInt` in them. -/
theorem C56_stringify_outcome (inputs : List (Str × JsVal)) :
    (HasBigFields inputs → jsonStringify inputs = Res.fail "TypeError") ∧ (¬ HasBigFields inputs → ∃ s, jsonStringify inputs = .ok s) := by
  obtain ⟨h1, h2⟩ := jsonFields_outcome inputs
  unfold jsonStringify
  refine ⟨fun h => by rw [h1 h]; rfl, fun h => ?_⟩
  obtain ⟨ts, ht⟩ := h2 h
  exact ⟨_, by rw [ht, Res.ok_bind]⟩

section
variable {G1 G2 GT : Type} [AddCommGroup G1] [Module Fr G1] [AddCommGroup G2] [Module Fr G2] [AddCommGroup GT] [Module Fr GT]
  (S : Sys G1 G2 GT)

/-- The platform's JSON functions are the concrete ones. -/
structure ConcreteJson (D : Doubles) (ord : List (Str × Json) → List (Str × Json)) : Prop where
  stringify : S.stringify = jsonStringify
  parse : S.jsonParse = jsonParse D
  serde : S.serdeParse = serdeFromStr D ord
  perm : ∀ l, (ord l).Perm l

variable {D : Doubles} {ord : List (Str × Json) → List (Str × Json)}

/-- **C45** (JS to JS, concrete JSON) — `getPublicInput` on the output of `encrypt` returns the inputs, up to what JSON cannot express. -/
theorem C45_js_values (hJ : ConcreteJson S D ord) (data : Bytes) (r : R1csFile) (hr : jsParseR1cs data = .ok r.toJs) (sym : Str)
    (inputs : List (Str × JsVal)) (hreal : Real D (.obj inputs)) (m : Bytes) (ρ : Rand Fr) (nonce : Bytes) (combined key : Bytes)
    (henc : jsEncrypt S data sym inputs m true ρ nonce = .ok (combined, key)) (hf : PublicFits r) (hs : CtFits r)
    (hlen : ∀ s, jsonStringify inputs = .ok s → (utf8Enc s).length < 2 ^ 32) :
    jsGetPublicInput S combined = .ok (.obj (keptFields inputs)) := by
  have hnb : ∃ s, jsonStringify inputs = .ok s := by
    unfold jsEncrypt at henc
    obtain ⟨⟨ctB, kB⟩, h1, h⟩ := Res.bind_eq_ok.1 henc
    obtain ⟨enc, h2, h⟩ := Res.bind_eq_ok.1 h
    obtain ⟨pub, h3, h⟩ := Res.bind_eq_ok.1 h
    rw [if_pos rfl] at h3
    obtain ⟨s, h4, -⟩ := Res.bind_eq_ok.1 h3
    rw [hJ.stringify] at h4
    exact ⟨s, h4⟩
  obtain ⟨s, hs'⟩ := hnb
  obtain ⟨h1, t, rfl⟩ := C45_json_roundtrip D inputs hreal s hs'
  exact C45_js_included S data r hr sym inputs m ρ nonce combined key henc hf hs t (by rw [hJ.stringify]; exact hs') (hlen _ hs') _
    (by rw [hJ.parse]; exact h1)

/-- **C45** (JS to JS, plain inputs) — inputs without `undefined`, `NaN`, infinities and `BigInt`s come back exactly. -/
theorem C45_js_values_plain (hJ : ConcreteJson S D ord) (data : Bytes) (r : R1csFile) (hr : jsParseR1cs data = .ok r.toJs) (sym : Str)
    (inputs : List (Str × JsVal)) (hreal : Real D (.obj inputs)) (hplain : Plain (.obj inputs)) (m : Bytes) (ρ : Rand Fr) (nonce : Bytes)
    (combined key : Bytes) (henc : jsEncrypt S data sym inputs m true ρ nonce = .ok (combined, key)) (hf : PublicFits r) (hs : CtFits r)
    (hlen : ∀ s, jsonStringify inputs = .ok s → (utf8Enc s).length < 2 ^ 32) :
    jsGetPublicInput S combined = .ok (.obj inputs) := by
  rw [C45_js_values S hJ data r hr sym inputs hreal m ρ nonce combined key henc hf hs hlen, keptFields_plain inputs (by simpa [Plain] using hplain)]

/-- **C56** — with a `BigInt` anywhere in the inputs, `encrypt` in its default mode never produces a ciphertext; without public input it
behaves as if the inputs were expressible. -/
theorem C56_bigint_inputs (hJ : ConcreteJson S D ord) (data : Bytes) (sym : Str) (inputs : List (Str × JsVal))
    (hbig : HasBigFields inputs) (m : Bytes) (ρ : Rand Fr) (nonce : Bytes) :
    (∃ e, jsEncrypt S data sym inputs m true ρ nonce = .error e) ∧
    (∀ combined key, jsEncrypt S data sym inputs m false ρ nonce = .ok (combined, key) →
      jsEncrypt S data sym inputs m true ρ nonce = Res.fail "TypeError") := by
  have key : ∀ ck enc, jsEncap S data sym inputs ρ = .ok ck → encryptGcm S.cipher .js ck.2 nonce m = .ok enc →
      jsEncrypt S data sym inputs m true ρ nonce = Res.fail "TypeError" := by
    intro ck enc h1 h2
    unfold jsEncrypt
    rw [h1, Res.ok_bind, h2, Res.ok_bind, if_pos rfl, hJ.stringify, (C56_stringify_outcome inputs).1 hbig]
    rfl
  constructor
  · cases h1 : jsEncap S data sym inputs ρ with
    | error e => exact ⟨e, by unfold jsEncrypt; rw [h1]; rfl⟩
    | ok ck =>
      cases h2 : encryptGcm S.cipher .js ck.2 nonce m with
      | error e => exact ⟨e, by unfold jsEncrypt; rw [h1, Res.ok_bind, h2]; rfl⟩
      | ok enc => exact ⟨_, key ck enc h1 h2⟩
  · intro combined k h
    unfold jsEncrypt at h
    obtain ⟨ck, h1, h⟩ := Res.bind_eq_ok.1 h
    obtain ⟨enc, h2, h⟩ := Res.bind_eq_ok.1 h
    exact key ck enc h1 h2

end

/-! ## CLI file, read by JS -/

theorem natDec_zero : natDec 0 = ['0'] := by
  rw [natDec, dif_pos (by decide)]; rfl

theorem decVal_snoc (l : Str) (c : Char) : decVal (l ++ [c]) = 10 * decVal l + digVal c := by
  simp [decVal, List.foldl_append]

theorem natDec_decVal (l : Str) : l.all isDig = true → l ≠ [] → (∀ t, l = '0' :: t → t = []) → natDec (decVal l) = l := by
  induction l using List.reverseRecOn with
  | nil => intro _ h; exact absurd rfl h
  | append_singleton l c ih =>
    intro hd _ h0
    simp only [List.all_append, List.all_cons, List.all_nil, Bool.and_true, Bool.and_eq_true] at hd
    have hc : digVal c < 10 ∧ digChar (digVal c) = c := by
      have := hd.2
      simp only [isDig, Bool.and_eq_true, decide_eq_true_eq] at this
      unfold digVal digChar
      refine ⟨by omega, ?_⟩
      rw [show 48 + (c.toNat - 48) = c.toNat by omega]; exact Char.ofNat_toNat c
    rw [decVal_snoc]
    by_cases hl : l = []
    · subst hl
      have : decVal [] = 0 := rfl
      rw [this, natDec, dif_pos (by omega)]
      simp [hc.2]
    · have ih' := ih hd.1 hl (fun t ht => by
        have := h0 (t ++ [c]) (by rw [ht]; rfl)
        simp at this)
      have hpos : decVal l ≠ 0 := by
        intro h
        rw [h] at ih'
        have h1 : natDec 0 = ['0'] := natDec_zero
        rw [h1] at ih'
        have := h0 [c] (by rw [← ih']; rfl)
        simp at this
      rw [natDec, dif_neg (by omega)]
      rw [show (10 * decVal l + digVal c) / 10 = decVal l by omega, show (10 * decVal l + digVal c) % 10 = digVal c by omega, ih', hc.2]

theorem serdeNum_same (D : Doubles) {lit : Str} (h : NumLit lit) {j : Json} (hj : serdeNum D lit = some j) : Same D j (D.round lit) := by
  have h' := h
  obtain ⟨sign, int, frac, exp, hs, hi, hf, he⟩ := h'
  unfold serdeNum at hj
  split_ifs at hj with h1 h2 h3 h4 h5
  · cases hj; exact .float _ h
  · -- negative integer
    cases hj
    rw [List.all_append, List.all_append, List.all_append] at h1
    simp only [Bool.and_eq_true] at h1
    have hfrac : frac = [] := by
      rcases hf with rfl | ⟨ds, rfl, -⟩
      · rfl
      · exfalso; have := h1.2.2.1; simp [isDig] at this
    have hexp : exp = [] := by
      rcases he with rfl | ⟨c, sg, ds, rfl, hc, -⟩
      · rfl
      · exfalso
        have := h1.2.2.2
        rcases hc with rfl | rfl <;> simp [isDig] at this
    subst hfrac; subst hexp
    simp only [List.append_nil] at *
    rcases hs with rfl | rfl
    · exfalso
      rcases hi with rfl | ⟨c, ds, rfl, hc, -⟩
      · simp at h4
      · simp only [List.nil_append, List.head?_cons, Option.some.injEq] at h4
        exact (isDig_facts hc).1 h4
    · simp only [List.cons_append, List.nil_append, List.tail_cons] at *
      rcases hi with rfl | ⟨c, ds, rfl, hc, hc0, hds⟩
      · exact absurd rfl h2
      · have hn := natDec_decVal (c :: ds) (by simp [hc, hds]) (by simp) (fun t ht => by
          simp only [List.cons.injEq] at ht; exact absurd ht.1 hc0)
        have hpos : decVal (c :: ds) ≠ 0 := by
          intro h0
          rw [h0] at hn
          have h1 : natDec 0 = ['0'] := natDec_zero
          rw [h1] at hn
          simp only [List.cons.injEq] at hn
          exact hc0 hn.1.symm
        have : '-' :: c :: ds = intDec (-(decVal (c :: ds) : Int)) := by
          unfold intDec
          rw [if_pos (by omega), Int.natAbs_neg, Int.natAbs_natCast, hn]
        rw [this]
        exact .int _
  · -- non-negative integer
    cases hj
    rw [List.all_append, List.all_append, List.all_append] at h1
    simp only [Bool.and_eq_true] at h1
    have hfrac : frac = [] := by
      rcases hf with rfl | ⟨ds, rfl, -⟩
      · rfl
      · exfalso; have := h1.2.2.1; simp [isDig] at this
    have hexp : exp = [] := by
      rcases he with rfl | ⟨c, sg, ds, rfl, hc, -⟩
      · rfl
      · exfalso
        have := h1.2.2.2
        rcases hc with rfl | rfl <;> simp [isDig] at this
    subst hfrac; subst hexp
    simp only [List.append_nil] at *
    rcases hs with rfl | rfl
    · simp only [List.nil_append] at *
      have hn : natDec (decVal int) = int := by
        rcases hi with rfl | ⟨c, ds, rfl, hc, hc0, hds⟩
        · exact natDec_zero
        · exact natDec_decVal (c :: ds) (by simp [hc, hds]) (by simp) (fun t ht => by
            simp only [List.cons.injEq] at ht; exact absurd ht.1 hc0)
      have : int = intDec (decVal int : Int) := by
        unfold intDec
        rw [if_neg (by omega), Int.natAbs_natCast, hn]
      rw [this]
      have h2 : decVal (intDec (decVal int : Int)) = decVal int := by rw [← this]
      rw [h2]
      exact .int _
    · exact absurd rfl h4
  · cases hj; exact .float _ h

/-- Same keys, no repetitions, same values. -/
def ObjRel (D : Doubles) (l : List (Str × Json)) (l' : List (Str × JsVal)) : Prop :=
  (∀ k, (∃ v, (k, v) ∈ l) ↔ ∃ v, (k, v) ∈ l') ∧ (l.map Prod.fst).Nodup ∧ (l'.map Prod.fst).Nodup ∧
    ∀ k v v', (k, v) ∈ l → (k, v') ∈ l' → Same D v v'

theorem objInsert_perm (k : Str) (v : JsVal) (l : List (Str × JsVal)) : (objInsert k v l).Perm ((k, v) :: l) := by
  induction l with
  | nil => exact List.Perm.refl _
  | cons e l ih =>
    rw [objInsert]
    split_ifs
    · exact (List.Perm.cons e ih).trans (List.Perm.swap _ _ _)
    · exact List.Perm.refl _

theorem mem_objSet {l : List (Str × JsVal)} (k : Str) (v : JsVal) (k' : Str) (v' : JsVal) :
    (k', v') ∈ objSet l k v ↔ (k' = k ∧ v' = v) ∨ (k' ≠ k ∧ (k', v') ∈ l) := by
  unfold objSet
  split_ifs with h
  · simp only [List.any_eq_true, decide_eq_true_eq] at h
    obtain ⟨⟨a, b⟩, hm, hk⟩ := h
    simp only at hk
    subst hk
    rw [List.mem_map]
    constructor
    · rintro ⟨⟨x, y⟩, h1, h2⟩
      simp only at h2
      split_ifs at h2 with hx
      · cases h2; exact Or.inl ⟨rfl, rfl⟩
      · cases h2; exact Or.inr ⟨hx, h1⟩
    · rintro (⟨rfl, rfl⟩ | ⟨h1, h2⟩)
      · exact ⟨_, hm, by simp⟩
      · exact ⟨_, h2, by simp [h1]⟩
  · simp only [List.any_eq_true, decide_eq_true_eq, not_exists, not_and] at h
    rw [(objInsert_perm k v l).mem_iff, List.mem_cons]
    constructor
    · rintro (h1 | h1)
      · cases h1; exact Or.inl ⟨rfl, rfl⟩
      · exact Or.inr ⟨h _ h1, h1⟩
    · rintro (⟨rfl, rfl⟩ | ⟨h1, h2⟩)
      · exact Or.inl rfl
      · exact Or.inr h2

theorem nodup_objSet {l : List (Str × JsVal)} (k : Str) (v : JsVal) (h : (l.map Prod.fst).Nodup) : ((objSet l k v).map Prod.fst).Nodup := by
  unfold objSet
  split_ifs with ha
  · have : (l.map fun e => if e.1 = k then (k, v) else e).map Prod.fst = l.map Prod.fst := by
      rw [List.map_map]
      apply List.map_congr_left
      intro e _
      simp only [Function.comp]
      split_ifs with he
      · exact he.symm
      · rfl
    rw [this]; exact h
  · simp only [List.any_eq_true, decide_eq_true_eq, not_exists, not_and] at ha
    have hp := (objInsert_perm k v l).map Prod.fst
    rw [hp.nodup_iff, List.map_cons, List.nodup_cons]
    refine ⟨?_, h⟩
    rw [List.mem_map]
    rintro ⟨e, he, hk⟩
    exact ha e he hk

theorem mem_insert {l : List (Str × Json)} (hnd : (l.map Prod.fst).Nodup) (k : Str) (v : Json) (k' : Str) (v' : Json) :
    (k', v') ∈ AMap.insert l k v ↔ (k' = k ∧ v' = v) ∨ (k' ≠ k ∧ (k', v') ∈ l) := by
  rw [← AMap.get_iff_mem (AMap.nodup_insert hnd k v), AMap.get_insert]
  split_ifs with h
  · subst h
    simp only [Option.some.injEq, true_and, ne_eq, not_true_eq_false, false_and, or_false]
    exact eq_comm
  · rw [AMap.get_iff_mem hnd]
    simp [Ne, Ne.symm h]

theorem ObjRel.set {D : Doubles} {l : List (Str × Json)} {l' : List (Str × JsVal)} (h : ObjRel D l l') (k : Str) {j : Json} {v : JsVal}
    (hs : Same D j v) : ObjRel D (AMap.insert l k j) (objSet l' k v) := by
  obtain ⟨h1, h2, h3, h4⟩ := h
  refine ⟨fun k' => ?_, AMap.nodup_insert h2 k j, nodup_objSet k v h3, fun k' a b ha hb => ?_⟩
  · constructor
    · rintro ⟨a, ha⟩
      rcases (mem_insert h2 k j k' a).1 ha with ⟨rfl, rfl⟩ | ⟨hne, ha⟩
      · exact ⟨v, (mem_objSet _ _ _ _).2 (Or.inl ⟨rfl, rfl⟩)⟩
      · obtain ⟨b, hb⟩ := (h1 k').1 ⟨a, ha⟩
        exact ⟨b, (mem_objSet _ _ _ _).2 (Or.inr ⟨hne, hb⟩)⟩
    · rintro ⟨a, ha⟩
      rcases (mem_objSet k v k' a).1 ha with ⟨rfl, rfl⟩ | ⟨hne, ha⟩
      · exact ⟨j, (mem_insert h2 _ _ _ _).2 (Or.inl ⟨rfl, rfl⟩)⟩
      · obtain ⟨b, hb⟩ := (h1 k').2 ⟨a, ha⟩
        exact ⟨b, (mem_insert h2 _ _ _ _).2 (Or.inr ⟨hne, hb⟩)⟩
  · rcases (mem_insert h2 k j k' a).1 ha with ⟨rfl, rfl⟩ | ⟨hne, ha⟩
    · rcases (mem_objSet _ v _ b).1 hb with ⟨-, rfl⟩ | ⟨hne, -⟩
      · exact hs
      · exact absurd rfl hne
    · rcases (mem_objSet k v k' b).1 hb with ⟨rfl, -⟩ | ⟨-, hb⟩
      · exact absurd rfl hne
      · exact h4 k' a b ha hb

theorem ObjRel.perm {D : Doubles} {l m : List (Str × Json)} {l' : List (Str × JsVal)} (h : ObjRel D l l') (hp : m.Perm l) : ObjRel D m l' := by
  obtain ⟨h1, h2, h3, h4⟩ := h
  refine ⟨fun k => ?_, (hp.map Prod.fst).nodup_iff.2 h2, h3, fun k v v' hv => h4 k v v' (hp.mem_iff.1 hv)⟩
  rw [← h1 k]
  exact ⟨fun ⟨v, hv⟩ => ⟨v, hp.mem_iff.1 hv⟩, fun ⟨v, hv⟩ => ⟨v, hp.mem_iff.2 hv⟩⟩

mutual
theorem toSerde_same (D : Doubles) (ord : List (Str × Json) → List (Str × Json)) (hord : ∀ l, (ord l).Perm l) :
    ∀ (t : JTree) (d : Nat) (j : Json), t.Lits → t.toSerde D ord d = some j → Same D j (t.toJs D)
  | .null, _, j, _, h => by simp only [JTree.toSerde] at h; cases h; simp only [JTree.toJs]; exact .null
  | .bool b, _, j, _, h => by simp only [JTree.toSerde] at h; cases h; simp only [JTree.toJs]; exact .bool b
  | .num lit, _, j, hl, h => by
    simp only [JTree.toSerde] at h; simp only [JTree.toJs]
    simp only [JTree.Lits] at hl
    exact serdeNum_same D hl h
  | .str s, _, j, _, h => by simp only [JTree.toSerde] at h; cases h; simp only [JTree.toJs]; exact .str s
  | .arr l, 0, j, _, h => by simp only [JTree.toSerde] at h; cases h
  | .arr l, d + 1, j, hl, h => by
    simp only [JTree.toSerde, Option.map_eq_some_iff] at h
    obtain ⟨js, h1, rfl⟩ := h
    simp only [JTree.toJs]
    simp only [JTree.Lits] at hl
    exact .arr (treesToSerde_same D ord hord l d js hl h1)
  | .obj l, 0, j, _, h => by simp only [JTree.toSerde] at h; cases h
  | .obj l, d + 1, j, hl, h => by
    simp only [JTree.toSerde, Option.map_eq_some_iff] at h
    obtain ⟨es, h1, rfl⟩ := h
    simp only [JTree.toJs]
    simp only [JTree.Lits] at hl
    obtain ⟨a, b, c, e⟩ := (fieldsToSerde_same D ord hord l d [] [] es hl ⟨by simp, by simp, by simp, by simp⟩ h1).perm (hord es)
    exact .obj a b c e
theorem treesToSerde_same (D : Doubles) (ord : List (Str × Json) → List (Str × Json)) (hord : ∀ l, (ord l).Perm l) :
    ∀ (ts : List JTree) (d : Nat) (js : List Json), litsItems ts → treesToSerde D ord d ts = some js → SameItems D js (treesToJs D ts)
  | [], _, js, _, h => by simp only [treesToSerde] at h; cases h; simp only [treesToJs]; exact .nil
  | t :: ts, d, js, hl, h => by
    simp only [treesToSerde, Option.bind_eq_bind, Option.bind_eq_some_iff] at h
    obtain ⟨j, h1, js', h2, h⟩ := h
    cases h
    simp only [litsItems] at hl
    simp only [treesToJs]
    exact .cons (toSerde_same D ord hord t d j hl.1 h1) (treesToSerde_same D ord hord ts d js' hl.2 h2)
theorem fieldsToSerde_same (D : Doubles) (ord : List (Str × Json) → List (Str × Json)) (hord : ∀ l, (ord l).Perm l) :
    ∀ (ts : List (Str × JTree)) (d : Nat) (o : List (Str × Json)) (o' : List (Str × JsVal)) (es : List (Str × Json)), litsFields ts →
      ObjRel D o o' → fieldsToSerde D ord d ts o = some es → ObjRel D es (fieldsToJs D ts o')
  | [], _, o, o', es, _, hr, h => by simp only [fieldsToSerde] at h; cases h; simp only [fieldsToJs]; exact hr
  | (k, t) :: ts, d, o, o', es, hl, hr, h => by
    simp only [fieldsToSerde, Option.bind_eq_bind, Option.bind_eq_some_iff] at h
    obtain ⟨j, h1, h⟩ := h
    simp only [litsFields] at hl
    simp only [fieldsToJs]
    exact fieldsToSerde_same D ord hord ts d _ _ es hl.2 (hr.set k (toSerde_same D ord hord t d j hl.1 h1)) h
end

/-- **C57** (text) — every text that the CLI reads as JSON is also read by `JSON.parse`, as the same value. -/
theorem C57_same_text (D : Doubles) (ord : List (Str × Json) → List (Str × Json)) (hord : ∀ l, (ord l).Perm l) (s : Str) (j : Json)
    (h : serdeFromStr D ord s = some j) : ∃ x, jsonParse D s = some x ∧ Same D j x := by
  unfold serdeFromStr at h
  rw [Option.bind_eq_some_iff] at h
  obtain ⟨t, h1, h2⟩ := h
  exact ⟨_, by rw [jsonParse, h1]; rfl, toSerde_same D ord hord t 127 j (pText_lits h1) h2⟩

/-- The first character of a JSON text is an ASCII character. -/
theorem pText_ascii {s : Str} {t : JTree} (h : pText s = some t) : ∃ c u, s = c :: u ∧ c.toNat < 128 := by
  cases s with
  | nil => cases h
  | cons c u =>
    refine ⟨c, u, rfl, ?_⟩
    by_contra hc
    have key : ∀ d : Char, d.toNat < 128 → c ≠ d := fun d hd e => hc (by rw [e]; exact hd)
    have hw : jsonWs c = false := by
      simp [jsonWs, key ' ' (by decide), key '\t' (by decide), key '\n' (by decide), key '\r' (by decide)]
    have hd : isDig c = false := by
      simp only [isDig, Bool.and_eq_false_iff, decide_eq_false_iff_not]; omega
    have hp : pNum (c :: u) = none := by
      have h1 : (c :: u).head? ≠ some '-' := by simp [key '-' (by decide)]
      simp only [pNum, if_neg h1, List.length_nil, List.drop_zero, pInt]
      rw [if_neg (key '0' (by decide)), if_neg (by simp [hd])]
      rfl
    unfold pText at h
    have hv : pValue (2 * (c :: u).length + 2) (c :: u) = none := by
      rw [show 2 * (c :: u).length + 2 = (2 * u.length + 3) + 1 by simp; omega]
      simp only [pValue, skipWs_cons hw]
      rw [if_neg (key _ (by decide)), if_neg (key _ (by decide)), if_neg (key _ (by decide)), if_neg (key _ (by decide)),
        if_neg (key _ (by decide)), if_neg (key _ (by decide)), hp]
      rfl
    rw [hv] at h
    cases h

/-- Input files that the CLI accepts do not start with a byte order mark. -/
theorem no_bom {D : Doubles} {ord : List (Str × Json) → List (Str × Json)} {b : Bytes} {s : String} {j : Json} (hd : utf8Dec b = some s)
    (h : serdeFromStr D ord s.toList = some j) : b.take 3 ≠ [0xEF, 0xBB, 0xBF] := by
  unfold serdeFromStr at h
  rw [Option.bind_eq_some_iff] at h
  obtain ⟨t, h1, -⟩ := h
  obtain ⟨c, u, hs, hc⟩ := pText_ascii h1
  have hb : b = utf8Enc s.toList := by
    unfold utf8Enc
    rw [String.ofList_toList]
    unfold utf8Dec String.fromUTF8? at hd
    split at hd
    · cases hd; rfl
    · cases hd
  rw [hb, hs, utf8Enc_cons]
  have : String.utf8EncodeChar c = [c.toNat.toUInt8] := by
    have h7 : c.val.toNat ≤ 127 := by
      have : c.toNat = c.val.toNat := rfl
      omega
    unfold String.utf8EncodeChar
    simp only [h7, if_true]
    rfl
  rw [this]
  intro e
  simp only [List.cons_append, List.nil_append, List.take_succ_cons, List.cons.injEq] at e
  have := congrArg UInt8.toNat e.1
  simp at this
  omega

/-- Integers up to `2^53` are the same number. -/
theorem same_int_small (D : Doubles) (z : Int) (hz : z.natAbs ≤ 2 ^ 53) : Same D (.int z) (.num z) := by
  rw [← D.round_small z hz]; exact .int z

section
variable {G1 G2 GT : Type} [AddCommGroup G1] [Module Fr G1] [AddCommGroup G2] [Module Fr G2] [AddCommGroup GT] [Module Fr GT]
  (S : Sys G1 G2 GT) {D : Doubles} {ord : List (Str × Json) → List (Str × Json)}

/-- **C57** — `getPublicInput` on a ciphertext of `zkenc encrypt` always succeeds and returns the values of the input file that the CLI
encrypted for. -/
theorem C57_cli_values (hJ : ConcreteJson S D ord) (fs fs' : FS) (circuit sym input message output : Path) (r : R1csFile)
    (symtab : AMap Nat) (entries : List (Str × Json)) (hfiles : CliFiles S fs circuit sym input r symtab entries) (ρ : Rand Fr) (nonce : Bytes)
    (henc : (encryptCommand S circuit sym input message output true ρ nonce).exec fs = (fs', .ok ())) (hf : PublicFits r) (hs : CtFits r)
    (hlen : ∀ j, fs input = some j → j.length < 2 ^ 32) :
    ∃ combined x, fs' output = some combined ∧ jsGetPublicInput S combined = .ok x ∧ Same D (.obj entries) x := by
  obtain ⟨j, text, hj, htext, hparse⟩ := hfiles.input
  rw [hJ.serde] at hparse
  obtain ⟨x, hx, hsame⟩ := C57_same_text D ord hJ.perm text.toList _ hparse
  obtain ⟨combined, h1, h2⟩ := C45_cli_included S fs fs' circuit sym input message output r symtab entries hfiles ρ nonce henc hf hs j text
    hj htext (no_bom htext hparse) (hlen j hj) x (by rw [hJ.parse]; exact hx)
  exact ⟨combined, x, h1, h2, hsame⟩

end

end Zkenc.Props
