import Verif.Proofs.JsStringsMeans
/-!
# Strings without lone surrogates: the two models agree
-/

namespace Zkenc

open JsonSpec

/-! ## Trees -/

mutual
/-- The tree with its strings as code units. -/
def JTree.units : JTree → UTree
  | .null => .null
  | .bool b => .bool b
  | .num lit => .num lit
  | .str s => .str (strUnits s)
  | .arr l => .arr (treeUnitsItems l)
  | .obj l => .obj (treeUnitsFields l)
def treeUnitsItems : List JTree → List UTree
  | [] => []
  | t :: ts => t.units :: treeUnitsItems ts
def treeUnitsFields : List (Str × JTree) → List (JStr × UTree)
  | [] => []
  | (k, t) :: ts => (strUnits k, t.units) :: treeUnitsFields ts
end

theorem uQuote_units (s : Str) : uQuote (strUnits s) = quote s := by
  unfold uQuote quote
  rw [codePoints_strUnits, List.flatMap_map]
  rfl

mutual
theorem units_render : ∀ t : JTree, t.units.render = t.render
  | .null => by simp [JTree.units, UTree.render, JTree.render]
  | .bool b => by simp [JTree.units, UTree.render, JTree.render]
  | .num lit => by simp [JTree.units, UTree.render, JTree.render]
  | .str s => by simp [JTree.units, UTree.render, JTree.render, uQuote_units]
  | .arr l => by simp [JTree.units, UTree.render, JTree.render, units_renderItems l]
  | .obj l => by simp [JTree.units, UTree.render, JTree.render, units_renderFields l]
theorem units_renderItems : ∀ l : List JTree, uRenderItems (treeUnitsItems l) = renderItems l
  | [] => by simp [treeUnitsItems, uRenderItems, renderItems]
  | [t] => by simp [treeUnitsItems, uRenderItems, renderItems, units_render t]
  | t :: u :: ts => by
    have := units_renderItems (u :: ts)
    simp only [treeUnitsItems] at this
    simp [treeUnitsItems, uRenderItems, renderItems, units_render t, this]
theorem units_renderFields : ∀ l : List (Str × JTree), uRenderFields (treeUnitsFields l) = renderFields l
  | [] => by simp [treeUnitsFields, uRenderFields, renderFields]
  | [(k, t)] => by simp [treeUnitsFields, uRenderFields, renderFields, units_render t, uQuote_units]
  | (k, t) :: (k', u) :: ts => by
    have := units_renderFields ((k', u) :: ts)
    simp only [treeUnitsFields] at this
    simp [treeUnitsFields, uRenderFields, renderFields, units_render t, uQuote_units, this]
end

theorem getD_units (o : Option JTree) : (o.map JTree.units).getD .null = (o.getD .null).units := by
  cases o <;> simp [JTree.units]

mutual
theorem uTree_units : ∀ v : JsVal, uTree v.units = (jsTree v >>= fun o => .ok (o.map JTree.units))
  | .null => by simp [JsVal.units, uTree, jsTree, JTree.units, Res.ok_bind]
  | .undef => by simp [JsVal.units, uTree, jsTree, JTree.units, Res.ok_bind]
  | .bool b => by simp [JsVal.units, uTree, jsTree, JTree.units, Res.ok_bind]
  | .num z => by simp [JsVal.units, uTree, jsTree, JTree.units, Res.ok_bind]
  | .numText s => by
    simp only [JsVal.units, uTree, jsTree, Res.ok_bind]
    split_ifs <;> simp [JTree.units]
  | .bigint z => by simp only [JsVal.units, uTree, jsTree]; rfl
  | .str s => by simp [JsVal.units, uTree, jsTree, JTree.units, Res.ok_bind]
  | .arr l => by
    simp only [JsVal.units, uTree, jsTree, uTrees_units l]
    cases jsTrees l with
    | error e => rfl
    | ok ts => simp only [Res.ok_bind]; simp [JTree.units]
  | .obj l => by
    simp only [JsVal.units, uTree, jsTree, uFields_units l]
    cases jsonFields l with
    | error e => rfl
    | ok ts => simp only [Res.ok_bind]; simp [JTree.units]
theorem uTrees_units : ∀ l : List JsVal, uTrees (unitsItems l) = (jsTrees l >>= fun ts => .ok (treeUnitsItems ts))
  | [] => by simp [unitsItems, uTrees, jsTrees, treeUnitsItems, Res.ok_bind]
  | v :: vs => by
    simp only [unitsItems, uTrees, jsTrees, uTree_units v, uTrees_units vs]
    cases jsTree v with
    | error e => rfl
    | ok o =>
      simp only [Res.ok_bind]
      cases jsTrees vs with
      | error e => rfl
      | ok ts => simp only [Res.ok_bind, treeUnitsItems, getD_units]
theorem uFields_units : ∀ l : List (Str × JsVal), uFields (unitsFields l) = (jsonFields l >>= fun ts => .ok (treeUnitsFields ts))
  | [] => by simp [unitsFields, uFields, jsonFields, treeUnitsFields, Res.ok_bind]
  | (k, v) :: vs => by
    simp only [unitsFields, uFields, jsonFields, uTree_units v, uFields_units vs]
    cases jsTree v with
    | error e => rfl
    | ok o =>
      simp only [Res.ok_bind]
      cases jsonFields vs with
      | error e => rfl
      | ok ts => cases o <;> simp only [Res.ok_bind, Option.map_none, Option.map_some, treeUnitsFields]
end

theorem uStringify_units (l : List (Str × JsVal)) : uStringify (unitsFields l) = jsonStringify l := by
  unfold uStringify jsonStringify
  rw [uFields_units]
  cases jsonFields l with
  | error e => rfl
  | ok ts =>
    simp only [Res.ok_bind]
    have := units_render (.obj ts)
    rw [JTree.units] at this
    rw [this]

/-! ## Reading -/

theorem uKeyIndex_units (k : Str) : uKeyIndex (strUnits k) = keyIndex k := by
  rw [uKeyIndex, toStr?_strUnits]; rfl

theorem strUnits_eq_iff (a b : Str) : strUnits a = strUnits b ↔ a = b := ⟨strUnits_inj, congrArg _⟩

theorem uKeyBefore_units (a b : Str) : uKeyBefore (strUnits a) (strUnits b) = keyBefore a b := by
  unfold uKeyBefore keyBefore
  rw [uKeyIndex_units, uKeyIndex_units]
  cases keyIndex a <;> cases keyIndex b <;> simp [strUnits_eq_iff]

theorem unitsFields_map (l : List (Str × JsVal)) : unitsFields l = l.map fun e => (strUnits e.1, e.2.units) := by
  induction l with
  | nil => simp [unitsFields]
  | cons e l ih => obtain ⟨k, v⟩ := e; simp [unitsFields, ih]

theorem unitsItems_map (l : List JsVal) : unitsItems l = l.map JsVal.units := by
  induction l with
  | nil => simp [unitsItems]
  | cons e l ih => simp [unitsItems, ih]

theorem uObjInsert_units (k : Str) (v : JsVal) (l : List (Str × JsVal)) :
    uObjInsert (strUnits k) v.units (unitsFields l) = unitsFields (objInsert k v l) := by
  induction l with
  | nil => simp [unitsFields, uObjInsert, objInsert]
  | cons e l ih =>
    obtain ⟨a, b⟩ := e
    simp only [unitsFields, uObjInsert, objInsert, uKeyBefore_units]
    split_ifs
    · simp [unitsFields, ih]
    · simp [unitsFields]

theorem uObjSet_units (k : Str) (v : JsVal) (l : List (Str × JsVal)) :
    uObjSet (unitsFields l) (strUnits k) v.units = unitsFields (objSet l k v) := by
  unfold uObjSet objSet
  have h : (unitsFields l).any (fun e => decide (e.1 = strUnits k)) = l.any (fun e => decide (e.1 = k)) := by
    rw [unitsFields_map, List.any_map]
    congr 1
    funext e
    simp [strUnits_eq_iff]
  rw [h]
  split_ifs
  · rw [unitsFields_map, unitsFields_map, List.map_map, List.map_map]
    apply List.map_congr_left
    rintro ⟨a, b⟩ -
    simp only [Function.comp, strUnits_eq_iff]
    split_ifs <;> rfl
  · exact uObjInsert_units k v l

mutual
theorem toJs_units (D : Doubles) : ∀ t : JTree, t.units.toJs D = (t.toJs D).units
  | .null => by simp [JTree.units, UTree.toJs, JTree.toJs, JsVal.units]
  | .bool b => by simp [JTree.units, UTree.toJs, JTree.toJs, JsVal.units]
  | .num lit => by simp [JTree.units, UTree.toJs, JTree.toJs]
  | .str s => by simp [JTree.units, UTree.toJs, JTree.toJs, JsVal.units]
  | .arr l => by simp [JTree.units, UTree.toJs, JTree.toJs, JsVal.units, treesToJs_units D l]
  | .obj l => by
    have := fieldsToJs_units D l []
    rw [unitsFields] at this
    simp [JTree.units, UTree.toJs, JTree.toJs, JsVal.units, this]
theorem treesToJs_units (D : Doubles) : ∀ l : List JTree, uTreesToJs D (treeUnitsItems l) = unitsItems (treesToJs D l)
  | [] => by simp [treeUnitsItems, uTreesToJs, treesToJs, unitsItems]
  | t :: ts => by simp [treeUnitsItems, uTreesToJs, treesToJs, unitsItems, toJs_units D t, treesToJs_units D ts]
theorem fieldsToJs_units (D : Doubles) : ∀ (l : List (Str × JTree)) (o : List (Str × JsVal)),
    uFieldsToJs D (treeUnitsFields l) (unitsFields o) = unitsFields (fieldsToJs D l o)
  | [], o => by simp [treeUnitsFields, uFieldsToJs, fieldsToJs]
  | (k, t) :: ts, o => by
    simp only [treeUnitsFields, uFieldsToJs, fieldsToJs, toJs_units D t, uObjSet_units]
    exact fieldsToJs_units D ts _
end

/-! ## Texts -/

theorem utf16_one (c : Char) : Utf16 [c] (charUnits c) := (utf16_iff _ _).2 (by simp [strUnits])

theorem strText_units {b s : Str} (h : StrText b s) : UStrText b (strUnits s) := by
  induction h with
  | nil => exact .nil
  | raw h1 h2 h3 _ ih => rw [strUnits_cons]; exact .raw h1 h2 h3 (utf16_one _) ih
  | short he _ ih => rw [strUnits_cons]; exact .short he (utf16_one _) ih
  | @code h c b s hh _ ih =>
    rw [strUnits_cons, charUnits_small (hex4_lt hh)]
    exact .code (by rw [u16_toNat_ofNat (hex4_lt hh)]; exact hh) ih
  | @pair h h' c b s hc hh hh' _ ih =>
    rw [strUnits_cons, charUnits_large (by omega)]
    refine .code (by rw [u16_toNat_ofNat (hex4_lt hh)]; exact hh) ?_
    exact .code (by rw [u16_toNat_ofNat (hex4_lt hh')]; exact hh') ih

/-- How the code units of a character start. -/
theorem charUnits_cases (c : Char) : (∃ u, charUnits c = [u] ∧ u.toNat = c.toNat ∧ ¬ (isHigh u = true ∨ isLow u = true)) ∨
    (∃ u v, charUnits c = [u, v] ∧ isHigh u = true ∧ isLow v = true ∧ u.toNat = 0xD800 + (c.toNat - 0x10000) / 0x400 ∧
      v.toNat = 0xDC00 + (c.toNat - 0x10000) % 0x400 ∧ 0x10000 ≤ c.toNat) := by
  have hv := char_valid c
  by_cases hc : c.toNat < 0x10000
  · left
    refine ⟨_, charUnits_small hc, u16_toNat_ofNat hc, ?_⟩
    rw [isHigh_iff, isLow_iff, u16_toNat_ofNat hc]; omega
  · right
    have e1 := u16_toNat_ofNat (show 0xD800 + (c.toNat - 0x10000) / 0x400 < 0x10000 by omega)
    have e2 := u16_toNat_ofNat (show 0xDC00 + (c.toNat - 0x10000) % 0x400 < 0x10000 by omega)
    exact ⟨_, _, charUnits_large hc, by rw [isHigh_iff, e1]; omega, by rw [isLow_iff, e2]; omega, e1, e2, by omega⟩

theorem high_not_low {u : UInt16} (h : isHigh u = true) : isLow u = false := by
  rw [isHigh_iff] at h
  cases hl : isLow u with
  | false => rfl
  | true => rw [isLow_iff] at hl; omega

theorem charUnits_prefix {c c' : Char} {s s' : JStr} (h : charUnits c ++ s = charUnits c' ++ s') : c = c' ∧ s = s' := by
  rcases charUnits_cases c with ⟨u, e, hu, hn⟩ | ⟨u, v, e, hu, hv, hu1, hv1, hc⟩ <;>
  rcases charUnits_cases c' with ⟨u', e', hu', hn'⟩ | ⟨u', v', e', hu', hv', hu1', hv1', hc'⟩ <;> rw [e, e'] at h
  · simp only [List.cons_append, List.nil_append, List.cons.injEq] at h
    obtain ⟨rfl, rfl⟩ := h
    exact ⟨char_eq_of_toNat (by omega), rfl⟩
  · simp only [List.cons_append, List.nil_append, List.cons.injEq] at h
    rw [h.1] at hn
    exact absurd (Or.inl hu') hn
  · simp only [List.cons_append, List.nil_append, List.cons.injEq] at h
    rw [← h.1] at hn'
    exact absurd (Or.inl hu) hn'
  · simp only [List.cons_append, List.nil_append, List.cons.injEq] at h
    obtain ⟨rfl, rfl, rfl⟩ := h
    exact ⟨char_eq_of_toNat (by omega), rfl⟩

theorem utf16_one_eq {c : Char} {u : JStr} (h : Utf16 [c] u) : u = charUnits c := by
  rw [(utf16_iff _ _).1 h]; simp [strUnits]

/-- What a string text starting with a trailing surrogate looks like. -/
theorem uStrText_low {b : Str} {v : UInt16} {s : JStr} (hv : isLow v = true) (h : UStrText b (v :: s)) :
    ∃ h' b', b = '\\' :: 'u' :: (h' ++ b') ∧ Hex4 h' v.toNat ∧ UStrText b' s := by
  have no : ∀ (c : Char) (u s' : JStr), Utf16 [c] u → u ++ s' = v :: s → False := by
    intro c u s' hu he
    rw [utf16_one_eq hu] at he
    rcases charUnits_cases c with ⟨w, e, -, hn⟩ | ⟨w, w', e, hw, -⟩ <;> rw [e] at he <;>
      simp only [List.cons_append, List.nil_append, List.cons.injEq] at he
    · rw [he.1] at hn; exact hn (Or.inr hv)
    · rw [he.1] at hw; rw [high_not_low hw] at hv; cases hv
  generalize hk : v :: s = k at h
  cases h with
  | nil => cases hk
  | raw _ _ _ hu _ => exact (no _ _ _ hu hk.symm).elim
  | short _ hu _ => exact (no _ _ _ hu hk.symm).elim
  | code hh hb => cases hk; exact ⟨_, _, rfl, hh, hb⟩

theorem strText_of_units (n : Nat) : ∀ {b : Str} {k : JStr} {s : Str}, b.length ≤ n → UStrText b k → k = strUnits s → StrText b s := by
  induction n with
  | zero =>
    intro b k s hn h hk
    cases h with
    | nil => rw [(strUnits_nil_iff s).1 hk.symm]; exact .nil
    | raw => simp at hn
    | short => simp at hn
    | code => simp at hn
  | succ n ih =>
    intro b k s hn h hk
    cases h with
    | nil => rw [(strUnits_nil_iff s).1 hk.symm]; exact .nil
    | raw h1 h2 h3 hu hb =>
      simp only [List.length_cons] at hn
      rw [utf16_one_eq hu] at hk
      cases s with
      | nil => simp [strUnits, charUnits_ne] at hk
      | cons c' s =>
        rw [strUnits_cons] at hk
        obtain ⟨rfl, hk'⟩ := charUnits_prefix hk
        exact .raw h1 h2 h3 (ih (by omega) hb hk')
    | short he hu hb =>
      simp only [List.length_cons] at hn
      rw [utf16_one_eq hu] at hk
      cases s with
      | nil => simp [strUnits, charUnits_ne] at hk
      | cons c' s =>
        rw [strUnits_cons] at hk
        obtain ⟨rfl, hk'⟩ := charUnits_prefix hk
        exact .short he (ih (by omega) hb hk')
    | code hh hb =>
      simp only [List.length_cons, List.length_append] at hn
      cases s with
      | nil => simp [strUnits] at hk
      | cons c s =>
        rw [strUnits_cons] at hk
        rcases charUnits_cases c with ⟨w, e, hw, -⟩ | ⟨w, w', e, -, hl, h1, h2, h3⟩ <;> rw [e] at hk <;>
          simp only [List.cons_append, List.nil_append, List.cons.injEq] at hk
        · obtain ⟨rfl, hk⟩ := hk
          rw [hw] at hh
          exact .code hh (ih (by omega) hb hk)
        · obtain ⟨rfl, rfl⟩ := hk
          obtain ⟨h', b', rfl, hh', hb'⟩ := uStrText_low hl hb
          simp only [List.length_cons, List.length_append] at hn
          rw [h1] at hh
          rw [h2] at hh'
          exact .pair h3 hh hh' (ih (by omega) hb' rfl)

mutual
theorem valueText_units {b : Str} {t : JTree} : ValueText b t → UValueText b t.units
  | .null => by simp only [JTree.units]; exact .null
  | .true => by simp only [JTree.units]; exact .true
  | .false => by simp only [JTree.units]; exact .false
  | .num h => by simp only [JTree.units]; exact .num h
  | .str h => by simp only [JTree.units]; exact .str (strText_units h)
  | .noItems h => by simp only [JTree.units, treeUnitsItems]; exact .noItems h
  | .arr h => by simp only [JTree.units]; exact .arr (itemsText_units h)
  | .noFields h => by simp only [JTree.units, treeUnitsFields]; exact .noFields h
  | .obj h => by simp only [JTree.units]; exact .obj (fieldsText_units h)
theorem itemsText_units {b : Str} {l : List JTree} : ItemsText b l → UItemsText b (treeUnitsItems l)
  | .one hw hb hw' => by simp only [treeUnitsItems]; exact .one hw (valueText_units hb) hw'
  | .more hw hb hw' h => by simp only [treeUnitsItems]; exact .more hw (valueText_units hb) hw' (itemsText_units h)
theorem fieldsText_units {b : Str} {l : List (Str × JTree)} : FieldsText b l → UFieldsText b (treeUnitsFields l)
  | .one hw hn h1 h2 hb h3 => by simp only [treeUnitsFields]; exact .one hw (strText_units hn) h1 h2 (valueText_units hb) h3
  | .more hw hn h1 h2 hb h3 h => by
    simp only [treeUnitsFields]; exact .more hw (strText_units hn) h1 h2 (valueText_units hb) h3 (fieldsText_units h)
end

theorem strText_back {b : Str} {k : JStr} (h : UStrText b k) {s : Str} (hk : k = strUnits s) : StrText b s := strText_of_units b.length le_rfl h hk

mutual
theorem valueText_of_units {b : Str} {u : UTree} : UValueText b u → ∀ t : JTree, u = t.units → ValueText b t
  | .null, t, e => by cases t <;> simp [JTree.units] at e; exact .null
  | .true, t, e => by cases t <;> simp [JTree.units] at e; subst e; exact .true
  | .false, t, e => by cases t <;> simp [JTree.units] at e; subst e; exact .false
  | .num h, t, e => by cases t <;> simp [JTree.units] at e; subst e; exact .num h
  | .str h, t, e => by cases t <;> simp [JTree.units] at e; exact .str (strText_back h e)
  | .noItems h, t, e => by
    cases t <;> simp [JTree.units] at e
    rename_i l
    cases l with
    | nil => exact .noItems h
    | cons x l => simp [treeUnitsItems] at e
  | .arr h, t, e => by
    cases t <;> simp [JTree.units] at e
    exact .arr (itemsText_of_units h _ e)
  | .noFields h, t, e => by
    cases t <;> simp [JTree.units] at e
    rename_i l
    cases l with
    | nil => exact .noFields h
    | cons x l => simp [treeUnitsFields] at e
  | .obj h, t, e => by
    cases t <;> simp [JTree.units] at e
    exact .obj (fieldsText_of_units h _ e)
theorem itemsText_of_units {b : Str} {us : List UTree} : UItemsText b us → ∀ l : List JTree, us = treeUnitsItems l → ItemsText b l
  | .one hw hb hw', l, e => by
    match l with
    | [] => simp [treeUnitsItems] at e
    | [t] => simp [treeUnitsItems] at e; exact .one hw (valueText_of_units hb t e) hw'
    | t :: x :: l => simp [treeUnitsItems] at e
  | .more hw hb hw' h, l, e => by
    match l with
    | [] => simp [treeUnitsItems] at e
    | t :: l => simp [treeUnitsItems] at e; exact .more hw (valueText_of_units hb t e.1) hw' (itemsText_of_units h l e.2)
theorem fieldsText_of_units {b : Str} {us : List (JStr × UTree)} : UFieldsText b us → ∀ l : List (Str × JTree), us = treeUnitsFields l →
    FieldsText b l
  | .one hw hn h1 h2 hb h3, l, e => by
    match l with
    | [] => simp [treeUnitsFields] at e
    | [(k, t)] => simp [treeUnitsFields] at e; exact .one hw (strText_back hn e.1) h1 h2 (valueText_of_units hb t e.2) h3
    | t :: x :: l => simp [treeUnitsFields] at e
  | .more hw hn h1 h2 hb h3 h, l, e => by
    match l with
    | [] => simp [treeUnitsFields] at e
    | (k, t) :: l =>
      simp [treeUnitsFields] at e
      exact .more hw (strText_back hn e.1.1) h1 h2 (valueText_of_units hb t e.1.2) h3 (fieldsText_of_units h l e.2)
end

theorem text_units_iff (s : Str) (t : JTree) : Text s t ↔ UText s t.units := by
  constructor
  · rintro ⟨w, b, w', rfl, hw, hb, hw'⟩
    exact ⟨w, b, w', rfl, hw, valueText_units hb, hw'⟩
  · rintro ⟨w, b, w', rfl, hw, hb, hw'⟩
    exact ⟨w, b, w', rfl, hw, valueText_of_units hb t rfl, hw'⟩

theorem uParse_units (D : Doubles) (s : Str) (x : JsVal) (h : jsonParse D s = some x) : uParse D s = some x.units := by
  unfold jsonParse at h
  rw [Option.map_eq_some_iff] at h
  obtain ⟨t, h1, rfl⟩ := h
  have := (uText_iff s t.units).2 ((text_units_iff s t).1 ((pText_iff s t).1 h1))
  unfold uParse
  rw [this, Option.map_some, toJs_units]

/-! ## Inputs -/

mutual
theorem joinText_units : ∀ v : JsVal, v.units.joinText = strUnits v.joinText
  | .null => by simp [JsVal.units, UVal.joinText, JsVal.joinText, strUnits]
  | .undef => by simp [JsVal.units, UVal.joinText, JsVal.joinText, strUnits]
  | .bool b => by simp [JsVal.units, UVal.joinText, JsVal.joinText]
  | .num z => by simp [JsVal.units, UVal.joinText, JsVal.joinText]
  | .numText s => by simp [JsVal.units, UVal.joinText, JsVal.joinText]
  | .bigint z => by simp [JsVal.units, UVal.joinText, JsVal.joinText]
  | .str s => by simp [JsVal.units, UVal.joinText, JsVal.joinText]
  | .arr l => by simp [JsVal.units, UVal.joinText, JsVal.joinText, joinTexts_units l]
  | .obj l => by simp [JsVal.units, UVal.joinText, JsVal.joinText]
theorem joinTexts_units : ∀ l : List JsVal, uJoinTexts (unitsItems l) = strUnits (joinTexts l)
  | [] => by simp [unitsItems, uJoinTexts, joinTexts, strUnits]
  | x :: xs => by simp [unitsItems, uJoinTexts, joinTexts, strUnits_append, joinText_units x, joinRest_units xs]
theorem joinRest_units : ∀ l : List JsVal, uJoinRest (unitsItems l) = strUnits (joinRest l)
  | [] => by simp [unitsItems, uJoinRest, joinRest, strUnits]
  | x :: xs => by simp [unitsItems, uJoinRest, joinRest, strUnits_append, strUnits_cons, joinText_units x, joinRest_units xs]
end

theorem toStr_units (v : JsVal) : v.units.toStr = (v.toStr >>= fun s => .ok (strUnits s)) := by
  have := joinText_units v
  cases v <;> simp only [JsVal.units] at this ⊢ <;> first | rfl | (simp only [UVal.toStr, JsVal.toStr, Res.ok_bind, this])

/-- The map with its texts as code units. -/
def NMap.units (m : NMap) : UMap := m.map fun e => (e.1, strUnits e.2)

theorem set_units (m : NMap) (k : Nat) (v : Str) : m.units.set k (strUnits v) = (m.set k v).units := by
  induction m with
  | nil => rfl
  | cons e m ih =>
    obtain ⟨a, b⟩ := e
    simp only [NMap.units, List.map_cons, UMap.set, NMap.set] at ih ⊢
    split_ifs
    · simp
    · simp [ih]

theorem get_units (m : NMap) (k : Nat) : m.units.get k = (m.get k).map strUnits := by
  induction m with
  | nil => rfl
  | cons e m ih =>
    obtain ⟨a, b⟩ := e
    simp only [NMap.units, List.map_cons, UMap.get, NMap.get] at ih ⊢
    split_ifs
    · simp
    · exact ih

theorem uLookup_units (sig : AMap Nat) (k : Str) : uLookup sig (strUnits k) = sig.get k := by
  unfold uLookup
  induction sig with
  | nil => rfl
  | cons e sig ih =>
    obtain ⟨a, b⟩ := e
    rw [AMap.get]
    by_cases h : a = k
    · rw [if_pos h, List.find?_cons_of_pos (by simp [h])]; rfl
    · rw [if_neg h, List.find?_cons_of_neg (by simp [strUnits_eq_iff, h]), ih]

theorem uLookup_wellFormed {sig : AMap Nat} {key : JStr} {w : Nat} (h : uLookup sig key = some w) : WellFormed key := by
  unfold uLookup at h
  rw [Option.map_eq_some_iff] at h
  obtain ⟨e, he, -⟩ := h
  have := List.find?_some he
  simp only [decide_eq_true_eq] at this
  exact ⟨e.1, (utf16_iff _ _).2 this.symm⟩

theorem uSetWire_units (sig : AMap Nat) (key : Str) (v : JsVal) (m : NMap) :
    uSetWire sig (strUnits key) v.units m.units = (setWire sig key v m >>= fun m' => .ok m'.units) := by
  unfold uSetWire setWire
  rw [uLookup_units]
  cases sig.get key with
  | none => rfl
  | some w =>
    simp only [toStr_units]
    cases v.toStr with
    | error e => rfl
    | ok s => simp only [Res.ok_bind, set_units]

theorem idxKey_units (key : Str) (i : Nat) : strUnits (idxKey key i) = strUnits key ++ strUnits ('[' :: (natDec i ++ [']'])) := by
  rw [idxKey, strUnits_append]

theorem uSetWires_units (sig : AMap Nat) (key : Str) (l : List JsVal) : ∀ (i : Nat) (m : NMap),
    uSetWires sig (strUnits key) (unitsItems l) i m.units = (setWires sig key l i m >>= fun m' => .ok m'.units) := by
  induction l with
  | nil => intro i m; simp [unitsItems, uSetWires, setWires, Res.ok_bind]
  | cons x xs ih =>
    intro i m
    simp only [unitsItems, uSetWires, setWires]
    rw [← idxKey_units, uSetWire_units]
    cases setWire sig (idxKey key i) x m with
    | error e => rfl
    | ok m' => simp only [Res.ok_bind]; exact ih (i + 1) m'

theorem dotKey_units (pre key : Str) : uDotKey (strUnits pre) (strUnits key) = strUnits (dotKey pre key) := by
  unfold uDotKey dotKey
  simp only [strUnits_nil_iff]
  split_ifs
  · rfl
  · rw [strUnits_append, strUnits_cons]

mutual
theorem uFlattenInput_units (sig : AMap Nat) : ∀ (v : JsVal) (full : Str) (m : NMap),
    uFlattenInput sig v.units (strUnits full) m.units = (flattenInput sig v full m >>= fun m' => .ok m'.units)
  | .null, full, m => by have := uSetWire_units sig full .null m; simpa [JsVal.units, uFlattenInput, flattenInput] using this
  | .undef, full, m => by have := uSetWire_units sig full .undef m; simpa [JsVal.units, uFlattenInput, flattenInput] using this
  | .bool b, full, m => by have := uSetWire_units sig full (.bool b) m; simpa [JsVal.units, uFlattenInput, flattenInput] using this
  | .num z, full, m => by have := uSetWire_units sig full (.num z) m; simpa [JsVal.units, uFlattenInput, flattenInput] using this
  | .numText s, full, m => by have := uSetWire_units sig full (.numText s) m; simpa [JsVal.units, uFlattenInput, flattenInput] using this
  | .bigint z, full, m => by have := uSetWire_units sig full (.bigint z) m; simpa [JsVal.units, uFlattenInput, flattenInput] using this
  | .str s, full, m => by have := uSetWire_units sig full (.str s) m; simpa [JsVal.units, uFlattenInput, flattenInput] using this
  | .arr l, full, m => by simp only [JsVal.units, uFlattenInput, flattenInput]; exact uSetWires_units sig full l 0 m
  | .obj l, full, m => by simp only [JsVal.units, uFlattenInput, flattenInput]; exact uFlattenFields_units sig l full m
theorem uFlattenFields_units (sig : AMap Nat) : ∀ (l : List (Str × JsVal)) (pre : Str) (m : NMap),
    uFlattenFields sig (unitsFields l) (strUnits pre) m.units = (flattenFields sig l pre m >>= fun m' => .ok m'.units)
  | [], pre, m => by simp [unitsFields, uFlattenFields, flattenFields, Res.ok_bind]
  | (k, v) :: rest, pre, m => by
    simp only [unitsFields, uFlattenFields, flattenFields]
    rw [dotKey_units, uFlattenInput_units sig v]
    cases flattenInput sig v (dotKey pre k) m with
    | error e => rfl
    | ok m' => simp only [Res.ok_bind]; exact uFlattenFields_units sig rest pre m'
end

theorem uFillWitness_units (m : NMap) (n : Nat) : ∀ i, uFillWitness m.units i n = fillWitness m i n := by
  induction n with
  | zero => intro i; rfl
  | succ n ih =>
    intro i
    rw [uFillWitness, fillWitness, get_units]
    cases m.get i with
    | none => rfl
    | some s =>
      simp only [Option.map_some, uBigInt, toStr?_strUnits, Option.bind_some, ih]
      cases jsBigInt s <;> rfl

theorem uMaxKey_units (m : NMap) : uMaxKey m.units = maxKey m := by
  unfold uMaxKey maxKey NMap.units
  rw [List.map_map]; rfl

theorem uEncapWitness_units (sym : Str) (inputs : List (Str × JsVal)) : uEncapWitness sym (unitsFields inputs) = jsEncapWitness sym inputs := by
  unfold uEncapWitness jsEncapWitness uMapInputsToWires mapInputsToWires
  have := uFlattenFields_units (inputSignals (jsParseSymFile sym) none) inputs [] []
  rw [show strUnits [] = [] from rfl, show NMap.units [] = [] from rfl] at this
  simp only [this]
  cases flattenFields (inputSignals (jsParseSymFile sym) none) inputs [] [] with
  | error e => rfl
  | ok m => simp only [Res.ok_bind, uFillWitness_units, uMaxKey_units]

/-! ## Names with lone surrogates -/

theorem utf16_before {s : Str} {k : JStr} (h : Utf16 s k) : ∀ (a : JStr) (u : UInt16) (r : JStr), ¬ (isHigh u = true ∨ isLow u = true) →
    k = a ++ u :: r → WellFormed a ∧ WellFormed r := by
  induction h with
  | nil => intro a u r _ e; simp at e
  | @one c v s us h1 h2 ih =>
    intro a u r hu e
    cases a with
    | nil =>
      simp only [List.nil_append, List.cons.injEq] at e
      rw [← e.2]
      exact ⟨⟨[], .nil⟩, s, h2⟩
    | cons x a =>
      simp only [List.cons_append, List.cons.injEq] at e
      obtain ⟨⟨t, ht⟩, hr⟩ := ih a u r hu e.2
      rw [← e.1]
      exact ⟨⟨c :: t, .one h1 ht⟩, hr⟩
  | @two c v w s us h1 h2 h3 h4 h5 h6 ih =>
    intro a u r hu e
    match a with
    | [] =>
      simp only [List.nil_append, List.cons.injEq] at e
      exact absurd (Or.inl ((isHigh_iff u).2 (by rw [← e.1]; exact ⟨h1, h2⟩))) hu
    | [x] =>
      simp only [List.cons_append, List.nil_append, List.cons.injEq] at e
      exact absurd (Or.inr ((isLow_iff u).2 (by rw [← e.2.1]; exact ⟨h3, h4⟩))) hu
    | x :: y :: a =>
      simp only [List.cons_append, List.cons.injEq] at e
      obtain ⟨⟨t, ht⟩, hr⟩ := ih a u r hu e.2.2
      rw [← e.1, ← e.2.1]
      exact ⟨⟨c :: t, .two h1 h2 h3 h4 h5 ht⟩, hr⟩

theorem wellFormed_split {a r : JStr} {c : Char} (hc : c.toNat < 0xD800) (h : WellFormed (a ++ (charUnits c ++ r))) : WellFormed a ∧ WellFormed r := by
  obtain ⟨s, hs⟩ := h
  rw [charUnits_small (by omega)] at hs
  exact utf16_before hs a _ r (by rw [isHigh_iff, isLow_iff, u16_toNat_ofNat (by omega)]; omega) rfl

theorem uSetWire_ill {sig : AMap Nat} {key : JStr} (h : ¬ WellFormed key) (v : UVal) (m : UMap) : uSetWire sig key v m = .ok m := by
  unfold uSetWire
  cases hl : uLookup sig key with
  | none => rfl
  | some w => exact absurd (uLookup_wellFormed hl) h

theorem uSetWires_ill {sig : AMap Nat} {key : JStr} (h : ¬ WellFormed key) (l : List UVal) : ∀ (i : Nat) (m : UMap),
    uSetWires sig key l i m = .ok m := by
  induction l with
  | nil => intro i m; rfl
  | cons x xs ih =>
    intro i m
    rw [uSetWires, strUnits_cons, uSetWire_ill, Res.ok_bind]
    · exact ih _ _
    · intro hw; exact h (wellFormed_split (by decide) hw).1

theorem uDotKey_ill {pre key : JStr} (h : ¬ WellFormed pre ∨ ¬ WellFormed key) : ¬ WellFormed (uDotKey pre key) := by
  unfold uDotKey
  split_ifs with he
  · rcases h with h | h
    · exact absurd ⟨[], by rw [he]; exact .nil⟩ h
    · exact h
  · intro hw
    obtain ⟨h1, h2⟩ := wellFormed_split (by decide) hw
    rcases h with h | h
    · exact h h1
    · exact h h2

mutual
theorem uFlattenInput_ill (sig : AMap Nat) : ∀ (v : UVal) (full : JStr) (m : UMap), ¬ WellFormed full → uFlattenInput sig v full m = .ok m
  | .null, full, m, h => by simp only [uFlattenInput]; exact uSetWire_ill h _ m
  | .undef, full, m, h => by simp only [uFlattenInput]; exact uSetWire_ill h _ m
  | .bool b, full, m, h => by simp only [uFlattenInput]; exact uSetWire_ill h _ m
  | .num z, full, m, h => by simp only [uFlattenInput]; exact uSetWire_ill h _ m
  | .numText s, full, m, h => by simp only [uFlattenInput]; exact uSetWire_ill h _ m
  | .bigint z, full, m, h => by simp only [uFlattenInput]; exact uSetWire_ill h _ m
  | .str s, full, m, h => by simp only [uFlattenInput]; exact uSetWire_ill h _ m
  | .arr l, full, m, h => by simp only [uFlattenInput]; exact uSetWires_ill h l 0 m
  | .obj l, full, m, h => by simp only [uFlattenInput]; exact uFlattenFields_ill sig l full m h
theorem uFlattenFields_ill (sig : AMap Nat) : ∀ (l : List (JStr × UVal)) (pre : JStr) (m : UMap), ¬ WellFormed pre →
    uFlattenFields sig l pre m = .ok m
  | [], pre, m, h => by simp only [uFlattenFields]
  | (k, v) :: rest, pre, m, h => by
    simp only [uFlattenFields]
    rw [uFlattenInput_ill sig v _ m (uDotKey_ill (Or.inl h))]
    exact uFlattenFields_ill sig rest pre m h
end

end Zkenc
