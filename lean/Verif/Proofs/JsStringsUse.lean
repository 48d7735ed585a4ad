import Verif.Proofs.JsStringsClean
/-!
# Cleaned inputs, strings in trees
-/

namespace Zkenc

open JsonSpec

mutual
theorem clean_of_cleaned : ∀ {v : UVal} {v' : JsVal}, Cleaned v v' → v' = v.clean
  | _, _, .null => by simp only [UVal.clean]
  | _, _, .undef => by simp only [UVal.clean]
  | _, _, .bool b => by simp only [UVal.clean]
  | _, _, .num z => by simp only [UVal.clean]
  | _, _, .numText s => by simp only [UVal.clean]
  | _, _, .bigint z => by simp only [UVal.clean]
  | _, _, @Cleaned.str k s h => by
    have := (utf16_iff _ _).1 h
    subst this
    simp [UVal.clean, toStr?_strUnits]
  | _, _, @Cleaned.ill k h => by
    simp only [UVal.clean]
    cases hk : k.toStr? with
    | none => rfl
    | some s => exact absurd ((wellFormed_iff k).2 ⟨s, hk⟩) h
  | _, _, .arr h => by simp only [UVal.clean]; rw [cleanItems_of_cleaned h]
  | _, _, .obj h => by simp only [UVal.clean]; rw [cleanFields_of_cleaned h]
theorem cleanItems_of_cleaned : ∀ {l : List UVal} {l' : List JsVal}, CleanedItems l l' → l' = cleanItems l
  | _, _, .nil => by simp only [cleanItems]
  | _, _, .cons h h' => by simp only [cleanItems]; rw [clean_of_cleaned h, cleanItems_of_cleaned h']
theorem cleanFields_of_cleaned : ∀ {l : List (JStr × UVal)} {l' : List (Str × JsVal)}, CleanedEntries l l' → l' = cleanFields l
  | _, _, .nil => by simp only [cleanFields]
  | _, _, .cons h h' h'' => by
    have := (utf16_iff _ _).1 h
    subst this
    simp only [cleanFields, toStr?_strUnits]
    rw [clean_of_cleaned h', cleanFields_of_cleaned h'']
  | _, _, @CleanedEntries.ill k v l l' h h' => by
    simp only [cleanFields]
    cases hk : k.toStr? with
    | none => simp only [cleanFields_of_cleaned h']
    | some s => exact absurd ((wellFormed_iff k).2 ⟨s, hk⟩) h
end

mutual
theorem cleaned_clean : ∀ v : UVal, Cleaned v v.clean
  | .null => by simp only [UVal.clean]; exact .null
  | .undef => by simp only [UVal.clean]; exact .undef
  | .bool b => by simp only [UVal.clean]; exact .bool b
  | .num z => by simp only [UVal.clean]; exact .num z
  | .numText s => by simp only [UVal.clean]; exact .numText s
  | .bigint z => by simp only [UVal.clean]; exact .bigint z
  | .str k => by
    simp only [UVal.clean]
    cases hk : k.toStr? with
    | none => exact .ill (illFormed_of_none hk)
    | some s => exact .str ((utf16_iff _ _).2 ((toStr?_iff _ _).1 hk))
  | .arr l => by simp only [UVal.clean]; exact .arr (cleaned_cleanItems l)
  | .obj l => by simp only [UVal.clean]; exact .obj (cleaned_cleanFields l)
theorem cleaned_cleanItems : ∀ l : List UVal, CleanedItems l (cleanItems l)
  | [] => by simp only [cleanItems]; exact .nil
  | v :: vs => by simp only [cleanItems]; exact .cons (cleaned_clean v) (cleaned_cleanItems vs)
theorem cleaned_cleanFields : ∀ l : List (JStr × UVal), CleanedEntries l (cleanFields l)
  | [] => by simp only [cleanFields]; exact .nil
  | (k, v) :: vs => by
    simp only [cleanFields]
    cases hk : k.toStr? with
    | none => exact .ill (illFormed_of_none hk) (cleaned_cleanFields vs)
    | some s => exact .cons ((utf16_iff _ _).2 ((toStr?_iff _ _).1 hk)) (cleaned_clean v) (cleaned_cleanFields vs)
end

/-! ## Trees whose strings are all well-formed -/

mutual
theorem units_of_wellFormed : ∀ u : UTree, (∀ k, UHasStr u k → WellFormed k) → ∃ t : JTree, u = t.units
  | .null, _ => ⟨.null, by simp only [JTree.units]⟩
  | .bool b, _ => ⟨.bool b, by simp only [JTree.units]⟩
  | .num lit, _ => ⟨.num lit, by simp only [JTree.units]⟩
  | .str k, h => by
    obtain ⟨s, hs⟩ := h k (.here k)
    exact ⟨.str s, by simp only [JTree.units]; rw [(utf16_iff _ _).1 hs]⟩
  | .arr l, h => by
    obtain ⟨ts, hts⟩ := unitsItems_of_wellFormed l fun t ht k hk => h k (.item ht hk)
    exact ⟨.arr ts, by simp only [JTree.units, hts]⟩
  | .obj l, h => by
    obtain ⟨ts, hts⟩ := unitsFields_of_wellFormed l fun e he => ⟨h e.1 (.name (t := e.2) he), fun k hk => h k (.field (k := e.1) he hk)⟩
    exact ⟨.obj ts, by simp only [JTree.units, hts]⟩
theorem unitsItems_of_wellFormed : ∀ l : List UTree, (∀ t ∈ l, ∀ k, UHasStr t k → WellFormed k) → ∃ ts, l = treeUnitsItems ts
  | [], _ => ⟨[], by simp only [treeUnitsItems]⟩
  | t :: l, h => by
    obtain ⟨t', rfl⟩ := units_of_wellFormed t fun k hk => h _ List.mem_cons_self k hk
    obtain ⟨l', rfl⟩ := unitsItems_of_wellFormed l fun t ht => h t (List.mem_cons_of_mem _ ht)
    exact ⟨t' :: l', by simp only [treeUnitsItems]⟩
theorem unitsFields_of_wellFormed : ∀ l : List (JStr × UTree), (∀ e ∈ l, WellFormed e.1 ∧ ∀ k, UHasStr e.2 k → WellFormed k) →
    ∃ ts, l = treeUnitsFields ts
  | [], _ => ⟨[], by simp only [treeUnitsFields]⟩
  | (k, t) :: l, h => by
    obtain ⟨⟨s, hs⟩, ht⟩ := h _ List.mem_cons_self
    obtain ⟨t', rfl⟩ := units_of_wellFormed t ht
    obtain ⟨l', rfl⟩ := unitsFields_of_wellFormed l fun e he => h e (List.mem_cons_of_mem _ he)
    exact ⟨(s, t') :: l', by simp only [treeUnitsFields]; rw [← (utf16_iff s k).1 hs]⟩
end

theorem treeUnitsItems_map (l : List JTree) : treeUnitsItems l = l.map JTree.units := by
  induction l with
  | nil => simp [treeUnitsItems]
  | cons t l ih => simp [treeUnitsItems, ih]

theorem treeUnitsFields_map (l : List (Str × JTree)) : treeUnitsFields l = l.map fun e => (strUnits e.1, e.2.units) := by
  induction l with
  | nil => simp [treeUnitsFields]
  | cons e l ih => obtain ⟨k, t⟩ := e; simp [treeUnitsFields, ih]

theorem hasStr_units {u : UTree} {k : JStr} (h : UHasStr u k) : ∀ t : JTree, u = t.units → WellFormed k := by
  induction h with
  | here s =>
    intro t ht
    cases t <;> simp only [JTree.units] at ht <;> cases ht
    exact wellFormed_units _
  | item hm _ ih =>
    intro t ht
    cases t <;> simp only [JTree.units] at ht <;> cases ht
    rw [treeUnitsItems_map] at hm
    obtain ⟨x, -, rfl⟩ := List.mem_map.1 hm
    exact ih x rfl
  | name hm =>
    intro t ht
    cases t <;> simp only [JTree.units] at ht <;> cases ht
    rw [treeUnitsFields_map] at hm
    obtain ⟨x, -, hx⟩ := List.mem_map.1 hm
    cases hx
    exact wellFormed_units _
  | field hm _ ih =>
    intro t ht
    cases t <;> simp only [JTree.units] at ht <;> cases ht
    rw [treeUnitsFields_map] at hm
    obtain ⟨x, -, hx⟩ := List.mem_map.1 hm
    cases hx
    exact ih x.2 rfl

/-! ## What `JSON.stringify` writes -/

mutual
theorem uTree_contains : ∀ (v : UVal) (t : UTree), uTree v = .ok (some t) → ∀ k, UContains (uKept v) k → UHasStr t k
  | .null, t, _, k, hk => by simp only [uKept] at hk; cases hk
  | .undef, t, _, k, hk => by simp only [uKept] at hk; cases hk
  | .bool b, t, _, k, hk => by simp only [uKept] at hk; cases hk
  | .num z, t, _, k, hk => by simp only [uKept] at hk; cases hk
  | .numText s, t, _, k, hk => by simp only [uKept] at hk; split_ifs at hk <;> cases hk
  | .bigint z, t, _, k, hk => by simp only [uKept] at hk; cases hk
  | .str s, t, h, k, hk => by
    simp only [uKept] at hk; simp only [uTree] at h; cases h; cases hk; exact .here s
  | .arr l, t, h, k, hk => by
    simp only [uKept] at hk
    simp only [uTree] at h
    obtain ⟨ts, h1, h⟩ := Res.bind_eq_ok.1 h
    cases h
    cases hk with
    | item hm hc =>
      obtain ⟨t, ht, hs⟩ := uTrees_contains l ts h1 _ hm _ hc
      exact .item ht hs
  | .obj l, t, h, k, hk => by
    simp only [uKept] at hk
    simp only [uTree] at h
    obtain ⟨ts, h1, h⟩ := Res.bind_eq_ok.1 h
    cases h
    cases hk with
    | name hm =>
      obtain ⟨t, ht, -⟩ := uFields_contains l ts h1 _ _ hm
      exact .name ht
    | field hm hc =>
      obtain ⟨t, ht, hs⟩ := uFields_contains l ts h1 _ _ hm
      exact .field ht (hs _ hc)
theorem uTrees_contains : ∀ (l : List UVal) (ts : List UTree), uTrees l = .ok ts → ∀ v ∈ uKeptItems l, ∀ k, UContains v k → ∃ t ∈ ts, UHasStr t k
  | [], ts, _, v, hv, k, hk => by simp only [uKeptItems] at hv; cases hv
  | x :: xs, ts, h, v, hv, k, hk => by
    simp only [uKeptItems] at hv
    simp only [uTrees] at h
    obtain ⟨o, h1, h⟩ := Res.bind_eq_ok.1 h
    obtain ⟨ts', h2, h⟩ := Res.bind_eq_ok.1 h
    cases h
    rcases List.mem_cons.1 hv with rfl | hv
    · cases o with
      | some t => exact ⟨t, by simp, uTree_contains x t h1 k hk⟩
      | none =>
        cases x <;> simp only [uTree] at h1 <;> first
          | (simp only [uKept] at hk; cases hk; done)
          | (cases h1; done)
          | (obtain ⟨_, -, h1⟩ := Res.bind_eq_ok.1 h1; cases h1; done)
    · obtain ⟨t, ht, hs⟩ := uTrees_contains xs ts' h2 v hv k hk
      exact ⟨t, by simp [ht], hs⟩
theorem uFields_contains : ∀ (l : List (JStr × UVal)) (ts : List (JStr × UTree)), uFields l = .ok ts → ∀ k v, (k, v) ∈ uKeptFields l →
    ∃ t, (k, t) ∈ ts ∧ ∀ s, UContains v s → UHasStr t s
  | [], ts, _, k, v, hv => by simp only [uKeptFields] at hv; cases hv
  | (x, y) :: xs, ts, h, k, v, hv => by
    simp only [uFields] at h
    obtain ⟨o, h1, h⟩ := Res.bind_eq_ok.1 h
    obtain ⟨ts', h2, h⟩ := Res.bind_eq_ok.1 h
    cases o with
    | none =>
      cases h
      have hy : y = .undef := by
        cases y <;> simp only [uTree] at h1 <;> first
          | rfl
          | (cases h1; done)
          | (obtain ⟨_, -, h1⟩ := Res.bind_eq_ok.1 h1; cases h1; done)
      subst hy
      simp only [uKeptFields] at hv
      exact uFields_contains xs _ h2 k v hv
    | some t =>
      cases h
      have hv' : (k, v) = (x, uKept y) ∨ (k, v) ∈ uKeptFields xs := by
        cases y <;> simp only [uKeptFields] at hv <;> first
          | (simp only [uTree] at h1; cases h1; done)
          | exact List.mem_cons.1 hv
      rcases hv' with hv' | hv'
      · cases hv'
        exact ⟨t, by simp, fun s hs => uTree_contains y t h1 s hs⟩
      · obtain ⟨t', ht, hs⟩ := uFields_contains xs ts' h2 k v hv'
        exact ⟨t', by simp [ht], hs⟩
end

end Zkenc
