import Verif.Proofs.JsStringsAgree
/-!
# For every input object there is one without lone surrogates that gives the same key
-/

namespace Zkenc

open JsonSpec

mutual
/-- Entries with an ill-formed name are dropped, ill-formed texts become `?`. -/
def UVal.clean : UVal → JsVal
  | .null => .null
  | .undef => .undef
  | .bool b => .bool b
  | .num z => .num z
  | .numText s => .numText s
  | .bigint z => .bigint z
  | .str s => .str (s.toStr?.getD ['?'])
  | .arr l => .arr (cleanItems l)
  | .obj l => .obj (cleanFields l)
def cleanItems : List UVal → List JsVal
  | [] => []
  | v :: vs => v.clean :: cleanItems vs
def cleanFields : List (JStr × UVal) → List (Str × JsVal)
  | [] => []
  | (k, v) :: vs => match k.toStr? with
    | some s => (s, v.clean) :: cleanFields vs
    | none => cleanFields vs
end

/-- The text and what became of it. -/
def TextRel (a : JStr) (b : Str) : Prop := a = strUnits b ∨ (¬ WellFormed a ∧ '?' ∈ b)

theorem illFormed_of_none {s : JStr} (h : s.toStr? = none) : ¬ WellFormed s := by
  intro hw
  obtain ⟨t, ht⟩ := (wellFormed_iff s).1 hw
  rw [h] at ht
  cases ht

theorem wellFormed_units (s : Str) : WellFormed (strUnits s) := ⟨s, (utf16_iff _ _).2 rfl⟩

theorem textRel_sep {a r : JStr} {b s : Str} (h : TextRel a b) (h' : TextRel r s) : TextRel (a ++ (charUnits ',' ++ r)) (b ++ ',' :: s) := by
  rcases h with rfl | ⟨h1, h2⟩
  · rcases h' with rfl | ⟨h3, h4⟩
    · left; rw [strUnits_append, strUnits_cons]
    · right; exact ⟨fun hw => h3 (wellFormed_split (by decide) hw).2, by simp [h4]⟩
  · right; exact ⟨fun hw => h1 (wellFormed_split (by decide) hw).1, by simp [h2]⟩

mutual
theorem joinText_clean : ∀ v : UVal, TextRel v.joinText v.clean.joinText
  | .null => by simp only [UVal.clean, UVal.joinText, JsVal.joinText]; exact Or.inl rfl
  | .undef => by simp only [UVal.clean, UVal.joinText, JsVal.joinText]; exact Or.inl rfl
  | .bool b => by simp only [UVal.clean, UVal.joinText, JsVal.joinText]; exact Or.inl rfl
  | .num z => by simp only [UVal.clean, UVal.joinText, JsVal.joinText]; exact Or.inl rfl
  | .numText s => by simp only [UVal.clean, UVal.joinText, JsVal.joinText]; exact Or.inl rfl
  | .bigint z => by simp only [UVal.clean, UVal.joinText, JsVal.joinText]; exact Or.inl rfl
  | .str s => by
    simp only [UVal.clean, UVal.joinText, JsVal.joinText]
    cases h : s.toStr? with
    | some t => left; simpa using (toStr?_iff _ _).1 h
    | none => right; exact ⟨illFormed_of_none h, by simp⟩
  | .arr l => by simp only [UVal.clean, UVal.joinText, JsVal.joinText]; exact joinTexts_clean l
  | .obj l => by simp only [UVal.clean, UVal.joinText, JsVal.joinText]; exact Or.inl rfl
theorem joinTexts_clean : ∀ l : List UVal, TextRel (uJoinTexts l) (joinTexts (cleanItems l))
  | [] => by simp only [cleanItems, uJoinTexts, joinTexts]; exact Or.inl rfl
  | [x] => by
    have := joinText_clean x
    simpa [cleanItems, uJoinTexts, uJoinRest, joinTexts, joinRest] using this
  | x :: y :: ys => by
    have h1 := joinText_clean x
    have h2 := joinTexts_clean (y :: ys)
    have := textRel_sep h1 h2
    simpa only [cleanItems, uJoinTexts, uJoinRest, joinTexts, joinRest] using this
end

/-- Both fail in the same way or both succeed. -/
def ResRel {α β : Type} (R : α → β → Prop) : Res α → Res β → Prop
  | .error e, .error e' => e = e'
  | .ok a, .ok b => R a b
  | _, _ => False

theorem toStr_clean (v : UVal) : ResRel TextRel v.toStr v.clean.toStr := by
  have := joinText_clean v
  cases v <;> simp only [UVal.clean] at this ⊢ <;> first | rfl | exact this

/-- Map and map. -/
def MapRel (m : UMap) (m' : NMap) : Prop := List.Forall₂ (fun e e' => e.1 = e'.1 ∧ TextRel e.2 e'.2) m m'

theorem mapRel_set {m : UMap} {m' : NMap} (h : MapRel m m') (k : Nat) {a : JStr} {b : Str} (hr : TextRel a b) : MapRel (m.set k a) (m'.set k b) := by
  unfold MapRel at *
  induction h with
  | nil => exact .cons ⟨rfl, hr⟩ .nil
  | @cons e e' m m' he hm ih =>
    obtain ⟨x, y⟩ := e
    obtain ⟨x', y'⟩ := e'
    obtain ⟨rfl, he2⟩ := he
    simp only [UMap.set, NMap.set]
    split_ifs
    · exact .cons ⟨rfl, hr⟩ hm
    · exact .cons ⟨rfl, he2⟩ ih

theorem mapRel_get {m : UMap} {m' : NMap} (h : MapRel m m') (k : Nat) :
    (m.get k = none ∧ m'.get k = none) ∨ ∃ a b, m.get k = some a ∧ m'.get k = some b ∧ TextRel a b := by
  unfold MapRel at *
  induction h with
  | nil => exact Or.inl ⟨rfl, rfl⟩
  | @cons e e' m m' he hm ih =>
    obtain ⟨x, y⟩ := e
    obtain ⟨x', y'⟩ := e'
    obtain ⟨rfl, he2⟩ := he
    simp only [UMap.get, NMap.get]
    simp only at he2
    split_ifs
    · exact Or.inr ⟨y, y', rfl, rfl, he2⟩
    · exact ih

theorem mapRel_max {m : UMap} {m' : NMap} (h : MapRel m m') : uMaxKey m = maxKey m' := by
  unfold uMaxKey maxKey
  congr 1
  unfold MapRel at h
  induction h with
  | nil => rfl
  | cons he _ ih => simp [he.1, ih]

theorem uSetWire_clean (sig : AMap Nat) (key : Str) (v : UVal) {m : UMap} {m' : NMap} (h : MapRel m m') :
    ResRel MapRel (uSetWire sig (strUnits key) v m) (setWire sig key v.clean m') := by
  unfold uSetWire setWire
  rw [uLookup_units]
  cases sig.get key with
  | none => exact h
  | some w =>
    have hs := toStr_clean v
    simp only
    cases h1 : v.toStr with
    | error e =>
      cases h2 : v.clean.toStr with
      | error e' => rw [h1, h2] at hs; exact hs
      | ok b => rw [h1, h2] at hs; exact hs.elim
    | ok a =>
      cases h2 : v.clean.toStr with
      | error e' => rw [h1, h2] at hs; exact hs.elim
      | ok b => rw [h1, h2] at hs; exact mapRel_set h w hs

theorem resRel_bind {α β α' β' : Type} {R : α → β → Prop} {R' : α' → β' → Prop} {x : Res α} {y : Res β} {f : α → Res α'} {g : β → Res β'}
    (h : ResRel R x y) (hf : ∀ a b, R a b → ResRel R' (f a) (g b)) : ResRel R' (x >>= f) (y >>= g) := by
  cases x with
  | error e => cases y with
    | error e' => exact h
    | ok b => exact h.elim
  | ok a => cases y with
    | error e' => exact h.elim
    | ok b => exact hf a b h

theorem uSetWires_clean (sig : AMap Nat) (key : Str) (l : List UVal) : ∀ (i : Nat) {m : UMap} {m' : NMap}, MapRel m m' →
    ResRel MapRel (uSetWires sig (strUnits key) l i m) (setWires sig key (cleanItems l) i m') := by
  induction l with
  | nil => intro i m m' h; simp only [cleanItems, uSetWires, setWires]; exact h
  | cons x xs ih =>
    intro i m m' h
    simp only [cleanItems, uSetWires, setWires]
    rw [← idxKey_units]
    exact resRel_bind (uSetWire_clean sig _ x h) fun a b hab => ih (i + 1) hab

theorem ill_of_none {k : JStr} (h : k.toStr? = none) : ¬ WellFormed k := fun hw => by
  obtain ⟨t, ht⟩ := (wellFormed_iff k).1 hw; rw [h] at ht; cases ht

mutual
theorem uFlattenInput_clean (sig : AMap Nat) : ∀ (v : UVal) (full : Str) (m : UMap) (m' : NMap), MapRel m m' →
    ResRel MapRel (uFlattenInput sig v (strUnits full) m) (flattenInput sig v.clean full m')
  | .null, full, m, m', h => by have := uSetWire_clean sig full .null h; simpa only [UVal.clean, uFlattenInput, flattenInput] using this
  | .undef, full, m, m', h => by have := uSetWire_clean sig full .undef h; simpa only [UVal.clean, uFlattenInput, flattenInput] using this
  | .bool b, full, m, m', h => by have := uSetWire_clean sig full (.bool b) h; simpa only [UVal.clean, uFlattenInput, flattenInput] using this
  | .num z, full, m, m', h => by have := uSetWire_clean sig full (.num z) h; simpa only [UVal.clean, uFlattenInput, flattenInput] using this
  | .numText s, full, m, m', h => by have := uSetWire_clean sig full (.numText s) h; simpa only [UVal.clean, uFlattenInput, flattenInput] using this
  | .bigint z, full, m, m', h => by have := uSetWire_clean sig full (.bigint z) h; simpa only [UVal.clean, uFlattenInput, flattenInput] using this
  | .str s, full, m, m', h => by have := uSetWire_clean sig full (.str s) h; simpa only [UVal.clean, uFlattenInput, flattenInput] using this
  | .arr l, full, m, m', h => by simp only [UVal.clean, uFlattenInput, flattenInput]; exact uSetWires_clean sig full l 0 h
  | .obj l, full, m, m', h => by simp only [UVal.clean, uFlattenInput, flattenInput]; exact uFlattenFields_clean sig l full m m' h
theorem uFlattenFields_clean (sig : AMap Nat) : ∀ (l : List (JStr × UVal)) (pre : Str) (m : UMap) (m' : NMap), MapRel m m' →
    ResRel MapRel (uFlattenFields sig l (strUnits pre) m) (flattenFields sig (cleanFields l) pre m')
  | [], pre, m, m', h => by simp only [cleanFields, uFlattenFields, flattenFields]; exact h
  | (k, v) :: rest, pre, m, m', h => by
    simp only [cleanFields, uFlattenFields]
    cases hk : k.toStr? with
    | none =>
      rw [uFlattenInput_ill sig v _ m (uDotKey_ill (Or.inr (ill_of_none hk)))]
      exact uFlattenFields_clean sig rest pre m m' h
    | some s =>
      have hs := (toStr?_iff _ _).1 hk
      subst hs
      simp only [flattenFields]
      rw [dotKey_units]
      have := uFlattenInput_clean sig v (dotKey pre s) m m' h
      cases h1 : uFlattenInput sig v (strUnits (dotKey pre s)) m with
      | error e =>
        cases h2 : flattenInput sig v.clean (dotKey pre s) m' with
        | error e' => rw [h1, h2] at this; exact this
        | ok b => rw [h1, h2] at this; exact this.elim
      | ok a =>
        cases h2 : flattenInput sig v.clean (dotKey pre s) m' with
        | error e' => rw [h1, h2] at this; exact this.elim
        | ok b => rw [h1, h2] at this; exact uFlattenFields_clean sig rest pre a b this
end

/-! ## A text with a question mark is no number -/

theorem mem_dropWhile {p : Char → Bool} {c : Char} (hc : p c = false) : ∀ {s : Str}, c ∈ s → c ∈ s.dropWhile p
  | [], h => h
  | d :: s, h => by
    rw [List.dropWhile_cons]
    split_ifs with hd
    · rcases List.mem_cons.1 h with rfl | h
      · rw [hc] at hd; cases hd
      · exact mem_dropWhile hc h
    · exact h

theorem mem_trim {p : Char → Bool} {c : Char} (hc : p c = false) {s : Str} (h : c ∈ s) : c ∈ trim p s := by
  unfold trim dropEndWhile
  rw [List.mem_reverse]
  exact mem_dropWhile hc (List.mem_reverse.2 (mem_dropWhile hc h))

theorem decDigits_mark {t : Str} (h : '?' ∈ t) : decDigits t = none := by
  unfold decDigits
  rw [if_neg]
  rintro ⟨-, h2⟩
  have := List.all_eq_true.1 h2 '?' h
  exact absurd this (by decide)

theorem radix_none (b : Nat) (t : Str) : t.foldl (fun a c => match a, hexVal c with
    | some a, some d => if d < b then some (b * a + d) else none
    | _, _ => none) none = none := by
  induction t with
  | nil => rfl
  | cons c t ih => simpa using ih

theorem radix_mark (b : Nat) (t : Str) (h : '?' ∈ t) : ∀ a : Option Nat, t.foldl (fun a c => match a, hexVal c with
    | some a, some d => if d < b then some (b * a + d) else none
    | _, _ => none) a = none := by
  induction t with
  | nil => cases h
  | cons c t ih =>
    intro a
    rw [List.foldl_cons]
    rcases List.mem_cons.1 h with rfl | h
    · have : hexVal '?' = none := by decide
      rw [this]
      cases a <;> exact radix_none b t
    · exact ih h _

theorem radixDigits_mark {b : Nat} {t : Str} (h : '?' ∈ t) : radixDigits b t = none := by
  unfold radixDigits
  split_ifs
  · rfl
  · exact radix_mark b t h _

theorem jsBigInt_mark {s : Str} (h : '?' ∈ s) : jsBigInt s = none := by
  have h' : '?' ∈ trim jsWs s := mem_trim (by decide) h
  unfold jsBigInt
  split <;> rename_i e <;> first
    | (rw [e] at h'; cases h'; done)
    | (rw [e] at h'; rw [decDigits_mark (by simpa using h')]; rfl)
    | (rw [e] at h'; rw [radixDigits_mark (by simpa using h')]; rfl)
    | (rw [decDigits_mark h']; rfl)

theorem textRel_bigInt {a : JStr} {b : Str} (h : TextRel a b) : uBigInt a = jsBigInt b := by
  rcases h with rfl | ⟨h1, h2⟩
  · rw [uBigInt, toStr?_strUnits]; rfl
  · rw [jsBigInt_mark h2, uBigInt]
    cases hs : a.toStr? with
    | none => rfl
    | some s => exact absurd ((wellFormed_iff a).2 ⟨s, hs⟩) h1

theorem uFillWitness_clean {m : UMap} {m' : NMap} (h : MapRel m m') (n : Nat) : ∀ i, uFillWitness m i n = fillWitness m' i n := by
  induction n with
  | zero => intro i; rfl
  | succ n ih =>
    intro i
    rw [uFillWitness, fillWitness]
    rcases mapRel_get h i with ⟨h1, h2⟩ | ⟨a, b, h1, h2, hr⟩
    · rw [h1, h2]
    · rw [h1, h2]
      simp only [textRel_bigInt hr, ih]
      cases jsBigInt b <;> rfl

/-- The same witness bytes. -/
theorem uEncapWitness_clean (sym : Str) (inputs : List (JStr × UVal)) : uEncapWitness sym inputs = jsEncapWitness sym (cleanFields inputs) := by
  unfold uEncapWitness jsEncapWitness uMapInputsToWires mapInputsToWires
  have := uFlattenFields_clean (inputSignals (jsParseSymFile sym) none) inputs [] [] [] .nil
  rw [show strUnits [] = [] from rfl] at this
  simp only
  cases h1 : uFlattenFields (inputSignals (jsParseSymFile sym) none) inputs [] [] with
  | error e =>
    cases h2 : flattenFields (inputSignals (jsParseSymFile sym) none) (cleanFields inputs) [] [] with
    | error e' => rw [h1, h2] at this; rw [show e = e' from this]; rfl
    | ok b => rw [h1, h2] at this; exact this.elim
  | ok a =>
    cases h2 : flattenFields (inputSignals (jsParseSymFile sym) none) (cleanFields inputs) [] [] with
    | error e' => rw [h1, h2] at this; exact this.elim
    | ok b =>
      rw [h1, h2] at this
      simp only [Res.ok_bind, mapRel_max this, uFillWitness_clean this]

end Zkenc
