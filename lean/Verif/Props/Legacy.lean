import Verif.Model.Legacy
import Verif.Props.Inputs
/-!
# C63: legacy input helpers of the CLI library
-/

namespace Zkenc.InputSpec

open Zkenc

mutual
/-- The leaves of a value (what remains after entering arrays) in document order. -/
def inOrder : Json → List Json
  | .arr l => inOrderArr l
  | .null => [.null]
  | .bool b => [.bool b]
  | .int z => [.int z]
  | .float => [.float]
  | .str s => [.str s]
  | .obj l => [.obj l]
def inOrderArr : List Json → List Json
  | [] => []
  | x :: xs => inOrder x ++ inOrderArr xs
end

/-- The leaves of all entries in document order. -/
def entriesInOrder (entries : List (Str × Json)) : List Json := entries.flatMap fun e => inOrder e.2

end Zkenc.InputSpec

namespace Zkenc.Props

open Zkenc InputSpec

/-- Pushing the values of leaves (proof helper). -/
def pushLeaves : List Json → List Fr → Option (List Fr)
  | [], acc => some acc
  | y :: ys, acc => (cliScalar y).bind fun v => pushLeaves ys (acc ++ [v])

theorem pushLeaves_append (a b : List Json) (acc : List Fr) : pushLeaves (a ++ b) acc = (pushLeaves a acc).bind (pushLeaves b) := by
  induction a generalizing acc with
  | nil => rfl
  | cons y a ih =>
    simp only [List.cons_append, pushLeaves]
    cases cliScalar y with
    | none => rfl
    | some v => exact ih _

mutual
theorem pushValue_follows : ∀ (j : Json) (acc : List Fr), Follows (pushValue j acc) (pushLeaves (inOrder j) acc)
  | .arr l, acc => by rw [pushValue, inOrder]; exact pushArr_follows l acc
  | .null, acc => Or.inr ⟨_, rfl, rfl⟩
  | .bool b, acc => Or.inr ⟨_, rfl, rfl⟩
  | .float, acc => Or.inr ⟨_, rfl, rfl⟩
  | .obj l, acc => Or.inr ⟨_, rfl, rfl⟩
  | .int z, acc => by
    simp only [pushValue, inOrder, pushLeaves, cliScalar]
    cases frFromJsonInt z
    · exact Or.inr ⟨_, rfl, rfl⟩
    · exact Or.inl ⟨_, rfl, rfl⟩
  | .str s, acc => by
    simp only [pushValue, inOrder, pushLeaves, cliScalar]
    cases frFromStr s
    · exact Or.inr ⟨_, rfl, rfl⟩
    · exact Or.inl ⟨_, rfl, rfl⟩
theorem pushArr_follows : ∀ (l : List Json) (acc : List Fr), Follows (pushArr l acc) (pushLeaves (inOrderArr l) acc)
  | [], acc => Or.inl ⟨_, rfl, rfl⟩
  | x :: xs, acc => by
    rw [pushArr, inOrderArr, pushLeaves_append]
    exact (pushValue_follows x acc).bind (fun m' => pushArr_follows xs m') (fun e h => by rw [h]) (fun a h => by rw [h])
end

theorem pushEntries_follows (entries : List (Str × Json)) (acc : List Fr) :
    Follows (pushEntries entries acc) (pushLeaves (entriesInOrder entries) acc) := by
  induction entries generalizing acc with
  | nil => exact Or.inl ⟨_, rfl, rfl⟩
  | cons e entries ih =>
    obtain ⟨k, v⟩ := e
    rw [pushEntries, entriesInOrder, List.flatMap_cons, pushLeaves_append]
    exact (pushValue_follows v acc).bind ih (fun e h => by rw [h]) (fun a h => by rw [h])

theorem pushLeaves_iff (l : List Json) (acc xs : List Fr) : pushLeaves l acc = some xs ↔ ∃ ys, xs = acc ++ ys ∧ List.Forall₂ Denotes l ys := by
  induction l generalizing acc with
  | nil =>
    simp only [pushLeaves, Option.some.injEq, List.forall₂_nil_left_iff]
    constructor
    · rintro rfl; exact ⟨[], by simp⟩
    · rintro ⟨ys, rfl, rfl⟩; simp
  | cons y l ih =>
    simp only [pushLeaves, Option.bind_eq_some_iff, ih]
    constructor
    · rintro ⟨v, hv, ys, rfl, h⟩
      exact ⟨v :: ys, by simp, List.Forall₂.cons ((cliScalar_iff y v).1 hv) h⟩
    · rintro ⟨ys, rfl, h⟩
      cases h with
      | cons h1 h2 => exact ⟨_, (cliScalar_iff y _).2 h1, _, by simp, h2⟩

/-- **C63** — the order-based parser succeeds exactly with the field elements that the leaves stand for, one per leaf, in document order. -/
theorem C63_ordered_values (entries : List (Str × Json)) (xs : List Fr) :
    parseCircuitInputs (.obj entries) = .ok xs ↔ List.Forall₂ Denotes (entriesInOrder entries) xs := by
  rw [show parseCircuitInputs (.obj entries) = pushEntries entries [] from rfl]
  have h := pushLeaves_iff (entriesInOrder entries) [] xs
  simp only [List.nil_append] at h
  rcases pushEntries_follows entries [] with ⟨a, h1, h2⟩ | ⟨e, h1, h2⟩
  · rw [h1]
    rw [h2] at h
    simp only [Except.ok.injEq, Option.some.injEq] at h ⊢
    rw [h]
    exact ⟨fun ⟨ys, h1, h2⟩ => h1 ▸ h2, fun h => ⟨xs, rfl, h⟩⟩
  · rw [h1]
    rw [h2] at h
    constructor
    · intro h'; cases h'
    · intro h'; have := h.2 ⟨xs, rfl, h'⟩; cases this

mutual
theorem leaves_inOrder : ∀ (j : Json) (key : Str), (leaves j key).map (·.2) = inOrder j
  | .arr l, key => by rw [leaves, inOrder]; exact leavesArr_inOrder l 0 key
  | .null, key => rfl
  | .bool b, key => rfl
  | .float, key => rfl
  | .obj l, key => rfl
  | .int z, key => rfl
  | .str s, key => rfl
theorem leavesArr_inOrder : ∀ (l : List Json) (n : Nat) (key : Str), (leavesArr l n key).map (·.2) = inOrderArr l
  | [], n, key => rfl
  | x :: xs, n, key => by rw [leavesArr, inOrderArr, List.map_append, leaves_inOrder, leavesArr_inOrder]
end

theorem allLeaves_inOrder (entries : List (Str × Json)) : (allLeaves entries).map (·.2) = entriesInOrder entries := by
  rw [allLeaves, entriesInOrder, List.map_flatMap]
  exact List.flatMap_congr fun e _ => leaves_inOrder _ _

theorem forall₂_isSome (l : List Json) : (∃ xs, List.Forall₂ Denotes l xs) ↔ ∀ y ∈ l, (cliScalar y).isSome := by
  induction l with
  | nil => exact ⟨fun _ y hy => by simp at hy, fun _ => ⟨[], .nil⟩⟩
  | cons y l ih =>
    rw [List.forall_mem_cons, ← ih]
    constructor
    · rintro ⟨xs, h⟩
      cases h with
      | cons h1 h2 => exact ⟨by rw [(cliScalar_iff _ _).2 h1]; rfl, _, h2⟩
    · rintro ⟨h1, xs, h2⟩
      obtain ⟨x, hx⟩ := Option.isSome_iff_exists.1 h1
      exact ⟨x :: xs, .cons ((cliScalar_iff _ _).1 hx) h2⟩

/-- **C63** — both parsers accept the same values, and neither panics. -/
theorem C63_same_acceptance (j : Json) :
    ((∃ xs, parseCircuitInputs j = .ok xs) ↔ ∃ m, cliInputs j = .ok m) ∧
      ((∃ xs, parseCircuitInputs j = .ok xs) ∨ ∃ e, parseCircuitInputs j = .error (.err e)) := by
  cases j with
  | obj entries =>
    constructor
    · have h1 : (∃ xs, parseCircuitInputs (.obj entries) = .ok xs) ↔ ∀ y ∈ entriesInOrder entries, (cliScalar y).isSome := by
        rw [← forall₂_isSome]
        exact exists_congr fun xs => C63_ordered_values entries xs
      rw [h1, ← allLeaves_inOrder]
      constructor
      · intro h
        refine ⟨_, (cliInputs_ok_iff _ _).2 ⟨(allDenote_iff _).2 fun e he => h e.2 (List.mem_map_of_mem he), rfl⟩⟩
      · rintro ⟨m, hm⟩ y hy
        obtain ⟨e, he, rfl⟩ := List.mem_map.1 hy
        exact (allDenote_iff _).1 ((cliInputs_ok_iff _ _).1 hm).1 e he
    · rcases pushEntries_follows entries [] with ⟨a, h, -⟩ | ⟨e, h, -⟩
      · exact Or.inl ⟨a, h⟩
      · exact Or.inr ⟨e, h⟩
  | null => exact ⟨⟨fun ⟨m, h⟩ => (by cases h), fun ⟨m, h⟩ => (by cases h)⟩, Or.inr ⟨_, rfl⟩⟩
  | bool b => exact ⟨⟨fun ⟨m, h⟩ => (by cases h), fun ⟨m, h⟩ => (by cases h)⟩, Or.inr ⟨_, rfl⟩⟩
  | int z => exact ⟨⟨fun ⟨m, h⟩ => (by cases h), fun ⟨m, h⟩ => (by cases h)⟩, Or.inr ⟨_, rfl⟩⟩
  | float => exact ⟨⟨fun ⟨m, h⟩ => (by cases h), fun ⟨m, h⟩ => (by cases h)⟩, Or.inr ⟨_, rfl⟩⟩
  | str s => exact ⟨⟨fun ⟨m, h⟩ => (by cases h), fun ⟨m, h⟩ => (by cases h)⟩, Or.inr ⟨_, rfl⟩⟩
  | arr l => exact ⟨⟨fun ⟨m, h⟩ => (by cases h), fun ⟨m, h⟩ => (by cases h)⟩, Or.inr ⟨_, rfl⟩⟩

/-- **C63** — and they return the same values: if no signal name is given two different values, the list consists of exactly the values of the
map. -/
theorem C63_same_values {entries : List (Str × Json)} {m : AMap Fr} {xs : List Fr} (h : cliInputs (.obj entries) = .ok m)
    (hx : parseCircuitInputs (.obj entries) = .ok xs) (hc : ∀ n x x', Gives entries n x → Gives entries n x' → x = x') (x : Fr) :
    x ∈ xs ↔ ∃ name, m.get name = some x := by
  have key : x ∈ xs ↔ ∃ y ∈ entriesInOrder entries, Denotes y x := by
    have h2 := (C63_ordered_values entries xs).1 hx
    generalize entriesInOrder entries = l at h2
    clear hx h hc
    induction h2 with
    | nil => simp
    | cons h1 h2 ih =>
      simp only [List.mem_cons, exists_eq_or_imp, ih]
      constructor
      · rintro (rfl | h)
        · exact Or.inl h1
        · exact Or.inr h
      · rintro (h | h)
        · exact Or.inl (denotes_unique h h1)
        · exact Or.inr h
  rw [key]
  simp only [C38_cli_values h hc]
  constructor
  · rintro ⟨y, hy, hd⟩
    rw [← allLeaves_inOrder] at hy
    obtain ⟨⟨n, y'⟩, he, rfl⟩ := List.mem_map.1 hy
    obtain ⟨e, h1, path, h2, h3, h4⟩ := (mem_allLeaves _ _ _).1 he
    exact ⟨n, e, h1, path, y', h2, h3, h4, hd⟩
  · rintro ⟨n, e, h1, path, y, h2, h3, h4, hd⟩
    refine ⟨y, ?_, hd⟩
    rw [← allLeaves_inOrder]
    exact List.mem_map.2 ⟨(n, y), (mem_allLeaves _ _ _).2 ⟨e, h1, path, h2, h3, h4⟩, rfl⟩

/-! ### `circom::parse_inputs` -/

/-- The text of a leaf that is not an object. -/
inductive LeafText (floatText : Json → Str) : Json → Str → Prop
  | str (s : Str) : LeafText floatText (.str s) s
  | int (z : Int) : -2 ^ 63 ≤ z → z < 2 ^ 64 → LeafText floatText (.int z) (intDec z)
  | big (z : Int) : ¬ (-2 ^ 63 ≤ z ∧ z < 2 ^ 64) → LeafText floatText (.int z) (floatText (.int z))
  | float : LeafText floatText .float (floatText .float)
  | true : LeafText floatText (.bool Bool.true) ['1']
  | false : LeafText floatText (.bool Bool.false) ['0']
  | null : LeafText floatText .null ['0']

/-- Not an object. -/
def notObj : Json → Bool
  | .obj _ => false
  | _ => true

mutual
theorem legacyTexts_spec (ft : Json → Str) : ∀ j : Json, List.Forall₂ (LeafText ft) ((inOrder j).filter notObj) (legacyTexts ft j)
  | .arr l => by rw [legacyTexts, inOrder]; exact legacyTextsArr_spec ft l
  | .null => .cons .null .nil
  | .bool true => .cons .true .nil
  | .bool false => .cons .false .nil
  | .float => .cons .float .nil
  | .obj l => .nil
  | .int z => by
    rw [legacyTexts, inOrder, show [Json.int z].filter notObj = [Json.int z] from rfl]
    split_ifs with h
    · exact .cons (.int z h.1 h.2) .nil
    · exact .cons (.big z h) .nil
  | .str s => .cons (.str s) .nil
theorem legacyTextsArr_spec (ft : Json → Str) : ∀ l : List Json,
    List.Forall₂ (LeafText ft) ((inOrderArr l).filter notObj) (legacyTextsArr ft l)
  | [] => .nil
  | x :: xs => by
    rw [legacyTextsArr, inOrderArr, List.filter_append]
    exact List.rel_append (legacyTexts_spec ft x) (legacyTextsArr_spec ft xs)
end

theorem get_foldl_distinct {V W : Type} (f : V → W) : ∀ (l : List (Str × V)) (m : AMap W), (l.map (·.1)).Nodup → ∀ k v, (k, v) ∈ l →
    AMap.get (l.foldl (fun m e => AMap.insert m e.1 (f e.2)) m) k = some (f v)
  | [], _, _, k, v, h => by simp at h
  | e :: l, m, hd, k, v, h => by
    simp only [List.map_cons, List.nodup_cons] at hd
    rw [List.foldl_cons]
    rcases List.mem_cons.1 h with rfl | h
    · have : ∀ (l : List (Str × V)) (m : AMap W), k ∉ l.map (·.1) →
          AMap.get (l.foldl (fun m e => AMap.insert m e.1 (f e.2)) m) k = AMap.get m k := by
        intro l
        induction l with
        | nil => intro m _; rfl
        | cons a l ih =>
          intro m hk
          simp only [List.map_cons, List.mem_cons, not_or] at hk
          rw [List.foldl_cons, ih _ hk.2, AMap.get_insert, if_neg (by first | exact hk.1 | exact Ne.symm hk.1)]
      rw [this l _ hd.1, AMap.get_insert, if_pos rfl]
    · exact get_foldl_distinct f l _ hd.2 k v h

/-- **C63** — `parse_inputs` succeeds on every object, and gives under every key one text per leaf that is not an object, in document order;
objects inside are dropped without an error. (Keys of a parsed object are distinct.) -/
theorem C63_texts (ft : Json → Str) (entries : List (Str × Json)) (hd : (entries.map (·.1)).Nodup) :
    ∃ m, legacyParseInputs ft (.obj entries) = .ok m ∧
      ∀ k v, (k, v) ∈ entries → ∃ ts, AMap.get m k = some ts ∧ List.Forall₂ (LeafText ft) ((inOrder v).filter notObj) ts :=
  ⟨_, rfl, fun k v h => ⟨_, get_foldl_distinct (legacyTexts ft) entries [] hd k v h, legacyTexts_spec ft v⟩⟩

/-- **C63** — every other JSON value is rejected. -/
theorem C63_texts_rejects (ft : Json → Str) (j : Json) (h : ∀ l, j ≠ .obj l) : ∃ e, legacyParseInputs ft j = .error (.err e) := by
  cases j with
  | obj l => exact absurd rfl (h l)
  | null => exact ⟨_, rfl⟩
  | bool b => exact ⟨_, rfl⟩
  | int z => exact ⟨_, rfl⟩
  | float => exact ⟨_, rfl⟩
  | str s => exact ⟨_, rfl⟩
  | arr l => exact ⟨_, rfl⟩

/-- **C63** — the text of a leaf that the key-based parser accepts denotes the same field element, except for negative JSON numbers, where the
text denotes `z` and the key-based parser takes `z + 2^64`. -/
theorem C63_text_value (ft : Json → Str) (j : Json) (x : Fr) (s : Str) (hd : Denotes j x) (ht : LeafText ft j s) :
    frFromStr s = some x ∨ ∃ z : Int, z < 0 ∧ j = .int z ∧ frFromStr s = some (z : Fr) ∧ x = ((z + 2 ^ 64 : Int) : Fr) := by
  have dec : ∀ z : Int, frFromStr (intDec z) = some (z : Fr) := by
    intro z
    have hz : bigIntFromStr (intDec z) = some z := by
      rw [bigIntFromStr_iff]
      obtain ⟨c, t, hct, hc⟩ : ∃ c t, natDec z.natAbs = c :: t ∧ isDig c = true := by
        obtain ⟨h1, h2, -⟩ := natDec_spec z.natAbs
        cases h : natDec z.natAbs with
        | nil => exact absurd h h2
        | cons c t => rw [h] at h1; simp only [List.all_cons, Bool.and_eq_true] at h1; exact ⟨c, t, rfl, h1.1⟩
      obtain ⟨h1, -, h3⟩ := natDec_spec z.natAbs
      rw [hct] at h1 h3
      rw [List.all_eq_true] at h1
      have hf : (c :: t).filter (· ≠ '_') = c :: t := by
        rw [List.filter_eq_self]
        intro a ha
        have := h1 a ha
        simp only [ne_eq, decide_not, Bool.not_eq_eq_eq_not, Bool.not_true, decide_eq_false_iff_not]
        rintro rfl
        revert this
        decide
      refine ⟨c, t, hc, fun a ha => Or.inl (h1 a (by simp [ha])), ?_⟩
      unfold intDec
      rw [hct, hf, h3]
      split_ifs with hneg
      · exact Or.inr (Or.inr ⟨rfl, by omega⟩)
      · exact Or.inl ⟨rfl, by omega⟩
    rw [frFromStr, hz]
    rfl
  cases hd with
  | nat z h1 h2 =>
    cases ht with
    | int _ _ _ => exact Or.inl (dec z)
    | big _ h => exact absurd ⟨by omega, h2⟩ h
  | neg z h1 h2 =>
    cases ht with
    | int _ _ _ => exact Or.inr ⟨z, h2, rfl, dec z, rfl⟩
    | big _ h => exact absurd ⟨h1, by omega⟩ h
  | str s z h =>
    cases ht with
    | str _ => exact Or.inl (by rw [frFromStr, (bigIntFromStr_iff s z).2 h]; rfl)

/-! ### `load_circom_circuit` -/

/-- **C63** — the reported counts depend on nothing but the length of the first file: two files of the same length get the same counts. -/
theorem C63_load_ignores_contents (fs fs' : FS) (r1cs wasm : Path) (d d' w w' : Bytes) (h : fs r1cs = some d) (h' : fs' r1cs = some d')
    (hw : fs wasm = some w) (hw' : fs' wasm = some w') (hl : d.length = d'.length) :
    ∃ t, loadCircomCircuit fs r1cs wasm = .ok t ∧ loadCircomCircuit fs' r1cs wasm = .ok t := by
  refine ⟨(d.length / 1000, 3, d.length / 1000 * 2), ?_, ?_⟩
  · simp only [loadCircomCircuit, h, hw]; rfl
  · simp only [loadCircomCircuit, h', hw', hl]; rfl

/-- **C63** — it fails exactly if one of the files cannot be read. -/
theorem C63_load_fails_iff (fs : FS) (r1cs wasm : Path) :
    (∃ e, loadCircomCircuit fs r1cs wasm = .error (.err e)) ↔ fs r1cs = none ∨ fs wasm = none := by
  unfold loadCircomCircuit
  cases h : fs r1cs with
  | none => exact ⟨fun _ => Or.inl rfl, fun _ => ⟨_, rfl⟩⟩
  | some d =>
    cases h' : fs wasm with
    | none => exact ⟨fun _ => Or.inr rfl, fun _ => ⟨_, rfl⟩⟩
    | some w => exact ⟨fun ⟨e, he⟩ => (by cases he), fun h => by simp at h⟩

/-! ### Examples -/

/-- A nested input: `{"a": [1, ["2", 3]], "b": "7"}`. -/
def exEntries : List (Str × Json) :=
  [("a".toList, .arr [.int 1, .arr [.str "2".toList, .int 3]]), ("b".toList, .str "7".toList)]

example : List.Forall₂ Denotes (entriesInOrder exEntries) [((1 : Int) : Fr), ((2 : Int) : Fr), ((3 : Int) : Fr), ((7 : Int) : Fr)] := by
  refine .cons (.nat 1 (by decide) (by decide)) (.cons (.str _ 2 ?_) (.cons (.nat 3 (by decide) (by decide)) (.cons (.str _ 7 ?_) .nil)))
  · exact (bigIntFromStr_iff _ _).1 (by decide)
  · exact (bigIntFromStr_iff _ _).1 (by decide)

example : legacyTexts (fun _ => []) (.arr [.str "2".toList, .obj [], .bool true, .null]) = ["2".toList, ['1'], ['0']] := by decide

end Zkenc.Props
