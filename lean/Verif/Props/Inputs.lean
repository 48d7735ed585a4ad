import Verif.Proofs.Inputs
import Verif.Props.Core
import Verif.Props.WtnsParseJs
/-!
# C37-C40: from input objects to wire assignments
-/

namespace Zkenc.Props

open Zkenc InputSpec

theorem parseSymFile_nodup {sym : Str} {m : AMap Nat} (h : parseSymFile sym = .ok m) : AMap.Nodup m := by
  rw [parseSymFile_eq, cliSymLoop_ok_iff] at h
  obtain ⟨rs, -, rfl⟩ := h
  exact AMap.nodup_foldl _ (fun m w hm => AMap.nodup_insert hm _ _) _ _ List.nodup_nil

theorem jsParseSymFile_nodup (sym : Str) : AMap.Nodup (jsParseSymFile sym) := by
  rw [jsParseSymFile_eq]
  exact AMap.nodup_foldl _ (fun m w hm => AMap.nodup_insert hm _ _) _ _ List.nodup_nil

/-! ## C38 -/

/-- **C38** (CLI, acceptance) — the input file is accepted exactly if it is an object all of whose leaves (what remains after entering
arrays) stand for field elements; so nested objects, booleans, null, fractions and numbers beyond 64 bits are rejected. Never a panic. -/
theorem C38_cli_accepts_iff (j : Json) :
    ((∃ m, cliInputs j = .ok m) ↔ ∃ entries, j = .obj entries ∧ AllDenote entries) ∧
      ((∃ m, cliInputs j = .ok m) ∨ ∃ e, cliInputs j = .error (.err e)) := by
  cases j with
  | obj entries =>
    constructor
    · constructor
      · rintro ⟨m, h⟩; exact ⟨entries, rfl, ((cliInputs_ok_iff _ _).1 h).1⟩
      · rintro ⟨entries', h, ha⟩; cases h; exact ⟨_, (cliInputs_ok_iff _ _).2 ⟨ha, rfl⟩⟩
    · rcases flattenEntries_follows entries [] with ⟨a, h, -⟩ | ⟨e, h, -⟩
      · exact Or.inl ⟨a, h⟩
      · exact Or.inr ⟨e, h⟩
  | null => exact ⟨⟨fun ⟨m, h⟩ => (by cases h), fun ⟨e, h, _⟩ => (by cases h)⟩, Or.inr ⟨_, rfl⟩⟩
  | bool b => exact ⟨⟨fun ⟨m, h⟩ => (by cases h), fun ⟨e, h, _⟩ => (by cases h)⟩, Or.inr ⟨_, rfl⟩⟩
  | int z => exact ⟨⟨fun ⟨m, h⟩ => (by cases h), fun ⟨e, h, _⟩ => (by cases h)⟩, Or.inr ⟨_, rfl⟩⟩
  | float => exact ⟨⟨fun ⟨m, h⟩ => (by cases h), fun ⟨e, h, _⟩ => (by cases h)⟩, Or.inr ⟨_, rfl⟩⟩
  | str s => exact ⟨⟨fun ⟨m, h⟩ => (by cases h), fun ⟨e, h, _⟩ => (by cases h)⟩, Or.inr ⟨_, rfl⟩⟩
  | arr l => exact ⟨⟨fun ⟨m, h⟩ => (by cases h), fun ⟨e, h, _⟩ => (by cases h)⟩, Or.inr ⟨_, rfl⟩⟩

/-- **C38** (CLI, rejection) — an object, boolean, null or fraction anywhere inside the input makes the CLI fail. -/
theorem C38_cli_rejects {entries : List (Str × Json)} {e : Str × Json} (he : e ∈ entries) {path : List Nat} {y : Json}
    (hat : AtPath e.2 path y) (hy : y = .null ∨ y = .float ∨ (∃ b, y = .bool b) ∨ ∃ l, y = .obj l) :
    ∃ msg, cliInputs (.obj entries) = .error (.err msg) := by
  obtain ⟨h1, h2⟩ := C38_cli_accepts_iff (.obj entries)
  rcases h2 with h | h
  · obtain ⟨entries', h, ha⟩ := h1.1 h
    cases h
    have hn : NotArr y := by rcases hy with rfl | rfl | ⟨b, rfl⟩ | ⟨l, rfl⟩ <;> trivial
    obtain ⟨x, hx⟩ := ha e he path y hat hn
    rcases hy with rfl | rfl | ⟨b, rfl⟩ | ⟨l, rfl⟩ <;> cases hx
  · exact h

/-- **C38** (CLI, values) — if no signal name is given two different values, the flattened inputs are exactly the values given by the
object: the value at indices `i₁ … i_k` of input `a` is found under `a[i₁]…[i_k]`. -/
theorem C38_cli_values {entries : List (Str × Json)} {m : AMap Fr} (h : cliInputs (.obj entries) = .ok m)
    (hc : ∀ n x x', Gives entries n x → Gives entries n x' → x = x') (name : Str) (x : Fr) :
    m.get name = some x ↔ Gives entries name x := by
  rw [((cliInputs_ok_iff _ _).1 h).2, AMap.get_foldl_insert_consistent, ← gives_iff]
  · simp [AMap.get]
  · rintro ⟨k, v⟩ he ⟨k', v'⟩ he' rfl
    exact hc k v v' ((gives_iff _ _ _).2 he) ((gives_iff _ _ _).2 he')

theorem natDec_inj {a b : Nat} (h : natDec a = natDec b) : a = b := by
  rw [← (natDec_spec a).2.2, h, (natDec_spec b).2.2]

theorem signalName_eq (key : Str) (path : List Nat) :
    signalName key path = key ++ (path.map fun i => '[' :: (natDec i ++ [']'])).flatten := by
  induction path generalizing key with
  | nil => simp [signalName]
  | cons i path ih => rw [signalName, ih]; simp

theorem natDec_no_bracket (n : Nat) : '[' ∉ natDec n ∧ ']' ∉ natDec n := by
  have h := (natDec_spec n).1
  rw [List.all_eq_true] at h
  constructor
  · intro hm; have := h _ hm; revert this; decide
  · intro hm; have := h _ hm; revert this; decide

/-- **C38** (names are unambiguous) — for keys without `[` the signal name determines key and indices. -/
theorem C38_names_unique {key key' : Str} (hk : '[' ∉ key) (hk' : '[' ∉ key') {path path' : List Nat}
    (h : signalName key path = signalName key' path') : key = key' ∧ path = path' := by
  have split : ∀ (key : Str) (path : List Nat), '[' ∉ key →
      splitOn '[' (signalName key path) = key :: path.map (fun i => natDec i ++ [']']) := by
    intro key path hk
    rw [signalName_eq]
    induction path generalizing key with
    | nil => simpa using splitOn_none '[' key hk
    | cons i path ih =>
      simp only [List.map_cons, List.flatten_cons, List.cons_append]
      rw [splitOn_append_sep _ _ _ hk, ih]
      intro hm
      rcases List.mem_append.1 hm with hm | hm
      · exact (natDec_no_bracket i).1 hm
      · simp at hm
  have h' := congrArg (splitOn '[') h
  rw [split key path hk, split key' path' hk'] at h'
  simp only [List.cons.injEq] at h'
  refine ⟨h'.1, ?_⟩
  have := h'.2
  clear h h' split
  induction path generalizing path' with
  | nil => cases path' with
    | nil => rfl
    | cons a b => simp at this
  | cons i path ih => cases path' with
    | nil => simp at this
    | cons j path' =>
      simp only [List.map_cons, List.cons.injEq, List.append_cancel_right_eq] at this
      rw [natDec_inj this.1, ih this.2]

theorem at_unique {j : Json} {path : List Nat} {y y' : Json} (h : AtPath j path y) (h' : AtPath j path y') : y = y' := by
  induction h with
  | here => cases h'; rfl
  | elem h1 h2 ih =>
    cases h' with
    | elem h3 h4 =>
      rw [h1] at h3
      cases h3
      exact ih h4

theorem denotes_unique {j : Json} {x x' : Fr} (h : Denotes j x) (h' : Denotes j x') : x = x' := by
  have h := (cliScalar_iff j x).2 h
  rw [(cliScalar_iff j x').2 h'] at h
  cases h; rfl

/-- **C38** — so for an object with distinct keys that contain no `[` the proviso of `C38_cli_values` holds. -/
theorem C38_no_clash {entries : List (Str × Json)} (hd : ∀ e ∈ entries, ∀ e' ∈ entries, e.1 = e'.1 → e = e')
    (hk : ∀ e ∈ entries, '[' ∉ e.1) (n : Str) (x x' : Fr) (h : Gives entries n x) (h' : Gives entries n x') : x = x' := by
  obtain ⟨e, he, path, y, h1, h2, h3, h4⟩ := h
  obtain ⟨e', he', path', y', h1', h2', h3', h4'⟩ := h'
  obtain ⟨hkk, rfl⟩ := C38_names_unique (hk e he) (hk e' he') (h3.symm.trans h3')
  have := hd e he e' he' hkk
  subst this
  have := at_unique h1 h1'
  subst this
  exact denotes_unique h4 h4'

/-- **C38** (CLI, wires) — the complete wire assignment: wire `i` gets the value that the object gives to the signal with wire `i`
(signals above `n_pub_in` do not count); wire 0 is 1 unless the symbol file names it. -/
theorem C38_cli_wires (h : HashOrder) (n : Nat) (sym : Str) (entries : List (Str × Json)) (w : WireMap)
    {symtab : AMap Nat} (hsym : parseSymFile sym = .ok symtab) (hna : NoAlias symtab (some n) entries) :
    cliAssign h n sym (.obj entries) = .ok w ↔ AllDenote entries ∧ ∀ i v, w i = some v ↔
      (∃ name, Resolves symtab (some n) name i ∧ Gives entries name v) ∨
        ((∀ name x, Resolves symtab (some n) name i → ¬ Gives entries name x) ∧ i = 0 ∧ v = 1) :=
  cliAssign_ok_iff h n sym entries w symtab hsym (parseSymFile_nodup hsym) hna

/-- **C38** (JS, values) — the complete description of the witness that JS builds: wires 1, 2, … get the integer read from the text of
the value given to their signal, up to the first wire that is given no value; the call fails exactly if a value that has a
wire is null or undefined, or if a text within that range is not an integer. -/
theorem C38_js_witness (sym : Str) (inputs : List (Str × JsVal)) (hna : JsNoAlias (jsParseSymFile sym) inputs) (b : Bytes) :
    jsEncapWitness sym inputs = .ok b ↔
      (∀ name v i, Resolves (jsParseSymFile sym) none name i → JsGives inputs name v → v ≠ .null ∧ v ≠ .undef) ∧
      ∃ zs : List Int, b = serializeWitnessSimple (1 :: zs) ∧
        (∀ k (h : k < zs.length), ∃ name v s, Resolves (jsParseSymFile sym) none name (k + 1) ∧ JsGives inputs name v ∧
          v.toStr = .ok s ∧ jsBigInt s = some zs[k]) ∧
        ∀ name v, Resolves (jsParseSymFile sym) none name (zs.length + 1) → ¬ JsGives inputs name v := by
  have hsig : ∀ name i, (inputSignals (jsParseSymFile sym) none).get name = some i ↔ Resolves (jsParseSymFile sym) none name i :=
    fun name i => C35_input_lookup (jsParseSymFile_nodup sym) (List.Perm.refl _) none name i
  have hnull : ∀ v : JsVal, (∃ s, v.toStr = .ok s) ↔ v ≠ .null ∧ v ≠ .undef := by
    intro v; cases v <;> simp [JsVal.toStr, Res.fail]
  have hcons : ∀ e ∈ jsFields inputs [], ∀ e' ∈ jsFields inputs [], ∀ i, (inputSignals (jsParseSymFile sym) none).get e.1 = some i →
      (inputSignals (jsParseSymFile sym) none).get e'.1 = some i → e.2.toStr = e'.2.toStr := by
    rintro ⟨k, v⟩ he ⟨k', v'⟩ he' i hi hi'
    exact hna k k' i v v' ((hsig _ _).1 hi) ((hsig _ _).1 hi') ((mem_jsInputs _ _ _).1 he) ((mem_jsInputs _ _ _).1 he')
  obtain ⟨hok, -⟩ := setAll_isOk (inputSignals (jsParseSymFile sym) none) (jsFields inputs []) []
  have hfirst : (∃ m', mapInputsToWires inputs (inputSignals (jsParseSymFile sym) none) = .ok m') ↔
      (∀ name v i, Resolves (jsParseSymFile sym) none name i → JsGives inputs name v → v ≠ .null ∧ v ≠ .undef) := by
    rw [mapInputsToWires_eq, hok]
    constructor
    · intro h name v i hr hg
      exact (hnull v).1 (h (name, v) ((mem_jsInputs _ _ _).2 hg) (by rw [(hsig _ _).2 hr]; rfl))
    · rintro h ⟨name, v⟩ he hs
      obtain ⟨i, hi⟩ := Option.isSome_iff_exists.1 hs
      exact (hnull v).2 (h name v i ((hsig _ _).1 hi) ((mem_jsInputs _ _ _).1 he))
  have hget : ∀ m', mapInputsToWires inputs (inputSignals (jsParseSymFile sym) none) = .ok m' → ∀ i s, m'.get i = some s ↔
      ∃ name v, Resolves (jsParseSymFile sym) none name i ∧ JsGives inputs name v ∧ v.toStr = .ok s := by
    intro m' hm i s
    rw [mapInputsToWires_eq] at hm
    rw [setAll_ok _ _ _ _ hm hcons]
    simp only [NMap.get, reduceCtorEq, and_false, or_false]
    constructor
    · rintro ⟨⟨k, v⟩, he, h1, h2⟩
      exact ⟨k, v, (hsig _ _).1 h1, (mem_jsInputs _ _ _).1 he, h2⟩
    · rintro ⟨k, v, h1, h2, h3⟩
      exact ⟨(k, v), (mem_jsInputs _ _ _).2 h2, (hsig _ _).2 h1, h3⟩
  have hnone : ∀ m', mapInputsToWires inputs (inputSignals (jsParseSymFile sym) none) = .ok m' → ∀ i, m'.get i = none ↔
      ∀ name v, Resolves (jsParseSymFile sym) none name i → ¬ JsGives inputs name v := by
    intro m' hm i
    constructor
    · intro hg name v hr hgv
      obtain ⟨s, hs⟩ := (hnull v).2 ((hfirst.1 ⟨m', hm⟩) name v i hr hgv)
      rw [(hget m' hm i s).2 ⟨name, v, hr, hgv, hs⟩] at hg
      cases hg
    · intro h
      cases hg : m'.get i with
      | none => rfl
      | some s =>
        obtain ⟨name, v, h1, h2, -⟩ := (hget m' hm i s).1 hg
        exact absurd h2 (h name v h1)
  have hfill : ∀ m' : NMap, ∀ zs : List Int, fillWitness m' 1 (maxKey m') = .ok zs ↔
      (∀ k (h : k < zs.length), ∃ s, m'.get (k + 1) = some s ∧ jsBigInt s = some zs[k]) ∧ m'.get (zs.length + 1) = none := by
    intro m' zs
    rw [fillWitness_ok]
    constructor
    · rintro ⟨h1, h2, h3⟩
      refine ⟨fun k hk => ?_, ?_⟩
      · obtain ⟨s, hs⟩ := h2 k hk
        exact ⟨s, by rw [Nat.add_comm]; exact hs⟩
      · by_cases hl : zs.length < maxKey m'
        · rw [Nat.add_comm]; exact h3 hl
        · cases hg : m'.get (zs.length + 1) with
          | none => rfl
          | some s =>
            have := NMap.le_maxKey m' _ _ hg
            omega
    · rintro ⟨h2, h3⟩
      refine ⟨?_, fun k hk => ?_, fun _ => by rw [Nat.add_comm]; exact h3⟩
      · cases hz : zs.length with
        | zero => exact Nat.zero_le _
        | succ l =>
          obtain ⟨s, hs, -⟩ := h2 l (by omega)
          exact NMap.le_maxKey m' _ _ hs
      · obtain ⟨s, hs⟩ := h2 k hk
        exact ⟨s, by rw [Nat.add_comm 1 k]; exact hs⟩
  unfold jsEncapWitness
  simp only
  rw [Res.bind_eq_ok]
  simp only [Res.bind_eq_ok]
  constructor
  · rintro ⟨m', hm, zs, hz, hb⟩
    cases hb
    refine ⟨hfirst.1 ⟨m', hm⟩, zs, rfl, ?_, ?_⟩
    · intro k hk
      obtain ⟨s, hs, hbi⟩ := ((hfill m' zs).1 hz).1 k hk
      obtain ⟨name, v, h1, h2, h3⟩ := (hget m' hm _ _).1 hs
      exact ⟨name, v, s, h1, h2, h3, hbi⟩
    · exact (hnone m' hm _).1 ((hfill m' zs).1 hz).2
  · rintro ⟨hn, zs, rfl, h1, h2⟩
    obtain ⟨m', hm⟩ := hfirst.2 hn
    refine ⟨m', hm, zs, (hfill m' zs).2 ⟨fun k hk => ?_, (hnone m' hm _).2 h2⟩, rfl⟩
    obtain ⟨name, v, s, h3, h4, h5, h6⟩ := h1 k hk
    exact ⟨s, (hget m' hm _ _).2 ⟨name, v, h3, h4, h5⟩, h6⟩

/-- **C38** (JS, arrays) — an array input gives values to the signals `a[i]` and to no others: nothing is given to `a[i][j]`. -/
theorem C38_js_array_one_level (key : Str) (l : List JsVal) (name : Str) (v : JsVal) :
    (JsGives [(key, .arr l)] name v ↔ ∃ i, l[i]? = some v ∧ name = signalName key [i]) ∧
    ∀ i j path, ¬ JsGives [(key, .arr l)] (signalName key (i :: j :: path)) v := by
  have h1 : ∀ name, JsGives [(key, .arr l)] name v ↔ ∃ i, l[i]? = some v ∧ name = signalName key [i] := by
    intro name
    constructor
    · rintro ⟨e, he, h⟩
      rw [List.mem_singleton] at he
      subst he
      cases h with
      | elem h => exact ⟨_, h, rfl⟩
      | scalar h1 h2 => exact absurd rfl (h1 l)
    · rintro ⟨i, h, rfl⟩
      exact ⟨_, List.mem_singleton.2 rfl, JsAt.elem h⟩
  refine ⟨h1 name, ?_⟩
  intro i j path h
  obtain ⟨i', -, hn⟩ := (h1 _).1 h
  rw [signalName_eq, signalName_eq] at hn
  have hn := List.append_cancel_left hn
  have hc := congrArg (List.count '[') hn
  have hz : ∀ n, List.count '[' (natDec n) = 0 := fun n => List.count_eq_zero.2 (natDec_no_bracket n).1
  simp [List.count_append, hz] at hc

/-- **C38** (JS, objects) — a nested object `a: {b: x}` gives what `"a.b": x` would give. -/
theorem C38_js_nested_object (key k : Str) (x : JsVal) (hk : key ≠ []) (name : Str) (v : JsVal) :
    JsGives [(key, .obj [(k, x)])] name v ↔ JsGives [(key ++ '.' :: k, x)] name v := by
  constructor
  · rintro ⟨e, he, h⟩
    rw [List.mem_singleton] at he
    subst he
    cases h with
    | field h1 h2 =>
      rw [List.mem_singleton] at h1
      cases h1
      rw [if_neg hk] at h2
      exact ⟨_, List.mem_singleton.2 rfl, h2⟩
    | scalar h1 h2 => exact absurd rfl (h2 _)
  · rintro ⟨e, he, h⟩
    rw [List.mem_singleton] at he
    subst he
    refine ⟨_, List.mem_singleton.2 rfl, JsAt.field (List.mem_singleton.2 rfl) ?_⟩
    rw [if_neg hk]
    exact h

/-! ## C37 -/

/-- **C37** (CLI) — for every order of the JSON entries and all iteration orders of the hash maps, the wire assignment is the same,
provided no two different values are for one wire. -/
theorem C37_cli_order_independent (h h' : HashOrder) (n : Nat) (sym : Str) {entries entries' : List (Str × Json)}
    (hp : entries.Perm entries') {symtab : AMap Nat} (hsym : parseSymFile sym = .ok symtab) (hna : NoAlias symtab (some n) entries)
    (w : WireMap) : cliAssign h n sym (.obj entries) = .ok w ↔ cliAssign h' n sym (.obj entries') = .ok w := by
  have hg : ∀ name x, Gives entries name x ↔ Gives entries' name x := by
    intro name x
    constructor
    · rintro ⟨e, he, r⟩; exact ⟨e, hp.mem_iff.1 he, r⟩
    · rintro ⟨e, he, r⟩; exact ⟨e, hp.mem_iff.2 he, r⟩
  have hna' : NoAlias symtab (some n) entries' := fun a b i x x' h1 h2 h3 h4 => hna a b i x x' h1 h2 ((hg _ _).2 h3) ((hg _ _).2 h4)
  rw [C38_cli_wires h n sym entries w hsym hna, C38_cli_wires h' n sym entries' w hsym hna']
  have ha : AllDenote entries ↔ AllDenote entries' := by
    constructor
    · intro h e he; exact h e (hp.mem_iff.2 he)
    · intro h e he; exact h e (hp.mem_iff.1 he)
  simp only [ha, hg]

/-- **C37** (refutation without the proviso) — two signals on one wire, given different values: the assignment, and with it the bound
public input, depends on the iteration order of a hash map, that is on its random seed. -/
theorem C37_cli_order_dependent :
    ∃ w w', cliAssign .same 1 "1,1,0,main.a\n2,1,0,main.b".toList (.obj [("a".toList, .int 5), ("b".toList, .int 6)]) = .ok w ∧
      cliAssign .reversed 1 "1,1,0,main.a\n2,1,0,main.b".toList (.obj [("a".toList, .int 5), ("b".toList, .int 6)]) = .ok w' ∧
      w 1 = some 6 ∧ w' 1 = some 5 ∧ (5 : Fr) ≠ 6 := by
  have hs : parseSymFile "1,1,0,main.a\n2,1,0,main.b".toList = .ok [("main.a".toList, 1), ("main.b".toList, 1)] := by rfl
  have hi : cliInputs (.obj [("a".toList, .int 5), ("b".toList, .int 6)]) =
      .ok [("a".toList, (((5 : Int).toNat : Nat) : Fr)), ("b".toList, (((6 : Int).toNat : Nat) : Fr))] := by
    simp [cliInputs, flattenEntries, flattenValue, frFromJsonInt, AMap.insert]
  have ne : (5 : Fr) ≠ 6 := by
    intro h
    have h1 : ((1 : Nat) : Fr) = 0 := by
      have : (1 : Fr) = 6 - 5 := by norm_num
      rw [Nat.cast_one, this, h, sub_self]
    rw [ZMod.natCast_eq_zero_iff] at h1
    have h2 := Nat.le_of_dvd (by norm_num) h1
    revert h2
    unfold frModulus
    norm_num
  refine ⟨cliWires [("a".toList, 1), ("b".toList, 1)] [("a".toList, (((5 : Int).toNat : Nat) : Fr)), ("b".toList, (((6 : Int).toNat : Nat) : Fr))],
    cliWires [("b".toList, 1), ("a".toList, 1)] [("b".toList, (((6 : Int).toNat : Nat) : Fr)), ("a".toList, (((5 : Int).toNat : Nat) : Fr))],
    ?_, ?_, ?_, ?_, ne⟩
  · unfold cliAssign
    rw [hs, Res.ok_bind]
    simp only
    rw [hi, Res.ok_bind]
    refine congrArg Except.ok (congrArg₂ cliWires ?_ ?_)
    · rfl
    · rfl
  · unfold cliAssign
    rw [hs, Res.ok_bind]
    simp only
    rw [hi, Res.ok_bind]
    refine congrArg Except.ok (congrArg₂ cliWires ?_ ?_)
    · rfl
    · rfl
  · simp [cliWires, wireStep, AMap.get, WireMap.insert]
  · simp [cliWires, wireStep, AMap.get, WireMap.insert]

/-- **C37** (JS) — for every order of the entries the witness bytes are the same, provided no two values with different texts are for
one wire. -/
theorem C37_js_order_independent (sym : Str) {inputs inputs' : List (Str × JsVal)} (hp : inputs.Perm inputs')
    (hna : JsNoAlias (jsParseSymFile sym) inputs) (b : Bytes) : jsEncapWitness sym inputs = .ok b ↔ jsEncapWitness sym inputs' = .ok b := by
  have hg : ∀ name x, JsGives inputs name x ↔ JsGives inputs' name x := by
    intro name x
    constructor
    · rintro ⟨e, he, r⟩; exact ⟨e, hp.mem_iff.1 he, r⟩
    · rintro ⟨e, he, r⟩; exact ⟨e, hp.mem_iff.2 he, r⟩
  have hna' : JsNoAlias (jsParseSymFile sym) inputs' := fun a b i x x' h1 h2 h3 h4 =>
    hna a b i x x' h1 h2 ((hg _ _).2 h3) ((hg _ _).2 h4)
  rw [C38_js_witness sym inputs hna, C38_js_witness sym inputs' hna']
  simp only [hg]

/-- **C37** (JS, refutation without the proviso) — with two signals on one wire the later entry wins, so the order of the entries
matters. -/
theorem C37_js_order_dependent :
    jsEncapWitness "1,1,0,main.a\n2,1,0,main.b".toList [(['a'], .str ['5']), (['b'], .str ['6'])] = .ok (serializeWitnessSimple [1, 6]) ∧
      jsEncapWitness "1,1,0,main.a\n2,1,0,main.b".toList [(['b'], .str ['6']), (['a'], .str ['5'])] =
        .ok (serializeWitnessSimple [1, 5]) := by
  have hs : inputSignals (jsParseSymFile "1,1,0,main.a\n2,1,0,main.b".toList) none = [(['a'], 1), (['b'], 1)] := by rfl
  have h6 : mapInputsToWires [(['a'], .str ['5']), (['b'], .str ['6'])] [(['a'], 1), (['b'], 1)] = .ok [(1, ['6'])] := by
    simp [mapInputsToWires, flattenFields, flattenInput, setWire, dotKey, AMap.get, JsVal.toStr, JsVal.joinText, NMap.set]
  have h5 : mapInputsToWires [(['b'], .str ['6']), (['a'], .str ['5'])] [(['a'], 1), (['b'], 1)] = .ok [(1, ['5'])] := by
    simp [mapInputsToWires, flattenFields, flattenInput, setWire, dotKey, AMap.get, JsVal.toStr, JsVal.joinText, NMap.set]
  have b5 : jsBigInt ['5'] = some 5 := by rfl
  have b6 : jsBigInt ['6'] = some 6 := by rfl
  constructor
  · unfold jsEncapWitness
    simp only
    rw [hs, h6, Res.ok_bind, show fillWitness [(1, ['6'])] 1 (maxKey [(1, ['6'])]) = .ok [6] by
      simp [fillWitness, maxKey, NMap.get, b6], Res.ok_bind]
  · unfold jsEncapWitness
    simp only
    rw [hs, h5, Res.ok_bind, show fillWitness [(1, ['5'])] 1 (maxKey [(1, ['5'])]) = .ok [5] by
      simp [fillWitness, maxKey, NMap.get, b5], Res.ok_bind]

/-- Example: an object whose values are an integer, a string and a nested array; the names and values it gives. -/
def exampleEntries : List (Str × Json) := [(['x'], .arr [.arr [.int 3], .str ['7']]), (['y'], .int 9)]

theorem exampleEntries_denote : AllDenote exampleEntries := by
  intro e he path y hat hn
  simp only [exampleEntries, List.mem_cons, List.not_mem_nil, or_false] at he
  rcases he with rfl | rfl
  · cases hat with
    | here => exact absurd hn (by simp [NotArr])
    | @elem _ i x path _ hi hat =>
      match i, hi with
      | 0, hi =>
        cases hi
        cases hat with
        | here => exact absurd hn (by simp [NotArr])
        | @elem _ i x path _ hi hat =>
          match i, hi with
          | 0, hi =>
            cases hi
            cases hat
            exact ⟨_, Denotes.nat 3 (by norm_num) (by norm_num)⟩
          | i + 1, hi => simp at hi
      | 1, hi =>
        cases hi
        cases hat
        exact ⟨_, Denotes.str _ 7 ⟨'7', [], by decide, by simp, Or.inl ⟨rfl, rfl⟩⟩⟩
      | i + 2, hi => simp at hi
  · cases hat
    exact ⟨_, Denotes.nat 9 (by norm_num) (by norm_num)⟩

/-- Example: the hypotheses of the CLI theorems are met: accepted, no clash, and the nested item is found under `x[0][0]`. -/
example : ∃ m, cliInputs (.obj exampleEntries) = .ok m ∧ m.get (signalName ['x'] [0, 0]) = some 3 ∧ m.get ['y'] = some 9 := by
  obtain ⟨m, hm⟩ := ((C38_cli_accepts_iff (.obj exampleEntries)).1).2 ⟨_, rfl, exampleEntries_denote⟩
  have hc := C38_no_clash (entries := exampleEntries) (by simp [exampleEntries]) (by simp [exampleEntries])
  refine ⟨m, hm, ?_, ?_⟩
  · rw [C38_cli_values hm hc]
    refine ⟨(['x'], .arr [.arr [.int 3], .str ['7']]), by simp [exampleEntries], [0, 0], .int 3,
      AtPath.elem rfl (AtPath.elem rfl (AtPath.here _)), trivial, rfl, ?_⟩
    have := Denotes.nat 3 (by norm_num) (by norm_num)
    rwa [show ((3 : Int) : Fr) = 3 by norm_num] at this
  · rw [C38_cli_values hm hc]
    refine ⟨(['y'], .int 9), by simp [exampleEntries], [], .int 9, AtPath.here _, trivial, rfl, ?_⟩
    have := Denotes.nat 9 (by norm_num) (by norm_num)
    rwa [show ((9 : Int) : Fr) = 9 by norm_num] at this

/-- Example: `NoAlias` holds when the symbol table sends different names to different wires and names are not given twice. -/
example (symtab : AMap Nat) (n : Nat) (hinj : ∀ a b i, Resolves symtab (some n) a i → Resolves symtab (some n) b i → a = b) :
    NoAlias symtab (some n) exampleEntries := by
  intro a b i x x' h1 h2 h3 h4
  have := hinj a b i h1 h2
  subst this
  exact C38_no_clash (entries := exampleEntries) (by simp [exampleEntries]) (by simp [exampleEntries]) a x x' h3 h4

/-! ## C39 -/

/-- **C39** (CLI, integers) — a JSON integer in `0 .. 2^64 - 1` stands for itself. -/
theorem C39_cli_integer (key : Str) (z : Int) (h0 : 0 ≤ z) (h1 : z < 2 ^ 64) :
    cliInputs (.obj [(key, .int z)]) = .ok [(key, (z : Fr))] := by
  have := (frFromJsonInt_iff z _).2 (Denotes.nat z h0 h1)
  simp [cliInputs, flattenEntries, flattenValue, this, AMap.insert]

theorem intDec_decText (z : Int) : DecText (intDec z) z := by
  obtain ⟨c, t, hc, hd⟩ := natDec_head z.natAbs
  obtain ⟨h1, -, h3⟩ := natDec_spec z.natAbs
  rw [List.all_eq_true] at h1
  have hf : (natDec z.natAbs).filter (· ≠ '_') = natDec z.natAbs := by
    rw [List.filter_eq_self]
    intro x hx
    have := isDig_ne (h1 x hx) (d := '_') (by decide)
    simpa using this
  refine ⟨c, t, hd, fun x hx => Or.inl (h1 x (by rw [hc]; simp [hx])), ?_⟩
  rw [← hc, hf, h3]
  unfold intDec
  split
  · exact Or.inr (Or.inr ⟨by rw [hc], by omega⟩)
  · exact Or.inl ⟨rfl, by omega⟩

/-- **C39** (CLI, strings) — the decimal text of any integer, of any size and sign, stands for that integer modulo `p`. -/
theorem C39_cli_decimal_string (key : Str) (z : Int) : cliInputs (.obj [(key, .str (intDec z))]) = .ok [(key, (z : Fr))] := by
  have h := (cliScalar_iff (.str (intDec z)) _).2 (Denotes.str _ z (intDec_decText z))
  simp only [cliScalar] at h
  simp [cliInputs, flattenEntries, flattenValue, h, AMap.insert]

/-- **C39** (CLI, other strings) — a string that is not decimal text is rejected. -/
theorem C39_cli_bad_string (key s : Str) (hs : ∀ z, ¬ DecText s z) :
    cliInputs (.obj [(key, .str s)]) = Res.fail "Failed to parse string as field element" := by
  have h : frFromStr s = none := by
    unfold frFromStr
    cases hb : bigIntFromStr s with
    | none => rfl
    | some z => exact absurd ((bigIntFromStr_iff s z).1 hb) (hs z)
  simp [cliInputs, flattenEntries, flattenValue, h, Res.fail]

theorem natCast_ne_zero_of_lt {n : Nat} (h0 : 0 < n) (h1 : n < frModulus) : ((n : Nat) : Fr) ≠ 0 := by
  intro h
  rw [ZMod.natCast_eq_zero_iff] at h
  exact absurd (Nat.le_of_dvd h0 h) (by omega)

/-- **C39** (CLI, negative integers) — a negative JSON integer `-k` is accepted, but stands for `2^64 - k` and not for `-k` modulo `p`. -/
theorem C39_cli_negative (key : Str) (k : Nat) (h0 : 0 < k) (h1 : k ≤ 2 ^ 63) :
    cliInputs (.obj [(key, .int (-(k : Int)))]) = .ok [(key, ((2 ^ 64 - k : Nat) : Fr))] ∧
      ((2 ^ 64 - k : Nat) : Fr) ≠ -(k : Fr) := by
  constructor
  · have h := (frFromJsonInt_iff (-(k : Int)) _).2 (Denotes.neg (-(k : Int)) (by omega) (by omega))
    have he : ((-(k : Int) + 2 ^ 64 : Int) : Fr) = ((2 ^ 64 - k : Nat) : Fr) := by
      rw [Nat.cast_sub (by omega)]
      push_cast
      ring
    rw [he] at h
    simp only [cliInputs, flattenEntries, flattenValue, h, AMap.insert]
  · intro h
    have h2 : ((2 ^ 64 : Nat) : Fr) = 0 := by
      rw [show 2 ^ 64 = (2 ^ 64 - k) + k by omega, Nat.cast_add, h]
      ring
    exact natCast_ne_zero_of_lt (by norm_num) (by unfold frModulus; norm_num) h2

/-- **C39** (CLI, out of range) — integers outside the 64-bit ranges are rejected. -/
theorem C39_cli_out_of_range (key : Str) (z : Int) (h : z < -2 ^ 63 ∨ 2 ^ 64 ≤ z) :
    cliInputs (.obj [(key, .int z)]) = Res.fail "Unsupported number format" := by
  have : frFromJsonInt z = none := by
    unfold frFromJsonInt
    rw [if_neg (by omega), if_neg (by omega)]
  simp [cliInputs, flattenEntries, flattenValue, this, Res.fail]

/-- **C39** (JS, text) — numbers, big integers and decimal strings all have the text that `BigInt` reads back as the number. -/
theorem C39_js_integers (z : Int) :
    JsVal.toStr (.num z) = .ok (intDec z) ∧ JsVal.toStr (.bigint z) = .ok (intDec z) ∧ JsVal.toStr (.str (intDec z)) = .ok (intDec z) ∧
      jsBigInt (intDec z) = some z := by
  refine ⟨by simp [JsVal.toStr, JsVal.joinText], by simp [JsVal.toStr, JsVal.joinText], by simp [JsVal.toStr, JsVal.joinText], ?_⟩
  have htrim : trim jsWs (intDec z) = intDec z := by
    refine trim_of_no_ws _ fun c hc => ?_
    rcases intDec_chars z c hc with h | rfl
    · exact (not_ws_of_isDig h).2
    · decide
  obtain ⟨c, t, hc, hd⟩ := natDec_head z.natAbs
  obtain ⟨h1, h2, h3⟩ := natDec_spec z.natAbs
  have hdec : decDigits (natDec z.natAbs) = some z.natAbs := by
    unfold decDigits
    rw [if_pos ⟨h2, h1⟩, h3]
  unfold jsBigInt
  rw [htrim]
  by_cases hz : z < 0
  · rw [intDec, if_pos hz]
    show (decDigits (natDec z.natAbs)).map (fun n : Nat => -(n : Int)) = some z
    rw [hdec]
    simp only [Option.map_some, Option.some.injEq]
    omega
  · rw [intDec, if_neg hz]
    have key : ∀ u : Str, u.all isDig = true → u ≠ [] → (match u with
        | [] => some 0
        | '-' :: t => (decDigits t).map (fun n : Nat => -(n : Int))
        | '+' :: t => (decDigits t).map (fun n : Nat => (n : Int))
        | '0' :: 'x' :: t => (radixDigits 16 t).map (fun n : Nat => (n : Int))
        | '0' :: 'X' :: t => (radixDigits 16 t).map (fun n : Nat => (n : Int))
        | '0' :: 'o' :: t => (radixDigits 8 t).map (fun n : Nat => (n : Int))
        | '0' :: 'O' :: t => (radixDigits 8 t).map (fun n : Nat => (n : Int))
        | '0' :: 'b' :: t => (radixDigits 2 t).map (fun n : Nat => (n : Int))
        | '0' :: 'B' :: t => (radixDigits 2 t).map (fun n : Nat => (n : Int))
        | t => (decDigits t).map (fun n : Nat => (n : Int))) = (decDigits u).map (fun n : Nat => (n : Int)) := by
      intro u hu hne
      rw [List.all_eq_true] at hu
      split
      · exact absurd rfl hne
      all_goals first
        | rfl
        | exact absurd (hu _ List.mem_cons_self) (by decide)
        | exact absurd (hu _ (List.mem_cons_of_mem _ List.mem_cons_self)) (by decide)
    refine (key (natDec z.natAbs) h1 h2).trans ?_
    rw [hdec]
    simp only [Option.map_some, Option.some.injEq]
    omega

/-- What the wasm module gets from the witness built by JS: wires `0 .. n_pub` of the integers modulo `2^256`, modulo `p`. -/
theorem jsAssign_ok (nPub : Nat) (sym : Str) (inputs : List (Str × JsVal)) (hna : JsNoAlias (jsParseSymFile sym) inputs) (w : WireMap)
    (h : jsAssign nPub sym inputs = .ok w) : ∃ zs : List Int,
      (∀ k (h : k < zs.length), ∃ name v s, Resolves (jsParseSymFile sym) none name (k + 1) ∧ JsGives inputs name v ∧
          v.toStr = .ok s ∧ jsBigInt s = some zs[k]) ∧
      (∀ name v, Resolves (jsParseSymFile sym) none name (zs.length + 1) → ¬ JsGives inputs name v) ∧
      (76 + 32 * (zs.length + 1) < 2 ^ 31 → ∀ i, w i = if i ≤ nPub then
        ((1 :: zs).map fun v => (((v % 2 ^ 256).toNat : Nat) : Fr))[i]? else none) := by
  unfold jsAssign at h
  rw [Res.bind_eq_ok] at h
  obtain ⟨b, hb, h⟩ := h
  rw [Res.bind_eq_ok] at h
  obtain ⟨vals, hv, h⟩ := h
  cases h
  obtain ⟨-, zs, rfl, h1, h2⟩ := (C38_js_witness sym inputs hna b).1 hb
  refine ⟨zs, h1, h2, fun hl i => ?_⟩
  rw [C30_roundtrip _ (by simpa using hl)] at hv
  cases hv
  rfl

/-- **C39** (JS, wires) — in JS a wire that is bound gets the given integer `z` modulo `2^256`, modulo `p`. -/
theorem C39_js_wire_value (nPub : Nat) (sym : Str) (inputs : List (Str × JsVal)) (hna : JsNoAlias (jsParseSymFile sym) inputs)
    (w : WireMap) (h : jsAssign nPub sym inputs = .ok w)
    (hmax : JsSmall (jsParseSymFile sym) inputs)
    {name : Str} {v : JsVal} {i : Nat} (hr : Resolves (jsParseSymFile sym) none name (i + 1)) (hg : JsGives inputs name v)
    {z : Int} (hz : v.toStr = .ok (intDec z)) (hb : w (i + 1) ≠ none) :
    w (i + 1) = some (((z % 2 ^ 256).toNat : Nat) : Fr) := by
  obtain ⟨zs, h1, h2, h3⟩ := jsAssign_ok nPub sym inputs hna w h
  have hl : zs.length < 2 ^ 25 := hmax.run_lt fun k hk => by
    obtain ⟨name, v, s, g1, g2, -⟩ := h1 k hk
    exact ⟨name, v, g1, g2⟩
  have h3 := h3 (by omega)
  rw [h3] at hb ⊢
  split at hb
  · rename_i hle
    rw [if_pos hle]
    simp only [List.map_cons, List.getElem?_cons_succ] at hb ⊢
    have hi : i < zs.length := by
      by_contra hc
      exact hb (by rw [List.getElem?_eq_none (by simpa using hc)])
    obtain ⟨name', v', s, ha, hb', hs, hbi⟩ := h1 i hi
    have := hna name' name (i + 1) v' v ha hr hb' hg
    rw [hs, hz] at this
    cases this
    rw [(C39_js_integers z).2.2.2] at hbi
    rw [List.getElem?_map, List.getElem?_eq_getElem hi]
    simp only [Option.map_some, Option.some.injEq] at hbi ⊢
    rw [← hbi]
  · exact absurd rfl hb

/-- **C39** (witness calculator) — the calculator reduces every integer, of any sign, correctly modulo the prime. -/
theorem C39_calculator_value (z : Int) : ((normalizeBig z frModulus : Int) : Fr) = (z : Fr) ∧
    0 ≤ normalizeBig z frModulus ∧ normalizeBig z frModulus < frModulus := by
  have hp : (0 : Int) < frModulus := by unfold frModulus; norm_num
  have h0 : ((frModulus : Int) : Fr) = 0 := by rw [Int.cast_natCast, ZMod.natCast_self]
  have hd := Int.tmod_add_mul_tdiv z (frModulus : Int)
  have hcast : ((z.tmod (frModulus : Int) : Int) : Fr) = (z : Fr) := by
    conv_rhs => rw [← hd]
    rw [Int.cast_add, Int.cast_mul, h0]
    ring
  have hlt := Int.tmod_lt_of_pos z hp
  have hgt := Int.lt_tmod_of_pos z hp
  unfold normalizeBig
  simp only
  split
  · rename_i hneg
    refine ⟨?_, by omega, by omega⟩
    rw [Int.cast_add, hcast, h0, add_zero]
  · exact ⟨hcast, by omega, by omega⟩

theorem two256_ne_zero : ((2 ^ 256 : Nat) : Fr) ≠ 0 := by
  intro h1
  rw [ZMod.natCast_eq_zero_iff] at h1
  revert h1
  unfold frModulus
  norm_num

/-- **C39** (JS, negative integers) — for a negative integer JS `encap` uses a residue different from the one the witness calculator
computes for the same number. -/
theorem C39_js_negative_differs (z : Int) (h0 : z < 0) (h1 : -2 ^ 256 ≤ z) :
    (((z % 2 ^ 256).toNat : Nat) : Fr) ≠ (z : Fr) ∧ (((z % 2 ^ 256).toNat : Nat) : Fr) ≠ ((normalizeBig z frModulus : Int) : Fr) := by
  have key : (((z % 2 ^ 256).toNat : Nat) : Fr) ≠ (z : Fr) := by
    intro h
    have he : z % 2 ^ 256 = z + 2 ^ 256 := by omega
    have hn : (((z % 2 ^ 256).toNat : Nat) : Fr) = (z : Fr) + ((2 ^ 256 : Nat) : Fr) := by
      rw [← Int.cast_natCast, Int.toNat_of_nonneg (by omega), he]
      push_cast
      ring
    rw [hn] at h
    exact two256_ne_zero (by simpa using h)
  exact ⟨key, by rw [(C39_calculator_value z).1]; exact key⟩

variable {G1 G2 GT : Type} [AddCommGroup G1] [Module Fr G1] [AddCommGroup G2] [Module Fr G2] [AddCommGroup GT] [Module Fr GT]

/-- **C39** (JS, negative public inputs cannot be opened) — if a bound public input is given as a negative integer `z` in JS, then no
assignment that holds `z` modulo `p` at that wire (which is what the witness calculator produces) opens the ciphertext, in either tool. -/
theorem C39_js_negative_unopenable (P : Pairing Fr G1 G2 GT) (dom : Domains Fr) (t : Tool) (r : R1csFile) (hf : Spec.PublicFits r)
    (sym : Str) (inputs : List (Str × JsVal)) (hna : JsNoAlias (jsParseSymFile sym) inputs)
    (hmax : JsSmall (jsParseSymFile sym) inputs)
    (w : WireMap) (h : jsAssign (r.nPubOut + r.nPubIn) sym inputs = .ok w)
    {name : Str} {v : JsVal} {i : Nat} (hr : Resolves (jsParseSymFile sym) none name (i + 1)) (hg : JsGives inputs name v)
    {z : Int} (hz : v.toStr = .ok (intDec z)) (h0 : z < 0) (h1 : -2 ^ 256 ≤ z)
    (ρ : Rand Fr) (ct : Ciphertext Fr G1 G2) (k : Key) (henc : encap P dom (Tool.js.circuit r w) ρ = .ok (ct, k))
    (hbound : i < ct.publicInputs.length)
    (wDec : WireMap) (hw : wDec (i + 1) = some (z : Fr)) (k' : Key) : decap P (t.circuit r wDec) ct ≠ .ok k' := by
  intro hd
  obtain ⟨hb, hlen, -⟩ := C08_bound_public_inputs P dom .js r hf w ρ ct k henc
  have hwi := hb i hbound
  have hv := C39_js_wire_value _ sym inputs hna w h hmax hr hg hz (by rw [hwi]; simp)
  obtain ⟨val, hval, hass, -, hpm, hle⟩ := C04_C05_decap_sound P t r hf wDec ct k' hd
  have h2 := hpm i hbound
  have h3 := hass (i + 1) (by omega) (by omega)
  rw [hw] at h3
  rw [hwi] at hv
  simp only [Option.some.injEq] at hv h3
  exact (C39_js_negative_differs z h0 h1).1 (by rw [← hv, h2, h3])

/-! ## C40 -/

/-- **C40** (CLI) — no wire above `n_pub_in` is ever assigned by CLI encap, whatever the files contain. -/
theorem C40_cli_bound (h : HashOrder) (n : Nat) (sym : Str) (j : Json) (w : WireMap) (hw : cliAssign h n sym j = .ok w) (i : Nat)
    (hi : n < i) : w i = none := by
  unfold cliAssign at hw
  rw [Res.bind_eq_ok] at hw
  obtain ⟨symtab, hs, hw⟩ := hw
  simp only at hw
  rw [Res.bind_eq_ok] at hw
  obtain ⟨m, hm, hw⟩ := hw
  cases hw
  have hsig : ∀ name k, (inputSignals (h.ord symtab) (some n)).get name = some k → k ≤ n := by
    intro name k hk
    exact ((C35_input_lookup (parseSymFile_nodup hs) (h.perm symtab) (some n) name k).1 hk).2 n rfl
  unfold cliWires
  have gen : ∀ (l : List (Str × Fr)) (w : WireMap), w i = none → l.foldl (wireStep (inputSignals (h.ord symtab) (some n))) w i = none := by
    intro l
    induction l with
    | nil => intro w hw; exact hw
    | cons e l ih =>
      intro w hw
      rw [List.foldl_cons]
      refine ih _ ?_
      unfold wireStep
      cases hg : (inputSignals (h.ord symtab) (some n)).get e.1 with
      | none => exact hw
      | some k =>
        have := hsig _ _ hg
        simp only [WireMap.insert]
        rw [if_neg (by omega)]
        exact hw
  refine gen _ _ ?_
  simp only [WireMap.insert]
  rw [if_neg (by omega)]

/-- **C40** (CLI, consequence) — a CLI ciphertext never binds more than `n_pub_in` public wires; for a circuit with public outputs the
last `n_pub_out` public wires are free: every satisfying assignment that agrees with the recorded inputs opens it. -/
theorem C40_cli_unbound (P : Pairing Fr G1 G2 GT) (dom : Domains Fr) (t t' : Tool) (r : R1csFile) (hf : Spec.PublicFits r)
    (h : HashOrder) (sym : Str) (j : Json) (w : WireMap) (hw : cliAssign h r.nPubIn sym j = .ok w) (ρ : Rand Fr)
    (ct : Ciphertext Fr G1 G2) (k : Key) (henc : encap P dom (t.circuit r w) ρ = .ok (ct, k)) :
    ct.publicInputs.length ≤ r.nPubIn ∧ (1 ≤ r.nPubOut → ∀ val wDec, Spec.Valuation r val → Spec.Satisfies r.constraints val →
      Spec.PublicMatch ct val → Spec.Assigns r wDec val → decap P (t'.circuit r wDec) ct = .ok k) := by
  obtain ⟨h1, h2, h3⟩ := C08_bound_public_inputs P dom t r hf w ρ ct k henc
  have hle : ct.publicInputs.length ≤ r.nPubIn := by
    by_contra hc
    have := h1 r.nPubIn (by omega)
    rw [C40_cli_bound h r.nPubIn sym j w hw (r.nPubIn + 1) (by omega)] at this
    cases this
  refine ⟨hle, fun ho val wDec hv hs hp hwd => ?_⟩
  refine C01_roundtrip P dom t t' r hf w ⟨r.nPubIn + 1, by omega, ?_, C40_cli_bound h _ sym j w hw _ (by omega)⟩ ρ ct k henc val hv hs
    hp wDec hwd
  have := nPublicInputs_eq hf
  unfold R1csFile.nAlloc
  omega

/-- **C40** (JS) — JS has no such limit: if the object gives integers to all public wires, all of them are bound. -/
theorem C40_js_binds_all (P : Pairing Fr G1 G2 GT) (dom : Domains Fr) (r : R1csFile) (hf : Spec.PublicFits r)
    (sym : Str) (inputs : List (Str × JsVal)) (hna : JsNoAlias (jsParseSymFile sym) inputs)
    (hmax : JsSmall (jsParseSymFile sym) inputs)
    (hall : ∀ i, 1 ≤ i → i ≤ r.nPubOut + r.nPubIn → JsSupplies (jsParseSymFile sym) inputs i)
    (w : WireMap) (h : jsAssign (r.nPubOut + r.nPubIn) sym inputs = .ok w) (ρ : Rand Fr)
    (ct : Ciphertext Fr G1 G2) (k : Key) (henc : encap P dom (Tool.js.circuit r w) ρ = .ok (ct, k)) :
    ct.publicInputs.length = r.nPubOut + r.nPubIn := by
  obtain ⟨hb, hlen, hnext⟩ := C08_bound_public_inputs P dom .js r hf w ρ ct k henc
  obtain ⟨zs, h1, h2, h3⟩ := jsAssign_ok _ sym inputs hna w h
  have hzl : r.nPubOut + r.nPubIn ≤ zs.length := by
    by_contra hc
    obtain ⟨name, v, ha, hb⟩ := hall (zs.length + 1) (by omega) (by omega)
    exact h2 name v ha hb
  have hl : zs.length < 2 ^ 25 := hmax.run_lt fun k hk => by
    obtain ⟨name, v, s, g1, g2, -⟩ := h1 k hk
    exact ⟨name, v, g1, g2⟩
  by_contra hne
  have hlt : ct.publicInputs.length < r.nPubOut + r.nPubIn := by omega
  have hn := hnext hlt
  rw [h3 (by omega), if_pos (by omega), List.getElem?_eq_none_iff] at hn
  simp only [List.length_map, List.length_cons] at hn
  omega

/-- **C54** — circom numbers the public outputs before the public inputs. If the input object gives no value to the first public
wire (for a circuit with public outputs: the first output), the ciphertext binds nothing at all and every satisfying assignment of the
circuit opens it, whatever its public inputs. CLI. -/
theorem C54_cli_outputs_unbind (P : Pairing Fr G1 G2 GT) (dom : Domains Fr) (t' : Tool) (r : R1csFile) (hf : Spec.PublicFits r)
    (hpos : 1 ≤ r.nPubOut + r.nPubIn) (h : HashOrder) (sym : Str) (entries : List (Str × Json)) {symtab : AMap Nat}
    (hsym : parseSymFile sym = .ok symtab) (hna : NoAlias symtab (some r.nPubIn) entries)
    (hfree : ∀ name x, Resolves symtab none name 1 → ¬ Gives entries name x)
    (w : WireMap) (hw : cliAssign h r.nPubIn sym (.obj entries) = .ok w) (ρ : Rand Fr) (ct : Ciphertext Fr G1 G2) (k : Key)
    (henc : encap P dom (Tool.cli.circuit r w) ρ = .ok (ct, k)) :
    ct.publicInputs = [] ∧ ∀ val wDec, Spec.Valuation r val → Spec.Satisfies r.constraints val → Spec.Assigns r wDec val →
      decap P (t'.circuit r wDec) ct = .ok k := by
  refine C08_unbound_if_first_missing P dom .cli t' r hf hpos w ?_ ρ ct k henc
  cases h1 : w 1 with
  | none => rfl
  | some v =>
    rcases (((C38_cli_wires h _ sym entries w hsym hna).1 hw).2 1 v).1 h1 with ⟨name, hr, hg⟩ | ⟨-, h0, -⟩
    · exact absurd hg (hfree name v ⟨hr.1, fun k hk => by cases hk⟩)
    · omega

/-- **C54** — the same in JS. -/
theorem C54_js_outputs_unbind (P : Pairing Fr G1 G2 GT) (dom : Domains Fr) (t' : Tool) (r : R1csFile) (hf : Spec.PublicFits r)
    (hpos : 1 ≤ r.nPubOut + r.nPubIn) (sym : Str) (inputs : List (Str × JsVal)) (hna : JsNoAlias (jsParseSymFile sym) inputs)
    (hfree : ∀ name v, Resolves (jsParseSymFile sym) none name 1 → ¬ JsGives inputs name v)
    (w : WireMap) (hw : jsAssign (r.nPubOut + r.nPubIn) sym inputs = .ok w) (ρ : Rand Fr) (ct : Ciphertext Fr G1 G2) (k : Key)
    (henc : encap P dom (Tool.js.circuit r w) ρ = .ok (ct, k)) :
    ct.publicInputs = [] ∧ ∀ val wDec, Spec.Valuation r val → Spec.Satisfies r.constraints val → Spec.Assigns r wDec val →
      decap P (t'.circuit r wDec) ct = .ok k := by
  refine C08_unbound_if_first_missing P dom .js t' r hf hpos w ?_ ρ ct k henc
  obtain ⟨zs, h1, h2, h3⟩ := jsAssign_ok _ sym inputs hna w hw
  cases zs with
  | nil =>
    rw [h3 (by norm_num)]
    split <;> rfl
  | cons z zs =>
    obtain ⟨name, v, s, ha, hb, -⟩ := h1 0 (by simp)
    exact absurd hb (hfree name v ha)

end Zkenc.Props
