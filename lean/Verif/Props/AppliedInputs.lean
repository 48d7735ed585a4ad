import Verif.Props.Inputs
import Verif.Props.InputsNested
import Verif.Props.AppliedEndToEnd
/-!
# The theorems about inputs, applied

The theorems of `Props/Inputs.lean` and `Props/InputsNested.lean` are applied, with all their hypotheses, to concrete input objects and to the circuit `y = x²`, also in
the form where `y` is a public output and `x` a public input.
-/

namespace Zkenc.Props

open Zkenc Zkenc.Spec Zkenc.InputSpec

namespace Ex

section
variable {G1 G2 GT : Type} [AddCommGroup G1] [Module Fr G1] [AddCommGroup G2] [Module Fr G2] [AddCommGroup GT] [Module Fr GT]

/-! ### C37 – C39: objects -/

/-- C38: `{"a": 1, "b": [2, [null]]}` is rejected. -/
example : ∃ msg, cliInputs (.obj [(['a'], .int 1), (['b'], .arr [.int 2, .arr [.null]])]) = .error (.err msg) :=
  C38_cli_rejects (e := (['b'], .arr [.int 2, .arr [.null]])) (by simp) (path := [1, 0]) (y := .null) (.elem rfl (.elem rfl (.here _))) (.inl rfl)

/-- C39 (CLI). -/
example : cliInputs (.obj [(['a'], .int 18446744073709551615)]) = .ok [(['a'], ((18446744073709551615 : Int) : Fr))] ∧
    cliInputs (.obj [(['a'], .int (-(5 : Nat)))]) = .ok [(['a'], ((2 ^ 64 - 5 : Nat) : Fr))] ∧
    cliInputs (.obj [(['a'], .int 18446744073709551616)]) = Res.fail "Unsupported number format" ∧
    cliInputs (.obj [(['a'], .int (-9223372036854775809))]) = Res.fail "Unsupported number format" ∧
    cliInputs (.obj [(['a'], .str ['0', 'x', '9'])]) = Res.fail "Failed to parse string as field element" := by
  refine ⟨C39_cli_integer _ _ (by norm_num) (by norm_num), (C39_cli_negative _ 5 (by norm_num) (by norm_num)).1, C39_cli_out_of_range _ _ (.inr (by norm_num)),
    C39_cli_out_of_range _ _ (.inl (by norm_num)), C39_cli_bad_string _ _ ?_⟩
  rintro z ⟨d, t, hd, ht, h⟩
  rcases h with ⟨h, -⟩ | ⟨h, -⟩ | ⟨h, -⟩
  · cases h
    rcases ht 'x' (by simp) with h | h <;> revert h <;> decide
  · cases h
  · cases h

/-- C38 (JS): `a: {b: [7]}` gives `a.b[0]`. -/
example : JsGives [(['a'], .obj [(['b'], .arr [.num 7])])] (['a', '.', 'b'] ++ '[' :: (natDec 0 ++ [']'])) (.num 7) :=
  (C38_js_nested_object ['a'] ['b'] (.arr [.num 7]) (by simp) _ _).2 ⟨_, List.mem_singleton.2 rfl, .elem rfl⟩

/-- The CLI object `{"y": 9, "z": 1}` and its reversal. -/
def two : List (Str × Json) := [(['y'], .int 9), (['z'], .int 1)]

theorem two_gives {name : Str} {x : Fr} (h : Gives two name x) : name = ['y'] ∧ x = 9 ∨ name = ['z'] := by
  obtain ⟨e, he, path, y, hat, -, hn, hd⟩ := h
  simp only [two, List.mem_cons, List.not_mem_nil, or_false] at he
  rcases he with rfl | rfl
  · cases hat with
    | here => exact .inl ⟨hn, denotes_nine hd⟩
  · cases hat with
    | here => exact .inr hn

theorem two_denote : AllDenote two := by
  intro e he path y hat hn
  simp only [two, List.mem_cons, List.not_mem_nil, or_false] at he
  rcases he with rfl | rfl
  · cases hat with
    | here => exact ⟨_, .nat 9 (by norm_num) (by norm_num)⟩
  · cases hat with
    | here => exact ⟨_, .nat 1 (by norm_num) (by norm_num)⟩

theorem sym_no_z {m : AMap Nat} (h2 : ∀ name w, m.get name = some w ↔ (name, w) ∈ [(['m', 'a', 'i', 'n', '.', 'y'], 1), (['m', 'a', 'i', 'n', '.', 'x'], 2)])
    {max : Option Nat} {i : Nat} (hr : Resolves m max ['z'] i) : False := by
  have := hr.1
  rw [show "main.".toList ++ ['z'] = ['m', 'a', 'i', 'n', '.', 'z'] by decide, h2] at this
  simp at this

/-- C37, C38 (CLI): the assignment of `{"z": 1, "y": 9}`, with any iteration order: wire 0 is 1, wire 1 is 9, nothing else. -/
example : ∃ w : WireMap, (∀ i v, w i = some v ↔ (i = 1 ∧ v = 9) ∨ (i = 0 ∧ v = 1)) ∧ cliAssign HashOrder.same 1 sym (.obj two) = .ok w ∧
    cliAssign HashOrder.reversed 1 sym (.obj two.reverse) = .ok w := by
  obtain ⟨m, h1, h2, h3⟩ := sym_parse
  have hna : NoAlias m (some 1) two := by
    intro n n' i x x' hr hr' g g'
    rcases two_gives g with ⟨-, rfl⟩ | rfl
    · rcases two_gives g' with ⟨-, rfl⟩ | rfl
      · rfl
      · exact (sym_no_z h2 hr').elim
    · exact (sym_no_z h2 hr).elim
  have hy : Resolves m (some 1) ['y'] 1 := ⟨by rw [main_y, h2]; simp, by intro k hk; cases hk; decide⟩
  have gy : Gives two ['y'] 9 := ⟨(['y'], .int 9), by simp [two], [], .int 9, .here _, by simp [NotArr], rfl, by
      have := Denotes.nat 9 (by norm_num) (by norm_num)
      simpa using this⟩
  have hy1 : ∀ i, Resolves m (some 1) ['y'] i → i = 1 := by
    intro i h
    have := h.1
    rw [main_y, h2] at this
    simpa using this
  have key : ∀ i v, ((∃ name, Resolves m (some 1) name i ∧ Gives two name v) ∨
        ((∀ name x, Resolves m (some 1) name i → ¬ Gives two name x) ∧ i = 0 ∧ v = 1)) ↔ (i = 1 ∧ v = 9) ∨ (i = 0 ∧ v = 1) := by
    intro i v
    constructor
    · rintro (⟨name, hr, hg⟩ | ⟨-, h⟩)
      · rcases two_gives hg with ⟨rfl, rfl⟩ | rfl
        · exact .inl ⟨hy1 i hr, rfl⟩
        · exact (sym_no_z h2 hr).elim
      · exact .inr h
    · rintro (⟨rfl, rfl⟩ | ⟨rfl, rfl⟩)
      · exact .inl ⟨_, hy, gy⟩
      · refine .inr ⟨fun name x hr hg => ?_, rfl, rfl⟩
        rcases two_gives hg with ⟨rfl, -⟩ | rfl
        · exact absurd (hy1 0 hr) (by decide)
        · exact sym_no_z h2 hr
  let w : WireMap := fun i => if i = 0 then some 1 else if i = 1 then some 9 else none
  have hw : ∀ i v, w i = some v ↔ (i = 1 ∧ v = 9) ∨ (i = 0 ∧ v = 1) := by
    intro i v
    by_cases h0 : i = 0
    · subst h0; simp [w, eq_comm]
    · by_cases h1 : i = 1
      · subst h1; simp [w, eq_comm]
      · simp [w, h0, h1]
  have ha := (C38_cli_wires HashOrder.same 1 sym two w h1 hna).2 ⟨two_denote, fun i v => (hw i v).trans (key i v).symm⟩
  exact ⟨w, hw, ha, (C37_cli_order_independent HashOrder.same HashOrder.reversed 1 sym (List.reverse_perm two).symm h1 hna w).1 ha⟩

/-- C40 (CLI): only wires up to `n_pub_in`. -/
example (w : WireMap) (h : cliAssign HashOrder.same 1 sym (.obj two) = .ok w) : w 2 = none := C40_cli_bound _ 1 sym _ w h 2 (by decide)

/-! ### JS assignments -/

/-- The witness made of one value for `y`. -/
theorem js_one (v : JsVal) (z : Int) (hv : v.toStr = .ok (intDec z)) (hz : jsBigInt (intDec z) = some z) (h1 : ∀ l, v ≠ .arr l) (h2 : ∀ l, v ≠ .obj l) (h3 : v ≠ .null ∧ v ≠ .undef) :
    JsNoAlias (jsParseSymFile sym) [(['y'], v)] ∧ JsSmall (jsParseSymFile sym) [(['y'], v)] ∧
    JsGives [(['y'], v)] ['y'] v ∧ Resolves (jsParseSymFile sym) none ['y'] 1 ∧ jsEncapWitness sym [(['y'], v)] = .ok (serializeWitnessSimple [1, z]) := by
  obtain ⟨m, -, g2, g3⟩ := sym_parse
  have hg : ∀ name x, JsGives [(['y'], v)] name x → name = ['y'] ∧ x = v := by
    rintro name x ⟨e, he, hat⟩
    rw [List.mem_singleton] at he
    subst he
    cases hat with
    | elem h => exact absurd rfl (h1 _)
    | field h => exact absurd rfl (h2 _)
    | scalar => exact ⟨rfl, rfl⟩
  have hna : JsNoAlias (jsParseSymFile sym) [(['y'], v)] := by
    intro n n' i x x' _ _ a b
    rw [(hg _ _ a).2, (hg _ _ b).2]
  have hgy : JsGives [(['y'], v)] ['y'] v := ⟨_, List.mem_singleton.2 rfl, .scalar h1 h2⟩
  have hr : Resolves (jsParseSymFile sym) none ['y'] 1 := ⟨by rw [g3, main_y, g2]; simp, by simp⟩
  refine ⟨hna, ?_, hgy, hr, (C38_js_witness sym _ hna _).2 ⟨?_, [z], rfl, ?_, ?_⟩⟩
  · refine .of_lt fun name x i hr hx => ?_
    obtain ⟨rfl, rfl⟩ := hg _ _ hx
    rw [js_resolves hr]; norm_num
  · intro name x i _ hx
    rw [(hg _ _ hx).2]; exact h3
  · intro k hk
    obtain rfl : k = 0 := by simpa using hk
    exact ⟨['y'], v, _, hr, hgy, hv, hz⟩
  · intro name x hr hx
    obtain ⟨rfl, rfl⟩ := hg _ _ hx
    exact absurd (js_resolves hr) (by simp)

theorem js_assign_one {v : JsVal} {z : Int} {inp : List (Str × JsVal)} (h : jsEncapWitness sym inp = .ok (serializeWitnessSimple [1, z])) (n : Nat) :
    jsAssign n sym inp = .ok (wasmEncapWires n ([1, z].map fun v : Int => (((v % 2 ^ 256).toNat : Nat) : Fr))) := by
  unfold jsAssign
  rw [h, Res.ok_bind, C30_roundtrip _ (by simp)]
  rfl

theorem neg_text : jsBigInt (intDec (-9)) = some (-9) := by
  have : intDec (-9) = ['-', '9'] := by simp [intDec, natDec, digChar]
  rw [this]; decide

/-- C37 (JS): field order. -/
example : jsEncapWitness sym [(['z'], .num 1), (['y'], .num 9)] = .ok (serializeWitnessSimple [1, 9]) ↔
    jsEncapWitness sym [(['y'], .num 9), (['z'], .num 1)] = .ok (serializeWitnessSimple [1, 9]) := by
  refine C37_js_order_independent sym (List.Perm.swap _ _ _) ?_ _
  obtain ⟨m, -, g2, g3⟩ := sym_parse
  have hg : ∀ name x, JsGives [(['z'], .num 1), (['y'], .num 9)] name x → name = ['y'] ∧ x = .num 9 ∨ name = ['z'] := by
    rintro name x ⟨e, he, hat⟩
    simp only [List.mem_cons, List.not_mem_nil, or_false] at he
    rcases he with rfl | rfl
    · cases hat with
      | scalar => exact .inr rfl
    · cases hat with
      | scalar => exact .inl ⟨rfl, rfl⟩
  intro n n' i x x' hr hr' a b
  rw [g3] at hr hr'
  rcases hg _ _ a with ⟨-, rfl⟩ | rfl
  · rcases hg _ _ b with ⟨-, rfl⟩ | rfl
    · rfl
    · exact (sym_no_z g2 hr').elim
  · exact (sym_no_z g2 hr).elim

/-- C39 (JS): `y: -9` is assigned `2^256 - 9`, not `-9`, and cannot be opened with `y = -9`. -/
example (P : Pairing Fr G1 G2 GT) (dom : Domains Fr) (x : Fr) : ∃ w ct k, jsAssign (sq.nPubOut + sq.nPubIn) sym [(['y'], .num (-9))] = .ok w ∧
    w 1 = some (((-9 % 2 ^ 256 : Int).toNat : Nat) : Fr) ∧ (((-9 % 2 ^ 256 : Int).toNat : Nat) : Fr) ≠ ((-9 : Int) : Fr) ∧
    encap P dom (Tool.js.circuit sq w) ρ = .ok (ct, k) ∧
    ∀ k', decap P (Tool.cli.circuit sq fun i => if i = 0 then some 1 else if i = 1 then some ((-9 : Int) : Fr) else some x) ct ≠ .ok k' := by
  obtain ⟨hna, hmax, hg, hr, hw⟩ := js_one (.num (-9)) (-9) rfl neg_text (by simp) (by simp) ⟨by simp, by simp⟩
  have ha := js_assign_one (v := .num (-9)) hw (sq.nPubOut + sq.nPubIn)
  obtain ⟨ct, k, henc⟩ := C07_encap_ok P dom (Tool.js.circuit sq (wasmEncapWires (sq.nPubOut + sq.nPubIn) ([1, -9].map fun v : Int => (((v % 2 ^ 256).toNat : Nat) : Fr)))) ρ delta_ne
  have h1 := C39_js_wire_value _ sym _ hna _ ha hmax (i := 0) hr hg (z := -9) rfl (by simp [wasmEncapWires, sq])
  have hlen : 0 < ct.publicInputs.length := by
    by_contra hc
    have h3 := (C08_bound_public_inputs P dom .js sq sq_wf.fits _ ρ ct k henc).2.2 (by rw [Nat.eq_zero_of_not_pos hc]; decide)
    rw [Nat.eq_zero_of_not_pos hc] at h3
    simp [wasmEncapWires, sq] at h3
  exact ⟨_, ct, k, ha, h1, (C39_js_negative_differs (-9) (by norm_num) (by norm_num)).1, henc, fun k' =>
    C39_js_negative_unopenable P dom .cli sq sq_wf.fits sym _ hna hmax _ ha (i := 0) hr hg (z := -9) rfl (by norm_num) (by norm_num) ρ ct k henc hlen _ rfl k'⟩

/-! ### C40, C54: outputs -/

/-- `y = x²` with `y` a public output (wire 1) and `x` a public input (wire 2). -/
def sqo : R1csFile := { sq with nPubOut := 1, nPubIn := 1, nPrvIn := 0 }

theorem sqo_fits : PublicFits sqo := by decide

/-- The CLI object `{"x": 3}`. -/
def onlyX : List (Str × Json) := [(['x'], .int 3)]

theorem onlyX_gives {name : Str} {x : Fr} (h : Gives onlyX name x) : name = ['x'] := by
  obtain ⟨e, he, path, y, hat, -, hn, hd⟩ := h
  rw [onlyX, List.mem_singleton] at he
  subst he
  cases hat with
  | here => exact hn

theorem onlyX_denote : AllDenote onlyX := by
  intro e he path y hat hn
  rw [onlyX, List.mem_singleton] at he
  subst he
  cases hat with
  | here => exact ⟨_, .nat 3 (by norm_num) (by norm_num)⟩

theorem main_x : "main.".toList ++ ['x'] = ['m', 'a', 'i', 'n', '.', 'x'] := by decide

theorem sqo_valuation (x : Fr) : Valuation sqo (fun i => [1, x * x, x].getD i 0) := ⟨rfl, by
  intro i hi
  have : 3 ≤ i := hi
  match i, this with
  | i + 3, _ => rfl⟩

theorem sqo_satisfies (x : Fr) : Satisfies sqo.constraints (fun i => [1, x * x, x].getD i 0) := (sq_witness_of (x * x) x rfl).sat

/-- C40, C54 (CLI): `zkenc` with `{"x": 3}` binds nothing, and any solution opens it. -/
example (P : Pairing Fr G1 G2 GT) (dom : Domains Fr) (x : Fr) : ∃ w ct k, cliAssign HashOrder.same sqo.nPubIn sym (.obj onlyX) = .ok w ∧
    encap P dom (Tool.cli.circuit sqo w) ρ = .ok (ct, k) ∧ ct.publicInputs = [] ∧ ct.publicInputs.length ≤ sqo.nPubIn ∧
    decap P (Tool.js.circuit sqo fun i => some ([1, x * x, x].getD i 0)) ct = .ok k := by
  obtain ⟨m, h1, h2, h3⟩ := sym_parse
  obtain ⟨inp, hin⟩ := ((C38_cli_accepts_iff (.obj onlyX)).1).2 ⟨_, rfl, onlyX_denote⟩
  have hw : ∃ w, cliAssign HashOrder.same sqo.nPubIn sym (.obj onlyX) = .ok w := by
    unfold cliAssign
    rw [h1, Res.ok_bind, hin, Res.ok_bind]
    exact ⟨_, rfl⟩
  obtain ⟨w, hw⟩ := hw
  obtain ⟨ct, k, henc⟩ := C07_encap_ok P dom (Tool.cli.circuit sqo w) ρ delta_ne
  have hrx : ∀ {max i}, Resolves m max ['x'] i → i = 2 := by
    intro max i h
    have := h.1
    rw [main_x, h2] at this
    simpa using this
  have h54 := C54_cli_outputs_unbind P dom .js sqo sqo_fits (by decide) HashOrder.same sym onlyX h1
    (by
      intro n n' i a b hr hr' g g'
      obtain rfl := onlyX_gives g
      have := hr.2 1 rfl
      rw [hrx hr] at this
      exact absurd this (by decide))
    (by
      intro name a hr g
      obtain rfl := onlyX_gives g
      exact absurd (hrx hr) (by decide)) w hw ρ ct k henc
  have h40 := C40_cli_unbound P dom .cli .js sqo sqo_fits HashOrder.same sym _ w hw ρ ct k henc
  exact ⟨w, ct, k, hw, henc, h54.1, h40.1, h54.2 _ _ (sqo_valuation x) (sqo_satisfies x) (fun i _ _ => rfl)⟩

/-- A JS object with only `x`. -/
theorem js_x : JsNoAlias (jsParseSymFile sym) [(['x'], .num 3)] ∧ (∀ name v, Resolves (jsParseSymFile sym) none name 1 → ¬ JsGives [(['x'], .num 3)] name v) ∧
    jsEncapWitness sym [(['x'], .num 3)] = .ok (serializeWitnessSimple [1]) := by
  obtain ⟨m, -, g2, g3⟩ := sym_parse
  have hg : ∀ name v, JsGives [(['x'], .num 3)] name v → name = ['x'] ∧ v = .num 3 := by
    rintro name v ⟨e, he, hat⟩
    rw [List.mem_singleton] at he
    subst he
    cases hat with
    | scalar => exact ⟨rfl, rfl⟩
  have hna : JsNoAlias (jsParseSymFile sym) [(['x'], .num 3)] := by
    intro n n' i v v' _ _ a b
    rw [(hg _ _ a).2, (hg _ _ b).2]
  have hno : ∀ name v, Resolves (jsParseSymFile sym) none name 1 → ¬ JsGives [(['x'], .num 3)] name v := by
    intro name v hr h
    obtain ⟨rfl, -⟩ := hg _ _ h
    have := hr.1
    rw [g3, main_x, g2] at this
    simp at this
  refine ⟨hna, hno, (C38_js_witness sym _ hna _).2 ⟨?_, [], rfl, by simp, fun name v hr => hno name v hr⟩⟩
  intro name v i _ h
  rw [(hg _ _ h).2]
  exact ⟨by simp, by simp⟩

/-- C54 (JS). -/
example (P : Pairing Fr G1 G2 GT) (dom : Domains Fr) (x : Fr) : ∃ w ct k, jsAssign (sqo.nPubOut + sqo.nPubIn) sym [(['x'], .num 3)] = .ok w ∧
    encap P dom (Tool.js.circuit sqo w) ρ = .ok (ct, k) ∧ ct.publicInputs = [] ∧
    decap P (Tool.cli.circuit sqo fun i => some ([1, x * x, x].getD i 0)) ct = .ok k := by
  obtain ⟨hna, hno, hw⟩ := js_x
  have ha : jsAssign (sqo.nPubOut + sqo.nPubIn) sym [(['x'], .num 3)] =
      .ok (wasmEncapWires (sqo.nPubOut + sqo.nPubIn) ([1].map fun v : Int => (((v % 2 ^ 256).toNat : Nat) : Fr))) := by
    unfold jsAssign
    rw [hw, Res.ok_bind, C30_roundtrip _ (by simp)]
    rfl
  obtain ⟨ct, k, henc⟩ := C07_encap_ok P dom (Tool.js.circuit sqo (wasmEncapWires (sqo.nPubOut + sqo.nPubIn) ([1].map fun v : Int => (((v % 2 ^ 256).toNat : Nat) : Fr)))) ρ delta_ne
  have h54 := C54_js_outputs_unbind P dom .cli sqo sqo_fits (by decide) sym _ hna hno _ ha ρ ct k henc
  exact ⟨_, ct, k, ha, henc, h54.1, h54.2 _ _ (sqo_valuation x) (sqo_satisfies x) (fun i _ _ => rfl)⟩

/-- C40 (JS): with `y` and `x` both are bound. -/
example (P : Pairing Fr G1 G2 GT) (dom : Domains Fr) : ∃ w ct k, jsAssign (sqo.nPubOut + sqo.nPubIn) sym [(['y'], .num 9), (['x'], .num 3)] = .ok w ∧
    encap P dom (Tool.js.circuit sqo w) ρ = .ok (ct, k) ∧ ct.publicInputs.length = 2 := by
  obtain ⟨m, -, g2, g3⟩ := sym_parse
  have hg : ∀ name v, JsGives [(['y'], .num 9), (['x'], .num 3)] name v → name = ['y'] ∧ v = .num 9 ∨ name = ['x'] ∧ v = .num 3 := by
    rintro name v ⟨e, he, hat⟩
    simp only [List.mem_cons, List.not_mem_nil, or_false] at he
    rcases he with rfl | rfl
    · cases hat with
      | scalar => exact .inl ⟨rfl, rfl⟩
    · cases hat with
      | scalar => exact .inr ⟨rfl, rfl⟩
  have hx : ∀ {i}, Resolves (jsParseSymFile sym) none ['x'] i → i = 2 := by
    intro i h
    have := h.1
    rw [g3, main_x, g2] at this
    simpa using this
  have hry : Resolves (jsParseSymFile sym) none ['y'] 1 := ⟨by rw [g3, main_y, g2]; simp, by simp⟩
  have hrx : Resolves (jsParseSymFile sym) none ['x'] 2 := ⟨by rw [g3, main_x, g2]; simp, by simp⟩
  have hgy : JsGives [(['y'], .num 9), (['x'], .num 3)] ['y'] (.num 9) := ⟨(['y'], .num 9), by simp, .scalar (by simp) (by simp)⟩
  have hgx : JsGives [(['y'], .num 9), (['x'], .num 3)] ['x'] (.num 3) := ⟨(['x'], .num 3), by simp, .scalar (by simp) (by simp)⟩
  have hna : JsNoAlias (jsParseSymFile sym) [(['y'], .num 9), (['x'], .num 3)] := by
    intro n n' i v v' hr hr' a b
    rcases hg _ _ a with ⟨rfl, rfl⟩ | ⟨rfl, rfl⟩ <;> rcases hg _ _ b with ⟨rfl, rfl⟩ | ⟨rfl, rfl⟩
    · rfl
    · have := js_resolves hr; have := hx hr'; omega
    · have := js_resolves hr'; have := hx hr; omega
    · rfl
  have three_text : jsBigInt (intDec 3) = some 3 := by
    have : intDec 3 = ['3'] := by simp [intDec, natDec, digChar]
    rw [this]; decide
  have hw := (C38_js_witness sym _ hna (serializeWitnessSimple [1, 9, 3])).2 ⟨by
      intro name v i _ h
      rcases hg _ _ h with ⟨-, rfl⟩ | ⟨-, rfl⟩ <;> exact ⟨by simp, by simp⟩, [9, 3], rfl, by
      intro k hk
      have : k < 2 := hk
      interval_cases k
      · exact ⟨['y'], .num 9, _, hry, hgy, rfl, nine_text⟩
      · exact ⟨['x'], .num 3, _, hrx, hgx, rfl, three_text⟩, by
      intro name v hr h
      rcases hg _ _ h with ⟨rfl, rfl⟩ | ⟨rfl, rfl⟩
      · exact absurd (js_resolves hr) (by simp)
      · exact absurd (hx hr) (by simp)⟩
  have ha : jsAssign (sqo.nPubOut + sqo.nPubIn) sym [(['y'], .num 9), (['x'], .num 3)] =
      .ok (wasmEncapWires (sqo.nPubOut + sqo.nPubIn) ([1, 9, 3].map fun v : Int => (((v % 2 ^ 256).toNat : Nat) : Fr))) := by
    unfold jsAssign
    rw [hw, Res.ok_bind, C30_roundtrip _ (by simp)]
    rfl
  obtain ⟨ct, k, henc⟩ := C07_encap_ok P dom (Tool.js.circuit sqo (wasmEncapWires (sqo.nPubOut + sqo.nPubIn) ([1, 9, 3].map fun v : Int => (((v % 2 ^ 256).toNat : Nat) : Fr)))) ρ delta_ne
  refine ⟨_, ct, k, ha, henc, C40_js_binds_all P dom sqo sqo_fits sym _ hna ?_ ?_ _ ha ρ ct k henc⟩
  · refine .of_lt fun name v i hr h => ?_
    rcases hg _ _ h with ⟨rfl, rfl⟩ | ⟨rfl, rfl⟩
    · rw [js_resolves hr]; norm_num
    · rw [hx hr]; norm_num
  · intro i h1 h2
    have : i ≤ 2 := h2
    interval_cases i
    · exact ⟨_, _, hry, hgy⟩
    · exact ⟨_, _, hrx, hgx⟩

/-! ### C68 -/

/-- The symbol file and the object of C68. -/
theorem nested_case : PlainKeys [(['a'], .arr [.arr [.num 3]])] ∧
    JsNoAlias (jsParseSymFile "1,1,0,main.a[0][0]".toList) [(['a'], .arr [.arr [.num 3]])] ∧
    (∀ name i, Resolves (jsParseSymFile "1,1,0,main.a[0][0]".toList) none name i → Nested name) ∧
    (∀ n, jsAssign n "1,1,0,main.a[0][0]".toList [(['a'], .arr [.arr [.num 3]])] = .ok (wasmEncapWires n ([1].map fun v : Int => (((v % 2 ^ 256).toNat : Nat) : Fr)))) := by
  have hs : jsParseSymFile "1,1,0,main.a[0][0]".toList = [("main.a[0][0]".toList, 1)] := by rfl
  have hd : natDec 0 = ['0'] := by rw [natDec]; rfl
  have hp : PlainKeys [(['a'], .arr [.arr [.num 3]])] := by
    intro e he
    rw [List.mem_singleton] at he
    subst he
    exact ⟨by decide, fun k hk => by cases hk⟩
  have hn : ∀ name i, Resolves (jsParseSymFile "1,1,0,main.a[0][0]".toList) none name i → Nested name := by
    rintro name i ⟨hr, -⟩
    rw [hs] at hr
    simp only [AMap.get] at hr
    split at hr
    · rename_i h
      have h : "main.".toList ++ "a[0][0]".toList = "main.".toList ++ name := h
      refine ⟨['a'], 0, 0, [], ?_⟩
      rw [← List.append_cancel_left h]
      simp only [signalName, hd]
      rfl
    · cases hr
  have hgv : ∀ name i v, Resolves (jsParseSymFile "1,1,0,main.a[0][0]".toList) none name i →
      ¬ JsGives [(['a'], .arr [.arr [.num 3]])] name v := fun name i v hr => C68_js_no_value _ hp name (hn name i hr) v
  have hna : JsNoAlias (jsParseSymFile "1,1,0,main.a[0][0]".toList) [(['a'], .arr [.arr [.num 3]])] :=
    fun _ _ i v _ hr _ hg _ => absurd hg (hgv _ i v hr)
  refine ⟨hp, hna, hn, fun n => ?_⟩
  have hb := (C38_js_witness _ _ hna _).2 ⟨fun name v i hr hg => absurd hg (hgv name i v hr), [], rfl, by simp,
    fun name v hr => hgv name _ v hr⟩
  unfold jsAssign
  rw [hb, Res.ok_bind, C30_roundtrip _ (by simp)]
  rfl

/-- C68: `{a: [[3]]}` with `main.a[0][0]` the public wire of `y = x²`: nothing bound, every solution opens. -/
example (P : Pairing Fr G1 G2 GT) (dom : Domains Fr) (t : Tool) (x : Fr) : ∃ w ct k,
    jsAssign (sqo.nPubOut + sqo.nPubIn) "1,1,0,main.a[0][0]".toList [(['a'], .arr [.arr [.num 3]])] = .ok w ∧
    encap P dom (Tool.js.circuit sqo w) ρ = .ok (ct, k) ∧ ct.publicInputs.length ≤ 0 ∧
    decap P (t.circuit sqo fun i => some ([1, x * x, x].getD i 0)) ct = .ok k := by
  obtain ⟨hp, hna, hn, hw⟩ := nested_case
  obtain ⟨ct, k, henc⟩ := C07_encap_ok P dom (Tool.js.circuit sqo (wasmEncapWires (sqo.nPubOut + sqo.nPubIn) ([1].map fun v : Int => (((v % 2 ^ 256).toNat : Nat) : Fr)))) ρ delta_ne
  exact ⟨_, ct, k, hw _, henc,
    C68_js_not_bound P dom sqo sqo_fits _ _ hna hp (.of_lt fun name v i hr hg => absurd hg (C68_js_no_value _ hp name (hn name i hr) v)) 0 (fun name hr => hn name 1 hr) _ (hw _) ρ ct k henc,
    (C68_js_opens_any P dom t sqo sqo_fits (by decide) _ _ hna hp (fun name hr => hn name 1 hr) _ (hw _) ρ ct k henc).2 _ _ (sqo_valuation x) (sqo_satisfies x)
      (fun i _ _ => rfl)⟩

end

end Ex

end Zkenc.Props
