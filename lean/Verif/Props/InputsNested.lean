import Verif.Props.Inputs
/-!
# C68: arrays of arrays as public inputs

JS `encap`/`encrypt` enter an array one level only (sym_parser.ts 98-105), so a public signal `a[i][j]` never gets a value from the
input object; the CLI enters all levels (commands.rs 488-493).
-/

namespace Zkenc.InputSpec

open Zkenc

/-- `k` is a key of an object nested in the value. -/
inductive KeyIn : JsVal → Str → Prop
  | here {l : List (Str × JsVal)} {k : Str} {v : JsVal} : (k, v) ∈ l → KeyIn (.obj l) k
  | field {l : List (Str × JsVal)} {k k' : Str} {v : JsVal} : (k, v) ∈ l → KeyIn v k' → KeyIn (.obj l) k'

/-- No key of the input object, at any depth, contains `[`: arrays are written as arrays. -/
def PlainKeys (inputs : List (Str × JsVal)) : Prop := ∀ e ∈ inputs, '[' ∉ e.1 ∧ ∀ k, KeyIn e.2 k → '[' ∉ k

/-- The name of an element of an array of arrays: `a[i][j]…`. -/
def Nested (name : Str) : Prop := ∃ key i j path, name = signalName key (i :: j :: path)

end Zkenc.InputSpec

namespace Zkenc.Props

open Zkenc InputSpec

theorem jsAt_count {v : JsVal} {full name : Str} {x : JsVal} (h : JsAt v full name x) (hk : ∀ k, KeyIn v k → '[' ∉ k) :
    List.count '[' name ≤ List.count '[' full + 1 := by
  induction h with
  | elem _ =>
    have hz : ∀ n, List.count '[' (natDec n) = 0 := fun n => List.count_eq_zero.2 (natDec_no_bracket n).1
    simp [List.count_append, hz]
  | @field l k v full name x hm _ ih =>
    have h1 := ih fun k' hk' => hk k' (.field hm hk')
    have h2 : List.count '[' k = 0 := List.count_eq_zero.2 (hk k (.here hm))
    split at h1
    · omega
    · rw [List.count_append, List.count_cons, h2] at h1
      simpa using h1
  | scalar _ _ => omega

/-- **C68** (no value) — if the keys of the JS input object are plain, nothing in it gives a value to a signal `a[i][j]…`, however
deep its arrays are. -/
theorem C68_js_no_value (inputs : List (Str × JsVal)) (hp : PlainKeys inputs) (name : Str) (hn : Nested name) (v : JsVal) :
    ¬ JsGives inputs name v := by
  rintro ⟨e, he, h⟩
  obtain ⟨key, i, j, path, rfl⟩ := hn
  have h1 := jsAt_count h (hp e he).2
  rw [List.count_eq_zero.2 (hp e he).1, signalName_eq] at h1
  simp only [List.map_cons, List.flatten_cons, List.count_append, List.count_cons_self] at h1
  omega

variable {G1 G2 GT : Type} [AddCommGroup G1] [Module Fr G1] [AddCommGroup G2] [Module Fr G2] [AddCommGroup GT] [Module Fr GT]

/-- **C68** (not bound) — a JS ciphertext binds only the public wires before the first one that is an element of an array of arrays. -/
theorem C68_js_not_bound (P : Pairing Fr G1 G2 GT) (dom : Domains Fr) (r : R1csFile) (hf : Spec.PublicFits r) (sym : Str)
    (inputs : List (Str × JsVal)) (hna : JsNoAlias (jsParseSymFile sym) inputs) (hp : PlainKeys inputs)
    (hsize : JsSmall (jsParseSymFile sym) inputs)
    (i : Nat) (hi : ∀ name, Resolves (jsParseSymFile sym) none name (i + 1) → Nested name)
    (w : WireMap) (hw : jsAssign (r.nPubOut + r.nPubIn) sym inputs = .ok w) (ρ : Rand Fr) (ct : Ciphertext Fr G1 G2) (k : Key)
    (henc : encap P dom (Tool.js.circuit r w) ρ = .ok (ct, k)) : ct.publicInputs.length ≤ i := by
  obtain ⟨hb, -, -⟩ := C08_bound_public_inputs P dom .js r hf w ρ ct k henc
  obtain ⟨zs, h1, h2, h3⟩ := jsAssign_ok _ sym inputs hna w hw
  have hl : zs.length < 2 ^ 25 := hsize.run_lt fun k hk => by
    obtain ⟨name, v, s, g1, g2, -⟩ := h1 k hk
    exact ⟨name, v, g1, g2⟩
  by_contra hc
  have hwi := hb i (by omega)
  rw [h3 (by omega)] at hwi
  split at hwi
  · have hlt : i < zs.length := by
      by_contra hge
      rw [List.getElem?_eq_none (by simp; omega)] at hwi
      cases hwi
    obtain ⟨name, v, s, ha, hg, -⟩ := h1 i hlt
    exact C68_js_no_value inputs hp name (hi name ha) v hg
  · cases hwi

/-- **C68** (opens for everyone) — if the first public signal is an element of an array of arrays, the JS ciphertext binds nothing:
every satisfying assignment of the circuit opens it, in either tool, whatever the public inputs given to `encrypt`. -/
theorem C68_js_opens_any (P : Pairing Fr G1 G2 GT) (dom : Domains Fr) (t' : Tool) (r : R1csFile) (hf : Spec.PublicFits r)
    (hpos : 1 ≤ r.nPubOut + r.nPubIn) (sym : Str) (inputs : List (Str × JsVal)) (hna : JsNoAlias (jsParseSymFile sym) inputs)
    (hp : PlainKeys inputs) (hi : ∀ name, Resolves (jsParseSymFile sym) none name 1 → Nested name)
    (w : WireMap) (hw : jsAssign (r.nPubOut + r.nPubIn) sym inputs = .ok w) (ρ : Rand Fr) (ct : Ciphertext Fr G1 G2) (k : Key)
    (henc : encap P dom (Tool.js.circuit r w) ρ = .ok (ct, k)) :
    ct.publicInputs = [] ∧ ∀ val wDec, Spec.Valuation r val → Spec.Satisfies r.constraints val → Spec.Assigns r wDec val →
      decap P (t'.circuit r wDec) ct = .ok k :=
  C54_js_outputs_unbind P dom t' r hf hpos sym inputs hna (fun name v hr => C68_js_no_value inputs hp name (hi name hr) v) w hw ρ ct k
    henc

/-- **C68** (CLI) — the CLI enters arrays to any depth: every public signal within the bound that the object gives a value, at any
path of indices, gets it. -/
theorem C68_cli_any_depth (h : HashOrder) (n : Nat) (sym : Str) (entries : List (Str × Json)) (w : WireMap)
    {symtab : AMap Nat} (hsym : parseSymFile sym = .ok symtab) (hna : NoAlias symtab (some n) entries)
    (hw : cliAssign h n sym (.obj entries) = .ok w) {key : Str} {j y : Json} {path : List Nat} {x : Fr} {i : Nat}
    (hmem : (key, j) ∈ entries) (hat : AtPath j path y) (hx : Denotes y x)
    (hr : symtab.get ("main.".toList ++ signalName key path) = some i) (hi : i ≤ n) : w i = some x := by
  have hy : NotArr y := by cases hx <;> trivial
  exact (((C38_cli_wires h n sym entries w hsym hna).1 hw).2 i x).2 (.inl ⟨_, ⟨hr, fun k hk => by cases hk; exact hi⟩,
    (key, j), hmem, path, y, hat, hy, rfl, hx⟩)

/-- Example: `{"a": [[3]]}` and a symbol file whose first wire is `main.a[0][0]`: the JS hypotheses hold and `jsAssign` binds nothing
but the constant, while the CLI object gives that signal the value 3. -/
example (n : Nat) :
    PlainKeys [(['a'], .arr [.arr [.num 3]])] ∧
    JsNoAlias (jsParseSymFile "1,1,0,main.a[0][0]".toList) [(['a'], .arr [.arr [.num 3]])] ∧
    (∀ name, Resolves (jsParseSymFile "1,1,0,main.a[0][0]".toList) none name 1 → Nested name) ∧
    (∃ w, jsAssign (n + 1) "1,1,0,main.a[0][0]".toList [(['a'], .arr [.arr [.num 3]])] = .ok w ∧ w 1 = none) ∧
    Gives [(['a'], .arr [.arr [.int 3]])] (signalName ['a'] [0, 0]) 3 := by
  have hs : jsParseSymFile "1,1,0,main.a[0][0]".toList = [("main.a[0][0]".toList, 1)] := by rfl
  have hd : natDec 0 = ['0'] := by rw [natDec]; rfl
  have hp : PlainKeys [(['a'], .arr [.arr [.num 3]])] := by
    intro e he
    rw [List.mem_singleton] at he
    subst he
    exact ⟨by decide, fun k hk => by cases hk⟩
  have hn : ∀ name i, Resolves (jsParseSymFile "1,1,0,main.a[0][0]".toList) none name i → Nested name := by
    rintro name i ⟨hr, -⟩
    rw [hs] at hr
    simp only [AMap.get] at hr
    split at hr
    · rename_i h
      have h : "main.".toList ++ "a[0][0]".toList = "main.".toList ++ name := h
      refine ⟨['a'], 0, 0, [], ?_⟩
      rw [← List.append_cancel_left h]
      simp only [signalName, hd]
      rfl
    · cases hr
  have hgv : ∀ name i v, Resolves (jsParseSymFile "1,1,0,main.a[0][0]".toList) none name i →
      ¬ JsGives [(['a'], .arr [.arr [.num 3]])] name v := fun name i v hr => C68_js_no_value _ hp name (hn name i hr) v
  have hna : JsNoAlias (jsParseSymFile "1,1,0,main.a[0][0]".toList) [(['a'], .arr [.arr [.num 3]])] :=
    fun _ _ i v _ hr _ hg _ => absurd hg (hgv _ i v hr)
  refine ⟨hp, hna, fun name => hn name 1, ?_, ?_⟩
  · have hb := (C38_js_witness _ _ hna _).2 ⟨fun name v i hr hg => absurd hg (hgv name i v hr), [], rfl, by simp,
      fun name v hr => hgv name _ v hr⟩
    refine ⟨wasmEncapWires (n + 1) ([1].map fun v : Int => (((v % 2 ^ 256).toNat : Nat) : Fr)), ?_, by simp [wasmEncapWires]⟩
    unfold jsAssign
    rw [hb, Res.ok_bind, C30_roundtrip _ (by simp)]
    rfl
  · refine ⟨_, List.mem_singleton.2 rfl, [0, 0], .int 3, ?_, trivial, rfl, ?_⟩
    · exact .elem rfl (.elem rfl (.here _))
    · exact_mod_cast Denotes.nat 3 (by norm_num) (by norm_num)

end Zkenc.Props
