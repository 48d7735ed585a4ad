import Verif.Props.EndToEndExactly
import Verif.Props.InputsNested
import Verif.Props.Compose
/-!
# C88: arrays flattened with `.flat()`

The documentation (docs/docs/api/zkenc-js.md 396-409, "Array Signals") advises to flatten two-dimensional arrays. For the witness calculator that makes no
difference. For `encrypt` and `encap`, which look up signals by name, it means that the values are not enforced.
-/

namespace Zkenc.InputSpec

open Zkenc Zkenc.Spec Zkenc.CalcSpec

/-- No array inside an array, no bracket in a key. -/
def FlatEntries (entries : List (Str × Json)) : Prop := ∀ e ∈ entries, '[' ∉ e.1 ∧ ∀ l, e.2 = .arr l → ∀ x ∈ l, NotArr x

/-- JavaScript's `.flat()`: the items that are arrays are replaced by their items. -/
def jsFlat (l : List JsVal) : List JsVal :=
  (l.map fun v => match v with
    | .arr x => x
    | v => [v]).flatten

/-- The same keys in the same order, with the same values up to grouping in arrays. -/
def SameUpToGrouping (a b : List (Str × JsVal)) : Prop := List.Forall₂ (fun e e' => e.1 = e'.1 ∧ CalcSpec.leaves e.2 = CalcSpec.leaves e'.2) a b

end Zkenc.InputSpec

namespace Zkenc.Props

open Zkenc Zkenc.Spec Zkenc.InputSpec Zkenc.CalcSpec

/-! ## The witness calculator does not notice -/

theorem leavesList_append (a b : List JsVal) : leavesList (a ++ b) = leavesList a ++ leavesList b := by
  induction a with
  | nil => rfl
  | cons x xs ih => simp only [List.cons_append, leavesList, ih, List.append_assoc]

/-- **C88** (`.flat()` keeps the leaves). -/
theorem C88_flat_leaves (l : List JsVal) : CalcSpec.leaves (.arr (jsFlat l)) = CalcSpec.leaves (.arr l) := by
  simp only [CalcSpec.leaves]
  induction l with
  | nil => rfl
  | cons v vs ih =>
    rw [jsFlat, List.map_cons, List.flatten_cons, leavesList_append]
    rw [jsFlat] at ih
    rw [ih]
    cases v <;> simp [leavesList, CalcSpec.leaves]

theorem fillArrays_append (N : JsNums) (a b : List JsVal) (res : List Int) :
    fillArrays N (a ++ b) res = (match fillArrays N a res with
      | .error e => .error e
      | .ok res' => fillArrays N b res') := by
  induction a generalizing res with
  | nil => rfl
  | cons x xs ih =>
    rw [List.cons_append, fillArrays, fillArrays]
    cases fillArray N x res with
    | error e => rfl
    | ok r => exact ih r

mutual
theorem fillArray_leaves (N : JsNums) : ∀ (v : JsVal) (res : List Int), fillArray N v res = fillArrays N (CalcSpec.leaves v) res
  | .arr l, res => by rw [fillArray, CalcSpec.leaves]; exact fillArrays_leaves N l res
  | .null, res => by rw [CalcSpec.leaves, fillArrays]; cases fillArray N .null res <;> rfl
  | .undef, res => by rw [CalcSpec.leaves, fillArrays]; cases fillArray N .undef res <;> rfl
  | .bool b, res => by rw [CalcSpec.leaves, fillArrays]; cases fillArray N (.bool b) res <;> rfl
  | .num b, res => by rw [CalcSpec.leaves, fillArrays]; cases fillArray N (.num b) res <;> rfl
  | .numText b, res => by rw [CalcSpec.leaves, fillArrays]; cases fillArray N (.numText b) res <;> rfl
  | .bigint b, res => by rw [CalcSpec.leaves, fillArrays]; cases fillArray N (.bigint b) res <;> rfl
  | .str b, res => by rw [CalcSpec.leaves, fillArrays]; cases fillArray N (.str b) res <;> rfl
  | .obj b, res => by rw [CalcSpec.leaves, fillArrays]; cases fillArray N (.obj b) res <;> rfl
theorem fillArrays_leaves (N : JsNums) : ∀ (l : List JsVal) (res : List Int), fillArrays N l res = fillArrays N (leavesList l) res
  | [], _ => rfl
  | x :: xs, res => by
    rw [fillArrays, leavesList, fillArrays_append, fillArray_leaves N x res]
    cases fillArrays N (CalcSpec.leaves x) res with
    | error e => rfl
    | ok r => exact fillArrays_leaves N xs r
end

section
variable {σ : Type} (N : JsNums)

theorem setKeys_grouping (x : CalcInst σ) {a b : List (Str × JsVal)} (h : SameUpToGrouping a b) (s : σ) (c : Nat) :
    setKeys N x a s c = setKeys N x b s c := by
  induction h generalizing s c with
  | nil => rfl
  | @cons e e' as bs h _ ih =>
    obtain ⟨k, v⟩ := e
    obtain ⟨k', v'⟩ := e'
    obtain ⟨rfl, hl⟩ := h
    have hf : flatArray N v = flatArray N v' := by
      unfold flatArray
      rw [fillArray_leaves, fillArray_leaves]
      exact congrArg (fun l => fillArrays N l []) hl
    rw [setKeys, setKeys]
    simp only [hf, ih]

/-- **C88** (the receiver) — however the numbers of the inputs are grouped in arrays, nested or flat, the witness calculator computes the same witness or
throws the same error. -/
theorem C88_calculator (wasm : Res (CircuitWasm σ)) (a b : List (Str × JsVal)) (h : SameUpToGrouping a b) :
    calculateWitness N wasm a = calculateWitness N wasm b := by
  unfold calculateWitness doCalculateWitness
  simp only [setKeys_grouping N _ h]

end

variable {G1 G2 GT : Type} [AddCommGroup G1] [Module Fr G1] [AddCommGroup G2] [Module Fr G2] [AddCommGroup GT] [Module Fr GT]
  (S : Sys G1 G2 GT)

/-- **C88** (the receiver, `decrypt` and `decap`). -/
theorem C88_decrypt {σ : Type} (N : JsNums) (r1cs : Bytes) (wasm : Res (CircuitWasm σ)) (ct : Bytes) (a b : List (Str × JsVal)) (h : SameUpToGrouping a b) :
    jsDecryptApi N S r1cs wasm ct a = jsDecryptApi N S r1cs wasm ct b ∧ jsDecapApi N S r1cs wasm ct a = jsDecapApi N S r1cs wasm ct b := by
  unfold jsDecryptApi jsDecapApi
  rw [C88_calculator N wasm a b h]
  exact ⟨rfl, rfl⟩

/-! ## The sender -/

/-- **C88** (no value) — flat arrays give no value to a signal `a[i][j]…` (CLI; for JS, whatever the shape, `C68_js_no_value`). -/
theorem C88_cli_no_value (entries : List (Str × Json)) (hp : FlatEntries entries) (name : Str) (hn : Nested name) (x : Fr) : ¬ Gives entries name x := by
  rintro ⟨e, he, path, y, hat, hna, rfl, -⟩
  obtain ⟨key, i, j, path', hn⟩ := hn
  have hlen : path.length ≤ 1 := by
    have h2 := (hp e he).2
    generalize e.2 = v at hat h2
    cases hat with
    | here => simp
    | elem hi hat =>
      cases hat with
      | here => simp
      | elem h1 _ => exact absurd (h2 _ rfl _ (List.mem_of_getElem? hi)) (by simp [NotArr])
  have h1 := congrArg (List.count '[') hn
  rw [signalName_eq, signalName_eq, List.count_append, List.count_append, List.count_eq_zero.2 (hp e he).1] at h1
  match path, hlen with
  | [], _ =>
    simp only [List.map_nil, List.flatten_nil, List.count_nil, List.map_cons, List.flatten_cons, List.count_append, List.count_cons_self] at h1
    omega
  | [a], _ =>
    have hd : ∀ n, List.count '[' (natDec n) = 0 := fun n => List.count_eq_zero.2 (natDec_no_bracket n).1
    simp only [List.map_nil, List.flatten_nil, List.count_nil, List.map_cons, List.flatten_cons, List.count_append, List.count_cons, hd] at h1
    simp at h1
    omega

theorem cli_enforced_before {symtab : AMap Nat} {n : Nat} {entries : List (Str × Json)} (hp : FlatEntries entries) {j : Nat} (hj : 1 ≤ j)
    (hnest : ∀ name, Resolves symtab (some n) name j → Nested name) {vals : List Fr}
    (hag : ∀ i name x, i < j → Resolves symtab (some n) name i → Gives entries name x → vals[i]? = some x) : CliEnforced symtab n entries vals := by
  intro i _ hs name x hr hg
  by_cases hij : i < j
  · exact hag i name x hij hr hg
  · obtain ⟨name', x', hr', hg'⟩ := hs j hj (by omega)
    exact absurd hg' (C88_cli_no_value entries hp name' (hnest name' hr') x')

theorem js_enforced_before {symtab : AMap Nat} {n : Nat} {inputs : List (Str × JsVal)} (hp : PlainKeys inputs) {j : Nat} (hj : 1 ≤ j)
    (hnest : ∀ name, Resolves symtab none name j → Nested name) {vals : List Fr}
    (hag : ∀ i name v s z, i < j → Resolves symtab none name i → JsGives inputs name v → v.toStr = .ok s → jsBigInt s = some z →
      vals[i]? = some (((z % 2 ^ 256).toNat : Nat) : Fr)) : JsEnforced symtab n inputs vals := by
  intro i _ _ hs name v s z hr hg h1 h2
  by_cases hij : i < j
  · exact hag i name v s z hij hr hg h1 h2
  · obtain ⟨name', x', hr', hg'⟩ := hs j hj (by omega)
    exact absurd hg' (C68_js_no_value inputs hp name' (hnest name' hr') x')

/-- **C88** (the sender, CLI) — `zkenc encrypt` with flat arrays: let public wire `j` belong to a signal `a[i][k]…`. Every witness that satisfies the circuit and
has the given values on the wires before `j` decrypts the message, whatever its values on the wire `j` and all later ones. -/
theorem C88_cli_unenforced (fs fs' : FS) (circuit sym input message output : Path) (r : R1csFile) (symtab : AMap Nat)
    (entries : List (Str × Json)) (hfiles : CliFiles S fs circuit sym input r symtab entries) (m : Bytes) (hm : fs message = some m)
    (incl : Bool) (ρ : Rand Fr) (nonce : Bytes) (hn : nonce.length = 12) (hj : incl = true → ∀ j, fs input = some j → j.length < 2 ^ 32)
    (henc : (encryptCommand S circuit sym input message output incl ρ nonce).exec fs = (fs', .ok ()))
    (hwf : WellFormed r) (hs : CtFits r) (hpriv : r.nPubIn + 1 < r.nWires) (hna : NoAlias symtab (some r.nPubIn) entries)
    (hflat : FlatEntries entries) (j : Nat) (hj1 : 1 ≤ j) (hnest : ∀ name, Resolves symtab (some r.nPubIn) name j → Nested name)
    (fs₂ : FS) (circuit₂ witness ciphertext output₂ : Path) (data wdata : Bytes) (vals : List Fr)
    (hdata : fs₂ circuit₂ = some data) (hcirc : cliParseR1cs S.lim data = .ok r)
    (hct : fs₂ ciphertext = fs' output) (hwd : fs₂ witness = some wdata) (hwit : CliWitness wdata vals) (hv : Accepted r vals)
    (hag : ∀ i name x, i < j → Resolves symtab (some r.nPubIn) name i → Gives entries name x → vals[i]? = some x) :
    (decryptCommand S circuit₂ witness ciphertext output₂).exec fs₂ = (fs₂.set output₂ m, .ok ()) :=
  (C77_cli_to_cli_exactly S fs fs' circuit sym input message output r symtab entries hfiles m hm incl ρ nonce hn hj henc hwf hs hpriv hna fs₂ circuit₂ witness
    ciphertext output₂ data wdata vals hdata hcirc hct hwd hwit).1 ⟨hv, cli_enforced_before hflat hj1 hnest hag⟩

/-- **C88** (the sender, JS) — JS `encrypt`, whether the arrays are flat or nested. -/
theorem C88_js_unenforced (data : Bytes) (r : R1csFile) (hr : jsParseR1cs data = .ok r.toJs) (sym : Str) (inputs : List (Str × JsVal))
    (hna : JsNoAlias (jsParseSymFile sym) inputs) (hmax : JsSmall (jsParseSymFile sym) inputs) (m : Bytes) (incl : Bool) (ρ : Rand Fr)
    (nonce : Bytes) (hn : nonce.length = 12) (hj : incl = true → ∀ s, S.stringify inputs = .ok s → (utf8Enc s).length < 2 ^ 32)
    (combined key : Bytes) (henc : jsEncrypt S data sym inputs m incl ρ nonce = .ok (combined, key))
    (hwf : WellFormed r) (hs : CtFits r) (hpriv : r.nPubOut + r.nPubIn + 1 < r.nWires)
    (hplain : PlainKeys inputs) (j : Nat) (hj1 : 1 ≤ j) (hnest : ∀ name, Resolves (jsParseSymFile sym) none name j → Nested name)
    (wtns : Bytes) (vals : List Fr) (hwit : jsParseWtns wtns = .ok vals) (hlen : vals.length = r.nWires) (hv : Accepted r vals)
    (hag : ∀ i name v s z, i < j → Resolves (jsParseSymFile sym) none name i → JsGives inputs name v → v.toStr = .ok s → jsBigInt s = some z →
      vals[i]? = some (((z % 2 ^ 256).toNat : Nat) : Fr)) :
    jsDecrypt S data (.ok wtns) combined = .ok m :=
  (C77_js_to_js_exactly S data r hr sym inputs hna hmax m incl ρ nonce hn hj combined key henc hwf hs hpriv wtns vals hwit).1
    ⟨hlen, hv, js_enforced_before hplain hj1 hnest hag⟩

/-- **C88** (what works in JS) — keys that spell out the signal, such as `"a[0][1]"`, give these signals their values, so that they are enforced (C77). -/
theorem C88_js_spelled_out (l : List ((Str × List Nat) × Int)) (name : Str) (v : JsVal) :
    JsGives (l.map fun e => (signalName e.1.1 e.1.2, .num e.2)) name v ↔ ∃ e ∈ l, name = signalName e.1.1 e.1.2 ∧ v = .num e.2 := by
  constructor
  · rintro ⟨e, he, hat⟩
    obtain ⟨a, ha, rfl⟩ := List.mem_map.1 he
    cases hat with
    | scalar _ _ => exact ⟨a, ha, rfl, rfl⟩
  · rintro ⟨e, he, rfl, rfl⟩
    exact ⟨_, List.mem_map.2 ⟨e, he, rfl⟩, .scalar (by simp) (by simp)⟩

/-- A satisfying witness of a well-formed circuit is accepted. -/
theorem witness_accepted {r : R1csFile} (hwf : WellFormed r) {vals : List Fr} (h : Witness r vals) : Accepted r vals := by
  refine ⟨fun i => vals.getD i 0, ⟨?_, ?_⟩, ?_, h.sat⟩
  · simp only [List.getD_eq_getElem?_getD, h.one]; rfl
  · intro i hi
    rw [hwf.nAlloc] at hi
    simp only [List.getD_eq_getElem?_getD, List.getElem?_eq_none (show vals.length ≤ i by rw [h.len]; omega)]
    rfl
  · intro i h1 h2
    rw [hwf.nAlloc] at h2
    unfold fullWires
    simp only [List.getD_eq_getElem?_getD]
    rw [List.getElem?_eq_getElem (by rw [h.len]; omega)]
    rfl

/-! ## Concrete cases -/

/-- The documentation's matrix, flattened as advised: the same leaves. -/
example : CalcSpec.leaves (.arr (jsFlat [.arr [.num 1, .num 2], .arr [.num 3, .num 4]])) = [.num 1, .num 2, .num 3, .num 4] ∧
    jsFlat [.arr [.num 1, .num 2], .arr [.num 3, .num 4]] = [.num 1, .num 2, .num 3, .num 4] := ⟨rfl, rfl⟩

/-- For the circuit `x² = y`, where the public signal is declared as `y[1][1]`, JS `encrypt` with `{ y: [9] }` succeeds, and the witness of `2² = 4` decrypts. -/
example : ∃ b k wtns, jsEncrypt Ex.S Ex.sqData "1,1,0,main.y[0][0]".toList [(['y'], .arr [.num 9])] [1, 2, 3] false Ex.ρ Ex.nonce = .ok (b, k) ∧
    jsParseWtns wtns = .ok [1, 4, 2] ∧ jsDecrypt Ex.S Ex.sqData (.ok wtns) b = .ok [1, 2, 3] := by
  have hs : jsParseSymFile "1,1,0,main.y[0][0]".toList = [("main.y[0][0]".toList, 1)] := by rfl
  have hd : natDec 0 = ['0'] := by rw [natDec]; rfl
  have hp : PlainKeys [(['y'], .arr [.num 9])] := by
    intro e he
    rw [List.mem_singleton] at he
    subst he
    exact ⟨by decide, fun k hk => by cases hk⟩
  have hn : ∀ name i, Resolves (jsParseSymFile "1,1,0,main.y[0][0]".toList) none name i → Nested name ∧ i = 1 := by
    rintro name i ⟨hr, -⟩
    rw [hs] at hr
    simp only [AMap.get] at hr
    split at hr
    · rename_i h
      have h : "main.".toList ++ "y[0][0]".toList = "main.".toList ++ name := h
      refine ⟨⟨['y'], 0, 0, [], ?_⟩, by simpa using hr.symm⟩
      rw [← List.append_cancel_left h]
      simp only [signalName, hd]
      rfl
    · cases hr
  have hgv : ∀ name i v, Resolves (jsParseSymFile "1,1,0,main.y[0][0]".toList) none name i →
      ¬ JsGives [(['y'], .arr [.num 9])] name v := fun name i v hr => C68_js_no_value _ hp name (hn name i hr).1 v
  have hna : JsNoAlias (jsParseSymFile "1,1,0,main.y[0][0]".toList) [(['y'], .arr [.num 9])] :=
    fun _ _ i v _ hr _ hg _ => absurd hg (hgv _ i v hr)
  have hmax : JsSmall (jsParseSymFile "1,1,0,main.y[0][0]".toList) [(['y'], .arr [.num 9])] := .of_lt fun name v i hr hg => absurd hg (hgv name i v hr)
  obtain ⟨b, k, hb⟩ := (C48_encrypt_outcome Ex.S Ex.sqData Ex.sq Ex.sqData_js _ _ hna hmax [1, 2, 3] false Ex.ρ Ex.nonce rfl).2
    ⟨⟨fun name v i hr hg => absurd hg (hgv name i v hr), fun i h1 hsup => (by
        obtain ⟨name, v, hr, hg⟩ := hsup i h1 le_rfl
        exact absurd hg (hgv name i v hr))⟩, Ex.delta_ne, (by change 3 ≤ 2 ^ 36; norm_num), by simp⟩
  have hw : jsParseWtns (serializeWitnessSimple [1, 4, 2]) = .ok [1, 4, 2] := by rw [C30_roundtrip _ (by decide)]; simp
  refine ⟨b, k, _, hb, hw, ?_⟩
  have hwit : Witness Ex.sq [1, 4, 2] :=
    { len := by simp [Ex.sq]
      one := by simp
      sat := by
        intro k hk
        simp only [Ex.sq, List.mem_singleton] at hk
        subst hk
        simp only [lcSum, List.map_cons, List.map_nil, Ex.coeff_one]
        simp
        norm_num }
  refine C88_js_unenforced Ex.S Ex.sqData Ex.sq Ex.sqData_js _ _ hna hmax [1, 2, 3] false Ex.ρ Ex.nonce rfl (by simp) b k hb Ex.sq_wf Ex.sq_ct (by simp [Ex.sq]) hp 1
    le_rfl (fun name hr => (hn name 1 hr).1) _ _ hw hwit.len (witness_accepted Ex.sq_wf hwit) (fun i name v s z _ hr hg => absurd hg (hgv name i v hr))

end Zkenc.Props
