import Verif.Props.SignatureEndToEnd
import Verif.Props.EndToEndExample
/-!
# C84: a concrete case

The hypotheses of C83 and C84 are met: a circuit file, a symbol file and input objects for the keys of the repository's own test.
-/

namespace Zkenc.Props

open Zkenc Zkenc.Spec Zkenc.InputSpec Zkenc.SignatureSpec Zkenc.R1csFormat

namespace SigEx

/-! ## The symbol file -/

/-- The lines of signature.sym for the wires 1 to 7. -/
def sym : Str := "1,1,50,main.message\n2,2,50,main.publicKeys[0][0]\n3,3,50,main.publicKeys[0][1]\n4,4,50,main.publicKeys[1][0]\n5,5,50,main.publicKeys[1][1]\n6,6,50,main.publicKeys[2][0]\n7,7,50,main.publicKeys[2][1]\n".toList

/-- Its table. -/
def table : AMap Nat := [("main.message".toList, 1), ("main.publicKeys[0][0]".toList, 2), ("main.publicKeys[0][1]".toList, 3),
  ("main.publicKeys[1][0]".toList, 4), ("main.publicKeys[1][1]".toList, 5), ("main.publicKeys[2][0]".toList, 6), ("main.publicKeys[2][1]".toList, 7)]

set_option maxRecDepth 100000 in
theorem sym_js : jsParseSymFile sym = table := by rfl
set_option maxRecDepth 100000 in
theorem sym_cli : parseSymFile sym = .ok table := by rfl

theorem natDec_small : natDec 0 = ['0'] ∧ natDec 1 = ['1'] ∧ natDec 2 = ['2'] := by
  refine ⟨?_, ?_, ?_⟩ <;> (rw [natDec]; rfl)

theorem mem_of_get : ∀ {l : AMap Nat} {k : Str} {w : Nat}, AMap.get l k = some w → (k, w) ∈ l
  | (k', w') :: l, k, w, h => by
    rw [AMap.get] at h
    split at h
    · rename_i he
      cases h
      rw [he]
      exact List.mem_cons_self
    · exact List.mem_cons_of_mem _ (mem_of_get h)

/-- `publicKeys[i][j]` (proof helper). -/
def keyName (i j : Nat) : Str := signalName "publicKeys".toList [i, j]

theorem name00 : "main.".toList ++ keyName 0 0 = "main.publicKeys[0][0]".toList := by
  obtain ⟨h0, h1, h2⟩ := natDec_small
  simp only [keyName, signalName, h0, h1, h2]; rfl
theorem name01 : "main.".toList ++ keyName 0 1 = "main.publicKeys[0][1]".toList := by
  obtain ⟨h0, h1, h2⟩ := natDec_small
  simp only [keyName, signalName, h0, h1, h2]; rfl
theorem name10 : "main.".toList ++ keyName 1 0 = "main.publicKeys[1][0]".toList := by
  obtain ⟨h0, h1, h2⟩ := natDec_small
  simp only [keyName, signalName, h0, h1, h2]; rfl
theorem name11 : "main.".toList ++ keyName 1 1 = "main.publicKeys[1][1]".toList := by
  obtain ⟨h0, h1, h2⟩ := natDec_small
  simp only [keyName, signalName, h0, h1, h2]; rfl
theorem name20 : "main.".toList ++ keyName 2 0 = "main.publicKeys[2][0]".toList := by
  obtain ⟨h0, h1, h2⟩ := natDec_small
  simp only [keyName, signalName, h0, h1, h2]; rfl
theorem name21 : "main.".toList ++ keyName 2 1 = "main.publicKeys[2][1]".toList := by
  obtain ⟨h0, h1, h2⟩ := natDec_small
  simp only [keyName, signalName, h0, h1, h2]; rfl

theorem table_mem {k : Str} {w : Nat} (h : AMap.get table k = some w) : (k = "main.message".toList ∧ w = 1) ∨
    ∃ i j, i < 3 ∧ j < 2 ∧ k = "main.".toList ++ keyName i j ∧ w = 2 + 2 * i + j := by
  have := mem_of_get h
  unfold table at this
  rw [← name00, ← name01, ← name10, ← name11, ← name20, ← name21] at this
  generalize "main.message".toList = a at this ⊢
  simp only [List.mem_cons, Prod.mk.injEq, List.not_mem_nil, or_false] at this
  rcases this with h | ⟨rfl, rfl⟩ | ⟨rfl, rfl⟩ | ⟨rfl, rfl⟩ | ⟨rfl, rfl⟩ | ⟨rfl, rfl⟩ | ⟨rfl, rfl⟩
  · exact .inl h
  · exact .inr ⟨0, 0, by omega, by omega, rfl, rfl⟩
  · exact .inr ⟨0, 1, by omega, by omega, rfl, rfl⟩
  · exact .inr ⟨1, 0, by omega, by omega, rfl, rfl⟩
  · exact .inr ⟨1, 1, by omega, by omega, rfl, rfl⟩
  · exact .inr ⟨2, 0, by omega, by omega, rfl, rfl⟩
  · exact .inr ⟨2, 1, by omega, by omega, rfl, rfl⟩

theorem isSym : IsSignatureSym table where
  message := by decide +kernel
  keys := by
    intro i j hi hj
    change AMap.get table ("main.".toList ++ keyName i j) = _
    have hi' : i = 0 ∨ i = 1 ∨ i = 2 := by omega
    have hj' : j = 0 ∨ j = 1 := by omega
    rcases hi' with rfl | rfl | rfl <;> rcases hj' with rfl | rfl
    · rw [name00]; decide +kernel
    · rw [name01]; decide +kernel
    · rw [name10]; decide +kernel
    · rw [name11]; decide +kernel
    · rw [name20]; decide +kernel
    · rw [name21]; decide +kernel
  only := by
    intro name w h _ _
    rcases table_mem h with ⟨he, -⟩ | ⟨i, j, hi, hj, he, -⟩
    · exact .inl (List.append_cancel_left (as := "main.".toList) (bs := name) (cs := "message".toList) he)
    · exact .inr ⟨i, j, hi, hj, List.append_cancel_left he⟩

theorem table_range {k : Str} {w : Nat} (h : AMap.get table k = some w) : 1 ≤ w ∧ w ≤ 7 := by
  rcases table_mem h with ⟨-, rfl⟩ | ⟨i, j, hi, hj, -, rfl⟩ <;> omega

/-! ## The circuit file -/

/-- The length of constraint `n` (proof helper). -/
def cstrLen (n : Nat) : Nat := match signatureRules.find? (fun p => p.1 == n) with
  | some p => 12 + 36 * (p.2.a.length + p.2.b.length + p.2.c.length)
  | none => 12

theorem intLc_length (f : IntLc) : (lcBytes (IntLc.factors f)).length = 4 + 36 * f.length := by
  unfold lcBytes IntLc.factors
  rw [List.length_append, u32le_length, List.length_flatten, List.map_map, List.map_map]
  congr 1
  rw [List.map_congr_left (g := fun _ => 36) (fun t _ => by simp [Function.comp, coefBytes])]
  simp [Nat.mul_comm]

theorem cstr_length (n : Nat) : (List.length ∘ cstrBytes ∘ Ex.signatureConstraint) n = cstrLen n := by
  simp only [Function.comp]
  unfold Ex.signatureConstraint cstrLen
  cases signatureRules.find? (fun p => p.1 == n) with
  | some p =>
    simp only [cstrBytes, IntCstr.toFile, List.length_append, intLc_length]; omega
  | none => rfl

theorem constraints_small : (constraintsBytes Ex.signatureR1cs).length < 2 ^ 24 := by
  unfold constraintsBytes
  rw [Ex.constraints_eq, List.map_map, List.length_flatten, List.map_map, List.map_congr_left fun n _ => cstr_length n]
  decide +kernel

theorem header_length : (headerBytes Ex.signatureR1cs).length = 64 := by
  rw [Ex.signatureR1cs]; simp [headerBytes]

theorem labels_length : (labelsBytes Ex.signatureR1cs).length = 67592 := by
  have h : Ex.signatureR1cs.wire2label = List.range 8449 := by rw [Ex.signatureR1cs]
  unfold labelsBytes
  rw [h, List.length_flatten, List.map_map, List.map_congr_left (g := fun _ => 8) (fun t _ => by simp [Function.comp]), List.map_const', List.sum_replicate,
    List.length_range]
  rfl

theorem rules_small : signatureRules.all (fun p => decide (p.2.a.length < 1000) && decide (p.2.b.length < 1000) && decide (p.2.c.length < 1000) &&
    (p.2.a ++ p.2.b ++ p.2.c).all fun t => decide (t.1 < 8449)) = true := by
  decide +kernel

theorem lcOk {l : IntLc} (hl : l.length < 1000) (hw : ∀ t ∈ l, t.1 < 8449) : LcOk 32 (IntLc.factors l) := by
  refine ⟨by simp only [IntLc.factors, List.length_map]; omega, ?_⟩
  intro x hx
  obtain ⟨t, ht, rfl⟩ := List.mem_map.1 hx
  exact ⟨by have := hw t ht; simp only; omega, by simp [coefBytes]⟩

theorem sig_fits : R1csFormat.Fits Ex.signatureR1cs where
  fieldSize := by rw [Ex.signatureR1cs]; norm_num
  prime := by rw [Ex.signatureR1cs]; simp
  nWires := by rw [Ex.signatureR1cs]; norm_num
  nPubOut := by rw [Ex.signatureR1cs]; norm_num
  nPubIn := by rw [Ex.signatureR1cs]; norm_num
  nPrvIn := by rw [Ex.signatureR1cs]; norm_num
  nLabels := by rw [Ex.signatureR1cs]; norm_num
  nConstraints := by rw [Ex.signatureR1cs]; norm_num
  constraints := by rw [Ex.constraints_eq, List.length_map, List.length_range, Ex.signatureR1cs]
  lcs := by
    rw [Ex.constraints_eq, List.forall_mem_map]
    intro n _
    have hf : Ex.signatureR1cs.fieldSize = 32 := by rw [Ex.signatureR1cs]
    rw [hf]
    unfold Ex.signatureConstraint
    split
    · rename_i p hp
      have h1 := List.all_eq_true.1 rules_small p (List.mem_of_find?_eq_some hp)
      rw [Bool.and_eq_true, Bool.and_eq_true, Bool.and_eq_true, decide_eq_true_eq, decide_eq_true_eq, decide_eq_true_eq] at h1
      have hw : ∀ t ∈ p.2.a ++ p.2.b ++ p.2.c, t.1 < 8449 := fun t ht => by simpa using List.all_eq_true.1 h1.2 t ht
      exact ⟨lcOk h1.1.1.1 fun t ht => hw t (by simp [ht]), lcOk h1.1.1.2 fun t ht => hw t (by simp [ht]), lcOk h1.1.2 fun t ht => hw t (by simp [ht])⟩
    · simp [LcOk]
  labels := by rw [Ex.signatureR1cs]; simp
  label := by
    have h : Ex.signatureR1cs.wire2label = List.range 8449 := by rw [Ex.signatureR1cs]
    rw [h]
    intro l hl
    have := List.mem_range.1 hl
    omega

/-- The circuit file. -/
def data : Bytes := fileBytes [(2, constraintsBytes Ex.signatureR1cs), (1, headerBytes Ex.signatureR1cs), (3, labelsBytes Ex.signatureR1cs)]

theorem data_length : data.length < 2 ^ 25 := by
  have h := constraints_small
  unfold data
  generalize constraintsBytes Ex.signatureR1cs = c at h ⊢
  have h1 := header_length
  generalize headerBytes Ex.signatureR1cs = hd at h1 ⊢
  have h2 := labels_length
  generalize labelsBytes Ex.signatureR1cs = lb at h2 ⊢
  simp [fileBytes, secBytes, h1, h2]
  omega

theorem data_cli : cliParseR1cs (2 ^ 62) data = .ok Ex.signatureR1cs := by
  have hs : SecsFit [(2, constraintsBytes Ex.signatureR1cs), (1, headerBytes Ex.signatureR1cs), (3, labelsBytes Ex.signatureR1cs)] := by
    constructor
    · simp
    · intro s hs
      have := constraints_small
      simp only [List.mem_cons, List.not_mem_nil, or_false] at hs
      rcases hs with rfl | rfl | rfl <;> simp [header_length, labels_length]
      omega
  have hd : Describes [(2, constraintsBytes Ex.signatureR1cs), (1, headerBytes Ex.signatureR1cs), (3, labelsBytes Ex.signatureR1cs)] Ex.signatureR1cs :=
    { header := ⟨[], by rw [List.append_nil]; rfl⟩
      constraints := ⟨[], by rw [List.append_nil]; rfl⟩
      labels := Or.inl ⟨[], by rw [List.append_nil]; rfl⟩ }
  have h1 := C21_cli_inverts_format (lim := 2 ^ 62) [] sig_fits hs hd (by
    have := data_length
    unfold data at this
    omega)
  rw [List.append_nil] at h1
  exact h1

theorem data_js : jsParseR1cs data = .ok Ex.signatureR1cs.toJs := C23_js_agrees (by have := data_length; omega) data_cli

/-! ## The inputs -/

/-- The JSON input file of the repository's test, public part: `{"message": "12345", "publicKeys": [[…, …], …]}`. -/
def entries (keys : Fin 3 → Nat × Nat) : List (Str × Json) := [("message".toList, .str (intDec 12345)),
  ("publicKeys".toList, .arr ((List.ofFn keys).map fun k => .arr [.str (intDec k.1), .str (intDec k.2)]))]

/-- The same as a JS object. -/
def inputs (keys : Fin 3 → Nat × Nat) : List (Str × JsVal) := [("message".toList, .str (intDec 12345)),
  ("publicKeys".toList, .arr ((List.ofFn keys).map fun k => .arr [.str (intDec k.1), .str (intDec k.2)]))]

theorem denotes_dec (n : Nat) (x : Fr) : Denotes (.str (intDec n)) x ↔ x = (n : Fr) := by
  have h : Denotes (.str (intDec n)) (n : Fr) := by simpa using Denotes.str (intDec n) (n : Int) (intDec_decText n)
  constructor
  · intro h'
    have h1 := (cliScalar_iff _ _).2 h
    rw [(cliScalar_iff _ _).2 h'] at h1
    simpa using h1
  · rintro rfl
    exact h

theorem row (keys : Fin 3 → Nat × Nat) (i : Fin 3) :
    ((List.ofFn keys).map fun k => Json.arr [.str (intDec k.1), .str (intDec k.2)])[(i : Nat)]? = some (.arr [.str (intDec (keys i).1), .str (intDec (keys i).2)]) := by
  fin_cases i <;> rfl

theorem givesKeys (keys : Fin 3 → Nat × Nat) : GivesKeys (entries keys) (12345 : Nat) (Ex.frKeys keys) where
  message := ⟨_, List.mem_cons_self, [], _, .here _, trivial, rfl, (denotes_dec 12345 _).2 rfl⟩
  x := fun i => ⟨_, List.mem_cons_of_mem _ List.mem_cons_self, [i, 0], _, .elem (row keys i) (.elem rfl (.here _)), trivial, rfl, (denotes_dec _ _).2 rfl⟩
  y := fun i => ⟨_, List.mem_cons_of_mem _ List.mem_cons_self, [i, 1], _, .elem (row keys i) (.elem rfl (.here _)), trivial, rfl, (denotes_dec _ _).2 rfl⟩

/-- Everything in the object (proof helper). -/
theorem entries_at {keys : Fin 3 → Nat × Nat} {e : Str × Json} (he : e ∈ entries keys) {path : List Nat} {y : Json} (hat : AtPath e.2 path y) (hna : NotArr y) :
    (e.1 = "message".toList ∧ path = [] ∧ y = .str (intDec 12345)) ∨
    ∃ i : Fin 3, e.1 = "publicKeys".toList ∧ ((path = [(i : Nat), 0] ∧ y = .str (intDec (keys i).1)) ∨ (path = [(i : Nat), 1] ∧ y = .str (intDec (keys i).2))) := by
  rw [entries, List.mem_cons, List.mem_singleton] at he
  rcases he with rfl | rfl
  · cases hat with
    | here => exact .inl ⟨rfl, rfl, rfl⟩
  · right
    cases hat with
    | here => exact absurd hna (by simp [NotArr])
    | elem hi hat =>
      rename_i i x path
      have hlt : i < 3 := by
        have := (List.getElem?_eq_some_iff.1 hi).1
        simpa using this
      rw [row keys ⟨i, hlt⟩] at hi
      cases hi
      refine ⟨⟨i, hlt⟩, rfl, ?_⟩
      cases hat with
      | here => exact absurd hna (by simp [NotArr])
      | elem hj hat =>
        rename_i j x path
        match j, hj with
        | 0, hj =>
          cases hj
          cases hat with
          | here => exact .inl ⟨rfl, rfl⟩
        | 1, hj =>
          cases hj
          cases hat with
          | here => exact .inr ⟨rfl, rfl⟩

theorem all_denote (keys : Fin 3 → Nat × Nat) : AllDenote (entries keys) := by
  intro e he path y hat hna
  rcases entries_at he hat hna with ⟨-, -, rfl⟩ | ⟨i, -, ⟨-, rfl⟩ | ⟨-, rfl⟩⟩
  · exact ⟨_, (denotes_dec 12345 _).2 rfl⟩
  · exact ⟨_, (denotes_dec _ _).2 rfl⟩
  · exact ⟨_, (denotes_dec _ _).2 rfl⟩

theorem noAlias (keys : Fin 3 → Nat × Nat) : NoAlias table (some 7) (entries keys) := by
  -- the value is a function of the wire
  have key : ∀ n i x, Resolves table (some 7) n i → Gives (entries keys) n x →
      some x = [0, (12345 : Fr), (keys 0).1, (keys 0).2, (keys 1).1, (keys 1).2, (keys 2).1, (keys 2).2][i]? := by
    rintro n i x ⟨hr, -⟩ ⟨e, he, path, y, hat, hna, rfl, hy⟩
    rcases entries_at he hat hna with ⟨h1, rfl, rfl⟩ | ⟨k, h1, ⟨rfl, rfl⟩ | ⟨rfl, rfl⟩⟩
    · rw [h1, signalName, isSym.message] at hr
      cases hr
      rw [(denotes_dec 12345 _).1 hy]
      rfl
    · rw [h1, isSym.keys _ _ k.2 (by omega)] at hr
      cases hr
      rw [(denotes_dec _ _).1 hy]
      fin_cases k <;> rfl
    · rw [h1, isSym.keys _ _ k.2 (by omega)] at hr
      cases hr
      rw [(denotes_dec _ _).1 hy]
      fin_cases k <;> rfl
  intro n n' i x x' r1 r2 g1 g2
  have := (key n i x r1 g1).trans (key n' i x' r2 g2).symm
  exact Option.some.inj this

theorem plain (keys : Fin 3 → Nat × Nat) : PlainKeys (inputs keys) := by
  intro e he
  rw [inputs, List.mem_cons, List.mem_singleton] at he
  rcases he with rfl | rfl
  · exact ⟨(by decide +kernel : '[' ∉ "message".toList), fun k hk => by cases hk⟩
  · exact ⟨(by decide +kernel : '[' ∉ "publicKeys".toList), fun k hk => by cases hk⟩

theorem gives_js {keys : Fin 3 → Nat × Nat} {name : Str} {i : Nat} {v : JsVal} (hr : Resolves table none name i) (hg : JsGives (inputs keys) name v) :
    i = 1 ∧ v = .str (intDec 12345) := by
  rcases table_mem hr.1 with ⟨hn, rfl⟩ | ⟨a, b, -, -, he, -⟩
  · refine ⟨rfl, ?_⟩
    have hn : name = "message".toList := List.append_cancel_left (as := "main.".toList) (bs := name) (cs := "message".toList) hn
    subst hn
    obtain ⟨e, he, hat⟩ := hg
    rw [inputs, List.mem_cons, List.mem_singleton] at he
    rcases he with rfl | rfl
    · generalize hx : "message".toList = a at hat
      cases hat with
      | scalar _ _ => rfl
    · exfalso
      generalize hx : "message".toList = a at hat
      cases hat with
      | elem _ =>
        have : List.head? "message".toList = List.head? ("publicKeys".toList ++ _) := congrArg List.head? hx
        rw [List.head?_append, (by decide +kernel : List.head? "message".toList = some 'm'), (by decide +kernel : List.head? "publicKeys".toList = some 'p')] at this
        simp at this
      | scalar h _ => exact h _ rfl
  · exact absurd hg (C68_js_no_value _ (plain keys) _ ⟨_, a, b, [], List.append_cancel_left he⟩ v)

theorem js_facts (keys : Fin 3 → Nat × Nat) : JsNoAlias table (inputs keys) ∧ JsSmall table (inputs keys) ∧ JsUsable table (inputs keys) ∧
    JsGives (inputs keys) "message".toList (.str (intDec 12345)) := by
  obtain ⟨-, -, t3, t4⟩ := C39_js_integers 12345
  refine ⟨?_, ?_, ⟨?_, ?_⟩, ?_⟩
  · intro n n' i v v' r1 r2 g1 g2
    rw [(gives_js r1 g1).2, (gives_js r2 g2).2]
  · refine .of_lt fun n v i r g => ?_
    rw [(gives_js r g).1]; norm_num
  · intro n v i r g
    rw [(gives_js r g).2]
    exact ⟨by simp, by simp⟩
  · intro i _ _ n v s r g hs
    rw [(gives_js r g).2, t3] at hs
    cases hs
    exact ⟨_, t4⟩
  · exact ⟨_, List.mem_cons_self, .scalar (by simp) (by simp)⟩

/-! ## The cases -/

/-- Every list of values is in some witness file. -/
theorem js_wtns (vals : List Fr) (hl : vals.length < 100000) : ∃ b, jsParseWtns b = .ok vals := by
  refine ⟨serializeWitnessSimple (vals.map fun x => (x.val : Int)), ?_⟩
  rw [C30_roundtrip _ (by rw [List.length_map]; omega), List.map_map]
  have : ((fun v : Int => (((v % 2 ^ 256).toNat : Nat) : Fr)) ∘ fun x : Fr => (x.val : Int)) = id := by
    funext x
    have h1 : x.val < frModulus := ZMod.val_lt x
    have h2 : frModulus < 2 ^ 256 := by decide
    simp only [Function.comp, id]
    rw [Int.emod_eq_of_lt (by omega) (by exact_mod_cast (lt_trans h1 h2)), Int.toNat_natCast, ZMod.natCast_val, ZMod.cast_id]
  rw [this, List.map_id]

/-- Three times the first key. -/
def otherKeys : Fin 3 → Nat × Nat := fun _ => Ex.repoKeys 0

theorem other_signers : TwoSigners (Ex.frKeys otherKeys) 0 1 (Ex.frKeys Ex.repoKeys 0) (Ex.frKeys Ex.repoKeys 0) := by
  obtain ⟨i, j, -, h1, -, -, -, h2, -⟩ := Ex.repo_signers
  have hi : i = 0 := by
    have : ((0 : Nat) : Fr) = ((i : Nat) : Fr) := by simpa using h1
    exact (Fin.ext (frCast_inj (by omega) (by omega) this)).symm
  subst hi
  exact ⟨0, 1, by decide, by simp, by simp, rfl, rfl, h2, h2⟩

/-- JS encrypts for the keys of the repository's own test; a witness in which the holder of the first key alone signs twice, under a list of keys that has only this
key, decrypts. -/
example : ∃ b k wtns vals, jsEncrypt Ex.S data sym (inputs Ex.repoKeys) [1, 2, 3] false Ex.ρ Ex.nonce = .ok (b, k) ∧ jsParseWtns wtns = .ok vals ∧
    KeysWitness Ex.signatureR1cs (12345 : Nat) (Ex.frKeys otherKeys) vals ∧ jsDecrypt Ex.S data (.ok wtns) b = .ok [1, 2, 3] := by
  obtain ⟨h1, h2, h3, h4⟩ := js_facts Ex.repoKeys
  obtain ⟨-, -, t3, t4⟩ := C39_js_integers 12345
  obtain ⟨b, k, hb⟩ := (C48_encrypt_outcome Ex.S data _ data_js sym (inputs Ex.repoKeys) (by rw [sym_js]; exact h1) (by rw [sym_js]; exact h2) [1, 2, 3] false
    Ex.ρ Ex.nonce rfl).2 ⟨by rw [sym_js]; exact h3, Ex.delta_ne, by change 3 ≤ 2 ^ 36; norm_num, by simp⟩
  obtain ⟨vals, g1, g2, g3, g4⟩ := Ex.signature_accepted other_signers (12345 : Nat)
  obtain ⟨wtns, hw⟩ := js_wtns vals (by omega)
  refine ⟨b, k, wtns, vals, hb, hw, ⟨⟨g1, g3⟩, g4⟩, ?_⟩
  refine (C84_js_to_js Ex.S data _ Ex.isSignature data_js sym (by rw [sym_js]; exact isSym) (inputs Ex.repoKeys) (by rw [sym_js]; exact h1)
    (by rw [sym_js]; exact h2) (plain _) _ _ _ h4 t3 t4 [1, 2, 3] false Ex.ρ Ex.nonce rfl (by simp) b k hb wtns vals hw).1 ⟨g2, g1, ?_⟩
  rw [g3]
  rfl

theorem cli_wtns (vals : List Fr) (h0 : vals ≠ []) (hl : vals.length < 100000) : ∃ b, CliWitness b vals := by
  have hlen : ((vals.map frEnc).flatten).length = 32 * vals.length := by
    rw [List.length_flatten, List.map_map, List.map_congr_left (g := fun _ => 32) (fun t _ => by simp [Function.comp, frEnc_length]), List.map_const', List.sum_replicate,
      smul_eq_mul, Nat.mul_comm]
  have := C26_roundtrip (xs := vals) (secs := [.header, .data]) [] (leBytes_length 32 frModulus) h0 (by omega)
    ⟨by simp, by simp, by rw [hlen]; omega⟩ (by simp) (by simp)
  rw [List.append_nil] at this
  obtain ⟨w, h1, h2⟩ := Res.bind_eq_ok.1 this
  exact ⟨_, w, h1, h2⟩

/-- The files for the CLI: circuit, symbols, inputs, message, and a witness file. -/
def fs (w : Bytes) : FS := fun p =>
  if p = ['c'] then some data else
  if p = ['s'] then some (utf8Enc sym) else
  if p = ['i'] then some [] else
  if p = ['m'] then some [1, 2, 3] else
  if p = ['w'] then some w else none

/-- Library parameters; the JSON parser answers with the input object. -/
def S : Sys Fr Fr Fr := toySys (.obj (entries Ex.repoKeys)) .null

/-- The CLI encrypts for the keys of the repository's own test: a witness for these keys decrypts, a witness for the list that has only the first key does not. -/
example : ∃ w b w' vals vals' e, KeysWitness Ex.signatureR1cs (12345 : Nat) (Ex.frKeys Ex.repoKeys) vals ∧ CliWitness w vals ∧
    KeysWitness Ex.signatureR1cs (12345 : Nat) (Ex.frKeys otherKeys) vals' ∧ CliWitness w' vals' ∧
    (encryptCommand S ['c'] ['s'] ['i'] ['m'] ['o'] false Ex.ρ Ex.nonce).exec (fs w) = ((fs w).set ['o'] b, .ok ()) ∧
    (decryptCommand S ['c'] ['w'] ['o'] ['d']).exec ((fs w).set ['o'] b) = (((fs w).set ['o'] b).set ['d'] [1, 2, 3], .ok ()) ∧
    (decryptCommand S ['c'] ['w'] ['o'] ['d']).exec ((fs w').set ['o'] b) = ((fs w').set ['o'] b, .error e) := by
  obtain ⟨vals, g1, g2, g3, g4⟩ := Ex.signature_accepted Ex.repo_signers (12345 : Nat)
  obtain ⟨vals', g1', g2', g3', g4'⟩ := Ex.signature_accepted other_signers (12345 : Nat)
  obtain ⟨w, hc⟩ := cli_wtns vals (by rintro rfl; simp at g2) (by omega)
  obtain ⟨w', hc'⟩ := cli_wtns vals' (by rintro rfl; simp at g2') (by omega)
  have hfiles : CliFiles S (fs w) ['c'] ['s'] ['i'] Ex.signatureR1cs table (entries Ex.repoKeys) :=
    ⟨⟨data, rfl, data_cli⟩, ⟨utf8Enc sym, String.ofList sym, rfl, utf8Dec_enc _, by rw [String.toList_ofList]; exact sym_cli⟩,
      ⟨[], "", rfl, by decide +kernel, rfl⟩⟩
  obtain ⟨b, hb⟩ := (C47_encrypt_outcome S (fs w) ['c'] ['s'] ['i'] ['m'] ['o'] _ table _ hfiles [1, 2, 3] rfl false Ex.ρ Ex.nonce rfl).1
    ⟨all_denote _, Ex.delta_ne, by change 3 ≤ 2 ^ 36; norm_num⟩
  have hk : ¬ KeysWitness Ex.signatureR1cs (12345 : Nat) (Ex.frKeys Ex.repoKeys) vals' := by
    rintro ⟨-, h⟩
    have h1 := (h 1).1
    rw [(g4' 1).1] at h1
    have h2 := (ZMod.natCast_eq_natCast_iff' _ _ frModulus).1 (Option.some.inj h1)
    revert h2
    decide +kernel
  obtain ⟨e, he⟩ := (C84_cli_to_cli S (fs w) _ ['c'] ['s'] ['i'] ['m'] ['o'] _ Ex.isSignature table isSym _ hfiles _ _ (givesKeys _) (noAlias _) [1, 2, 3] rfl false Ex.ρ
      Ex.nonce rfl (by simp) hb ((fs w').set ['o'] b) ['c'] ['w'] ['o'] ['d'] data w' vals' rfl data_cli rfl rfl hc').2 hk
  exact ⟨w, b, w', vals, vals', e, ⟨⟨g1, g3⟩, g4⟩, hc, ⟨⟨g1', g3'⟩, g4'⟩, hc', hb,
    (C84_cli_to_cli S (fs w) _ ['c'] ['s'] ['i'] ['m'] ['o'] _ Ex.isSignature table isSym _ hfiles _ _ (givesKeys _) (noAlias _) [1, 2, 3] rfl false Ex.ρ
      Ex.nonce rfl (by simp) hb ((fs w).set ['o'] b) ['c'] ['w'] ['o'] ['d'] data w vals rfl data_cli rfl rfl hc).1 ⟨⟨g1, g3⟩, g4⟩, he⟩

end SigEx

end Zkenc.Props
