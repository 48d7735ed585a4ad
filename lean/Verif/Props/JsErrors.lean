import Verif.Spec.JsErrors
import Verif.Props.Container
import Verif.Props.Inputs
import Verif.Props.WitnessCalc
/-!
# Property theorems C97: the errors of the JS library and the documented error handling
-/

namespace Zkenc.Props

open Zkenc Spec CalcSpec ContainerSpec ErrorSpec

/-! ## Words inside texts -/

theorem prefix_cut {c : Char} {p : Str} (hc : c ∉ p) (a b : Str) (h : p <+: a ++ c :: b) : p <+: a := by
  induction a generalizing p with
  | nil =>
    cases p with
    | nil => exact List.nil_prefix
    | cons x p =>
      rw [List.nil_append, List.cons_prefix_cons] at h
      exact absurd (by simp [h.1]) hc
  | cons y a ih =>
    cases p with
    | nil => exact List.nil_prefix
    | cons x p =>
      rw [List.cons_append, List.cons_prefix_cons] at h
      rw [List.cons_prefix_cons]
      exact ⟨h.1, ih (fun hx => hc (by simp [hx])) h.2⟩

/-- A word without the letter `c` lies on one side of it. -/
theorem infix_cut {c : Char} {p : Str} (hc : c ∉ p) (a b : Str) (h : p <:+: a ++ c :: b) : p <:+: a ∨ p <:+: b := by
  induction a with
  | nil =>
    rw [List.nil_append, List.infix_cons_iff] at h
    rcases h with h | h
    · exact .inl (prefix_cut hc [] b h).isInfix
    · exact .inr h
  | cons y a ih =>
    rw [List.cons_append, List.infix_cons_iff] at h
    rcases h with h | h
    · exact .inl (prefix_cut hc (y :: a) b h).isInfix
    · rcases ih h with h | h
      · exact .inl (List.infix_cons h)
      · exact .inr h

/-- A word does not begin where its first letter does not occur. -/
theorem infix_skip {x : Char} {p : Str} (a b : Str) (ha : x ∉ a) (h : (x :: p) <:+: a ++ b) : (x :: p) <:+: b := by
  induction a with
  | nil => exact h
  | cons y a ih =>
    rw [List.cons_append, List.infix_cons_iff] at h
    rcases h with h | h
    · rw [List.cons_prefix_cons] at h
      exact absurd (by simp [h.1]) ha
    · exact ih (fun hx => ha (by simp [hx])) h

/-- A word does not end where its last letter does not occur. -/
theorem infix_skip_end {x : Char} {p : Str} (a b : Str) (hb : x ∉ b) (h : (p ++ [x]) <:+: a ++ b) : (p ++ [x]) <:+: a := by
  have h' := List.reverse_infix.2 h
  simp only [List.reverse_append, List.reverse_cons, List.reverse_nil, List.nil_append, List.singleton_append] at h'
  have := infix_skip b.reverse a.reverse (by simpa using hb) h'
  rw [← List.reverse_infix]
  simpa using this

theorem word1 : "Invalid ciphertext".toList = 'I' :: "nvalid ciphertext".toList := by decide +kernel
theorem word1' : "Invalid ciphertext".toList = "Invalid ciphertex".toList ++ ['t'] := by decide +kernel
theorem word2 : "constraint".toList = 'c' :: "onstraint".toList := by decide +kernel

/-- Text without the letters I and c in front. -/
theorem plain_front {a b : Str} (h1 : 'I' ∉ a) (h2 : 'c' ∉ a) (hb : Plain b) : Plain (a ++ b) :=
  ⟨fun h => hb.1 (by rw [word1] at h ⊢; exact infix_skip a b h1 h), fun h => hb.2 (by rw [word2] at h ⊢; exact infix_skip a b h2 h)⟩

theorem plain_nil : Plain [] := ⟨by decide +kernel, by decide +kernel⟩

theorem plain_of_letters {a : Str} (h1 : 'I' ∉ a) (h2 : 'c' ∉ a) : Plain a := by
  have := plain_front h1 h2 plain_nil
  rwa [List.append_nil] at this

/-- A separator that occurs in neither word. -/
theorem plain_cut {c : Char} (h1 : c ∉ "Invalid ciphertext".toList) (h2 : c ∉ "constraint".toList) {a b : Str} (ha : Plain a) (hb : Plain b) :
    Plain (a ++ c :: b) :=
  ⟨fun h => (infix_cut h1 a b h).elim ha.1 hb.1, fun h => (infix_cut h2 a b h).elim ha.2 hb.2⟩

theorem natDec_letters (n : Nat) : 'I' ∉ natDec n ∧ 'c' ∉ natDec n := by
  have h := (natDec_spec n).1
  rw [List.all_eq_true] at h
  exact ⟨fun hc => absurd (h _ hc) (by decide), fun hc => absurd (h _ hc) (by decide)⟩

theorem intDec_letters (z : Int) : 'I' ∉ intDec z ∧ 'c' ∉ intDec z := by
  obtain ⟨h1, h2⟩ := natDec_letters z.natAbs
  unfold intDec
  split
  · exact ⟨by rw [List.mem_cons, not_or]; exact ⟨by decide, h1⟩, by rw [List.mem_cons, not_or]; exact ⟨by decide, h2⟩⟩
  · exact ⟨h1, h2⟩

theorem plain_notFound {k : Str} (hk : Plain k) : Plain ("Signal ".toList ++ k ++ " not found\n".toList) := by
  have hA : Plain ("Signal ".toList ++ k) := plain_front (by decide +kernel) (by decide +kernel) hk
  have e1 : " not found\n".toList = " n".toList ++ 'o' :: "t found\n".toList := by decide +kernel
  have e2 : " not found\n".toList = ' ' :: "not found\n".toList := by decide +kernel
  constructor
  · intro h
    rw [e1, ← List.append_assoc] at h
    rcases infix_cut (by decide +kernel) _ _ h with h | h
    · rw [word1'] at h
      have := infix_skip_end _ _ (by decide +kernel) h
      rw [← word1'] at this
      exact hA.1 this
    · exact absurd h (by decide +kernel)
  · intro h
    rw [e2] at h
    rcases infix_cut (by decide +kernel) _ _ h with h | h
    · exact hA.2 h
    · exact absurd h (by decide +kernel)

theorem plain_line {a k : Str} (h1 : 'I' ∉ a) (h2 : 'c' ∉ a) (hk : Plain k) : Plain (a ++ k ++ "\n".toList) := by
  have e : "\n".toList = '\n' :: [] := by decide +kernel
  rw [e]
  exact plain_cut (by decide +kernel) (by decide +kernel) (plain_front h1 h2 hk) plain_nil

theorem plain_setting {k m name : Str} (i : Nat) (hk : Plain k) (hm : Plain m) (h1 : 'I' ∉ name) (h2 : 'c' ∉ name) :
    Plain ("Error setting signal ".toList ++ k ++ '[' :: (natDec i ++ ']' :: ':' :: (name ++ ':' :: ' ' :: m))) := by
  refine plain_cut (by decide +kernel) (by decide +kernel) (plain_front (by decide +kernel) (by decide +kernel) hk) ?_
  refine plain_cut (by decide +kernel) (by decide +kernel) (plain_of_letters (natDec_letters i).1 (natDec_letters i).2) ?_
  refine plain_cut (a := []) (by decide +kernel) (by decide +kernel) plain_nil ?_
  refine plain_cut (by decide +kernel) (by decide +kernel) (plain_of_letters h1 h2) ?_
  exact plain_front (a := [' ']) (by decide) (by decide) hm

/-! ## The calculator -/

/-- What is thrown is an error object with a plain message, or nothing is. -/
def PlainError : Thrown → Prop
  | .error m => Plain m
  | .text _ => False
  | .never => True

section calculator
variable {σ : Type} (M : JsTexts) (N : JsNums) (x : CalcInst σ)

theorem setValuesT_ok (k : Str) (a b : Nat) (zs : List Int) (i : Nat) (s : σ) (n : Nat) (r : σ × Nat) :
    setValuesT M x k a b zs i s n = .ok r ↔ setValues x a b zs i s n = .ok r := by
  induction zs generalizing i s n with
  | nil => rw [setValuesT, setValues]; simp
  | cons z zs ih =>
    rw [setValuesT, setValues]
    split
    · simp [Res.fail]
    · cases x.setInput s (sharedMemory x.n32 (toArray32 (normalizeBig z x.prime).toNat x.n32)) a b i with
      | error e => simp
      | ok s' => simp only [Res.ok_bind]; exact ih _ _ _

theorem setKeysT_ok (l : List (Str × JsVal)) (s : σ) (n : Nat) (r : σ × Nat) : setKeysT M N x l s n = .ok r ↔ setKeys N x l s n = .ok r := by
  induction l generalizing s n with
  | nil => rw [setKeysT, setKeys]; simp
  | cons e l ih =>
    obtain ⟨k, v⟩ := e
    rw [setKeysT, setKeys]
    cases hashHalves k with
    | error e => simp
    | ok h =>
      simp only [Res.ok_bind]
      cases flatArray N v with
      | error e => simp
      | ok fArr =>
        simp only [Res.ok_bind]
        split
        · simp [Res.fail]
        split
        · simp [Res.fail]
        split
        · simp [Res.fail]
        · have hv := setValuesT_ok M x k h.1 h.2 fArr 0 s n
          cases hT : setValuesT M x k h.1 h.2 fArr 0 s n with
          | error e =>
            cases hR : setValues x h.1 h.2 fArr 0 s n with
            | error e => simp
            | ok r' => rw [(hv r').2 hR] at hT; cases hT
          | ok r' =>
            rw [(hv r').1 hT]
            simp only [Res.ok_bind]
            exact ih _ _

theorem doCalculateWitnessT_ok (l : List (Str × JsVal)) (s t : σ) :
    doCalculateWitnessT M N x l s = .ok t ↔ doCalculateWitness N x false l s = .ok t := by
  unfold doCalculateWitnessT doCalculateWitness
  cases x.init false s with
  | error e => simp
  | ok s' =>
    simp only [Res.ok_bind]
    have hv := setKeysT_ok M N x l s' 0
    cases hT : setKeysT M N x l s' 0 with
    | error e =>
      cases hR : setKeys N x l s' 0 with
      | error e => simp
      | ok r' => rw [(hv r').2 hR] at hT; cases hT
    | ok r' =>
      rw [(hv r').1 hT]
      simp only [Res.ok_bind]
      split <;> simp [Res.fail]

theorem calculateWitnessT_ok (wasm : Res (CircuitWasm σ)) (l : List (Str × JsVal)) (b : Bytes) :
    calculateWitnessT M N wasm l = .ok b ↔ calculateWitness N wasm l = .ok b := by
  unfold calculateWitnessT calculateWitness
  cases wasm with
  | error e => simp
  | ok x =>
    simp only [Res.ok_bind]
    have hv := doCalculateWitnessT_ok M N x.toCalcInst l x.start
    cases hT : doCalculateWitnessT M N x.toCalcInst l x.start with
    | error e =>
      cases hR : doCalculateWitness N x.toCalcInst false l x.start with
      | error e => simp
      | ok r' => rw [(hv r').2 hR] at hT; cases hT
    | ok r' =>
      rw [(hv r').1 hT]
      simp

theorem setValuesT_plain (hM : ∀ m, Plain (M.engine m)) (hx : ∀ s l a b i m, x.setInput s l a b i = .error (.err m) → Plain m.toList) (k : Str) (hk : Plain k)
    (a b : Nat) (zs : List Int) (i : Nat) (s : σ) (n : Nat) (e : Thrown) (h : setValuesT M x k a b zs i s n = .error e) : PlainError e := by
  induction zs generalizing i s n with
  | nil => rw [setValuesT] at h; cases h
  | cons z zs ih =>
    rw [setValuesT] at h
    split at h
    · cases h; exact hM _
    · split at h
      · rename_i f hf
        cases h
        cases f with
        | err m => exact plain_setting i hk (hx _ _ _ _ _ _ hf) (by decide +kernel) (by decide +kernel)
        | panic => exact plain_setting i hk (hM _) (by decide +kernel) (by decide +kernel)
        | hang => trivial
      · exact ih _ _ _ h

theorem engine_plain (hM : ∀ m, Plain (M.engine m)) (f : Fault) : PlainError (engineThrows M f) := by
  cases f
  · exact hM _
  · exact hM _
  · trivial

theorem setKeysT_plain (hM : ∀ m, Plain (M.engine m)) (hx : ∀ s l a b i m, x.setInput s l a b i = .error (.err m) → Plain m.toList) (l : List (Str × JsVal))
    (hk : ∀ e ∈ l, Plain e.1) (s : σ) (n : Nat) (e : Thrown) (h : setKeysT M N x l s n = .error e) : PlainError e := by
  induction l generalizing s n with
  | nil => rw [setKeysT] at h; cases h
  | cons p l ih =>
    obtain ⟨k, v⟩ := p
    have hk0 : Plain k := hk (k, v) (by simp)
    rw [setKeysT] at h
    split at h
    · cases h; exact engine_plain M hM _
    split at h
    · cases h; exact engine_plain M hM _
    split at h
    · cases h; exact plain_notFound hk0
    split at h
    · cases h; exact plain_line (by decide +kernel) (by decide +kernel) hk0
    split at h
    · cases h; exact plain_line (by decide +kernel) (by decide +kernel) hk0
    split at h
    · rename_i hv
      cases h
      exact setValuesT_plain M x hM hx k hk0 _ _ _ _ _ _ _ hv
    · exact ih (fun e he => hk e (by simp [he])) _ _ h

theorem calculateWitnessT_plain (wasm : Res (CircuitWasm σ)) (l : List (Str × JsVal)) (hp : PlainTexts M wasm l) (e : Thrown)
    (h : calculateWitnessT M N wasm l = .error e) : PlainError e := by
  unfold calculateWitnessT at h
  split at h
  · rename_i f
    cases h
    cases f with
    | err m => exact hp.load m rfl
    | panic => exact hp.engine _
    | hang => trivial
  · rename_i x
    split at h
    · rename_i e' he
      cases h
      unfold doCalculateWitnessT at he
      split at he
      · rename_i f hf
        cases he
        cases f with
        | err m => exact hp.init x _ m rfl hf
        | panic => exact hp.engine _
        | hang => trivial
      split at he
      · rename_i hs
        cases he
        exact setKeysT_plain M N x.toCalcInst hp.engine (fun s l a b i m h => hp.circuit x s l a b i m rfl h) l hp.names _ _ _ hs
      split at he
      · cases he
        refine plain_front (by decide +kernel) (by decide +kernel) ?_
        refine plain_front (natDec_letters _).1 (natDec_letters _).2 ?_
        exact plain_front (by decide +kernel) (by decide +kernel) (plain_of_letters (intDec_letters _).1 (intDec_letters _).2)
      · cases he
    · cases h

end calculator

/-! ## The calls -/

section calls
variable {σ : Type} {G1 G2 GT : Type} [AddCommGroup G1] [Module Fr G1] [AddCommGroup G2] [Module Fr G2] [AddCommGroup GT] [Module Fr GT]
  (M : JsTexts) (N : JsNums) (S : Sys G1 G2 GT)

theorem aesT_ok (key data m : Bytes) : aesGcmDecryptT S key data = .ok m ↔ decryptGcm S.cipher .js key data = .ok m := by
  unfold aesGcmDecryptT decryptGcm
  split
  · simp [Res.fail]
  split
  · simp [Res.fail]
  split
  · simp [Res.fail]
  cases gcmOpen S.cipher key (data.take 12) (data.drop 12) <;> simp [Res.fail]

/-- The messages of the decryption of the message part. -/
theorem aesT_error (key data : Bytes) (e : Thrown) (h : aesGcmDecryptT S key data = .error e) :
    e = .error "Key must be 32 bytes".toList ∨ e = .error "Invalid encrypted data: too short".toList ∨
      e = .error "Decryption failed: invalid key or corrupted data".toList := by
  unfold aesGcmDecryptT at h
  split at h
  · cases h; exact .inl rfl
  split at h
  · cases h; exact .inr (.inl rfl)
  split at h
  · cases h; exact .inr (.inr rfl)
  split at h
  · cases h
  · cases h; exact .inr (.inr rfl)

theorem aesT_plain (key data : Bytes) (e : Thrown) (h : aesGcmDecryptT S key data = .error e) : PlainError e := by
  rcases aesT_error S key data e h with rfl | rfl | rfl <;> exact ⟨by decide +kernel, by decide +kernel⟩

theorem decapT_ok (r1cs ct : Bytes) (wasm : Res (CircuitWasm σ)) (inputs : List (Str × JsVal)) (key : Bytes) :
    decapT M N S true r1cs wasm ct inputs = .ok key ↔ jsDecapApi N S r1cs wasm ct inputs = .ok key := by
  unfold decapT jsDecapApi jsDecap
  rw [if_neg (by decide)]
  have hv := calculateWitnessT_ok M N wasm inputs
  cases hT : calculateWitnessT M N wasm inputs with
  | error e =>
    cases hR : calculateWitness N wasm inputs with
    | error e => simp
    | ok b => rw [(hv b).2 hR] at hT; cases hT
  | ok b =>
    rw [(hv b).1 hT]
    simp only [Res.ok_bind]
    cases wasmDecap S r1cs b ct <;> simp

/-- **C97** (the same calls) — what is said here about thrown values is about the calls of the other properties: they return the same keys and messages. -/
theorem C97_same_calls (r1cs ct : Bytes) (wasm : Res (CircuitWasm σ)) (inputs : List (Str × JsVal)) (m : Bytes) :
    (decapT M N S true r1cs wasm ct inputs = .ok m ↔ jsDecapApi N S r1cs wasm ct inputs = .ok m) ∧
    (decryptT M N S true r1cs wasm ct inputs = .ok m ↔ jsDecryptApi N S r1cs wasm ct inputs = .ok m) := by
  refine ⟨decapT_ok M N S r1cs ct wasm inputs m, ?_⟩
  unfold decryptT jsDecryptApi jsDecrypt
  cases splitJs ct with
  | error e => simp
  | ok p =>
    simp only [Res.ok_bind]
    have hv := decapT_ok M N S r1cs p.witnessCt wasm inputs
    unfold jsDecapApi at hv
    cases hT : decapT M N S true r1cs wasm p.witnessCt inputs with
    | error e =>
      cases hR : jsDecap S r1cs (calculateWitness N wasm inputs) p.witnessCt with
      | error e => simp
      | ok b => rw [(hv b).2 hR] at hT; cases hT
    | ok b =>
      rw [(hv b).1 hT]
      simp only [Res.ok_bind]
      exact aesT_ok S b p.encrypted m

theorem splitJs_error (b : Bytes) (e : Fault) (h : splitJs b = .error e) : ∃ m, e = .err m ∧ "Invalid ciphertext".toList <:+: m.toList ∧ BrokenFile b := by
  have hb : BrokenFile b := by
    intro p
    have := (C44_js_iff b).1 p
    rw [h] at this
    simp only [reduceCtorEq, false_iff, not_or] at this
    exact this
  obtain ⟨m, hm, hr⟩ := (C44_js_iff b).2 hb
  rw [hm] at h
  cases h
  refine ⟨m, rfl, ?_, hb⟩
  unfold splitJs viewU8 viewU32 at hm
  by_cases h1 : b.length < 5
  · rw [if_pos h1] at hm
    cases hm
    decide +kernel
  · rw [if_neg h1] at hm
    rw [List.getElem?_eq_getElem (show 0 < b.length by omega), if_pos (show 1 + 4 ≤ b.length by omega)] at hm
    simp only [Res.ofOption, Res.ok_bind] at hm
    split at hm
    · cases hm; decide +kernel
    split at hm
    · split at hm
      · cases hm; decide +kernel
      · split at hm
        · cases hm
        · cases hm; exact absurd rfl hr
    · cases hm

theorem report_error (m : Str) : documentedReport (.error (.error m)) =
    if jsIncludes m "Invalid ciphertext".toList = true then .corrupted else if jsIncludes m "constraint".toList = true then .unsatisfied else .failed m := rfl

theorem report_plain {m : Str} (h : Plain m) : documentedReport (.error (.error m)) = .failed m := by
  have h1 : ¬ jsIncludes m "Invalid ciphertext".toList = true := fun hc => h.1 (of_decide_eq_true hc)
  have h2 : ¬ jsIncludes m "constraint".toList = true := fun hc => h.2 (of_decide_eq_true hc)
  rw [report_error, if_neg h1, if_neg h2]

/-- The handler on what a plain failure throws. -/
theorem documented_plain (e : Thrown) (h : PlainError e) : (∃ m, documentedReport (.error e) = .failed m) ∨ documentedReport (.error e) = .silent := by
  cases e with
  | error m => exact .inl ⟨m, report_plain h⟩
  | text s => exact h.elim
  | never => exact .inr rfl

/-- The wasm module reports an error although the outer format is right and a witness was computed. -/
def ModuleReports (initOk : Bool) (r1cs : Bytes) (wasm : Res (CircuitWasm σ)) (inputs : List (Str × JsVal)) (w : Bytes) : Prop :=
  initOk = true ∧ ∃ wtns m, calculateWitness N wasm inputs = .ok wtns ∧ wasmDecap S r1cs wtns w = .error (.err m)

theorem decryptT_kinds (initOk : Bool) (r1cs b : Bytes) (wasm : Res (CircuitWasm σ)) (inputs : List (Str × JsVal)) (hp : PlainTexts M wasm inputs) (p : Parts)
    (hs : splitJs b = .ok p) :
    (∃ e, decryptT M N S initOk r1cs wasm b inputs = .error e ∧ PlainError e ∧ ¬ ModuleReports N S initOk r1cs wasm inputs p.witnessCt) ∨
    (∃ s, decryptT M N S initOk r1cs wasm b inputs = .error (.text s) ∧ ModuleReports N S initOk r1cs wasm inputs p.witnessCt) ∨
    (∃ m, decryptT M N S initOk r1cs wasm b inputs = .ok m ∧ ¬ ModuleReports N S initOk r1cs wasm inputs p.witnessCt) := by
  unfold decryptT
  rw [hs]
  dsimp only
  by_cases hi : initOk = false
  · refine .inl ⟨.error (M.engine "initialization"), ?_, hp.engine _, fun h => by rw [hi] at h; exact absurd h.1 (by decide)⟩
    unfold decapT
    rw [if_pos hi]
  · unfold decapT
    rw [if_neg hi]
    have hw := calculateWitnessT_ok M N wasm inputs
    cases hT : calculateWitnessT M N wasm inputs with
    | error e =>
      refine .inl ⟨e, by dsimp only, calculateWitnessT_plain M N wasm inputs hp e hT, ?_⟩
      rintro ⟨-, wtns, m, hw', -⟩
      rw [(hw wtns).2 hw'] at hT
      cases hT
    | ok wtns =>
      have hw' := (hw wtns).1 hT
      have hno : ∀ r, wasmDecap S r1cs wtns p.witnessCt = r → (∀ m, r ≠ .error (.err m)) → ¬ ModuleReports N S initOk r1cs wasm inputs p.witnessCt := by
        rintro r hr hne ⟨-, wtns', m, hw'', hd⟩
        rw [hw'] at hw''
        cases hw''
        exact hne m (hr.symm.trans hd)
      cases hD : wasmDecap S r1cs wtns p.witnessCt with
      | error f =>
        cases f with
        | err m => exact .inr (.inl ⟨M.rust m, by dsimp only; rw [hD]; rfl, by simpa using hi, wtns, m, hw', hD⟩)
        | panic => exact .inl ⟨.error (M.engine "unreachable"), by dsimp only; rw [hD]; rfl, hp.engine _, hno _ hD (by simp)⟩
        | hang => exact .inl ⟨.never, by dsimp only; rw [hD]; rfl, trivial, hno _ hD (by simp)⟩
      | ok key =>
        cases hA : aesGcmDecryptT S key p.encrypted with
        | error e => exact .inl ⟨e, by dsimp only; rw [hD]; exact hA, aesT_plain S key p.encrypted e hA, hno _ hD (by simp)⟩
        | ok m => exact .inr (.inr ⟨m, by dsimp only; rw [hD]; exact hA, hno _ hD (by simp)⟩)

/-- **C97** (the documented handler) — for every circuit program, every file given as ciphertext and all inputs: the handler of the API reference prints "corrupted" exactly
if the outer format of the file is broken, never prints "does not satisfy circuit constraints", and itself ends in a `TypeError` exactly if the outer format is
right, a witness was computed and the wasm module reports an error (in particular if the witness ciphertext inside cannot be read). -/
theorem C97_documented_handler (initOk : Bool) (r1cs b : Bytes) (wasm : Res (CircuitWasm σ)) (inputs : List (Str × JsVal)) (hp : PlainTexts M wasm inputs) :
    (documentedReport (decryptT M N S initOk r1cs wasm b inputs) = .corrupted ↔ BrokenFile b) ∧
    documentedReport (decryptT M N S initOk r1cs wasm b inputs) ≠ .unsatisfied ∧
    (documentedReport (decryptT M N S initOk r1cs wasm b inputs) = .typeError ↔
      initOk = true ∧ ∃ p wtns m, (Layout b p ∨ Overrun b p) ∧ calculateWitness N wasm inputs = .ok wtns ∧ wasmDecap S r1cs wtns p.witnessCt = .error (.err m)) := by
  have hiff := (C44_js_iff b).1
  cases hs : splitJs b with
  | error e =>
    obtain ⟨m, rfl, hm, hb⟩ := splitJs_error b e hs
    have hr : documentedReport (decryptT M N S initOk r1cs wasm b inputs) = .corrupted := by
      unfold decryptT
      rw [hs]
      show documentedReport (.error (.error m.toList)) = _
      have h1 : jsIncludes m.toList "Invalid ciphertext".toList = true := decide_eq_true hm
      rw [report_error, if_pos h1]
    rw [hr]
    refine ⟨⟨fun _ => hb, fun _ => rfl⟩, nofun, ⟨nofun, ?_⟩⟩
    rintro ⟨-, p, -, -, h1, -⟩
    exact absurd h1 (not_or.2 (hb p))
  | ok p =>
    have hl := (hiff p).1 hs
    have hnb : ¬ BrokenFile b := fun h => absurd hl (not_or.2 (h p))
    have hT : (initOk = true ∧ ∃ p wtns m, (Layout b p ∨ Overrun b p) ∧ calculateWitness N wasm inputs = .ok wtns ∧
        wasmDecap S r1cs wtns p.witnessCt = .error (.err m)) ↔ ModuleReports N S initOk r1cs wasm inputs p.witnessCt := by
      constructor
      · rintro ⟨hi, q, wtns, m, hq, hw, hd⟩
        have := (hiff q).2 hq
        rw [hs] at this
        cases this
        exact ⟨hi, wtns, m, hw, hd⟩
      · rintro ⟨hi, wtns, m, hw, hd⟩
        exact ⟨hi, p, wtns, m, hl, hw, hd⟩
    rw [hT]
    rcases decryptT_kinds M N S initOk r1cs b wasm inputs hp p hs with ⟨e, h1, h2, h3⟩ | ⟨s, h1, h2⟩ | ⟨m, h1, h2⟩
    · rw [h1]
      rcases documented_plain e h2 with ⟨m, h⟩ | h
      · rw [h]
        exact ⟨⟨nofun, fun h => absurd h hnb⟩, nofun, nofun, fun h => absurd h h3⟩
      · rw [h]
        exact ⟨⟨nofun, fun h => absurd h hnb⟩, nofun, nofun, fun h => absurd h h3⟩
    · rw [h1]
      exact ⟨⟨nofun, fun h => absurd h hnb⟩, nofun, fun _ => h2, fun _ => rfl⟩
    · rw [h1]
      exact ⟨⟨nofun, fun h => absurd h hnb⟩, nofun, nofun, fun h => absurd h h2⟩

/-- **C97** (the handler of the Node.js guide) — the same handler inside `if (error instanceof Error)`: it never fails itself, but prints nothing at all where the other one
ends in a `TypeError`. -/
theorem C97_guide_handler (initOk : Bool) (r1cs b : Bytes) (wasm : Res (CircuitWasm σ)) (inputs : List (Str × JsVal)) (hp : PlainTexts M wasm inputs) :
    (guideReport (decryptT M N S initOk r1cs wasm b inputs) = .corrupted ↔ BrokenFile b) ∧
    guideReport (decryptT M N S initOk r1cs wasm b inputs) ≠ .unsatisfied ∧
    guideReport (decryptT M N S initOk r1cs wasm b inputs) ≠ .typeError ∧
    (documentedReport (decryptT M N S initOk r1cs wasm b inputs) = .typeError → guideReport (decryptT M N S initOk r1cs wasm b inputs) = .silent) := by
  obtain ⟨h1, h2, -⟩ := C97_documented_handler M N S initOk r1cs b wasm inputs hp
  generalize decryptT M N S initOk r1cs wasm b inputs = r at h1 h2 ⊢
  have hsame : (∀ s, r ≠ .error (.text s)) → guideReport r = documentedReport r ∧ documentedReport r ≠ .typeError := by
    intro h
    rcases r with (m | s | _) | m
    · refine ⟨rfl, ?_⟩
      rw [report_error]
      split
      · nofun
      split <;> nofun
    · exact absurd rfl (h s)
    · exact ⟨rfl, nofun⟩
    · exact ⟨rfl, nofun⟩
  by_cases ht : ∃ s, r = .error (.text s)
  · obtain ⟨s, rfl⟩ := ht
    refine ⟨⟨nofun, fun hb => ?_⟩, nofun, nofun, fun _ => rfl⟩
    exact absurd (h1.2 hb) nofun
  · obtain ⟨e1, e2⟩ := hsame (fun s hs => ht ⟨s, hs⟩)
    rw [e1]
    exact ⟨h1, h2, e2, fun h => absurd h e2⟩

/-- **C97** (damage inside) — a file whose outer format is right but whose witness ciphertext cannot be read, opened with a good witness: a string is thrown. The handler of the
API reference ends in a `TypeError`, that of the guide prints nothing, and the playground shows its fallback text. -/
theorem C97_damage_inside (r1cs b : Bytes) (wasm : Res (CircuitWasm σ)) (inputs : List (Str × JsVal)) (p : Parts) (hb : Layout b p ∨ Overrun b p)
    (wtns : Bytes) (hw : calculateWitness N wasm inputs = .ok wtns) (r : JsR1cs) (hr : jsParseR1cs r1cs = .ok r) (vals : List Fr)
    (hv : jsParseWtns wtns = .ok vals) (hl : vals.length = r.nWires) (hd : decCiphertext S.c1 S.c2 p.witnessCt = none) :
    ∃ s, decryptT M N S true r1cs wasm b inputs = .error (.text s) ∧
      documentedReport (decryptT M N S true r1cs wasm b inputs) = .typeError ∧
      guideReport (decryptT M N S true r1cs wasm b inputs) = .silent ∧
      playgroundText (.text s) = some ("❌ Decryption failed: ".toList ++ "Invalid witness or corrupted ciphertext".toList) := by
  have h : decryptT M N S true r1cs wasm b inputs = .error (.text (M.rust "Ciphertext deserialization failed")) := by
    have hs := ((C44_js_iff b).1 p).2 hb
    have hT := (calculateWitnessT_ok M N wasm inputs wtns).2 hw
    have hD : wasmDecap S r1cs wtns p.witnessCt = .error (.err "Ciphertext deserialization failed") := by
      unfold wasmDecap
      rw [hr, Res.ok_bind, hv, Res.ok_bind, if_neg (by omega), hd]
      rfl
    unfold decryptT decapT
    rw [hs]
    dsimp only
    rw [if_neg (by decide), hT]
    dsimp only
    rw [hD]
    rfl
  rw [h]
  exact ⟨_, rfl, rfl, rfl, rfl⟩

theorem wasmDecap_len {r1cs wtns ct k : Bytes} (h : wasmDecap S r1cs wtns ct = .ok k) : k.length = 32 := by
  unfold wasmDecap at h
  obtain ⟨r, -, h⟩ := Res.bind_eq_ok.1 h
  obtain ⟨vals, -, h⟩ := Res.bind_eq_ok.1 h
  split at h
  · cases h
  obtain ⟨c, -, h⟩ := Res.bind_eq_ok.1 h
  obtain ⟨key, -, h⟩ := Res.bind_eq_ok.1 h
  cases h
  exact key.len

/-- **C97** (a wrong witness) — if a key comes out but it does not open the message, the answer is always the same and does not say whether the witness, the circuit or
the file is wrong. -/
theorem C97_wrong_key (r1cs b : Bytes) (wasm : Res (CircuitWasm σ)) (inputs : List (Str × JsVal)) (p : Parts) (hb : Layout b p ∨ Overrun b p)
    (hlen : 28 ≤ p.encrypted.length) (key : Bytes) (hk : jsDecapApi N S r1cs wasm p.witnessCt inputs = .ok key)
    (hno : ∀ m, jsDecryptApi N S r1cs wasm b inputs ≠ .ok m) :
    decryptT M N S true r1cs wasm b inputs = .error (.error "Decryption failed: invalid key or corrupted data".toList) ∧
    documentedReport (decryptT M N S true r1cs wasm b inputs) = .failed "Decryption failed: invalid key or corrupted data".toList := by
  have hs := ((C44_js_iff b).1 p).2 hb
  have hT := (decapT_ok M N S r1cs p.witnessCt wasm inputs key).2 hk
  have h32 : key.length = 32 := by
    unfold jsDecapApi jsDecap at hk
    obtain ⟨w, -, hk⟩ := Res.bind_eq_ok.1 hk
    exact wasmDecap_len S hk
  have hd : decryptT M N S true r1cs wasm b inputs = aesGcmDecryptT S key p.encrypted := by
    unfold decryptT
    rw [hs]
    dsimp only
    rw [hT]
  have h : decryptT M N S true r1cs wasm b inputs = .error (.error "Decryption failed: invalid key or corrupted data".toList) := by
    cases hA : aesGcmDecryptT S key p.encrypted with
    | ok m => exact absurd ((C97_same_calls M N S r1cs b wasm inputs m).2.1 (hd.trans hA)) (hno m)
    | error e =>
      rw [hd, hA]
      unfold aesGcmDecryptT at hA
      rw [if_neg (by omega), if_neg (by omega)] at hA
      split at hA
      · cases hA; rfl
      split at hA
      · cases hA
      · cases hA; rfl
  refine ⟨h, ?_⟩
  rw [h]
  exact report_plain ⟨by decide +kernel, by decide +kernel⟩

end calls

/-! ## Refusals of the circuit -/

section refusal
variable {σ : Type} {G1 G2 GT : Type} [AddCommGroup G1] [Module Fr G1] [AddCommGroup G2] [Module Fr G2] [AddCommGroup GT] [Module Fr GT]
  (M : JsTexts) (N : JsNums) (S : Sys G1 G2 GT)

theorem setValuesT_refuse (x : CalcInst σ) (k : Str) (a b : Nat) (pre : List Int) (z : Int) (post : List Int) (i : Nat) (s s' : σ) (n n' : Nat) (m : String)
    (h : setValues x a b pre i s n = .ok (s', n')) (hp : x.prime ≠ 0)
    (hz : x.setInput s' (sharedMemory x.n32 (toArray32 (normalizeBig z x.prime).toNat x.n32)) a b (i + pre.length) = .error (.err m)) :
    setValuesT M x k a b (pre ++ z :: post) i s n = .error (settingThrows M k (i + pre.length) (.err m)) := by
  induction pre generalizing i s n with
  | nil =>
    cases h
    rw [List.nil_append, setValuesT, if_neg hp]
    simp only [List.length_nil, Nat.add_zero] at hz ⊢
    rw [hz]
  | cons y pre ih =>
    rw [setValues, if_neg hp] at h
    obtain ⟨s1, h1, h⟩ := Res.bind_eq_ok.1 h
    rw [List.cons_append, setValuesT, if_neg hp, h1]
    dsimp only
    have e : i + (y :: pre).length = i + 1 + pre.length := by simp only [List.length_cons]; omega
    rw [e] at hz ⊢
    exact ih _ _ _ h hz

theorem setKeysT_refuse (x : CalcInst σ) (pre : List (Str × JsVal)) (k : Str) (v : JsVal) (post : List (Str × JsVal)) (s s1 : σ) (n n1 : Nat)
    (h : setKeys N x pre s n = .ok (s1, n1)) (e : Thrown) (he : setKeysT M N x ((k, v) :: post) s1 n1 = .error e) :
    setKeysT M N x (pre ++ (k, v) :: post) s n = .error e := by
  induction pre generalizing s n with
  | nil => cases h; exact he
  | cons p pre ih =>
    obtain ⟨k', v'⟩ := p
    rw [setKeys] at h
    obtain ⟨h', e1, h⟩ := Res.bind_eq_ok.1 h
    obtain ⟨f, e2, h⟩ := Res.bind_eq_ok.1 h
    split at h
    · cases h
    split at h
    · cases h
    split at h
    · cases h
    rename_i c1 c2 c3
    obtain ⟨r, e3, h⟩ := Res.bind_eq_ok.1 h
    rw [List.cons_append, setKeysT, e1]
    dsimp only
    rw [e2]
    dsimp only
    rw [if_neg c1, if_neg c2, if_neg c3, (setValuesT_ok M x k' h'.1 h'.2 f 0 s n r).2 e3]
    exact ih _ _ h

theorem circuit_refuses (r1cs b : Bytes) (x : CircuitWasm σ) (pre post : List (Str × JsVal)) (k : Str) (v : JsVal)
    (hp : PlainTexts M (.ok x) (pre ++ (k, v) :: post)) (p : Parts) (hb : Layout b p ∨ Overrun b p) (s0 s1 s2 : σ) (n1 n2 : Nat) (h : Nat × Nat)
    (vs ws : List Int) (z : Int) (m : String) (hprime : x.toCalcInst.prime ≠ 0) (h0 : x.init false x.start = .ok s0)
    (h1 : setKeys N x.toCalcInst pre s0 0 = .ok (s1, n1)) (hh : hashHalves k = .ok h) (hv : flatArray N v = .ok (vs ++ z :: ws))
    (hn : x.signalSize h.1 h.2 = ((vs ++ z :: ws).length : Nat)) (h2 : setValues x.toCalcInst h.1 h.2 vs 0 s1 n1 = .ok (s2, n2))
    (hz : x.setInput s2 (sharedMemory x.n32 (toArray32 (normalizeBig z x.toCalcInst.prime).toNat x.n32)) h.1 h.2 vs.length = .error (.err m)) :
    let text := "Error setting signal ".toList ++ k ++ '[' :: (natDec vs.length ++ ']' :: ':' :: (" Error".toList ++ ':' :: ' ' :: m.toList))
    decryptT M N S true r1cs (.ok x) b (pre ++ (k, v) :: post) = .error (.error text) ∧
    documentedReport (decryptT M N S true r1cs (.ok x) b (pre ++ (k, v) :: post)) = .failed text ∧
    guideReport (decryptT M N S true r1cs (.ok x) b (pre ++ (k, v) :: post)) = .failed text := by
  intro text
  have hs := ((C44_js_iff b).1 p).2 hb
  have hval : setValuesT M x.toCalcInst k h.1 h.2 (vs ++ z :: ws) 0 s1 n1 = .error (.error text) := by
    have := setValuesT_refuse M x.toCalcInst k h.1 h.2 vs z ws 0 s1 s2 n1 n2 m h2 hprime (by rw [Nat.zero_add]; exact hz)
    rw [Nat.zero_add] at this
    exact this
  have hkey : setKeysT M N x.toCalcInst ((k, v) :: post) s1 n1 = .error (.error text) := by
    rw [setKeysT, hh]
    dsimp only
    rw [hv]
    dsimp only
    rw [hn, if_neg (by omega), if_neg (by omega), if_neg (by omega), hval]
  have hall := setKeysT_refuse M N x.toCalcInst pre k v post s0 s1 0 n1 h1 _ hkey
  have h : decryptT M N S true r1cs (.ok x) b (pre ++ (k, v) :: post) = .error (.error text) := by
    unfold decryptT decapT calculateWitnessT doCalculateWitnessT
    rw [hs]
    dsimp only
    rw [if_neg (by decide), h0]
    dsimp only
    rw [hall]
  have hplain : Plain text := plain_setting _ (hp.names (k, v) (by simp)) (hp.circuit x _ _ _ _ _ m rfl hz) (by decide +kernel) (by decide +kernel)
  rw [h]
  exact ⟨rfl, report_plain hplain, report_plain hplain⟩

/-- **C97** (the circuit refuses) — a file with the right outer format; the circuit's program takes the values of the inputs before `k` and the first values of `k`, then
stops at the next value with the message `m` (a failed assertion of the circuit, for instance): `decrypt` throws "Error setting signal k[i]: Error: m", and the
handlers print that under "Decryption failed", not under "does not satisfy circuit constraints". -/
theorem C97_circuit_refuses (r1cs b : Bytes) (x : CircuitWasm σ) (pre post : List (Str × JsVal)) (k : Str) (v : JsVal)
    (hp : PlainTexts M (.ok x) (pre ++ (k, v) :: post)) (p : Parts) (hb : Layout b p ∨ Overrun b p) (hprime : x.toCalcInst.prime ≠ 0)
    (s0 s2 : σ) (h0 : x.init false x.start = .ok s0) (zss : List (List Int)) (hpre : List.Forall₂ (fun e zs => List.Forall₂ (IsInt N) (CalcSpec.leaves e.2) zs ∧
      x.signalSize ((nameHash e.1).toNat / 2 ^ 32) ((nameHash e.1).toNat % 2 ^ 32) = (zs.length : Nat)) pre zss)
    (vs ws : List Int) (z : Int) (hv : List.Forall₂ (IsInt N) (CalcSpec.leaves v) (vs ++ z :: ws))
    (hsize : x.signalSize ((nameHash k).toNat / 2 ^ 32) ((nameHash k).toNat % 2 ^ 32) = ((vs ++ z :: ws).length : Nat))
    (htaken : perform x.toCalcInst (((pre.zip zss).map fun e => keySettings e.1.1 e.2).flatten ++ keySettings k vs) s0 = .ok s2)
    (m : String) (hrefused : perform x.toCalcInst [⟨nameHash k, vs.length, z⟩] s2 = .error (.err m)) :
    let text := "Error setting signal ".toList ++ k ++ '[' :: (natDec vs.length ++ ']' :: ':' :: (" Error".toList ++ ':' :: ' ' :: m.toList))
    decryptT M N S true r1cs (.ok x) b (pre ++ (k, v) :: post) = .error (.error text) ∧
    documentedReport (decryptT M N S true r1cs (.ok x) b (pre ++ (k, v) :: post)) = .failed text ∧
    guideReport (decryptT M N S true r1cs (.ok x) b (pre ++ (k, v) :: post)) = .failed text := by
  rw [perform_append] at htaken
  obtain ⟨s1, t1, t2⟩ := Res.bind_eq_ok.1 htaken
  have hk1 : setKeys N x.toCalcInst pre s0 0 = .ok (s1, 0 + (zss.map List.length).sum) :=
    (setKeys_ok_iff hprime pre s0 0 _).2 ⟨zss, hpre, t1, rfl⟩
  have hk2 := setValues_eq (x := x.toCalcInst) hprime (nameHash k) vs 0 s1 (0 + (zss.map List.length).sum)
  have hks : ((vs.zipIdx 0).map fun p => (⟨nameHash k, p.2, p.1⟩ : Setting)) = keySettings k vs := rfl
  rw [hks, t2, Res.ok_bind] at hk2
  refine circuit_refuses M N S r1cs b x pre post k v hp p hb s0 s1 s2 _ _ ((nameHash k).toNat / 2 ^ 32, (nameHash k).toNat % 2 ^ 32) vs ws z m hprime h0 hk1
    (hashHalves_eq k) ((flatArray_ok_iff N v _).2 hv) hsize hk2 ?_
  simp only [perform] at hrefused
  rw [value_memory x.toCalcInst hprime]
  revert hrefused
  cases x.setInput s2 (limbs x.n32 (z % ↑x.toCalcInst.prime).toNat) ((nameHash k).toNat / 2 ^ 32) ((nameHash k).toNat % 2 ^ 32) vs.length with
  | error e => intro h; exact h
  | ok s => intro h; cases h

end refusal

end Zkenc.Props
