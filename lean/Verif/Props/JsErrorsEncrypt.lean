import Verif.Model.JsErrorsEncrypt
import Verif.Props.JsErrorsFlow
import Verif.Props.InputOrder
import Verif.Props.ParseMore
/-!
# C103: what `encap`, `encrypt` and `getPublicInput` throw
-/

namespace Zkenc.Props

open Zkenc Zkenc.Spec Zkenc.InputSpec Zkenc.ContainerSpec JsonSpec ErrorSpec

variable {G1 G2 GT : Type} [AddCommGroup G1] [Module Fr G1] [AddCommGroup G2] [Module Fr G2] [AddCommGroup GT] [Module Fr GT]
  (M : JsTexts) (S : Sys G1 G2 GT)

/-! ## `getPublicInput` -/

theorem pubT_short (b : Bytes) (h : b.length < 5) : getPublicInputT M S b = .error (.error "Invalid ciphertext: too short".toList) := by
  simp only [getPublicInputT, if_pos h]

theorem pubT_flag (f : UInt8) (r : Bytes) (hf : f ≠ 1) (hr : 4 ≤ r.length) : getPublicInputT M S (f :: r) =
    .error (.error "Public inputs are not included in this ciphertext. Use encrypt() with includePublicInput: true to embed public inputs.".toList) := by
  have h4 : ¬ (f :: r).length < 5 := by simp; omega
  have h0' : viewU8 (f :: r) 0 = .ok f := rfl
  simp only [getPublicInputT, if_neg h4, h0', ne_eq, hf, not_false_eq_true, if_true]

theorem pubT_overrun_w {lw r : Bytes} (hl : lw.length = 4) (hr : r.length < beNat lw) :
    getPublicInputT M S (1 :: (lw ++ r)) = .error (.error "Invalid ciphertext: length mismatch".toList) := by
  have hlen : ((1 : UInt8) :: (lw ++ r)).length = 5 + r.length := by simp [hl]; omega
  have h4 : ¬ ((1 : UInt8) :: (lw ++ r)).length < 5 := by omega
  have hv := viewU32_eq (1 :: (lw ++ r)) 1 (by omega)
  rw [hdr_slice hl] at hv
  have h0' : viewU8 (1 :: (lw ++ r)) 0 = .ok 1 := rfl
  have hlt : ((1 : UInt8) :: (lw ++ r)).length < 5 + beNat lw := by omega
  simp only [getPublicInputT, if_neg h4, h0', hv, ne_eq, not_true_eq_false, if_false, if_pos hlt]

theorem pubT_missing {lw w r : Bytes} (hl : lw.length = 4) (hw : beNat lw = w.length) (hr : r.length < 4) :
    getPublicInputT M S (1 :: (lw ++ (w ++ r))) = .error (.error "Invalid ciphertext: missing public input length".toList) := by
  have hlen : ((1 : UInt8) :: (lw ++ (w ++ r))).length = 5 + w.length + r.length := by simp [hl]; omega
  have h4 : ¬ ((1 : UInt8) :: (lw ++ (w ++ r))).length < 5 := by omega
  have hv := viewU32_eq (1 :: (lw ++ (w ++ r))) 1 (by omega)
  rw [hdr_slice hl] at hv
  have h0' : viewU8 (1 :: (lw ++ (w ++ r))) 0 = .ok 1 := rfl
  have hge : ¬ ((1 : UInt8) :: (lw ++ (w ++ r))).length < 5 + w.length := by omega
  have hlt : ((1 : UInt8) :: (lw ++ (w ++ r))).length < 5 + w.length + 4 := by omega
  simp only [getPublicInputT, if_neg h4, h0', hv, ne_eq, not_true_eq_false, if_false, hw, if_neg hge, if_pos hlt]

theorem pubT_public {lw w lp q : Bytes} (hl : lw.length = 4) (hw : beNat lw = w.length) (hlp : lp.length = 4) :
    getPublicInputT M S (1 :: (lw ++ (w ++ (lp ++ q)))) = (if q.length < beNat lp then
      .error (.error "Invalid ciphertext: public input length mismatch".toList) else
      match S.jsonParse (textDecode S (q.take (beNat lp))) with
      | some v => .ok v
      | none => .error (.error ("Failed to parse public inputs: ".toList ++ M.engine "JSON.parse"))) := by
  generalize hb : (1 : UInt8) :: (lw ++ (w ++ (lp ++ q))) = b
  have hlen : b.length = 5 + w.length + 4 + q.length := by rw [← hb]; simp [hl, hlp]; omega
  have h4 : ¬ b.length < 5 := by omega
  have hge : ¬ b.length < 5 + w.length := by omega
  have hge4 : ¬ b.length < 5 + w.length + 4 := by omega
  have hv := viewU32_eq b 1 (by omega)
  rw [← hb, hdr_slice hl, hb] at hv
  have h0' : viewU8 b 0 = .ok 1 := by rw [← hb]; rfl
  have hd : b.drop (5 + w.length) = lp ++ q := by
    have := hdr_drop (f := 1) (lw := lw) (w := w) (r := lp ++ q) hl 0
    rw [hb] at this
    simpa using this
  have hd4 : b.drop (5 + w.length + 4) = q := by rw [← List.drop_drop, hd, append_drop_len _ hlp]
  have hv2 := viewU32_eq b (5 + w.length) (by omega)
  have hs2 : slice b (5 + w.length) 4 = lp := by rw [slice_def, hd, append_take_len _ hlp]
  rw [hs2] at hv2
  have e2 : jsSlice b (5 + w.length + 4) (5 + w.length + 4 + beNat lp) = q.take (beNat lp) := by rw [jsSlice_eq, hd4]
  have hc : (b.length < 5 + w.length + 4 + beNat lp) ↔ q.length < beNat lp := by omega
  simp only [getPublicInputT, if_neg h4, h0', hv, ne_eq, not_true_eq_false, if_false, hw, if_neg hge, if_neg hge4, hv2, e2]
  by_cases hq : q.length < beNat lp
  · rw [if_pos (hc.2 hq), if_pos hq]
  · rw [if_neg (fun h => hq (hc.1 h)), if_neg hq]
    cases S.jsonParse (textDecode S (q.take (beNat lp))) <;> rfl

/-- The shapes of a byte string, for `getPublicInput`. -/
theorem pub_cases (b : Bytes) : b.length < 5 ∨ (∃ f r, b = f :: r ∧ f ≠ 1 ∧ 4 ≤ r.length) ∨
    (∃ lw r, b = 1 :: (lw ++ r) ∧ lw.length = 4 ∧ r.length < beNat lw) ∨
    (∃ lw w r, b = 1 :: (lw ++ (w ++ r)) ∧ lw.length = 4 ∧ beNat lw = w.length ∧ r.length < 4) ∨
    (∃ p, Overrun b p) ∨ ∃ w p m, Layout b ⟨1, w, some p, m⟩ := by
  rcases header_cases b with h | ⟨f, lw, r, rfl, hl, hr⟩ | ⟨f, lw, w, r, rfl, hl, hw⟩
  · exact .inl h
  · by_cases hf : f = 1
    · subst hf; exact .inr (.inr (.inl ⟨lw, r, rfl, hl, hr⟩))
    · exact .inr (.inl ⟨f, _, rfl, hf, by simp [hl]⟩)
  · by_cases hf : f = 1
    · subst hf
      rcases rest_cases r with h | ⟨lp, p, rfl, hlp, hp⟩ | ⟨lp, p, m, rfl, hlp, hp⟩
      · exact .inr (.inr (.inr (.inl ⟨lw, w, r, rfl, hl, hw, h⟩)))
      · exact .inr (.inr (.inr (.inr (.inl ⟨_, Overrun.mk w p lw lp hl hlp hw hp⟩))))
      · exact .inr (.inr (.inr (.inr (.inr ⟨w, p, m, Layout.withPublic w p m lw lp hl hlp hw hp⟩))))
    · exact .inr (.inl ⟨f, _, rfl, hf, by simp [hl]⟩)

theorem pubT_layout {b w p m : Bytes} (h : Layout b ⟨1, w, some p, m⟩) : getPublicInputT M S b =
    match S.jsonParse (textDecode S p) with
      | some v => .ok v
      | none => .error (.error ("Failed to parse public inputs: ".toList ++ M.engine "JSON.parse")) := by
  cases h with
  | withPublic w p m lw lp hw hp ew ep =>
    rw [pubT_public M S hw ew hp, ep, if_neg (by simp), append_take_len _ rfl]

theorem pubT_overrun {b : Bytes} {p : Parts} (h : Overrun b p) :
    getPublicInputT M S b = .error (.error "Invalid ciphertext: public input length mismatch".toList) := by
  cases h with
  | mk w p lw lp hw hp ew ep => rw [pubT_public M S hw ew hp, if_pos ep]

/-- **C103** (`getPublicInput`, kinds) — every failure is an `Error` object. -/
theorem C103_public_errors (b : Bytes) (t : Thrown) (h : getPublicInputT M S b = .error t) : ∃ m, t = .error m := by
  rcases pub_cases b with h1 | ⟨f, r, rfl, hf, hr⟩ | ⟨lw, r, rfl, hl, hr⟩ | ⟨lw, w, r, rfl, hl, hw, hr⟩ | ⟨p, hp⟩ | ⟨w, p, m, hp⟩
  · rw [pubT_short M S b h1] at h; cases h; exact ⟨_, rfl⟩
  · rw [pubT_flag M S f r hf hr] at h; cases h; exact ⟨_, rfl⟩
  · rw [pubT_overrun_w M S hl hr] at h; cases h; exact ⟨_, rfl⟩
  · rw [pubT_missing M S hl hw hr] at h; cases h; exact ⟨_, rfl⟩
  · rw [pubT_overrun M S hp] at h; cases h; exact ⟨_, rfl⟩
  · rw [pubT_layout M S hp] at h
    cases hj : S.jsonParse (textDecode S p) with
    | some v => rw [hj] at h; cases h
    | none => rw [hj] at h; cases h; exact ⟨_, rfl⟩

/-- **C103** (`getPublicInput`, same function) — it returns the values of the model of the other properties. -/
theorem C103_public_same (b : Bytes) (v : JsVal) : getPublicInputT M S b = .ok v ↔ jsGetPublicInput S b = .ok v := by
  unfold jsGetPublicInput getPublicInput
  have fail : ∀ (m : String) (t : Thrown), getPublicInputT M S b = .error t → publicInputBytes b = Res.fail m →
      (getPublicInputT M S b = .ok v ↔ (publicInputBytes b >>= fun p => Res.ofOption (S.jsonParse (textDecode S p)) "Failed to parse public inputs") = .ok v) := by
    intro m t h1 h2
    rw [h1, h2]
    constructor <;> intro h <;> cases h
  rcases pub_cases b with h1 | ⟨f, r, rfl, hf, hr⟩ | ⟨lw, r, rfl, hl, hr⟩ | ⟨lw, w, r, rfl, hl, hw, hr⟩ | ⟨p, hp⟩ | ⟨w, p, m, hp⟩
  · exact fail _ _ (pubT_short M S b h1) (split_short b h1).2.2
  · refine fail "Public inputs are not included in this ciphertext" _ (pubT_flag M S f r hf hr) ?_
    have h4 : ¬ (f :: r).length < 5 := by simp; omega
    have h0' : viewU8 (f :: r) 0 = .ok f := rfl
    simp only [publicInputBytes, if_neg h4, h0', ne_eq, hf, not_false_eq_true, if_true, Res.ok_bind]
  · rcases (split_overrun_w (f := 1) hl hr).2.2 with h | h <;> exact fail _ _ (pubT_overrun_w M S hl hr) h
  · exact fail _ _ (pubT_missing M S hl hw hr) (split_short_public hl hw hr).2.2
  · have ho := pubT_overrun M S hp
    cases hp with
    | mk w p lw lp hw hp ew ep =>
      exact fail _ _ ho (by rw [(split_public hw ew hp).2.2, if_pos ep])
  · rw [pubT_layout M S hp]
    cases hp with
    | withPublic w p m lw lp hw hp ew ep =>
      rw [(split_public hw ew hp).2.2, ep, if_neg (by simp), append_take_len _ rfl, Res.ok_bind]
      cases hj : S.jsonParse (textDecode S p) with
      | some x => simp [Res.ofOption]
      | none => simp [Res.ofOption, Res.fail]

theorem not_failed {s : Str} (h : s.head? ≠ some 'F') (t : Str) : "Failed to parse public inputs: ".toList ++ t ≠ s := by
  intro hc
  apply h
  rw [← hc]
  simp

theorem table {X : Type} {x e1 e2 e3 e4 e5 e6 : X} {A1 A2 A3 A4 A5 A6 K : Prop} (cover : A1 ∨ A2 ∨ A3 ∨ A4 ∨ A5 ∨ A6 ∨ K)
    (h1 : A1 → x = e1) (h2 : A2 → x = e2) (h3 : A3 → x = e3) (h4 : A4 → x = e4) (h5 : A5 → x = e5) (h6 : A6 → x = e6)
    (hk : K → x ≠ e1 ∧ x ≠ e2 ∧ x ≠ e3 ∧ x ≠ e4 ∧ x ≠ e5 ∧ x ≠ e6)
    (d : e1 ≠ e2 ∧ e1 ≠ e3 ∧ e1 ≠ e4 ∧ e1 ≠ e5 ∧ e2 ≠ e3 ∧ e2 ≠ e4 ∧ e2 ≠ e5 ∧ e3 ≠ e4 ∧ e3 ≠ e5 ∧ e4 ≠ e5)
    (d' : e6 ≠ e1 ∧ e6 ≠ e2 ∧ e6 ≠ e3 ∧ e6 ≠ e4 ∧ e6 ≠ e5) :
    (x = e1 ↔ A1) ∧ (x = e2 ↔ A2) ∧ (x = e3 ↔ A3) ∧ (x = e4 ↔ A4) ∧ (x = e5 ↔ A5) ∧ (x = e6 ↔ A6) := by
  grind

/-- **C103** (`getPublicInput`, messages) — for every byte string: "not included" exactly if there are at least five bytes and the first is not 1, whatever follows, also
where `decrypt` reports an invalid ciphertext; "too short" exactly below five bytes; the other messages exactly for the parts of the format they name. -/
theorem C103_public_messages (b : Bytes) :
    (getPublicInputT M S b = .error (.error "Invalid ciphertext: too short".toList) ↔ b.length < 5) ∧
    (getPublicInputT M S b = .error (.error
        "Public inputs are not included in this ciphertext. Use encrypt() with includePublicInput: true to embed public inputs.".toList) ↔
      ∃ f r, b = f :: r ∧ f ≠ 1 ∧ 4 ≤ r.length) ∧
    (getPublicInputT M S b = .error (.error "Invalid ciphertext: length mismatch".toList) ↔
      ∃ lw r, b = 1 :: (lw ++ r) ∧ lw.length = 4 ∧ r.length < beNat lw) ∧
    (getPublicInputT M S b = .error (.error "Invalid ciphertext: missing public input length".toList) ↔
      ∃ lw w r, b = 1 :: (lw ++ (w ++ r)) ∧ lw.length = 4 ∧ beNat lw = w.length ∧ r.length < 4) ∧
    (getPublicInputT M S b = .error (.error "Invalid ciphertext: public input length mismatch".toList) ↔ ∃ p, Overrun b p) ∧
    (getPublicInputT M S b = .error (.error ("Failed to parse public inputs: ".toList ++ M.engine "JSON.parse")) ↔
      ∃ w p m, Layout b ⟨1, w, some p, m⟩ ∧ S.jsonParse (textDecode S p) = none) := by
  have ne : ∀ {a c : Str}, a ≠ c → (Except.error (Thrown.error a) : Except Thrown JsVal) ≠ .error (.error c) := by
    intro a c h hc
    apply h
    injection hc with hc
    injection hc
  refine table (K := ∃ v, getPublicInputT M S b = .ok v) ?_ (pubT_short M S b) ?_ ?_ ?_ ?_ ?_ ?_ ?_ ?_
  · rcases pub_cases b with h | h | h | h | h | ⟨w, p, m, h⟩
    · exact .inl h
    · exact .inr (.inl h)
    · exact .inr (.inr (.inl h))
    · exact .inr (.inr (.inr (.inl h)))
    · exact .inr (.inr (.inr (.inr (.inl h))))
    · cases hj : S.jsonParse (textDecode S p) with
      | none => exact .inr (.inr (.inr (.inr (.inr (.inl ⟨w, p, m, h, hj⟩)))))
      | some v => exact .inr (.inr (.inr (.inr (.inr (.inr ⟨v, by rw [pubT_layout M S h, hj]⟩)))))
  · rintro ⟨f, r, rfl, hf, hr⟩; exact pubT_flag M S f r hf hr
  · rintro ⟨lw, r, rfl, hl, hr⟩; exact pubT_overrun_w M S hl hr
  · rintro ⟨lw, w, r, rfl, hl, hw, hr⟩; exact pubT_missing M S hl hw hr
  · rintro ⟨p, hp⟩; exact pubT_overrun M S hp
  · rintro ⟨w, p, m, hp, hj⟩; rw [pubT_layout M S hp, hj]
  · rintro ⟨v, hv⟩
    rw [hv]
    refine ⟨?_, ?_, ?_, ?_, ?_, ?_⟩ <;> intro h <;> cases h
  · exact ⟨ne (by decide +kernel), ne (by decide +kernel), ne (by decide +kernel), ne (by decide +kernel), ne (by decide +kernel), ne (by decide +kernel),
      ne (by decide +kernel), ne (by decide +kernel), ne (by decide +kernel), ne (by decide +kernel)⟩
  · exact ⟨ne (not_failed (by decide +kernel) _), ne (not_failed (by decide +kernel) _), ne (not_failed (by decide +kernel) _),
      ne (not_failed (by decide +kernel) _), ne (not_failed (by decide +kernel) _)⟩

/-- **C103** (`getPublicInput` on what `encrypt` writes) — without embedded public input the message is "not included"; with it, never. -/
theorem C103_public_written (incl : Bool) (w p m : Bytes) (hw : w.length < 2 ^ 32) (hp : incl = true → p.length < 2 ^ 32) :
    getPublicInputT M S (combine incl w p m) = .error (.error
      "Public inputs are not included in this ciphertext. Use encrypt() with includePublicInput: true to embed public inputs.".toList) ↔ incl = false := by
  rw [(C103_public_messages M S _).2.1]
  have hl := combine_layout incl w p m hw hp
  cases incl with
  | false =>
    simp only [Bool.false_eq_true, if_false] at hl
    refine ⟨fun _ => rfl, fun _ => ?_⟩
    generalize combine false w p m = b at hl
    cases hl with
    | without f hf w m lw hw ew => exact ⟨0, _, rfl, hf, by simp [hw]⟩
  | true =>
    simp only [if_true] at hl
    refine ⟨?_, fun h => by cases h⟩
    rintro ⟨f, r, hb, hf, -⟩
    generalize combine true w p m = b at hl hb
    cases hl with
    | withPublic w p m lw lp hw hp ew ep =>
      injection hb with h1 h2
      exact absurd h1.symm hf

/-! ## `encap` and `encrypt` -/

/-- A value that has a wire is null or undefined. -/
def HasNull (symtab : AMap Nat) (inputs : List (Str × JsVal)) : Prop :=
  ∃ name v i, Resolves symtab none name i ∧ JsGives inputs name v ∧ (v = .null ∨ v = .undef)

theorem map_null (sym : Str) (inputs : List (Str × JsVal)) :
    (HasNull (jsParseSymFile sym) inputs → mapInputsToWires inputs (inputSignals (jsParseSymFile sym) none) = Res.fail "TypeError") ∧
    (¬ HasNull (jsParseSymFile sym) inputs → ∃ m, mapInputsToWires inputs (inputSignals (jsParseSymFile sym) none) = .ok m) := by
  have hsig : ∀ name i, (inputSignals (jsParseSymFile sym) none).get name = some i ↔ Resolves (jsParseSymFile sym) none name i :=
    fun name i => C35_input_lookup (jsParseSymFile_nodup sym) (List.Perm.refl _) none name i
  obtain ⟨hok, hor⟩ := setAll_isOk (inputSignals (jsParseSymFile sym) none) (jsFields inputs []) []
  rw [← mapInputsToWires_eq] at hok hor
  constructor
  · rintro ⟨name, v, i, hr, hg, hv⟩
    rcases hor with h | h
    · obtain ⟨s, hs⟩ := hok.1 h (name, v) ((mem_jsInputs _ _ _).2 hg) (by rw [(hsig _ _).2 hr]; rfl)
      have := (JsVal.toStr_isOk v).1 ⟨s, hs⟩
      rcases hv with rfl | rfl
      · exact absurd rfl this.1
      · exact absurd rfl this.2
    · exact h
  · intro h
    refine hok.2 ?_
    rintro ⟨name, v⟩ he hs
    obtain ⟨i, hi⟩ := Option.isSome_iff_exists.1 hs
    refine (JsVal.toStr_isOk v).2 ⟨fun hc => h ⟨name, v, i, (hsig _ _).1 hi, (mem_jsInputs _ _ _).1 he, .inl hc⟩,
      fun hc => h ⟨name, v, i, (hsig _ _).1 hi, (mem_jsInputs _ _ _).1 he, .inr hc⟩⟩

theorem fill_error (m : NMap) (i n : Nat) (e : Fault) (h : fillWitness m i n = .error e) : e = .err "SyntaxError" := by
  induction n generalizing i with
  | zero => cases h
  | succ n ih =>
    rw [fillWitness] at h
    cases hg : m.get i with
    | none => rw [hg] at h; cases h
    | some s =>
      rw [hg] at h
      simp only at h
      cases hb : jsBigInt s with
      | none => rw [hb] at h; cases h; rfl
      | some z =>
        rw [hb] at h
        simp only at h
        cases hf : fillWitness m (i + 1) n with
        | error e' => rw [hf] at h; cases h; exact ih _ hf
        | ok zs => rw [hf] at h; cases h

/-- `encap` in terms of the witness. -/
theorem encapT_eq (r1cs : Bytes) (sym : Str) (inputs : List (Str × JsVal)) (ρ : Rand Fr) :
    encapT M S true r1cs sym inputs ρ = match jsEncapWitness sym inputs with
      | .error e => .error (engineThrows M e)
      | .ok b => wasmEncapT M S r1cs b ρ := by
  unfold encapT jsEncapWitness
  cases hm : mapInputsToWires inputs (inputSignals (jsParseSymFile sym) none) with
  | error e => simp only [hm]; rfl
  | ok m =>
    simp only [hm, Res.ok_bind]
    cases hf : fillWitness m 1 (maxKey m) with
    | error e => rfl
    | ok zs => rfl

theorem wasmEncapT_ok (r1cs wtns : Bytes) (ρ : Rand Fr) (x : Bytes × Bytes) : wasmEncapT M S r1cs wtns ρ = .ok x ↔ wasmEncap S r1cs wtns ρ = .ok x := by
  unfold wasmEncapT wasmEncap
  cases h1 : jsParseR1cs r1cs with
  | error e => constructor <;> intro h <;> cases h
  | ok r =>
    simp only [Res.ok_bind]
    cases h2 : jsParseWtns wtns with
    | error e => constructor <;> intro h <;> cases h
    | ok vals =>
      simp only [Res.ok_bind]
      cases h3 : encap S.P S.dom (jsCircuit r (wasmEncapWires r.nPublicInputs vals)) ρ with
      | error e => constructor <;> intro h <;> cases h
      | ok res => simp only [Res.ok_bind]; constructor <;> intro h <;> cases h <;> rfl

/-- **C103** (same functions) — with the library loaded, the calls return what they return in the model of the other properties. -/
theorem C103_same (r1cs : Bytes) (sym : Str) (inputs : List (Str × JsVal)) (message : Bytes) (incl : Bool) (ρ : Rand Fr) (nonce : Bytes) (x : Bytes × Bytes) :
    (encapT M S true r1cs sym inputs ρ = .ok x ↔ jsEncap S r1cs sym inputs ρ = .ok x) ∧
    (encryptT M S true r1cs sym inputs message incl ρ nonce = .ok x ↔ jsEncrypt S r1cs sym inputs message incl ρ nonce = .ok x) := by
  have h1 : ∀ x, encapT M S true r1cs sym inputs ρ = .ok x ↔ jsEncap S r1cs sym inputs ρ = .ok x := by
    intro x
    rw [encapT_eq]
    unfold jsEncap
    cases hw : jsEncapWitness sym inputs with
    | error e => constructor <;> intro h <;> cases h
    | ok b => simpa only [Res.ok_bind] using wasmEncapT_ok M S r1cs b ρ x
  refine ⟨h1 x, ?_⟩
  unfold encryptT jsEncrypt
  cases he : encapT M S true r1cs sym inputs ρ with
  | error t =>
    constructor
    · intro h; cases h
    · intro h
      obtain ⟨y, hy, -⟩ := Res.bind_eq_ok.1 h
      rw [(h1 y).2 hy] at he
      cases he
  | ok ck =>
    rw [(h1 ck).1 he, Res.ok_bind]
    simp only
    unfold aesGcmEncryptT encryptGcm
    by_cases hk : ck.2.length = 32
    · rw [if_neg (not_not.2 hk), if_neg (not_not.2 hk)]
      by_cases hm : S.cipher.maxEnc .js < message.length
      · rw [if_pos hm, if_pos hm]
        constructor <;> intro h <;> cases h
      · rw [if_neg hm, if_neg hm]
        cases incl with
        | false => exact Iff.of_eq (by simp [Res.ok_bind])
        | true =>
          simp only [Res.ok_bind, if_true]
          cases S.stringify inputs with
          | error e => constructor <;> intro h <;> cases h
          | ok s => simp only [Res.ok_bind]; constructor <;> intro h <;> cases h <;> rfl
    · rw [if_pos hk, if_pos hk]
      constructor <;> intro h <;> cases h

/-- **C103** (`encap`) — what it throws, for all inputs and circuit files. A value with a wire that is null or undefined: the engine's `TypeError`. Otherwise a value that
counts and is no integer: the engine's `SyntaxError`. Otherwise a circuit file that cannot be read: a string, which is no `Error`; one on which the reader panics: the
engine's `RuntimeError`. Otherwise only `δ = 0` fails, as a `RuntimeError`. -/
theorem C103_encap (r1cs : Bytes) (sym : Str) (inputs : List (Str × JsVal)) (hmax : JsSmall (jsParseSymFile sym) inputs) (ρ : Rand Fr) :
    encapT M S false r1cs sym inputs ρ = .error (.error (M.engine "initialization")) ∧
    (HasNull (jsParseSymFile sym) inputs → encapT M S true r1cs sym inputs ρ = .error (.error (M.engine "TypeError"))) ∧
    (¬ HasNull (jsParseSymFile sym) inputs → ¬ JsUsableLast (jsParseSymFile sym) inputs →
      encapT M S true r1cs sym inputs ρ = .error (.error (M.engine "SyntaxError"))) ∧
    (JsUsableLast (jsParseSymFile sym) inputs →
      (∀ m, jsParseR1cs r1cs = .error (.err m) → encapT M S true r1cs sym inputs ρ = .error (.text ("R1CS parse error: ".toList ++ M.rust m))) ∧
      (jsParseR1cs r1cs = .error .panic → encapT M S true r1cs sym inputs ρ = .error (.error (M.engine "unreachable"))) ∧
      ∀ r, jsParseR1cs r1cs = .ok r →
        (ρ.delta = 0 → encapT M S true r1cs sym inputs ρ = .error (.error (M.engine "unreachable"))) ∧
        (ρ.delta ≠ 0 → ∃ ct k, encapT M S true r1cs sym inputs ρ = .ok (ct, k) ∧ k.length = 32)) := by
  refine ⟨by simp [encapT], fun h => ?_, fun hn hu => ?_, fun hu => ?_⟩
  · unfold encapT
    simp only [(map_null sym inputs).1 h, Res.fail, engineThrows]
    simp
  · obtain ⟨m, hm⟩ := (map_null sym inputs).2 hn
    have hw : ∃ e, jsEncapWitness sym inputs = .error e := by
      cases hw : jsEncapWitness sym inputs with
      | error e => exact ⟨e, rfl⟩
      | ok b =>
        refine absurd ?_ hu
        refine ⟨not_null_of_ok hw, fun i hi hall v s hc hs => ?_⟩
        obtain ⟨-, zs, -, hz, hend⟩ := (C101_witness sym inputs b).1 hw
        have hlt : i - 1 < zs.length := by
          by_contra hge
          obtain ⟨name, v', hr, hg⟩ := hall (zs.length + 1) (by omega) (by omega)
          exact hend name v' hr hg
        obtain ⟨v', s', hc', hs', hb⟩ := hz (i - 1) hlt
        rw [show i - 1 + 1 = i by omega] at hc'
        have := (C101_counts (jsParseSymFile sym) inputs i).2.2 v v' hc hc'
        subst this
        rw [hs] at hs'
        cases hs'
        exact ⟨_, hb⟩
    obtain ⟨e, he⟩ := hw
    rw [encapT_eq, he]
    unfold jsEncapWitness at he
    simp only [hm, Res.ok_bind] at he
    cases hf : fillWitness m 1 (maxKey m) with
    | ok zs => rw [hf] at he; cases he
    | error e' =>
      rw [hf] at he
      cases he
      rw [fill_error m _ _ _ hf]
      rfl
  · have hn : ∀ name v i, Resolves (jsParseSymFile sym) none name i → JsGives inputs name v → v ≠ .null ∧ v ≠ .undef := hu.not_null
    obtain ⟨inputs', hna, hwit, hs, hu', -⟩ := effective_facts hn
    obtain ⟨b, hb'⟩ := (jsEncapWitness_usable sym inputs' hna (hs hmax)).2 (hu'.1 hu)
    obtain ⟨vals, hv⟩ := jsEncapWitness_parses sym inputs' hna (hs hmax) b hb'
    have hb : jsEncapWitness sym inputs = .ok b := (hwit b).2 hb'
    rw [encapT_eq, hb]
    simp only
    unfold wasmEncapT
    refine ⟨fun m hm => by rw [hm]; rfl, fun hm => by rw [hm]; rfl, fun r hr => ?_⟩
    obtain ⟨r', rfl⟩ : ∃ r' : R1csFile, r = r'.toJs :=
      ⟨⟨r.fieldSize, [], r.nWires, r.nPubOut, r.nPubIn, 0, 0, r.nConstraints, r.constraints, []⟩, rfl⟩
    have hout := C07_encap_outcome_circom S.P S.dom .js r' (wasmEncapWires r'.toJs.nPublicInputs vals) ρ
    rw [Tool.circuit] at hout
    simp only [hr, hv]
    constructor
    · intro hδ
      rw [hout.1 hδ]
      rfl
    · intro hδ
      obtain ⟨ct, k, hk⟩ := hout.2 hδ
      rw [hk]
      exact ⟨_, _, rfl, k.len⟩

/-- **C103** (`encrypt`) — it throws what `encap` throws; otherwise, for a message beyond the limit of WebCrypto, the `OperationError`; otherwise, if the public input is to be
embedded and `JSON.stringify` throws, what that throws. Nothing else. -/
theorem C103_encrypt (initOk : Bool) (r1cs : Bytes) (sym : Str) (inputs : List (Str × JsVal)) (message : Bytes) (incl : Bool) (ρ : Rand Fr) (nonce : Bytes) :
    (∀ t, encapT M S initOk r1cs sym inputs ρ = .error t → encryptT M S initOk r1cs sym inputs message incl ρ nonce = .error t) ∧
    ∀ ct k, encapT M S initOk r1cs sym inputs ρ = .ok (ct, k) →
      (S.cipher.maxEnc .js < message.length →
        encryptT M S initOk r1cs sym inputs message incl ρ nonce = .error (.error (M.engine "OperationError"))) ∧
      (message.length ≤ S.cipher.maxEnc .js →
        (∀ e, incl = true → S.stringify inputs = .error e → encryptT M S initOk r1cs sym inputs message incl ρ nonce = .error (engineThrows M e)) ∧
        ((incl = true → ∃ s, S.stringify inputs = .ok s) → ∃ b, encryptT M S initOk r1cs sym inputs message incl ρ nonce = .ok (b, k))) := by
  refine ⟨fun t h => by unfold encryptT; rw [h], fun ct k h => ?_⟩
  have hk : k.length = 32 := by
    unfold encapT at h
    split at h
    · cases h
    · cases hm : mapInputsToWires inputs (inputSignals (jsParseSymFile sym) none) with
      | error e => rw [hm] at h; cases h
      | ok m =>
        rw [hm] at h
        simp only at h
        cases hf : fillWitness m 1 (maxKey m) with
        | error e => rw [hf] at h; cases h
        | ok zs =>
          rw [hf] at h
          simp only at h
          have := (wasmEncapT_ok M S _ _ _ _).1 h
          unfold wasmEncap at this
          obtain ⟨r, -, this⟩ := Res.bind_eq_ok.1 this
          obtain ⟨vals, -, this⟩ := Res.bind_eq_ok.1 this
          obtain ⟨res, -, this⟩ := Res.bind_eq_ok.1 this
          cases this
          exact res.2.len
  unfold encryptT
  rw [h]
  simp only [aesGcmEncryptT, ne_eq, hk, not_true_eq_false, if_false]
  refine ⟨fun hl => by rw [if_pos hl], fun hl => ?_⟩
  rw [if_neg (by omega)]
  refine ⟨fun e hi he => by simp only [hi, if_true, he], fun hs => ?_⟩
  cases incl with
  | false => exact ⟨_, by simp only [Bool.false_eq_true, if_false]; rfl⟩
  | true =>
    obtain ⟨s, hs⟩ := hs rfl
    exact ⟨_, by simp only [if_true, hs]; rfl⟩

/-! ## Handlers -/

theorem stringify_error {inputs : List (Str × JsVal)} {e : Fault} (h : jsonStringify inputs = .error e) : e = .err "TypeError" := by
  unfold jsonStringify at h
  obtain ⟨h1, h2⟩ := jsonFields_outcome inputs
  by_cases hb : HasBigFields inputs
  · rw [h1 hb] at h; cases h; rfl
  · obtain ⟨ts, ht⟩ := h2 hb
    rw [ht] at h; cases h

/-- **C103** (`encrypt`, with the engine's JSON text) — after `encap` succeeded: `OperationError` exactly for a message beyond the limit, otherwise `TypeError` exactly if the
public input is to be embedded and has a `BigInt` in it, otherwise the call succeeds with the key of `encap`. -/
theorem C103_encrypt_outcome (hS : S.stringify = jsonStringify) (initOk : Bool) (r1cs : Bytes) (sym : Str) (inputs : List (Str × JsVal)) (message : Bytes) (incl : Bool)
    (ρ : Rand Fr) (nonce ct k : Bytes) (h : encapT M S initOk r1cs sym inputs ρ = .ok (ct, k)) :
    (S.cipher.maxEnc .js < message.length → encryptT M S initOk r1cs sym inputs message incl ρ nonce = .error (.error (M.engine "OperationError"))) ∧
    (message.length ≤ S.cipher.maxEnc .js → incl = true → HasBigFields inputs →
      encryptT M S initOk r1cs sym inputs message incl ρ nonce = .error (.error (M.engine "TypeError"))) ∧
    (message.length ≤ S.cipher.maxEnc .js → (incl = true → ¬ HasBigFields inputs) →
      ∃ b, encryptT M S initOk r1cs sym inputs message incl ρ nonce = .ok (b, k)) := by
  obtain ⟨h1, h2⟩ := (C103_encrypt M S initOk r1cs sym inputs message incl ρ nonce).2 ct k h
  obtain ⟨g1, g2⟩ := C56_stringify_outcome inputs
  rw [← hS] at g1 g2
  exact ⟨h1, fun hl hi hb => (h2 hl).1 _ hi (g1 hb), fun hl hb => (h2 hl).2 fun hi => g2 (hb hi)⟩

/-- What `encrypt` throws that is no `Error` object is about the circuit file. -/
theorem encrypt_kind {r1cs : Bytes} {sym : Str} {inputs : List (Str × JsVal)} (hmax : JsSmall (jsParseSymFile sym) inputs) {message : Bytes} {incl : Bool} {ρ : Rand Fr}
    {nonce : Bytes} (hS : S.stringify = jsonStringify) {t : Thrown}
    (h : encryptT M S true r1cs sym inputs message incl ρ nonce = .error t) :
    (JsUsableLast (jsParseSymFile sym) inputs ∧ ∃ m, jsParseR1cs r1cs = .error (.err m) ∧ t = .text ("R1CS parse error: ".toList ++ M.rust m)) ∨
    ∃ m, t = .error m := by
  obtain ⟨-, h1, h2, h3⟩ := C103_encap M S r1cs sym inputs hmax ρ
  obtain ⟨g1, g2⟩ := C103_encrypt M S true r1cs sym inputs message incl ρ nonce
  by_cases hn : HasNull (jsParseSymFile sym) inputs
  · rw [g1 _ (h1 hn)] at h; cases h; exact .inr ⟨_, rfl⟩
  · by_cases hu : JsUsableLast (jsParseSymFile sym) inputs
    · obtain ⟨k1, k2, k4⟩ := h3 hu
      cases hp : jsParseR1cs r1cs with
      | error e =>
        cases e with
        | err m => rw [g1 _ (k1 m hp)] at h; cases h; exact .inl ⟨hu, m, rfl, rfl⟩
        | panic => rw [g1 _ (k2 hp)] at h; cases h; exact .inr ⟨_, rfl⟩
        | hang => exact absurd hp (C25_js_ends r1cs)
      | ok r =>
        refine .inr ?_
        by_cases hδ : ρ.delta = 0
        · rw [g1 _ ((k4 r hp).1 hδ)] at h; cases h; exact ⟨_, rfl⟩
        · obtain ⟨ct, k, hk, -⟩ := (k4 r hp).2 hδ
          obtain ⟨q1, q2⟩ := g2 ct k hk
          rcases Nat.lt_or_ge (S.cipher.maxEnc .js) message.length with hl | hl
          · rw [q1 hl] at h; cases h; exact ⟨_, rfl⟩
          · obtain ⟨q3, q4⟩ := q2 hl
            by_cases hs : incl = true → ∃ s, S.stringify inputs = .ok s
            · obtain ⟨b, hb⟩ := q4 hs
              rw [hb] at h; cases h
            · simp only [Classical.not_imp, not_exists] at hs
              cases hj : S.stringify inputs with
              | ok s => exact absurd hj (hs.2 s)
              | error e =>
                rw [q3 _ hs.1 hj, stringify_error (e := e) (by rw [← hS]; exact hj)] at h
                cases h
                exact ⟨_, rfl⟩
    · rw [g1 _ (h2 hn hu)] at h; cases h; exact .inr ⟨_, rfl⟩

/-- **C103** (the pages) — the playground and the page of the React guide show the library's own message for every failed encryption but one kind: where the input object is usable and
the circuit file cannot be read, which is reported by a string, they show "Encryption failed"; they can show this text for another reason only if that is the message. -/
theorem C103_page (r1cs : Bytes) (sym : Str) (inputs : List (Str × JsVal)) (hmax : JsSmall (jsParseSymFile sym) inputs) (message : Bytes) (incl : Bool) (ρ : Rand Fr)
    (nonce : Bytes) (hS : S.stringify = jsonStringify) (t : Thrown)
    (h : encryptT M S true r1cs sym inputs message incl ρ nonce = .error t) :
    ((JsUsableLast (jsParseSymFile sym) inputs ∧ ∃ m, jsParseR1cs r1cs = .error (.err m)) → pageText t = some "Encryption failed".toList ∧
      guideWorkerText t = some "Unknown error".toList ∧ apiWorkerText t = some none) ∧
    (¬ (JsUsableLast (jsParseSymFile sym) inputs ∧ ∃ m, jsParseR1cs r1cs = .error (.err m)) →
      ∃ m, t = .error m ∧ pageText t = some m ∧ guideWorkerText t = some m ∧ apiWorkerText t = some (some m)) := by
  constructor
  · rintro ⟨hu, m, hm⟩
    have := (C103_encrypt M S true r1cs sym inputs message incl ρ nonce).1 _ (((C103_encap M S r1cs sym inputs hmax ρ).2.2.2 hu).1 m hm)
    rw [h] at this
    cases this
    exact ⟨rfl, rfl, rfl⟩
  · intro hno
    rcases encrypt_kind M S hmax hS h with ⟨hu, m, hm, -⟩ | ⟨m, rfl⟩
    · exact absurd ⟨hu, m, hm⟩ hno
    · exact ⟨m, rfl, rfl, rfl, rfl⟩

/-- **C103** (the workers, `decrypt`) — the worker of the API reference posts no message at all (`undefined`), and that of the guide posts "Unknown error", exactly where a witness
was computed and the module of the library reports an error; for every other failure both post the message. -/
theorem C103_workers_decrypt {σ : Type} (N : JsNums) (initOk : Bool) (r1cs b : Bytes) (wasm : Res (CircuitWasm σ)) (inputs : List (Str × JsVal)) (hp : PlainTexts M wasm inputs)
    (t : Thrown) (h : decryptT M N S initOk r1cs wasm b inputs = .error t) :
    (apiWorkerText t = some none ↔ initOk = true ∧ ∃ p wtns m, (Layout b p ∨ Overrun b p) ∧ calculateWitness N wasm inputs = .ok wtns ∧
      wasmDecap S r1cs wtns p.witnessCt = .error (.err m)) ∧
    (apiWorkerText t = some none → guideWorkerText t = some "Unknown error".toList) ∧
    (∀ m, apiWorkerText t = some (some m) ↔ t = .error m) ∧ (∀ m, t = .error m → guideWorkerText t = some m) ∧
    (apiWorkerText t = none ↔ t = .never) := by
  have h3 := (C97_documented_handler M N S initOk r1cs b wasm inputs hp).2.2
  rw [h] at h3
  rw [← h3]
  cases t with
  | error m =>
    refine ⟨⟨nofun, fun h => ?_⟩, nofun, fun m' => ⟨fun h => ?_, fun h => ?_⟩, fun m' h => ?_, nofun, nofun⟩
    · rw [report_error] at h
      split at h
      · cases h
      · split at h <;> cases h
    · cases h; rfl
    · cases h; rfl
    · cases h; rfl
  | text s => exact ⟨⟨fun _ => rfl, fun _ => rfl⟩, fun _ => rfl, fun m => ⟨nofun, nofun⟩, nofun, nofun, nofun⟩
  | never => exact ⟨⟨nofun, nofun⟩, nofun, fun m => ⟨nofun, nofun⟩, nofun, fun _ => rfl, fun _ => rfl⟩

end Zkenc.Props
