import Verif.Model.WitnessCalcJs
import Verif.Props.Compose
/-!
# C59, C60: the witness functions, and the rewrite against the original
-/

namespace Zkenc.Props

open Zkenc CalcSpec

/-! ## C59 -/

section
variable {σ : Type} (N : JsNums)

/-- **C59** — `calculateWitness` and `calculateWitnessArray` fail together, with the same error; if they succeed, then the file that
`calculateWitness` returns contains exactly the integers that `calculateWitnessArray` returns and declares the field size, the prime and the
number of values that `getCircuitInfo` reports — for circuits over any field. -/
theorem C59_array_and_file (wasm : Res (CircuitWasm σ)) (inputs : List (Str × JsVal)) :
    (∀ e, calculateWitness N wasm inputs = .error e ↔ calculateWitnessArray N wasm inputs = .error e) ∧
    (∀ w, calculateWitness N wasm inputs = .ok w → ∃ a info, calculateWitnessArray N wasm inputs = .ok a ∧ getCircuitInfo wasm = .ok info ∧
      a.length = info.witnessSize ∧
      (0 < info.n32 → 0 < info.witnessSize → w.length < 2 ^ 31 →
        ∃ f, cliParseWtns w = .ok f ∧ f.prime.length = 4 * info.n32 ∧ leNat f.prime = info.prime ∧ f.nWitness = info.witnessSize ∧
          f.assignments.map leNat = a)) := by
  cases wasm with
  | error e =>
    refine ⟨fun e' => ?_, fun w h => by cases h⟩
    exact ⟨fun h => (by cases h; rfl), fun h => (by cases h; rfl)⟩
  | ok x =>
    unfold calculateWitness calculateWitnessArray getCircuitInfo
    simp only [Res.ok_bind]
    cases ht : doCalculateWitness N x.toCalcInst false inputs x.start with
    | error e => exact ⟨fun e' => ⟨fun h => (by cases h; rfl), fun h => (by cases h; rfl)⟩, fun w h => by cases h⟩
    | ok t =>
      simp only [Res.ok_bind]
      refine ⟨fun e => ⟨fun h => (by cases h), fun h => (by cases h)⟩, fun w h => ?_⟩
      cases h
      refine ⟨_, _, rfl, rfl, by simp [calcWitness, CircuitWasm.exports], fun hn hs hlen => ?_⟩
      obtain ⟨h1, h2⟩ := calcContent_fits (x.exports t) hn hlen
      have hne : (calcContent (x.exports t)).values ≠ [] := by
        have : 0 < (x.exports t).witnessSize := hs
        simp only [calcContent, ne_eq, List.map_eq_nil_iff, List.range_eq_nil]; omega
      have := C26_cli_inverts_format [] h1 h2 (by simp) (by simp) hne
      rw [calcWtnsBin_file]
      refine ⟨_, this, ?_, ?_, ?_, ?_⟩
      · simp only [calcContent, limbBytes_length, CircuitWasm.exports]
      · simp only [calcContent, leNat_limbBytes]
        rfl
      · simp [calcContent, CircuitWasm.exports]
      · simp only [calcContent, calcWitness, List.map_map]
        refine List.map_congr_left fun i _ => ?_
        simp only [Function.comp, leNat_limbBytes]

/-! ## C60 -/

mutual
theorem rawFill_eq : ∀ (v : JsVal) (res : List JsVal), rawFill v res = res ++ CalcSpec.leaves v
  | .arr l, res => by rw [rawFill, CalcSpec.leaves]; exact rawFills_eq l res
  | .null, res => by simp [rawFill, CalcSpec.leaves]
  | .undef, res => by simp [rawFill, CalcSpec.leaves]
  | .bool b, res => by simp [rawFill, CalcSpec.leaves]
  | .num n, res => by simp [rawFill, CalcSpec.leaves]
  | .numText s, res => by simp [rawFill, CalcSpec.leaves]
  | .bigint n, res => by simp [rawFill, CalcSpec.leaves]
  | .str s, res => by simp [rawFill, CalcSpec.leaves]
  | .obj l, res => by simp [rawFill, CalcSpec.leaves]
theorem rawFills_eq : ∀ (l : List JsVal) (res : List JsVal), rawFills l res = res ++ leavesList l
  | [], res => by simp [rawFills, leavesList]
  | v :: vs, res => by rw [rawFills, rawFill_eq v, rawFills_eq vs, leavesList, List.append_assoc]
end

theorem rawFlat_eq (v : JsVal) : rawFlat v = CalcSpec.leaves v := by rw [rawFlat, rawFill_eq]; rfl

variable {N} {x : CalcInst σ}

theorem rawSetValues_ok_iff (hM hL : Nat) (vs : List JsVal) (i : Nat) (s : σ) (c : Nat) (r : σ × Nat) :
    rawSetValues N x hM hL vs i s c = .ok r ↔ ∃ zs, List.Forall₂ (IsInt N) vs zs ∧ setValues x hM hL zs i s c = .ok r := by
  induction vs generalizing i s c with
  | nil =>
    simp only [rawSetValues, List.forall₂_nil_left_iff]
    exact ⟨fun h => ⟨[], rfl, h⟩, fun ⟨zs, hz, h⟩ => by subst hz; exact h⟩
  | cons v vs ih =>
    rw [rawSetValues]
    constructor
    · intro h
      obtain ⟨z, hz, h⟩ := Res.bind_eq_ok.1 h
      split at h
      · cases h
      rename_i hp
      obtain ⟨s', hs, h⟩ := Res.bind_eq_ok.1 h
      obtain ⟨zs, hf, h⟩ := (ih _ _ _).1 h
      refine ⟨z :: zs, .cons ((toBigInt_ok_iff N v z).1 hz) hf, ?_⟩
      rw [setValues, if_neg hp, hs, Res.ok_bind]
      exact h
    · rintro ⟨zs, hf, h⟩
      cases hf with
      | @cons _ z _ zs hz hf =>
        rw [setValues] at h
        split at h
        · cases h
        rename_i hp
        obtain ⟨s', hs, h⟩ := Res.bind_eq_ok.1 h
        rw [(toBigInt_ok_iff N v z).2 hz, Res.ok_bind, if_neg hp, hs, Res.ok_bind]
        exact (ih _ _ _).2 ⟨zs, hf, h⟩

theorem rawSetKeys_ok_iff (input : List (Str × JsVal)) (s : σ) (c : Nat) (r : σ × Nat) :
    rawSetKeys N x input s c = .ok r ↔ setKeys N x input s c = .ok r := by
  induction input generalizing s c with
  | nil => exact Iff.rfl
  | cons e input ih =>
    obtain ⟨k, v⟩ := e
    rw [rawSetKeys, setKeys, hashHalves_eq, Res.ok_bind, Res.ok_bind, rawFlat_eq]
    constructor
    · intro h
      split at h
      · cases h
      rename_i h0
      split at h
      · cases h
      rename_i h1
      split at h
      · cases h
      rename_i h2
      obtain ⟨q, hq, h⟩ := Res.bind_eq_ok.1 h
      obtain ⟨zs, hf, hq⟩ := (rawSetValues_ok_iff _ _ _ _ _ _ _).1 hq
      have hl := hf.length_eq
      rw [(flatArray_ok_iff N v zs).2 hf, Res.ok_bind, if_neg h0, if_neg (by omega), if_neg (by omega), hq, Res.ok_bind]
      exact (ih _ _).1 h
    · intro h
      obtain ⟨zs, hz, h⟩ := Res.bind_eq_ok.1 h
      have hf := (flatArray_ok_iff N v zs).1 hz
      have hl := hf.length_eq
      split at h
      · cases h
      rename_i h0
      split at h
      · cases h
      rename_i h1
      split at h
      · cases h
      rename_i h2
      obtain ⟨q, hq, h⟩ := Res.bind_eq_ok.1 h
      rw [if_neg h0, if_neg (by omega), if_neg (by omega), (rawSetValues_ok_iff _ _ _ _ _ _ _).2 ⟨zs, hf, hq⟩, Res.ok_bind]
      exact (ih _ _).2 h

/-- **C60** (inputs) — the rewrite, with the sanity check switched on, accepts the same inputs as the original and leaves the circuit in the
same state; for every compiled circuit. (Which error is reported can differ: the original converts values only when it sets them.) -/
theorem C60_same_state (input : List (Str × JsVal)) (s t : σ) :
    rawCalculate N x input s = .ok t ↔ doCalculateWitness N x true input s = .ok t := by
  unfold rawCalculate doCalculateWitness
  cases x.init true s with
  | error e => exact Iff.rfl
  | ok s0 =>
    simp only [Res.ok_bind]
    constructor
    · intro h
      obtain ⟨r, hr, h⟩ := Res.bind_eq_ok.1 h
      rw [(rawSetKeys_ok_iff _ _ _ _).1 hr, Res.ok_bind]
      exact h
    · intro h
      obtain ⟨r, hr, h⟩ := Res.bind_eq_ok.1 h
      rw [(rawSetKeys_ok_iff _ _ _ _).2 hr, Res.ok_bind]
      exact h

theorem u64le_split (n : Nat) (h : n < 2 ^ 32) : u64le n = u32le n ++ u32le 0 := by
  have : n / 256 / 256 / 256 / 256 = 0 := by omega
  simp only [u64le, u32le, leBytes, this, List.cons_append, List.nil_append]

theorem hexLength_eq (n : Nat) (h : n < 2 ^ 32) : hexLength n = u64le n := by
  obtain ⟨h1, h2, h3⟩ := natHex_spec n
  have hlen := h3 8 (by norm_num) (by norm_num at *; exact h)
  have hne : natHex n ≠ [] := by
    rw [natHex]; split <;> simp
  have ht : (natHex n).take 8 = natHex n := List.take_of_length_le hlen
  have hd : (natHex n).drop 8 = [] := List.drop_eq_nil_of_le hlen
  simp only [hexLength, ht, hd, List.take_nil, parseInt16_low _ h1 hne, h2, Option.getD_some]
  rw [u64le_split n h, Nat.mod_eq_of_lt h]
  rfl

/-- **C60** (file) — the original and the rewrite write the same `.wtns` bytes as long as the witness data is below 4 GiB. -/
theorem C60_same_bytes (x : CalcExports) (h1 : 8 + x.n32 * 4 < 2 ^ 32) (h : x.n32 * 4 * x.witnessSize < 2 ^ 32) :
    rawWtnsBin x = calcWtnsBin x := by
  unfold rawWtnsBin calcWtnsBin
  rw [hexLength_eq _ h1, hexLength_eq _ h]

/-- **C60** (limit) — at exactly 4 GiB (2^27 values of BN254) the original writes a wrong section length, the rewrite the right one. -/
theorem C60_original_limit (x : CalcExports) (hn : x.n32 = 8) (hw : x.witnessSize = 2 ^ 27) : rawWtnsBin x ≠ calcWtnsBin x := by
  have step : ∀ n, 16 ≤ n → natHex n = natHex (n / 16) ++ [hexChar (n % 16)] := by
    intro n hn
    rw [natHex, dif_neg (by omega)]
  have one : natHex 1 = ['1'] := by rw [natHex, dif_pos (by norm_num)]; rfl
  have hx : natHex (2 ^ 32) = ['1', '0', '0', '0', '0', '0', '0', '0', '0'] := by
    rw [step _ (by norm_num), step _ (by norm_num), step _ (by norm_num), step _ (by norm_num), step _ (by norm_num), step _ (by norm_num),
      step _ (by norm_num), step _ (by norm_num), show 2 ^ 32 / 16 / 16 / 16 / 16 / 16 / 16 / 16 / 16 = 1 by norm_num, one]
    decide
  have hp : hexLength (2 ^ 32) = u32le (2 ^ 28) ++ u32le 0 := by
    simp only [hexLength, hx]
    decide
  unfold rawWtnsBin calcWtnsBin
  rw [hn, hw, show 8 * 4 * 2 ^ 27 = 2 ^ 32 by norm_num, hp, hexLength_eq _ (by norm_num)]
  intro h
  simp only [List.append_cancel_left_eq] at h
  have h' := (List.append_inj h (by simp)).1
  revert h'
  decide

end

end Zkenc.Props
