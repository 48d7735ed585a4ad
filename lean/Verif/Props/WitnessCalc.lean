import Verif.Proofs.WitnessCalc
/-!
# C52, C53: the witness calculator's signal hash and input checks
-/

namespace Zkenc.Props

open Zkenc CalcSpec

/-! ## C52 -/

/-- **C52** — for every signal name the hash string has exactly 16 lower-case hexadecimal digits, whose value is the 64-bit FNV-1a hash of the
UTF-16 code units (the intermediate big integers never leave 64 bits, `repeat` never throws). -/
theorem C52_hash_is_fnv1a (name : Str) :
    ∃ h, fnvHash name = .ok h ∧ h.length = 16 ∧ (∀ c ∈ h, ('0' ≤ c ∧ c ≤ '9') ∨ ('a' ≤ c ∧ c ≤ 'f')) ∧
      hexValue h = (nameHash name).toNat := by
  obtain ⟨h, h1, h2, h3, h4⟩ := fnvHash_spec name
  refine ⟨h, h1, h2, fun c hc => h3 c hc, ?_⟩
  rw [← h4]
  clear h4 h2 h1
  have key : ∀ (s : Str) (a : Nat), (∀ c ∈ s, isLowHex c) →
      s.foldl (fun a c => 16 * a + (if c ≤ '9' then c.toNat - 48 else c.toNat - 87)) a =
        s.foldl (fun a c => 16 * a + (hexVal c).getD 0) a := by
    intro s
    induction s with
    | nil => intro a _; rfl
    | cons c s ih =>
      intro a hs
      have hc : (if c ≤ '9' then c.toNat - 48 else c.toNat - 87) = (hexVal c).getD 0 := by
        have h9 : c ≤ '9' ↔ c.toNat ≤ 57 := Iff.rfl
        have := hs c (by simp)
        unfold isLowHex at this
        unfold hexVal isDig digVal
        rcases this with h | h
        · rw [if_pos (h9.2 h.2), if_pos (by simp [h])]; rfl
        · rw [if_neg (by rw [h9]; omega), if_neg (by simp; omega), if_pos (by simp [h])]; rfl
      simp only [List.foldl_cons, hc]
      exact ih _ fun c hc => hs c (by simp [hc])
  exact key h 0 h3

/-- **C52** — the two numbers passed to the circuit are the high and low 32 bits of the hash: nothing is lost. -/
theorem C52_halves (name : Str) :
    hashHalves name = .ok ((nameHash name).toNat / 2 ^ 32, (nameHash name).toNat % 2 ^ 32) := hashHalves_eq name

/-- **C52** — two names are the same signal for the circuit exactly if their hashes are equal. -/
theorem C52_same_signal_iff (a b : Str) : hashHalves a = hashHalves b ↔ nameHash a = nameHash b := by
  rw [hashHalves_eq, hashHalves_eq]
  constructor
  · intro h
    simp only [Except.ok.injEq, Prod.mk.injEq] at h
    rw [← UInt64.toNat_inj, ← Nat.div_add_mod (nameHash a).toNat (2 ^ 32), h.1, h.2, Nat.div_add_mod]
  · intro h; rw [h]

/-- **C52** (ASCII names) — for names of ASCII characters, which is what circom allows, the hash is FNV-1a of the bytes of the name, so it
agrees with the hash computed by the circom compiler. -/
theorem C52_ascii (name : Str) (h : ∀ c ∈ name, c.toNat < 128) :
    nameHash name = fnv1a (name.map fun c => UInt64.ofNat c.toNat) := by
  rw [nameHash]
  congr 1
  induction name with
  | nil => rfl
  | cons c s ih =>
    have hc := h c (by simp)
    have := ih fun d hd => h d (by simp [hd])
    rw [utf16, List.flatMap_cons, if_pos (by omega), List.map_append, List.map_cons, List.map_nil, List.map_cons, List.singleton_append]
    rw [utf16] at this
    rw [this]

/-- Published test vector: FNV-1a of the one-letter name `a`. -/
example : nameHash ['a'] = 0xaf63dc4c8601ec8c := by decide

/-- Names outside the Basic Multilingual Plane contribute two code units. -/
example : utf16 ['a', Char.ofNat 0x1F600] = [97, 0xD83D, 0xDE00] := by decide

/-! ## C53 -/

/-- **C53** (flattening) — a value is accepted exactly if all its leaves (reached through arrays of any depth) stand for integers, and
then the result lists them in row-major order; otherwise an exception is thrown. -/
theorem C53_flatten (N : JsNums) (v : JsVal) :
    (∀ zs, flatArray N v = .ok zs ↔ List.Forall₂ (IsInt N) (leaves v) zs) ∧
      ((∃ zs, flatArray N v = .ok zs) ∨ ∃ e, flatArray N v = .error (.err e)) := by
  refine ⟨flatArray_ok_iff N v, ?_⟩
  have hg := flatArray_graceful N v
  cases h : flatArray N v with
  | ok zs => exact Or.inl ⟨zs, rfl⟩
  | error e =>
    rw [h] at hg
    cases e with
    | err m => exact Or.inr ⟨m, rfl⟩
    | panic => exact absurd rfl hg.1
    | hang => exact absurd rfl hg.2

theorem leavesList_scalars (l : List Int) : leavesList (l.map JsVal.bigint) = l.map JsVal.bigint := by
  induction l with
  | nil => rfl
  | cons x xs ih => simp [leavesList, leaves, ih]

/-- **C53** (row-major) — a matrix given as an array of rows of `m` numbers becomes a list in which entry `(i, j)` is at `i·m + j`. -/
theorem C53_row_major (N : JsNums) (rows : List (List Int)) (m : Nat) (hm : ∀ r ∈ rows, r.length = m) :
    ∃ zs, flatArray N (.arr (rows.map fun r => .arr (r.map .bigint))) = .ok zs ∧ zs.length = rows.length * m ∧
      ∀ i j, i < rows.length → j < m → zs[i * m + j]? = rows[i]?.bind (fun r => r[j]?) := by
  have hleaves : leaves (.arr (rows.map fun r => .arr (r.map .bigint))) = rows.flatten.map JsVal.bigint := by
    rw [leaves]
    clear hm
    induction rows with
    | nil => rfl
    | cons r rows ih => rw [List.map_cons, leavesList, ih, leaves, leavesList_scalars]; simp
  refine ⟨rows.flatten, ?_, ?_, ?_⟩
  · rw [flatArray_ok_iff, hleaves, List.forall₂_map_left_iff]
    exact List.forall₂_same.2 fun z _ => IsInt.bigint z
  · clear hleaves
    induction rows with
    | nil => simp
    | cons r rows ih =>
      rw [List.flatten_cons, List.length_append, ih fun r hr => hm r (by simp [hr]), hm r (by simp), List.length_cons]
      ring
  · clear hleaves
    intro i j
    induction rows generalizing i with
    | nil => simp
    | cons r rows ih =>
      intro hi hj
      have hr := hm r (by simp)
      cases i with
      | zero => simp [List.getElem?_append_left, hr, hj]
      | succ i =>
        have := ih (fun r hr => hm r (by simp [hr])) i (by simpa using hi) hj
        rw [List.flatten_cons, List.getElem?_append_right (by rw [hr]; nlinarith), List.getElem?_cons_succ, ← this, hr]
        congr 1
        have : (i + 1) * m + j = m + (i * m + j) := by ring
        omega

section
variable {σ : Type} {N : JsNums} {x : CalcInst σ}

theorem perform_append (a b : List Setting) (s : σ) : perform x (a ++ b) s = (perform x a s >>= perform x b) := by
  induction a generalizing s with
  | nil => rfl
  | cons t a ih =>
    simp only [List.cons_append, perform]
    cases x.setInput s (limbs x.n32 (t.value % x.prime).toNat) (t.hash.toNat / 2 ^ 32) (t.hash.toNat % 2 ^ 32) t.index with
    | error e => rfl
    | ok s' => exact ih s'

theorem setValues_eq (hp : x.prime ≠ 0) (h : UInt64) (zs : List Int) (i : Nat) (s : σ) (c : Nat) :
    setValues x (h.toNat / 2 ^ 32) (h.toNat % 2 ^ 32) zs i s c =
      (perform x ((zs.zipIdx i).map fun p => ⟨h, p.2, p.1⟩) s >>= fun s' => .ok (s', c + zs.length)) := by
  induction zs generalizing i s c with
  | nil => rfl
  | cons z zs ih =>
    rw [setValues, if_neg hp, value_memory x hp]
    simp only [List.zipIdx_cons, List.map_cons, perform]
    cases x.setInput s (limbs x.n32 (z % x.prime).toNat) (h.toNat / 2 ^ 32) (h.toNat % 2 ^ 32) i with
    | error e => rfl
    | ok s' =>
      simp only [Res.ok_bind]
      rw [ih]
      simp only [List.length_cons, show c + 1 + zs.length = c + (zs.length + 1) by omega]

/-- What is required of each key. -/
def KeyOk (N : JsNums) (x : CalcInst σ) (k : Str) (v : JsVal) (zs : List Int) : Prop :=
  List.Forall₂ (IsInt N) (leaves v) zs ∧
    x.signalSize ((nameHash k).toNat / 2 ^ 32) ((nameHash k).toNat % 2 ^ 32) = zs.length

theorem setKeys_ok_iff (hp : x.prime ≠ 0) (input : List (Str × JsVal)) (s : σ) (c : Nat) (r : σ × Nat) :
    setKeys N x input s c = .ok r ↔
      ∃ zss : List (List Int), List.Forall₂ (fun e zs => KeyOk N x e.1 e.2 zs) input zss ∧
        perform x ((input.zip zss).map fun e => keySettings e.1.1 e.2).flatten s = .ok r.1 ∧ r.2 = c + (zss.map List.length).sum := by
  induction input generalizing s c with
  | nil =>
    simp only [setKeys, List.forall₂_nil_left_iff]
    constructor
    · intro h; cases h; exact ⟨[], rfl, rfl, by simp⟩
    · rintro ⟨zss, rfl, h1, h2⟩
      obtain ⟨a, b⟩ := r
      simp only [List.zip_nil_left, List.map_nil, List.flatten_nil, perform, Except.ok.injEq, List.sum_nil, Nat.add_zero] at h1 h2
      rw [h1, h2]
  | cons e input ih =>
    obtain ⟨k, v⟩ := e
    rw [setKeys, hashHalves_eq, Res.ok_bind]
    simp only
    constructor
    · intro h
      obtain ⟨zs, hz, h⟩ := Res.bind_eq_ok.1 h
      split at h
      · cases h
      rename_i h0
      split at h
      · cases h
      rename_i h1
      split at h
      · cases h
      rename_i h2
      have hk : KeyOk N x k v zs := ⟨(flatArray_ok_iff N v zs).1 hz, by omega⟩
      rw [setValues_eq hp] at h
      obtain ⟨q, hq, h⟩ := Res.bind_eq_ok.1 h
      obtain ⟨s', hs', hq⟩ := Res.bind_eq_ok.1 hq
      cases hq
      obtain ⟨zss, hf, hper, hc⟩ := (ih _ _).1 h
      refine ⟨zs :: zss, List.Forall₂.cons hk hf, ?_, by simp only [List.map_cons, List.sum_cons]; omega⟩
      simp only [List.zip_cons_cons, List.map_cons, List.flatten_cons]
      rw [perform_append]
      have : perform x (keySettings k zs) s = .ok s' := hs'
      rw [this]
      exact hper
    · rintro ⟨zss, hf, hper, hc⟩
      cases hf with
      | @cons _ zs _ zss hk hf =>
        simp only [List.zip_cons_cons, List.map_cons, List.flatten_cons, perform_append, List.sum_cons] at hper hc
        obtain ⟨s', hs', hper⟩ := Res.bind_eq_ok.1 hper
        rw [(flatArray_ok_iff N v zs).2 hk.1, Res.ok_bind]
        have hsz := hk.2
        simp only at hsz
        rw [if_neg (by omega), if_neg (by omega), if_neg (by omega), setValues_eq hp]
        have : perform x ((zs.zipIdx 0).map fun p => ⟨nameHash k, p.2, p.1⟩) s = .ok s' := hs'
        rw [this]
        simp only [Res.ok_bind]
        exact (ih _ _).2 ⟨zss, hf, hper, by omega⟩

/-- **C53** (any compiled circuit) — the calculator goes through exactly if `init` succeeds, every key names an input signal (by its
hash) whose declared size is the number of flattened values, all of which are integers, the circuit accepts every single setting — in
order of keys and indices, each value reduced to `[0, p)` and passed as little-endian 32-bit limbs — and at least `getInputSize()`
values were set. -/
theorem C53_accepts_iff (hp : x.prime ≠ 0) (sanity : Bool) (input : List (Str × JsVal)) (s t : σ) :
    doCalculateWitness N x sanity input s = .ok t ↔
      ∃ s0, x.init sanity s = .ok s0 ∧ ∃ zss : List (List Int),
        List.Forall₂ (fun e zs => List.Forall₂ (IsInt N) (leaves e.2) zs ∧
          x.signalSize ((nameHash e.1).toNat / 2 ^ 32) ((nameHash e.1).toNat % 2 ^ 32) = zs.length) input zss ∧
        perform x ((input.zip zss).map fun e => keySettings e.1.1 e.2).flatten s0 = .ok t ∧
        x.inputSize ≤ (zss.map List.length).sum := by
  unfold doCalculateWitness
  constructor
  · intro h
    obtain ⟨s0, h0, h⟩ := Res.bind_eq_ok.1 h
    obtain ⟨r, hr, h⟩ := Res.bind_eq_ok.1 h
    split at h
    · cases h
    · rename_i hn
      cases h
      obtain ⟨zss, h1, h2, h3⟩ := (setKeys_ok_iff hp _ _ _ _).1 hr
      exact ⟨s0, h0, zss, h1, h2, by omega⟩
  · rintro ⟨s0, h0, zss, h1, h2, h3⟩
    rw [h0, Res.ok_bind, (setKeys_ok_iff hp input s0 0 (t, (zss.map List.length).sum)).2 ⟨zss, h1, h2, by simp⟩, Res.ok_bind,
      if_neg (by simp only; omega)]

end

/-! ### Circom circuits -/

section
variable {declared : List (Str × Nat)} {n32 : Nat} {prime : Nat → Int} {N : JsNums}

theorem circom_size (h : UInt64) :
    (circomInst declared n32 prime).signalSize (h.toNat / 2 ^ 32) (h.toNat % 2 ^ 32) =
      match declared.find? (fun d => nameHash d.1 = h) with
      | some d => (d.2 : Int)
      | none => -1 := by
  simp only [circomInst, Nat.div_add_mod']
  have : (fun d : Str × Nat => decide ((nameHash d.1).toNat = h.toNat)) = fun d => decide (nameHash d.1 = h) := by
    funext d
    simp only [UInt64.toNat_inj]
  rw [this]
  cases declared.find? (fun d => decide (nameHash d.1 = h)) <;> rfl

theorem circom_set (s : UInt64 → Nat → Option Nat) (mem : List Nat) (h : UInt64) (i : Nat) :
    (circomInst declared n32 prime).setInput s mem (h.toNat / 2 ^ 32) (h.toNat % 2 ^ 32) i =
      if (s h i).isSome then Res.fail "Signal already set" else
      .ok fun h' i' => if h' = h ∧ i' = i then some (fromArray32 mem.reverse) else s h' i' := by
  simp only [circomInst, Nat.div_add_mod', UInt64.ofNat_toNat]

/-- The key of a setting. -/
def Setting.at (t : Setting) : UInt64 × Nat := (t.hash, t.index)

theorem value_lt (x : CalcInst σ) (hp : x.prime ≠ 0) (z : Int) : (z % x.prime).toNat < 2 ^ (32 * x.n32) := by
  have h1 := x.prime_lt
  have h2 : z % (x.prime : Int) < x.prime := Int.emod_lt_of_pos z (by omega)
  have h3 := Int.emod_nonneg z (by omega : (x.prime : Int) ≠ 0)
  omega

theorem circom_perform (hp : (circomInst declared n32 prime).prime ≠ 0) (L : List Setting) (s t : UInt64 → Nat → Option Nat) :
    perform (circomInst declared n32 prime) L s = .ok t ↔
      (L.map Setting.at).Nodup ∧ (∀ u ∈ L, s u.hash u.index = none) ∧
      (∀ u ∈ L, t u.hash u.index = some (u.value % (circomInst declared n32 prime).prime).toNat) ∧
      ∀ h i, (h, i) ∉ L.map Setting.at → t h i = s h i := by
  induction L generalizing s with
  | nil =>
    simp only [perform, Except.ok.injEq, List.map_nil, List.nodup_nil, List.not_mem_nil, false_implies, implies_true, true_and,
      not_false_eq_true, forall_const]
    constructor
    · rintro rfl; exact fun _ _ => rfl
    · intro h; funext a b; exact (h a b).symm
  | cons u L ih =>
    have hmem : fromArray32 (limbs (circomInst declared n32 prime).n32 (u.value % (circomInst declared n32 prime).prime).toNat).reverse =
        (u.value % (circomInst declared n32 prime).prime).toNat := fromArray32_limbs _ _ (value_lt _ hp _)
    rw [perform, circom_set]
    cases hs : s u.hash u.index with
    | some v =>
      simp only [Option.isSome_some, if_true, Res.fail_bind]
      constructor
      · intro h; cases h
      · rintro ⟨-, h, -⟩
        have := h u (by simp)
        rw [hs] at this; cases this
    | none =>
      simp only [Option.isSome_none, Bool.false_eq_true, if_false, Res.ok_bind, hmem]
      rw [ih]
      constructor
      · rintro ⟨h1, h2, h3, h4⟩
        have hnin : Setting.at u ∉ L.map Setting.at := by
          intro hc
          obtain ⟨w, hw, he⟩ := List.mem_map.1 hc
          simp only [Setting.at, Prod.mk.injEq] at he
          have := h2 w hw
          simp [he.1, he.2] at this
        refine ⟨?_, ?_, ?_, ?_⟩
        · rw [List.map_cons, List.nodup_cons]; exact ⟨hnin, h1⟩
        · intro w hw
          rcases List.mem_cons.1 hw with rfl | hw
          · exact hs
          · have := h2 w hw
            split at this
            · cases this
            · exact this
        · intro w hw
          rcases List.mem_cons.1 hw with rfl | hw
          · rw [h4 _ _ hnin]; simp
          · exact h3 w hw
        · intro h i hn
          rw [List.map_cons, List.mem_cons, not_or] at hn
          rw [h4 h i hn.2, if_neg]
          rintro ⟨rfl, rfl⟩
          exact hn.1 rfl
      · rintro ⟨h1, h2, h3, h4⟩
        rw [List.map_cons, List.nodup_cons] at h1
        refine ⟨h1.2, ?_, fun w hw => h3 w (by simp [hw]), ?_⟩
        · intro w hw
          rw [if_neg]
          · exact h2 w (by simp [hw])
          · rintro ⟨ha, hb⟩
            exact h1.1 (List.mem_map.2 ⟨w, hw, by simp [Setting.at, ha, hb]⟩)
        · intro h i hn
          by_cases hc : h = u.hash ∧ i = u.index
          · rw [if_pos hc, hc.1, hc.2]; exact h3 u (by simp)
          · rw [if_neg hc]
            refine h4 h i ?_
            rw [List.map_cons, List.mem_cons, not_or]
            refine ⟨fun he => hc ?_, hn⟩
            simp only [Setting.at, Prod.mk.injEq] at he
            exact he


theorem circom_perform_exists (L : List Setting) (s : UInt64 → Nat → Option Nat)
    (hn : (L.map Setting.at).Nodup) (hs : ∀ u ∈ L, s u.hash u.index = none) :
    ∃ t, perform (circomInst declared n32 prime) L s = .ok t := by
  induction L generalizing s with
  | nil => exact ⟨s, rfl⟩
  | cons u L ih =>
    rw [List.map_cons, List.nodup_cons] at hn
    rw [perform, circom_set, hs u (by simp)]
    simp only [Option.isSome_none, Bool.false_eq_true, if_false, Res.ok_bind]
    refine ih _ hn.2 fun w hw => ?_
    rw [if_neg]
    · exact hs w (by simp [hw])
    · rintro ⟨ha, hb⟩
      exact hn.1 (List.mem_map.2 ⟨w, hw, by simp [Setting.at, ha, hb]⟩)

/-- All cells of the declared signals. -/
def cells (declared : List (Str × Nat)) : List (UInt64 × Nat) :=
  (declared.map fun d => (List.range d.2).map fun i => (nameHash d.1, i)).flatten

theorem mem_cells (h : UInt64) (i : Nat) : (h, i) ∈ cells declared ↔ ∃ d ∈ declared, nameHash d.1 = h ∧ i < d.2 := by
  simp only [cells, List.mem_flatten, List.mem_map, exists_exists_and_eq_and, List.mem_range, Prod.mk.injEq]
  constructor
  · rintro ⟨d, hd, j, hj, rfl, rfl⟩; exact ⟨d, hd, rfl, hj⟩
  · rintro ⟨d, hd, rfl, hi⟩; exact ⟨d, hd, i, hi, rfl, rfl⟩

theorem cells_length : (cells declared).length = (declared.map Prod.snd).sum := by
  simp only [cells, List.length_flatten, List.map_map]
  congr 1
  refine List.map_congr_left fun d _ => by simp

theorem cells_nodup (hd : (declared.map fun d => nameHash d.1).Nodup) : (cells declared).Nodup := by
  unfold cells
  rw [List.nodup_flatten]
  constructor
  · intro l hl
    simp only [List.mem_map] at hl
    obtain ⟨d, -, rfl⟩ := hl
    exact List.Nodup.map (fun a b h => by simpa using h) List.nodup_range
  · rw [List.pairwise_map]
    rw [List.Nodup, List.pairwise_map] at hd
    refine hd.imp fun hab => ?_
    rw [List.disjoint_left]
    rintro ⟨h, i⟩ h1 h2
    simp only [List.mem_map, Prod.mk.injEq] at h1 h2
    obtain ⟨-, -, rfl, -⟩ := h1
    obtain ⟨-, -, h3, -⟩ := h2
    exact hab h3.symm

theorem settings_at (l : List ((Str × JsVal) × List Int)) :
    ((l.map fun e => keySettings e.1.1 e.2).flatten).map Setting.at = cells (l.map fun e => (e.1.1, e.2.length)) := by
  simp only [cells, List.map_flatten, List.map_map]
  congr 1
  refine List.map_congr_left fun e _ => ?_
  simp only [Function.comp, keySettings, List.map_map]
  apply List.ext_getElem
  · simp
  · intro i h1 h2; simp [Setting.at]

theorem settings_length (l : List ((Str × JsVal) × List Int)) :
    ((l.map fun e => keySettings e.1.1 e.2).flatten).length = (l.map fun e => e.2.length).sum := by
  rw [List.length_flatten, List.map_map]
  congr 1
  refine List.map_congr_left fun e _ => by simp [keySettings]

theorem zip_lengths (input : List (Str × JsVal)) (zss : List (List Int)) (h : input.length = zss.length) :
    ((input.zip zss).map fun e => e.2.length).sum = (zss.map List.length).sum := by
  have : (input.zip zss).map (fun e => e.2.length) = ((input.zip zss).map Prod.snd).map List.length := by simp
  rw [this, List.map_snd_zip (by omega)]

theorem circom_size_iff (hd : (declared.map fun d => nameHash d.1).Nodup) (h : UInt64) (n : Nat) :
    (circomInst declared n32 prime).signalSize (h.toNat / 2 ^ 32) (h.toNat % 2 ^ 32) = n ↔ ∃ d ∈ declared, nameHash d.1 = h ∧ d.2 = n := by
  rw [circom_size]
  constructor
  · intro he
    split at he
    · rename_i d hf
      exact ⟨d, List.mem_of_find?_eq_some hf, by simpa using List.find?_some hf, by exact_mod_cast he⟩
    · omega
  · rintro ⟨d, hm, hh, rfl⟩
    cases hf : declared.find? (fun d => decide (nameHash d.1 = h)) with
    | none =>
      rw [List.find?_eq_none] at hf
      exact absurd hh (by simpa using hf d hm)
    | some d' =>
      have h1 : nameHash d'.1 = h := by simpa using List.find?_some hf
      have h2 := List.mem_of_find?_eq_some hf
      have : d' = d := List.inj_on_of_nodup_map hd h2 hm (by rw [h1, hh])
      rw [this]

/-- **C53** (Circom circuits) — let the input signals have different hashes and at least one value each. The calculator accepts an input
object exactly if every key has the hash of a declared signal and as many integers (after flattening) as that signal has values, no two
keys have the same hash, and every declared signal is given. -/
theorem C53_circom_accepts_iff (hp : (circomInst declared n32 prime).prime ≠ 0) (hd : (declared.map fun d => nameHash d.1).Nodup)
    (hpos : ∀ d ∈ declared, 0 < d.2) (sanity : Bool) (input : List (Str × JsVal)) (s : UInt64 → Nat → Option Nat) :
    (∃ t, doCalculateWitness N (circomInst declared n32 prime) sanity input s = .ok t) ↔
      (∀ e ∈ input, ∃ zs, List.Forall₂ (IsInt N) (leaves e.2) zs ∧ ∃ d ∈ declared, nameHash d.1 = nameHash e.1 ∧ d.2 = zs.length) ∧
      (input.map fun e => nameHash e.1).Nodup ∧
      ∀ d ∈ declared, ∃ e ∈ input, nameHash e.1 = nameHash d.1 := by
  constructor
  · rintro ⟨t, h⟩
    obtain ⟨s0, h0, zss, hf, hper, hsz⟩ := (C53_accepts_iff hp _ _ _ _).1 h
    have hlen := hf.length_eq
    cases h0
    obtain ⟨hn, -, -, -⟩ := (circom_perform hp _ _ _).1 hper
    have hzip : ∀ e zs, (e, zs) ∈ input.zip zss → List.Forall₂ (IsInt N) (leaves e.2) zs ∧
        ∃ d ∈ declared, nameHash d.1 = nameHash e.1 ∧ d.2 = zs.length := by
      intro e zs hm
      have := (List.forall₂_iff_zip.1 hf).2 hm
      exact ⟨this.1, (circom_size_iff hd _ _).1 this.2⟩
    have hex : ∀ e ∈ input, ∃ zs, (e, zs) ∈ input.zip zss := by
      intro e he
      obtain ⟨i, hi, rfl⟩ := List.mem_iff_getElem.1 he
      exact ⟨zss[i]'(by omega), List.mem_iff_getElem.2 ⟨i, by simp; omega, by simp⟩⟩
    rw [settings_at] at hn
    refine ⟨?_, ?_, ?_⟩
    · intro e he
      obtain ⟨zs, hm⟩ := hex e he
      exact ⟨zs, hzip e zs hm⟩
    · -- the cells (hash, 0) are pairwise different
      have h1 : ((input.zip zss).map fun e => nameHash e.1.1).Nodup := by
        unfold cells at hn
        rw [List.nodup_flatten, List.pairwise_map, List.pairwise_map] at hn
        rw [List.Nodup, List.pairwise_map]
        refine hn.2.imp_of_mem fun {a b} ha hb hdis heq => ?_
        obtain ⟨-, da, hda, -, hla⟩ := hzip a.1 a.2 ha
        obtain ⟨-, db, hdb, -, hlb⟩ := hzip b.1 b.2 hb
        have hpa := hpos da hda
        have hpb := hpos db hdb
        refine (List.disjoint_left.1 hdis : _) (List.mem_map.2 ⟨0, by simp; omega, rfl⟩ : (nameHash a.1.1, 0) ∈ _)
          (List.mem_map.2 ⟨0, by simp; omega, by rw [heq]⟩)
      have h2 : (input.zip zss).map (fun e => nameHash e.1.1) = ((input.zip zss).map Prod.fst).map fun e => nameHash e.1 := by simp
      rw [h2, List.map_fst_zip (by omega)] at h1
      exact h1
    · intro d hdm
      -- the set cells are among the declared cells, without repetition, and not fewer
      have hsub : cells ((input.zip zss).map fun e => (e.1.1, e.2.length)) ⊆ cells declared := by
        rintro ⟨h, i⟩ hm
        rw [mem_cells] at hm ⊢
        obtain ⟨q, hq, hh, hi⟩ := hm
        obtain ⟨⟨e, zs⟩, hm, rfl⟩ := List.mem_map.1 hq
        obtain ⟨-, d, hd1, hd2, hd3⟩ := hzip e zs hm
        simp only at hh hi
        exact ⟨d, hd1, hd2.trans hh, by omega⟩
      have hperm := (hn.subperm hsub).perm_of_length_le (by
        rw [cells_length, cells_length]
        have hz := zip_lengths input zss hlen
        simp only [List.map_map]
        have : (Prod.snd ∘ fun e : (Str × JsVal) × List Int => (e.1.1, e.2.length)) = fun e => e.2.length := rfl
        rw [this, hz]
        have : ((declared.map Prod.snd).sum : Nat) ≤ ((zss.map List.length).sum : Int) := hsz
        exact_mod_cast this)
      have hc : (nameHash d.1, 0) ∈ cells declared := (mem_cells _ _).2 ⟨d, hdm, rfl, hpos d hdm⟩
      rw [← hperm.mem_iff, mem_cells] at hc
      obtain ⟨q, hq, hh, -⟩ := hc
      obtain ⟨⟨e, zs⟩, hm, rfl⟩ := List.mem_map.1 hq
      exact ⟨e, (List.of_mem_zip hm).1, hh⟩
  · rintro ⟨h1, h2, h3⟩
    -- choose the values
    obtain ⟨zss, hf⟩ : ∃ zss : List (List Int), List.Forall₂ (fun e zs => List.Forall₂ (IsInt N) (leaves e.2) zs ∧
        ∃ d ∈ declared, nameHash d.1 = nameHash e.1 ∧ d.2 = zs.length) input zss := by
      clear h2 h3
      induction input with
      | nil => exact ⟨[], List.Forall₂.nil⟩
      | cons e input ih =>
        obtain ⟨zss, ih⟩ := ih fun e he => h1 e (by simp [he])
        obtain ⟨zs, hz⟩ := h1 e (by simp)
        exact ⟨zs :: zss, List.Forall₂.cons hz ih⟩
    have hlen := hf.length_eq
    have hzip : ∀ e zs, (e, zs) ∈ input.zip zss → List.Forall₂ (IsInt N) (leaves e.2) zs ∧
        ∃ d ∈ declared, nameHash d.1 = nameHash e.1 ∧ d.2 = zs.length := fun e zs hm => (List.forall₂_iff_zip.1 hf).2 hm
    have hn : (cells ((input.zip zss).map fun e => (e.1.1, e.2.length))).Nodup := by
      apply cells_nodup
      have he : ((input.zip zss).map fun e => (e.1.1, e.2.length)).map (fun d => nameHash d.1) =
          ((input.zip zss).map Prod.fst).map fun e => nameHash e.1 := by simp
      rw [he, List.map_fst_zip (by omega)]
      exact h2
    obtain ⟨t, ht⟩ := circom_perform_exists ((input.zip zss).map fun e => keySettings e.1.1 e.2).flatten (fun _ _ => none)
      (by rw [settings_at]; exact hn) (fun _ _ => rfl)
    refine ⟨t, (C53_accepts_iff hp _ _ _ _).2 ⟨_, rfl, zss, ?_, ht, ?_⟩⟩
    · exact hf.imp fun e zs h => ⟨h.1, (circom_size_iff hd _ _).2 h.2⟩
    · have hsub : cells declared ⊆ cells ((input.zip zss).map fun e => (e.1.1, e.2.length)) := by
        rintro ⟨h, i⟩ hm
        rw [mem_cells] at hm ⊢
        obtain ⟨d, hdm, hh, hi⟩ := hm
        obtain ⟨e, he, hhe⟩ := h3 d hdm
        obtain ⟨j, hj, rfl⟩ := List.mem_iff_getElem.1 he
        have hmz : (input[j], zss[j]'(by omega)) ∈ input.zip zss := List.mem_iff_getElem.2 ⟨j, by simp; omega, by simp⟩
        refine ⟨_, List.mem_map.2 ⟨_, hmz, rfl⟩, hhe.trans hh, ?_⟩
        obtain ⟨-, d', hd1, hd2, hd3⟩ := hzip _ _ hmz
        have : d' = d := List.inj_on_of_nodup_map hd hd1 hdm (by rw [hd2, hhe])
        subst this
        simp only
        omega
      have hle := ((cells_nodup hd).subperm hsub).length_le
      rw [cells_length, cells_length] at hle
      have hz := zip_lengths input zss hlen
      simp only [List.map_map] at hle
      have he : (Prod.snd ∘ fun e : (Str × JsVal) × List Int => (e.1.1, e.2.length)) = fun e => e.2.length := rfl
      rw [he, hz] at hle
      change ((declared.map Prod.snd).sum : Int) ≤ _
      exact_mod_cast hle

/-- **C53** (values) — after an accepted call the circuit holds, for every key and index, the given integer reduced to `[0, p)`, and
nothing else. -/
theorem C53_circom_values (hp : (circomInst declared n32 prime).prime ≠ 0)
    (sanity : Bool) (input : List (Str × JsVal)) (s t : UInt64 → Nat → Option Nat)
    (h : doCalculateWitness N (circomInst declared n32 prime) sanity input s = .ok t) (hash : UInt64) (i v : Nat) :
    t hash i = some v ↔ ∃ e ∈ input, nameHash e.1 = hash ∧ ∃ zs z, List.Forall₂ (IsInt N) (leaves e.2) zs ∧ zs[i]? = some z ∧
      (v : Int) = z % ((circomInst declared n32 prime).prime : Int) := by
  obtain ⟨s0, h0, zss, hf, hper, hsz⟩ := (C53_accepts_iff hp _ _ _ _).1 h
  have hlen := hf.length_eq
  cases h0
  obtain ⟨hn, -, h3, h4⟩ := (circom_perform hp _ _ _).1 hper
  have hpi : ((circomInst declared n32 prime).prime : Int) ≠ 0 := by exact_mod_cast hp
  have hmemL : ∀ u, u ∈ ((input.zip zss).map fun e => keySettings e.1.1 e.2).flatten ↔
      ∃ e zs, (e, zs) ∈ input.zip zss ∧ u.hash = nameHash e.1 ∧ zs[u.index]? = some u.value := by
    intro u
    simp only [List.mem_flatten, List.mem_map, exists_exists_and_eq_and, keySettings]
    constructor
    · rintro ⟨⟨e, zs⟩, hm, p, hp', rfl⟩
      exact ⟨e, zs, hm, rfl, by simpa using List.mem_zipIdx_iff_getElem?.1 hp'⟩
    · rintro ⟨e, zs, hm, h1, h2⟩
      exact ⟨(e, zs), hm, (u.value, u.index), List.mem_zipIdx_iff_getElem?.2 h2, by rw [← h1]⟩
  constructor
  · intro ht
    by_cases hc : (hash, i) ∈ (((input.zip zss).map fun e => keySettings e.1.1 e.2).flatten).map Setting.at
    · obtain ⟨u, hu, he⟩ := List.mem_map.1 hc
      simp only [Setting.at, Prod.mk.injEq] at he
      obtain ⟨rfl, rfl⟩ := he
      have := h3 u hu
      rw [ht] at this
      obtain ⟨e, zs, hm, h1, h2⟩ := (hmemL u).1 hu
      refine ⟨e, (List.of_mem_zip hm).1, h1.symm, zs, u.value, ((List.forall₂_iff_zip.1 hf).2 hm).1, h2, ?_⟩
      have hv : v = (u.value % ((circomInst declared n32 prime).prime : Int)).toNat := by simpa using this
      rw [hv, Int.toNat_of_nonneg (Int.emod_nonneg _ hpi)]
    · rw [h4 _ _ hc] at ht; cases ht
  · rintro ⟨e, he, rfl, zs, z, hz, hi, hv⟩
    obtain ⟨j, hj, rfl⟩ := List.mem_iff_getElem.1 he
    have hm : (input[j], zss[j]'(by omega)) ∈ input.zip zss := List.mem_iff_getElem.2 ⟨j, by simp; omega, by simp⟩
    have hzz : zss[j]'(by omega) = zs := forall2_isInt_unique ((List.forall₂_iff_zip.1 hf).2 hm).1 hz
    have hu := (hmemL ⟨nameHash input[j].1, i, z⟩).2 ⟨_, _, hm, rfl, by rw [hzz]; exact hi⟩
    have := h3 _ hu
    simp only at this
    rw [this, ← hv]
    simp

/-- Number conversions of a JS engine, on integers of at most 53 bits (all others rejected here). -/
def smallNums : JsNums := ⟨fun z => z, fun _ _ => rfl, fun _ => none⟩

/-- Limbs of 7. -/
def sevenLimb (j : Nat) : Int := if j = 0 then 7 else 0

/-- Non-vacuity: a circuit over the field with 7 elements with inputs `a` (one value) and `m` (2 × 2 values). -/
example : ∃ t, doCalculateWitness smallNums (circomInst [(['a'], 1), (['m'], 4)] 1 sevenLimb) false
      [(['m'], .arr [.arr [.num 1, .num 2], .arr [.str ['3'], .num (-1)]]), (['a'], .bigint 9)] (fun _ _ => none) = .ok t ∧
    t (nameHash ['a']) 0 = some 2 ∧ t (nameHash ['m']) 3 = some 6 := by
  have hprime : (circomInst [(['a'], 1), (['m'], 4)] 1 sevenLimb).prime = 7 := by decide
  have hp : (circomInst [(['a'], 1), (['m'], 4)] 1 sevenLimb).prime ≠ 0 := by rw [hprime]; decide
  have h3 : IsInt smallNums (.str ['3']) 3 := IsInt.str _ _ (by decide)
  have hm : List.Forall₂ (IsInt smallNums) (leaves (.arr [.arr [.num 1, .num 2], .arr [.str ['3'], .num (-1)]])) [1, 2, 3, -1] :=
    .cons (.num 1) (.cons (.num 2) (.cons h3 (.cons (.num (-1)) .nil)))
  have ha : List.Forall₂ (IsInt smallNums) (leaves (.bigint 9)) [9] := .cons (.bigint 9) .nil
  obtain ⟨t, ht⟩ := (C53_circom_accepts_iff (N := smallNums) hp (by decide) (by decide) false
    [(['m'], .arr [.arr [.num 1, .num 2], .arr [.str ['3'], .num (-1)]]), (['a'], .bigint 9)] (fun _ _ => none)).2 (by
    refine ⟨?_, by simp only [List.map_cons, List.map_nil]; decide, ?_⟩
    · intro e he
      rcases List.mem_cons.1 he with rfl | he
      · exact ⟨_, hm, (['m'], 4), by simp, rfl, rfl⟩
      · rw [List.mem_singleton] at he
        subst he
        exact ⟨_, ha, (['a'], 1), by simp, rfl, rfl⟩
    · intro d hd
      rcases List.mem_cons.1 hd with rfl | hd
      · exact ⟨(['a'], .bigint 9), by simp, rfl⟩
      · rw [List.mem_singleton] at hd
        subst hd
        exact ⟨(['m'], .arr [.arr [.num 1, .num 2], .arr [.str ['3'], .num (-1)]]), by simp, rfl⟩)
  refine ⟨t, ht, ?_, ?_⟩
  · refine (C53_circom_values hp _ _ _ _ ht _ _ _).2 ⟨(['a'], .bigint 9), by simp, rfl, _, 9, ha, rfl, ?_⟩
    rw [hprime]; decide
  · refine (C53_circom_values hp _ _ _ _ ht _ _ _).2 ⟨(['m'], _), List.mem_cons_self, rfl, _, -1, hm, rfl, ?_⟩
    rw [hprime]; decide

/-- Non-vacuity: a missing signal is noticed. -/
example : ¬∃ t, doCalculateWitness smallNums (circomInst [(['a'], 1), (['b'], 1)] 1 sevenLimb) false [(['a'], .bigint 9)]
    (fun _ _ => none) = .ok t := by
  have hprime : (circomInst [(['a'], 1), (['b'], 1)] 1 sevenLimb).prime = 7 := by decide
  rw [C53_circom_accepts_iff (by rw [hprime]; decide) (by decide) (by decide)]
  rintro ⟨-, -, h⟩
  obtain ⟨e, he, hh⟩ := h (['b'], 1) (by simp)
  rw [List.mem_singleton] at he
  subst he
  revert hh
  decide

end

end Zkenc.Props
