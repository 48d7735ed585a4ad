import Verif.Proofs.WtnsParse
import Mathlib.Algebra.Ring.Parity
/-!
# Lemmas about the JS `.wtns` parser
-/

namespace Zkenc

open WtnsFormat

theorem jsAt32_at {data : Bytes} {pos v : Nat} (h : At data pos (u32le v)) (hv : v < 2 ^ 32) : jsAt32 data pos = .ok v := by
  obtain ⟨h1, h2⟩ := h
  rw [u32le_length] at h1 h2
  simp only [jsAt32, if_pos h1, h2, leNat_u32le hv]

theorem jsAt64_at {data : Bytes} {pos v : Nat} (h : At data pos (u64le v)) (hv : v < 2 ^ 64) : jsAt64 data pos = .ok v := by
  obtain ⟨h1, h2⟩ := h
  rw [u64le_length] at h1 h2
  simp only [jsAt64, if_pos h1, h2, leNat_u64le hv]

theorem jsSliceAt_inside {data : Bytes} {pos n : Nat} (h : pos + n ≤ data.length) (hl : data.length < 2 ^ 31) :
    jsSliceAt data pos n = .ok (slice data pos n) := by
  have hm : (pos + n) % 2 ^ 32 = pos + n := Nat.mod_eq_of_lt (by omega)
  simp only [jsSliceAt, hm]
  rw [if_neg (by omega)]

theorem jsSliceAt_outside {data : Bytes} {pos n : Nat} (h : ¬ pos + n ≤ data.length) (hn : n ≤ 32) (hp : pos < 2 ^ 32) : jsSliceAt data pos n = .error .panic := by
  simp only [jsSliceAt, Res.panic]
  rw [if_pos]
  by_cases hw : pos + n < 2 ^ 32
  · rw [Nat.mod_eq_of_lt hw]; omega
  · left
    rw [Nat.mod_eq_sub_mod (by omega), Nat.mod_eq_of_lt (by omega)]
    omega

/-- The field element the JS parser makes of a stored value. -/
def jsWtnsValue (v : Bytes) : Fr := ((leNat (v.take 32) : Nat) : Fr)

theorem jsWtnsValues_at {data : Bytes} (hl : data.length < 2 ^ 31) {n8 : Nat} (h0 : 0 < n8) (h8 : n8 < 2 ^ 31) (vs : List Bytes)
    (hv : ∀ v ∈ vs, v.length = n8) (pos fuel : Nat) (acc : List Fr) (ha : At data pos vs.flatten) (hf : vs.length < fuel) :
    jsWtnsValues data n8 (pos + vs.flatten.length) fuel pos acc = .ok (acc ++ vs.map jsWtnsValue) := by
  induction vs generalizing pos fuel acc with
  | nil =>
    obtain ⟨f, rfl⟩ : ∃ f, fuel = f + 1 := ⟨fuel - 1, by simp at hf; omega⟩
    have hp := ha.1
    simp only [List.flatten_nil, List.length_nil, Nat.add_zero] at hp
    have hm : (pos + n8) % 2 ^ 32 = pos + n8 := Nat.mod_eq_of_lt (by omega)
    simp only [jsWtnsValues, hm, List.flatten_nil, List.length_nil, Nat.add_zero]
    rw [if_neg (by omega)]
    simp
  | cons v vs ih =>
    obtain ⟨f, rfl⟩ : ∃ f, fuel = f + 1 := ⟨fuel - 1, by simp at hf; omega⟩
    have hvl := hv v (by simp)
    rw [List.flatten_cons] at ha
    obtain ⟨h1, h2⟩ := At.append.1 ha
    rw [hvl] at h2
    have hb := h1.1
    have hm : (pos + n8) % 2 ^ 32 = pos + n8 := Nat.mod_eq_of_lt (by omega)
    simp only [jsWtnsValues, hm, List.flatten_cons, List.length_append, hvl]
    rw [if_pos (by omega), jsSliceAt_inside (by omega) hl, Res.ok_bind]
    have hs : slice data pos (min n8 32) = v.take 32 := by
      have := h1.2
      rw [hvl] at this
      rw [← this]
      simp only [slice, List.take_take, Nat.min_comm]
    have := ih (fun w hw => hv w (by simp [hw])) (pos + n8) f (acc ++ [jsWtnsValue v]) h2 (by simp at hf; omega)
    rw [hs, ← Nat.add_assoc]
    unfold jsWtnsValue at this ⊢
    rw [this]
    simp

/-- What the JS parser knows after a list of sections: field size and values. -/
def jsApplySec (c : Content) : List Sec → Nat × List Fr → Nat × List Fr
  | [], st => st
  | .header :: s, st => jsApplySec c s (c.prime.length, st.2)
  | .data :: s, st => jsApplySec c s (st.1, st.2 ++ c.values.map jsWtnsValue)
  | .other _ _ :: s, st => jsApplySec c s st

/-- Every data section comes after a header section (`hdr`: one has been seen). -/
def DataAfterHeader : Bool → List Sec → Prop
  | _, [] => True
  | _, .header :: s => DataAfterHeader true s
  | hdr, .data :: s => hdr = true ∧ DataAfterHeader hdr s
  | hdr, .other _ _ :: s => DataAfterHeader hdr s

theorem secHeader_at {c : Content} {s : Sec} {data : Bytes} {pos : Nat} (hl : data.length < 2 ^ 31) (ht : s.ty < 2 ^ 32)
    (ha : At data pos (s.bytes c)) :
    jsAt32 data pos = .ok s.ty ∧ jsAt64 data (pos + 4) = .ok (s.payload c).length ∧ At data (pos + 12) (s.payload c) ∧
      (pos + 12 + (s.payload c).length % 2 ^ 32) % 2 ^ 32 = pos + (s.bytes c).length ∧
      (s.bytes c).length = 12 + (s.payload c).length := by
  have hlen : (s.bytes c).length = 12 + (s.payload c).length := by
    simp [Sec.bytes]; omega
  have hb := ha.1
  unfold Sec.bytes at ha
  obtain ⟨a1, a2⟩ := At.append.1 ha
  obtain ⟨a2, a3⟩ := At.append.1 a2
  rw [u32le_length] at a2 a3
  rw [u64le_length] at a3
  refine ⟨jsAt32_at a1 ht, jsAt64_at a2 (by omega), a3, ?_, hlen⟩
  rw [Nat.mod_eq_of_lt (a := (s.payload c).length) (by omega), Nat.mod_eq_of_lt (by omega)]
  omega

theorem jsWtnsSections_at {c : Content} (hf : Fits c) {data : Bytes} (hl : data.length < 2 ^ 31) {fuel : Nat}
    (hfuel : c.values.length < fuel) (secs : List Sec)
    (ho : ∀ t p, Sec.other t p ∈ secs → t < 2 ^ 32 ∧ t ≠ 1 ∧ t ≠ 2) (pos n8 : Nat) (acc : List Fr) (hdr : Bool)
    (hn8 : hdr = true → n8 = c.prime.length ∧ n8 < 2 ^ 31) (hd : DataAfterHeader hdr secs) (rest : Nat)
    (ha : At data pos (secs.map (Sec.bytes c)).flatten) :
    jsWtnsSections fuel data (secs.length + rest) pos n8 acc =
      jsWtnsSections fuel data rest (pos + (secs.map (Sec.bytes c)).flatten.length)
        (jsApplySec c secs (n8, acc)).1 (jsApplySec c secs (n8, acc)).2 := by
  induction secs generalizing pos n8 acc hdr with
  | nil => simp [jsApplySec]
  | cons s secs ih =>
    rw [List.map_cons, List.flatten_cons] at ha
    obtain ⟨a1, a2⟩ := At.append.1 ha
    have hty : s.ty < 2 ^ 32 := by
      cases s with
      | header => decide
      | data => decide
      | other t p => exact (ho t p (by simp)).1
    obtain ⟨e1, e2, e3, e4, e5⟩ := secHeader_at hl hty a1
    have hb := a1.1
    have hstep : (s :: secs).length + rest = (secs.length + rest) + 1 := by simp only [List.length_cons]; omega
    rw [hstep]
    simp only [jsWtnsSections, e1, e2, Res.ok_bind, e4, List.map_cons, List.flatten_cons, List.length_append]
    rw [← Nat.add_assoc]
    have ho' := fun t p (h : Sec.other t p ∈ secs) => ho t p (by simp [h])
    cases s with
    | header =>
      have a3 := e3
      simp only [Sec.payload] at a3
      obtain ⟨b1, b2⟩ := At.append.1 a3
      have h31 : c.prime.length < 2 ^ 31 := by
        have := (At.append.1 b2).1.1
        omega
      simp only [Sec.ty, if_true, jsAt32_at b1 hf.field, Res.ok_bind, jsApplySec]
      exact ih ho' (pos + (Sec.header.bytes c).length) c.prime.length acc true (fun _ => ⟨rfl, h31⟩) hd a2
    | data =>
      obtain ⟨h1, h2⟩ := hd
      obtain ⟨rfl, hlt⟩ := hn8 h1
      have hv := jsWtnsValues_at hl hf.fieldPos hlt c.values hf.len (pos + 12) fuel acc e3 hfuel
      have hend : pos + (Sec.data.bytes c).length = pos + 12 + c.values.flatten.length := by
        rw [e5]; simp only [Sec.payload]; omega
      simp only [Sec.ty, if_neg (show ¬ (2 = 1) by decide), if_true, jsApplySec]
      rw [hend, hv, Res.ok_bind, ← hend]
      exact ih ho' _ _ _ hdr hn8 h2 a2
    | other t p =>
      obtain ⟨h1, h2, h3⟩ := ho t p (by simp)
      have h2' : ¬ (Sec.other t p).ty = 1 := h2
      have h3' : ¬ (Sec.other t p).ty = 2 := h3
      rw [if_neg h2', if_neg h3']
      exact ih ho' _ _ _ hdr hn8 hd a2

theorem dataAfterHeader_append (hdr : Bool) (a b : List Sec) (hh : hdr = true ∨ Sec.header ∈ a) (hd : Sec.data ∉ a)
    (hb : DataAfterHeader true b) : DataAfterHeader hdr (a ++ b) := by
  induction a generalizing hdr with
  | nil =>
    rcases hh with rfl | h
    · exact hb
    · simp at h
  | cons s a ih =>
    have h' : Sec.data ∉ a := fun h => hd (by simp [h])
    cases s with
    | header => exact ih true (Or.inl rfl) h'
    | data => simp at hd
    | other t p => exact ih hdr (by simpa using hh) h'

theorem jsApplySec_noData (c : Content) (secs : List Sec) (hd : Sec.data ∉ secs) (st : Nat × List Fr) :
    jsApplySec c secs st = (if Sec.header ∈ secs then c.prime.length else st.1, st.2) := by
  induction secs generalizing st with
  | nil => simp [jsApplySec]
  | cons s secs ih =>
    have h' : Sec.data ∉ secs := fun h => hd (by simp [h])
    cases s with
    | header => rw [jsApplySec, ih h']; simp
    | data => simp at hd
    | other t p => rw [jsApplySec, ih h']; simp

theorem dataAfterHeader_noData (hdr : Bool) (secs : List Sec) (hd : Sec.data ∉ secs) : DataAfterHeader hdr secs := by
  induction secs generalizing hdr with
  | nil => trivial
  | cons s secs ih =>
    have h' : Sec.data ∉ secs := fun h => hd (by simp [h])
    cases s with
    | header => exact ih _ h'
    | data => simp at hd
    | other t p => exact ih _ h'

theorem jsApplySec_append (c : Content) (a b : List Sec) (st : Nat × List Fr) :
    jsApplySec c (a ++ b) st = jsApplySec c b (jsApplySec c a st) := by
  induction a generalizing st with
  | nil => rfl
  | cons s a ih => cases s <;> simp [jsApplySec, ih]

/-- The parser after a correct 12-byte preamble. -/
theorem jsParseWtnsFuel_eq (fuel : Nat) {data : Bytes} (h : wtnsPreamble data) :
    jsParseWtnsFuel fuel data = jsWtnsSections fuel data (leNat (slice data 8 4)) 12 0 [] := by
  obtain ⟨h1, h2, h3⟩ := h
  unfold jsParseWtnsFuel
  rw [if_neg (by rw [h2]; simp; omega)]
  simp only [jsAt32, if_pos (show 4 + 4 ≤ data.length by omega), Res.ok_bind, h3, if_pos (show 8 + 4 ≤ data.length by omega)]
  simp

/-! ## Termination -/

theorem jsWtnsValues_zero {data : Bytes} {sectionEnd pos : Nat} (h1 : pos ≤ sectionEnd) (h2 : pos ≤ data.length) (h3 : pos < 2 ^ 32)
    (fuel : Nat) (acc : List Fr) : jsWtnsValues data 0 sectionEnd fuel pos acc = .error .hang := by
  induction fuel generalizing acc with
  | zero => rfl
  | succ f ih =>
    have hm : (pos + 0) % 2 ^ 32 = pos := Nat.mod_eq_of_lt (by omega)
    simp only [jsWtnsValues, hm, if_pos h1, Nat.zero_min, jsSliceAt]
    rw [if_neg (by omega), Res.ok_bind]
    exact ih _

theorem jsSliceAt_cases (data : Bytes) (pos n : Nat) :
    jsSliceAt data pos n = .error .panic ∨
      jsSliceAt data pos n = .ok (slice data pos n) ∧ pos ≤ (pos + n) % 2 ^ 32 ∧ (pos + n) % 2 ^ 32 ≤ data.length := by
  unfold jsSliceAt
  by_cases h : (pos + n) % 2 ^ 32 < pos ∨ data.length < (pos + n) % 2 ^ 32
  · rw [if_pos h]; exact Or.inl rfl
  · rw [if_neg h]; exact Or.inr ⟨rfl, by omega, by omega⟩

theorem jsWtnsValues_hang_orbit {data : Bytes} {n8 sectionEnd : Nat} (fuel pos : Nat) (acc : List Fr) (hp : pos < 2 ^ 32)
    (h : jsWtnsValues data n8 sectionEnd fuel pos acc = .error .hang) (k : Nat) (hk : k < fuel) :
    (pos + k * n8) % 2 ^ 32 ≤ data.length := by
  induction fuel generalizing pos acc k with
  | zero => omega
  | succ f ih =>
    simp only [jsWtnsValues] at h
    split at h
    · rcases jsSliceAt_cases data pos (min n8 32) with he | ⟨he, h1, h2⟩
      · rw [he] at h; simp at h
      · rw [he, Res.ok_bind] at h
        cases k with
        | zero => rw [Nat.zero_mul, Nat.add_zero, Nat.mod_eq_of_lt hp]; omega
        | succ k =>
          have := ih _ _ (Nat.mod_lt _ (by decide)) h k (by omega)
          rw [Nat.add_mod, Nat.mod_mod, ← Nat.add_mod] at this
          rwa [show pos + (k + 1) * n8 = pos + n8 + k * n8 by ring]
    · simp at h

theorem jsWtnsValues_no_hang {data : Bytes} (hl : data.length < 2 ^ 31) {n8 sectionEnd : Nat} (h0 : n8 ≠ 0) (h8 : n8 < 2 ^ 32)
    (pos : Nat) (acc : List Fr) (hp : pos < 2 ^ 32) :
    jsWtnsValues data n8 sectionEnd (2 ^ 32 + 1) pos acc ≠ .error .hang := by
  intro h
  obtain ⟨j, m, hm, rfl⟩ := Nat.exists_eq_two_pow_mul_odd h0
  have hj : j < 32 := by
    by_contra hc
    have h1 : 2 ^ 32 ≤ 2 ^ j := Nat.pow_le_pow_right (by decide) (by omega)
    have h2 : 0 < m := hm.pos
    have : 2 ^ j * 1 ≤ 2 ^ j * m := Nat.mul_le_mul_left _ h2
    omega
  have hk : 2 ^ (31 - j) < 2 ^ 32 + 1 := by
    have : 2 ^ (31 - j) ≤ 2 ^ 31 := Nat.pow_le_pow_right (by decide) (by omega)
    omega
  have h1 := jsWtnsValues_hang_orbit _ pos acc hp h 0 (by decide)
  have h2 := jsWtnsValues_hang_orbit _ pos acc hp h (2 ^ (31 - j)) hk
  rw [Nat.zero_mul, Nat.add_zero, Nat.mod_eq_of_lt hp] at h1
  have h3 : 2 ^ (31 - j) * (2 ^ j * m) = 2 ^ 31 * m := by
    rw [← Nat.mul_assoc, ← Nat.pow_add]
    congr 2
    omega
  obtain ⟨t, rfl⟩ := hm
  rw [h3, show pos + 2 ^ 31 * (2 * t + 1) = (pos + 2 ^ 31) + 2 ^ 32 * t by ring, Nat.add_mul_mod_self_left,
    Nat.mod_eq_of_lt (by omega)] at h2
  omega

/-- More fuel does not change a result that is not `hang`. -/
theorem jsWtnsValues_stable {data : Bytes} {n8 sectionEnd : Nat} (f f' pos : Nat) (acc : List Fr) (hff : f ≤ f')
    (h : jsWtnsValues data n8 sectionEnd f pos acc ≠ .error .hang) :
    jsWtnsValues data n8 sectionEnd f' pos acc = jsWtnsValues data n8 sectionEnd f pos acc := by
  induction f generalizing f' pos acc with
  | zero => exact absurd rfl h
  | succ f ih =>
    obtain ⟨g, rfl⟩ : ∃ g, f' = g + 1 := ⟨f' - 1, by omega⟩
    simp only [jsWtnsValues] at h ⊢
    split
    · rename_i hc
      rw [if_pos hc] at h
      rcases jsSliceAt_cases data pos (min n8 32) with he | ⟨he, -, -⟩
      · rw [he]; rfl
      · rw [he, Res.ok_bind] at h ⊢
        rw [Res.ok_bind]
        exact ih g _ _ (by omega) h
    · rfl

theorem jsAt32_cases (data : Bytes) (pos : Nat) :
    jsAt32 data pos = .error .panic ∨ jsAt32 data pos = .ok (leNat (slice data pos 4)) ∧ pos + 4 ≤ data.length := by
  unfold jsAt32
  by_cases h : pos + 4 ≤ data.length
  · rw [if_pos h]; exact Or.inr ⟨rfl, h⟩
  · rw [if_neg h]; exact Or.inl rfl

theorem jsAt64_cases (data : Bytes) (pos : Nat) :
    jsAt64 data pos = .error .panic ∨ jsAt64 data pos = .ok (leNat (slice data pos 8)) ∧ pos + 8 ≤ data.length := by
  unfold jsAt64
  by_cases h : pos + 8 ≤ data.length
  · rw [if_pos h]; exact Or.inr ⟨rfl, h⟩
  · rw [if_neg h]; exact Or.inl rfl

theorem sectionEnd_mod (a b : Nat) : (a + b % 2 ^ 32) % 2 ^ 32 = (a + b) % 2 ^ 32 := by
  simp

/-- A hanging section loop has reached a data section while the field size was 0, and then no fuel is enough. -/
theorem jsWtnsSections_hang {data : Bytes} (hl : data.length < 2 ^ 31) (n k pos n8 : Nat) (acc : List Fr)
    (hat : JsSectionAt data k pos n8) (h8 : n8 < 2 ^ 32)
    (h : jsWtnsSections (2 ^ 32 + 1) data n pos n8 acc = .error .hang) :
    (∃ j p, k ≤ j ∧ j < k + n ∧ JsSectionAt data j p 0 ∧ typeAt data p = 2 ∧ p + 12 ≤ data.length ∧
      p + 12 ≤ (p + 12 + sizeAt data p) % 2 ^ 32) ∧
    ∀ fuel, jsWtnsSections fuel data n pos n8 acc = .error .hang := by
  induction n generalizing k pos n8 acc with
  | zero => simp [jsWtnsSections] at h
  | succ n ih =>
    simp only [jsWtnsSections] at h ⊢
    rcases jsAt32_cases data pos with e1 | ⟨e1, b1⟩
    · rw [e1] at h; simp at h
    rw [e1, Res.ok_bind] at h
    simp only [e1, Res.ok_bind]
    rcases jsAt64_cases data (pos + 4) with e2 | ⟨e2, b2⟩
    · rw [e2] at h; simp at h
    rw [e2, Res.ok_bind] at h
    simp only [e2, Res.ok_bind]
    have hty : typeAt data pos = leNat (slice data pos 4) := rfl
    have hsz : sizeAt data pos = leNat (slice data (pos + 4) 8) := rfl
    rw [← hty, ← hsz] at h ⊢
    simp only [sectionEnd_mod] at h ⊢
    by_cases t1 : typeAt data pos = 1
    · simp only [if_pos t1] at h ⊢
      rcases jsAt32_cases data (pos + 12) with e3 | ⟨e3, b3⟩
      · rw [e3] at h; simp at h
      simp only [e3, Res.ok_bind] at h ⊢
      have hlt : leNat (slice data (pos + 12) 4) < 2 ^ 32 := by
        have := leNat_lt (slice data (pos + 12) 4)
        rwa [slice_length (by omega)] at this
      obtain ⟨⟨j, p, hj1, hj2, hr⟩, hall⟩ := ih _ _ _ _ (JsSectionAt.header hat t1 (by omega)) hlt h
      exact ⟨⟨j, p, by omega, by omega, hr⟩, hall⟩
    · simp only [if_neg t1] at h ⊢
      by_cases t2 : typeAt data pos = 2
      · simp only [if_pos t2] at h ⊢
        by_cases z : n8 = 0
        · subst z
          by_cases hw : pos + 12 ≤ (pos + 12 + sizeAt data pos) % 2 ^ 32
          · refine ⟨⟨k, pos, by omega, by omega, hat, t2, by omega, hw⟩, fun fuel => ?_⟩
            rw [jsWtnsValues_zero hw (by omega) (by omega)]
            rfl
          · have hv : ∀ f, jsWtnsValues data 0 ((pos + 12 + sizeAt data pos) % 2 ^ 32) (f + 1) (pos + 12) acc = .ok acc := by
              intro f
              have hm : (pos + 12 + 0) % 2 ^ 32 = pos + 12 := Nat.mod_eq_of_lt (by omega)
              simp only [jsWtnsValues, hm, if_neg hw, Res.pure_eq]
            rw [hv (2 ^ 32), Res.ok_bind] at h
            obtain ⟨⟨j, p, hj1, hj2, hr⟩, hall⟩ := ih _ _ _ _ (JsSectionAt.other hat t1 (by omega)) h8 h
            refine ⟨⟨j, p, by omega, by omega, hr⟩, fun fuel => ?_⟩
            cases fuel with
            | zero => rfl
            | succ f => rw [hv f, Res.ok_bind]; exact hall _
        · have hnh := jsWtnsValues_no_hang hl (sectionEnd := (pos + 12 + sizeAt data pos) % 2 ^ 32) z h8 (pos + 12) acc (by omega)
          cases hv : jsWtnsValues data n8 ((pos + 12 + sizeAt data pos) % 2 ^ 32) (2 ^ 32 + 1) (pos + 12) acc with
          | error e => rw [hv] at h hnh; simp at h; exact absurd (by rw [h]) hnh
          | ok a =>
            rw [hv, Res.ok_bind] at h
            obtain ⟨⟨j, p, hj1, hj2, hr⟩, hall⟩ := ih _ _ _ _ (JsSectionAt.other hat t1 (by omega)) h8 h
            refine ⟨⟨j, p, by omega, by omega, hr⟩, fun fuel => ?_⟩
            by_cases hh : jsWtnsValues data n8 ((pos + 12 + sizeAt data pos) % 2 ^ 32) fuel (pos + 12) acc = .error .hang
            · rw [hh]; rfl
            · have : jsWtnsValues data n8 ((pos + 12 + sizeAt data pos) % 2 ^ 32) fuel (pos + 12) acc = .ok a := by
                rcases Nat.le_total fuel (2 ^ 32 + 1) with hle | hle
                · rw [← jsWtnsValues_stable _ _ _ _ hle hh, hv]
                · rw [jsWtnsValues_stable _ _ _ _ hle hnh, hv]
              rw [this, Res.ok_bind]
              exact hall _
      · simp only [if_neg t2] at h ⊢
        obtain ⟨⟨j, p, hj1, hj2, hr⟩, hall⟩ := ih _ _ _ _ (JsSectionAt.other hat t1 (by omega)) h8 h
        exact ⟨⟨j, p, by omega, by omega, hr⟩, hall⟩

/-- Up to the first data section the loop just follows the section chain. -/
theorem jsWtnsSections_walk {data : Bytes} {k pos n8 : Nat} (hat : JsSectionAt data k pos n8)
    (hno : ∀ j p m, j < k → JsSectionAt data j p m → typeAt data p ≠ 2) (fuel rest : Nat) (acc : List Fr) :
    jsWtnsSections fuel data (k + rest) 12 0 acc = jsWtnsSections fuel data rest pos n8 acc := by
  induction hat generalizing rest with
  | first => simp
  | header hat' h1 h2 ih =>
    rename_i k pos n8
    have := ih (fun j p m hj => hno j p m (by omega)) (rest + 1)
    rw [show k + 1 + rest = k + (rest + 1) by omega, this]
    have h1' : leNat (slice data pos 4) = 1 := h1
    simp only [jsWtnsSections, jsAt32, jsAt64]
    rw [if_pos (by omega), if_pos (by omega), if_pos (by omega)]
    simp only [Res.ok_bind, h1', if_true, sectionEnd_mod]
    rfl
  | other hat' h1 h2 ih =>
    rename_i k pos n8
    have := ih (fun j p m hj => hno j p m (by omega)) (rest + 1)
    rw [show k + 1 + rest = k + (rest + 1) by omega, this]
    have h1' : leNat (slice data pos 4) ≠ 1 := h1
    have h2' : leNat (slice data pos 4) ≠ 2 := hno k pos n8 (by omega) hat'
    simp only [jsWtnsSections, jsAt32, jsAt64]
    rw [if_pos (by omega), if_pos (by omega)]
    simp only [Res.ok_bind, if_neg h1', if_neg h2', sectionEnd_mod]
    rfl

/-! ## Truncation -/

theorem jsAt32_beyond {data : Bytes} {pos : Nat} (h : ¬ pos + 4 ≤ data.length) : jsAt32 data pos = .error .panic := by
  simp only [jsAt32, if_neg h, Res.panic]

theorem jsAt64_beyond {data : Bytes} {pos : Nat} (h : ¬ pos + 8 ≤ data.length) : jsAt64 data pos = .error .panic := by
  simp only [jsAt64, if_neg h, Res.panic]

theorem jsWtnsValues_cut {data : Bytes} (hl : data.length < 2 ^ 31) {n8 : Nat} (h0 : 0 < n8) (h8 : n8 ≤ 32) (vs : List Bytes)
    (hv : ∀ v ∈ vs, v.length = n8) (pos fuel : Nat) (acc : List Fr) (ha : At data pos vs.flatten) (hf : vs.length < fuel)
    (k : Nat) (hk1 : pos ≤ k) (hk2 : k < pos + vs.flatten.length) :
    jsWtnsValues (data.take k) n8 (pos + vs.flatten.length) fuel pos acc = .error .panic := by
  have hkl : k ≤ data.length := by have := ha.1; omega
  have htl : (data.take k).length = k := by simp; omega
  induction vs generalizing pos fuel acc with
  | nil => simp at hk2; omega
  | cons v vs ih =>
    obtain ⟨f, rfl⟩ : ∃ f, fuel = f + 1 := ⟨fuel - 1, by simp at hf; omega⟩
    have hvl := hv v (by simp)
    have hb := ha.1
    rw [List.flatten_cons] at ha
    obtain ⟨h1, h2⟩ := At.append.1 ha
    rw [hvl] at h2
    have hm : (pos + n8) % 2 ^ 32 = pos + n8 := Nat.mod_eq_of_lt (by omega)
    simp only [List.flatten_cons, List.length_append, hvl] at hk2 hb ⊢
    simp only [jsWtnsValues, hm]
    rw [if_pos (by omega), Nat.min_eq_left h8]
    by_cases hc : pos + n8 ≤ k
    · rw [jsSliceAt_inside (by rw [htl]; exact hc) (by rw [htl]; omega), Res.ok_bind, ← Nat.add_assoc]
      exact ih (fun w hw => hv w (by simp [hw])) _ _ _ h2 (by simp at hf; omega) hc (by omega)
    · rw [jsSliceAt_outside (by rw [htl]; exact hc) h8 (by omega)]
      rfl

theorem jsWtnsSections_cut {c : Content} (hf : Fits c) (hfs : c.prime.length ≤ 32) {data : Bytes} (hl : data.length < 2 ^ 31)
    {fuel : Nat} (hfuel : c.values.length < fuel) (secs : List Sec)
    (ho : ∀ t p, Sec.other t p ∈ secs → t < 2 ^ 32 ∧ t ≠ 1 ∧ t ≠ 2) (pos n8 : Nat) (acc : List Fr) (hdr : Bool)
    (hn8 : hdr = true → n8 = c.prime.length) (hd : DataAfterHeader hdr (secs ++ [Sec.data]))
    (ha : At data pos ((secs ++ [Sec.data]).map (Sec.bytes c)).flatten) (k : Nat) (hk1 : pos ≤ k)
    (hk2 : k < pos + ((secs ++ [Sec.data]).map (Sec.bytes c)).flatten.length) :
    jsWtnsSections fuel (data.take k) (secs.length + 1) pos n8 acc = .error .panic := by
  have hkl : k ≤ data.length := by have := ha.1; omega
  have htl : (data.take k).length = k := by simp; omega
  -- a section whose 12-byte header is cut panics
  have hcuthead : ∀ n pos n8 acc, ¬ pos + 12 ≤ k → jsWtnsSections fuel (data.take k) (n + 1) pos n8 acc = .error .panic := by
    intro n pos n8 acc hc
    simp only [jsWtnsSections]
    rcases jsAt32_cases (data.take k) pos with e1 | ⟨e1, b1⟩
    · rw [e1]; rfl
    · rw [e1, Res.ok_bind, jsAt64_beyond (by rw [htl]; omega)]; rfl
  induction secs generalizing pos n8 acc hdr with
  | nil =>
    simp only [List.nil_append, List.map_cons, List.map_nil, List.flatten_cons, List.flatten_nil, List.append_nil] at ha hk2
    obtain ⟨e1, e2, e3, e4, e5⟩ := secHeader_at hl (by decide) ha
    by_cases hc : pos + 12 ≤ k
    · obtain ⟨h1, -⟩ := hd
      have hn := hn8 h1
      subst hn
      have hh : At (data.take k) pos (u32le 2) := (At.take_iff (At.append.1 ha).1 hkl).2 (by simp; omega)
      have hh2 : At (data.take k) (pos + 4) (u64le c.values.flatten.length) := by
        have := (At.append.1 (At.append.1 ha).2).1
        rw [u32le_length] at this
        exact (At.take_iff this hkl).2 (by simp; omega)
      have hb := ha.1
      simp only [jsWtnsSections, List.length_nil, jsAt32_at hh (by decide), Res.ok_bind, if_neg (show ¬ 2 = 1 by decide), if_true]
      simp only [Sec.payload] at e3 e4 e5
      rw [jsAt64_at hh2 (by omega), Res.ok_bind, e4]
      have hend : pos + (Sec.data.bytes c).length = pos + 12 + c.values.flatten.length := by omega
      rw [hend, jsWtnsValues_cut hl hf.fieldPos hfs c.values hf.len _ _ _ e3 hfuel k hc (by omega)]
      rfl
    · exact hcuthead 0 pos n8 acc hc
  | cons s secs ih =>
    simp only [List.cons_append, List.map_cons, List.flatten_cons] at ha hk2
    obtain ⟨a1, a2⟩ := At.append.1 ha
    have hty : s.ty < 2 ^ 32 := by
      cases s with
      | header => decide
      | data => decide
      | other t p => exact (ho t p (by simp)).1
    have ho' := fun t p (h : Sec.other t p ∈ secs) => ho t p (by simp [h])
    obtain ⟨e1, e2, e3, e4, e5⟩ := secHeader_at hl hty a1
    by_cases hc : pos + 12 ≤ k
    · have hb := a1.1
      have hh : At (data.take k) pos (u32le s.ty) := (At.take_iff (At.append.1 a1).1 hkl).2 (by simp; omega)
      have hh2 : At (data.take k) (pos + 4) (u64le (s.payload c).length) := by
        have := (At.append.1 (At.append.1 a1).2).1
        rw [u32le_length] at this
        exact (At.take_iff this hkl).2 (by simp; omega)
      -- continuing behind the section
      have hcont : ∀ n8' acc' hdr', (hdr' = true → n8' = c.prime.length) → DataAfterHeader hdr' (secs ++ [Sec.data]) →
          jsWtnsSections fuel (data.take k) (secs.length + 1) (pos + (s.bytes c).length) n8' acc' = .error .panic := by
        intro n8' acc' hdr' h1 h2
        by_cases hin : pos + (s.bytes c).length ≤ k
        · exact ih ho' _ _ _ hdr' h1 h2 a2 hin (by rw [List.length_append] at hk2; omega)
        · exact hcuthead _ _ _ _ (by omega)
      have hstep : (s :: secs).length + 1 = (secs.length + 1) + 1 := by simp
      rw [hstep]
      simp only [jsWtnsSections, jsAt32_at hh hty, Res.ok_bind, jsAt64_at hh2 (show _ < 2 ^ 64 by omega), e4]
      cases s with
      | header =>
        simp only [Sec.ty, if_true]
        rcases jsAt32_cases (data.take k) (pos + 12) with e | ⟨e, b⟩
        · rw [e]; rfl
        · rw [htl] at b
          have a3 := (At.append.1 e3).1
          have a4 : At (data.take k) (pos + 12) (u32le c.prime.length) := (At.take_iff a3 hkl).2 (by simp; omega)
          rw [jsAt32_at a4 hf.field, Res.ok_bind]
          exact hcont _ _ true (fun _ => rfl) hd
      | data =>
        obtain ⟨h1, h2⟩ := hd
        have hn := hn8 h1
        subst hn
        simp only [Sec.ty, if_neg (show ¬ (2 = 1) by decide), if_true]
        simp only [Sec.payload] at e3 e5
        have hend : pos + (Sec.data.bytes c).length = pos + 12 + c.values.flatten.length := by omega
        by_cases hin : pos + (Sec.data.bytes c).length ≤ k
        · have hv := jsWtnsValues_at (data := data.take k) (by rw [htl]; omega) hf.fieldPos (by omega) c.values hf.len (pos + 12) fuel acc
            ((At.take_iff e3 hkl).2 (by omega)) hfuel
          rw [hend, hv, Res.ok_bind, ← hend]
          exact hcont _ _ hdr (fun _ => rfl) h2
        · rw [hend, jsWtnsValues_cut hl hf.fieldPos hfs c.values hf.len _ _ _ e3 hfuel k hc (by omega)]
          rfl
      | other t p =>
        obtain ⟨h1, h2, h3⟩ := ho t p (by simp)
        have h2' : ¬ (Sec.other t p).ty = 1 := h2
        have h3' : ¬ (Sec.other t p).ty = 2 := h3
        rw [if_neg h2', if_neg h3']
        exact hcont _ _ hdr hn8 hd
    · exact hcuthead _ pos n8 acc hc

end Zkenc
