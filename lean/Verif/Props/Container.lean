import Mathlib.Tactic.Ring
import Verif.Spec.Container
/-!
# C43–C46 (container level)
-/

namespace Zkenc.Props

open Zkenc Zkenc.ContainerSpec

theorem append_drop_len {α : Type} {a : List α} (b : List α) {n : Nat} (h : a.length = n) : (a ++ b).drop n = b := by
  rw [← h, List.drop_left]

theorem append_take_len {α : Type} {a : List α} (b : List α) {n : Nat} (h : a.length = n) : (a ++ b).take n = a := by
  rw [← h, List.take_left]

/-- A list of at least `n` entries is its first `n` entries followed by the rest. -/
theorem split_at_len (b : Bytes) (n : Nat) (h : n ≤ b.length) : ∃ x y, b = x ++ y ∧ x.length = n :=
  ⟨b.take n, b.drop n, (List.take_append_drop n b).symm, by rw [List.length_take]; omega⟩

theorem idxU32_eq (b : Bytes) (i : Nat) (h : i + 4 ≤ b.length) : idxU32 b i = .ok (beNat (slice b i 4)) := by
  obtain ⟨x, y, rfl, hx⟩ := split_at_len b i (by omega)
  rw [List.length_append] at h
  match y, h with
  | a :: b :: c :: d :: y, h =>
    have e0 : (x ++ a :: b :: c :: d :: y)[i]? = some a := by rw [List.getElem?_append_right (by omega)]; simp [hx]
    have e1 : (x ++ a :: b :: c :: d :: y)[i + 1]? = some b := by
      rw [List.getElem?_append_right (by omega), show i + 1 - x.length = 1 by omega]; rfl
    have e2 : (x ++ a :: b :: c :: d :: y)[i + 2]? = some c := by
      rw [List.getElem?_append_right (by omega), show i + 2 - x.length = 2 by omega]; rfl
    have e3 : (x ++ a :: b :: c :: d :: y)[i + 3]? = some d := by
      rw [List.getElem?_append_right (by omega), show i + 3 - x.length = 3 by omega]; rfl
    simp only [idxU32, idx, e0, e1, e2, e3, Res.ok_bind, slice, append_drop_len _ hx]
    rfl
  | [], h => simp at h; omega
  | [a], h => simp at h; omega
  | [a, b], h => simp at h; omega
  | [a, b, c], h => simp at h; omega

theorem viewU32_eq (b : Bytes) (i : Nat) (h : i + 4 ≤ b.length) : viewU32 b i = .ok (beNat (slice b i 4)) := by
  rw [viewU32, if_pos h]

/-- Every byte string is too short, or has a header with a witness length that overruns, or starts with a complete witness part. -/
theorem header_cases (b : Bytes) : b.length < 5 ∨
    (∃ f lw r, b = f :: (lw ++ r) ∧ lw.length = 4 ∧ r.length < beNat lw) ∨
    (∃ f lw w r, b = f :: (lw ++ (w ++ r)) ∧ lw.length = 4 ∧ beNat lw = w.length) := by
  by_cases h5 : b.length < 5
  · exact Or.inl h5
  right
  match b, h5 with
  | [], h => simp at h
  | f :: b, h =>
    simp only [List.length_cons] at h
    obtain ⟨lw, r, rfl, hl⟩ := split_at_len b 4 (by omega)
    by_cases hr : r.length < beNat lw
    · exact Or.inl ⟨f, lw, r, rfl, hl, hr⟩
    · obtain ⟨w, r', rfl, hw⟩ := split_at_len r (beNat lw) (by omega)
      exact Or.inr ⟨f, lw, w, r', rfl, hl, hw.symm⟩

/-- Every rest after the witness part is too short for a length, or has an overrunning public input, or a complete one. -/
theorem rest_cases (r : Bytes) : r.length < 4 ∨ (∃ lp p, r = lp ++ p ∧ lp.length = 4 ∧ p.length < beNat lp) ∨
    (∃ lp p m, r = lp ++ (p ++ m) ∧ lp.length = 4 ∧ beNat lp = p.length) := by
  by_cases h4 : r.length < 4
  · exact Or.inl h4
  right
  obtain ⟨lp, p, rfl, hl⟩ := split_at_len r 4 (by omega)
  by_cases hp : p.length < beNat lp
  · exact Or.inl ⟨lp, p, rfl, hl, hp⟩
  · obtain ⟨p', m, rfl, hp'⟩ := split_at_len p (beNat lp) (by omega)
    exact Or.inr ⟨lp, p', m, rfl, hl, hp'.symm⟩

section
variable {f : UInt8} {lw w r : Bytes} (hl : lw.length = 4)
include hl

theorem hdr_slice : slice (f :: (lw ++ r)) 1 4 = lw := by
  rw [slice, List.drop_succ_cons, List.drop_zero, append_take_len _ hl]

theorem hdr_w : slice (f :: (lw ++ (w ++ r))) 5 w.length = w := by
  have e : (lw ++ (w ++ r)).drop 4 = w ++ r := append_drop_len _ hl
  rw [slice, List.drop_succ_cons, e, append_take_len _ rfl]

theorem hdr_drop (n : Nat) : (f :: (lw ++ (w ++ r))).drop (5 + w.length + n) = r.drop n := by
  rw [show f :: (lw ++ (w ++ r)) = (f :: (lw ++ w)) ++ r by simp, ← List.drop_drop, append_drop_len]
  simp [hl]
  omega

theorem hdr_jsw : jsSlice (f :: (lw ++ (w ++ r))) 5 (5 + w.length) = w := by
  rw [jsSlice, List.drop_take, Nat.add_sub_cancel_left]
  exact hdr_w hl

end

theorem slice_def (b : Bytes) (i n : Nat) : slice b i n = (b.drop i).take n := rfl

theorem jsSlice_eq (b : Bytes) (i n : Nat) : jsSlice b i (i + n) = (b.drop i).take n := by
  rw [jsSlice, List.drop_take, Nat.add_sub_cancel_left]

/-- Evaluation of both unpackers on every kind of byte string. -/
theorem split_short (b : Bytes) (h : b.length < 5) : splitCli b = Res.fail "Invalid ciphertext: too short" ∧
    splitJs b = Res.fail "Invalid ciphertext: too short" ∧ publicInputBytes b = Res.fail "Invalid ciphertext: too short" := by
  simp only [splitCli, splitJs, publicInputBytes, if_pos h, and_self]

theorem split_overrun_w {f : UInt8} {lw r : Bytes} (hl : lw.length = 4) (hr : r.length < beNat lw) :
    splitCli (f :: (lw ++ r)) = Res.fail "Invalid ciphertext: witness length mismatch" ∧
    splitJs (f :: (lw ++ r)) = Res.fail "Invalid ciphertext: length mismatch" ∧
    (publicInputBytes (f :: (lw ++ r)) = Res.fail "Public inputs are not included in this ciphertext" ∨
      publicInputBytes (f :: (lw ++ r)) = Res.fail "Invalid ciphertext: length mismatch") := by
  have hlen : (f :: (lw ++ r)).length = 5 + r.length := by simp [hl]; omega
  have h4 : ¬ (f :: (lw ++ r)).length < 5 := by omega
  have hi := idxU32_eq (f :: (lw ++ r)) 1 (by omega)
  have hv := viewU32_eq (f :: (lw ++ r)) 1 (by omega)
  rw [hdr_slice hl] at hi hv
  have h0 : idx (f :: (lw ++ r)) 0 = .ok f := rfl
  have h0' : viewU8 (f :: (lw ++ r)) 0 = .ok f := rfl
  have hlt : (f :: (lw ++ r)).length < 5 + beNat lw := by omega
  simp only [splitCli, splitJs, publicInputBytes, if_neg h4, h0, h0', hi, hv, Res.ok_bind, if_pos hlt, true_and]
  split
  · exact Or.inl rfl
  · exact Or.inr rfl

theorem split_without {f : UInt8} {lw w m : Bytes} (hf : f ≠ 1) (hl : lw.length = 4) (hw : beNat lw = w.length) :
    splitCli (f :: (lw ++ (w ++ m))) = .ok ⟨f, w, none, m⟩ ∧ splitJs (f :: (lw ++ (w ++ m))) = .ok ⟨f, w, none, m⟩ ∧
    publicInputBytes (f :: (lw ++ (w ++ m))) = Res.fail "Public inputs are not included in this ciphertext" := by
  have hlen : (f :: (lw ++ (w ++ m))).length = 5 + w.length + m.length := by simp [hl]; omega
  have h4 : ¬ (f :: (lw ++ (w ++ m))).length < 5 := by omega
  have hi := idxU32_eq (f :: (lw ++ (w ++ m))) 1 (by omega)
  have hv := viewU32_eq (f :: (lw ++ (w ++ m))) 1 (by omega)
  rw [hdr_slice hl] at hi hv
  have h0 : idx (f :: (lw ++ (w ++ m))) 0 = .ok f := rfl
  have h0' : viewU8 (f :: (lw ++ (w ++ m))) 0 = .ok f := rfl
  have hge : ¬ (f :: (lw ++ (w ++ m))).length < 5 + w.length := by omega
  have e1 : idxRange (f :: (lw ++ (w ++ m))) 5 (5 + w.length) = .ok w := by
    rw [idxRange, if_pos (by omega), Nat.add_sub_cancel_left, hdr_w hl]
  have e2 : idxRange (f :: (lw ++ (w ++ m))) (5 + w.length) (f :: (lw ++ (w ++ m))).length = .ok m := by
    rw [idxRange, if_pos (by omega), slice_def, show 5 + w.length = 5 + w.length + 0 from rfl, hdr_drop hl, List.drop_zero,
      List.take_of_length_le (by omega)]
  have e3 : (f :: (lw ++ (w ++ m))).drop (5 + w.length) = m := by
    rw [show 5 + w.length = 5 + w.length + 0 from rfl, hdr_drop hl, List.drop_zero]
  simp only [splitCli, splitJs, publicInputBytes, if_neg h4, h0, h0', hi, hv, Res.ok_bind, hw, if_neg hge, e1, e2, e3, if_neg hf,
    if_pos hf, hdr_jsw hl, and_self]

theorem split_short_public {lw w r : Bytes} (hl : lw.length = 4) (hw : beNat lw = w.length) (hr : r.length < 4) :
    splitCli (1 :: (lw ++ (w ++ r))) = Res.fail "Invalid ciphertext: missing public input length" ∧
    splitJs (1 :: (lw ++ (w ++ r))) = Res.fail "Invalid ciphertext: missing public input length" ∧
    publicInputBytes (1 :: (lw ++ (w ++ r))) = Res.fail "Invalid ciphertext: missing public input length" := by
  have hlen : ((1 : UInt8) :: (lw ++ (w ++ r))).length = 5 + w.length + r.length := by simp [hl]; omega
  have h4 : ¬ ((1 : UInt8) :: (lw ++ (w ++ r))).length < 5 := by omega
  have hi := idxU32_eq (1 :: (lw ++ (w ++ r))) 1 (by omega)
  have hv := viewU32_eq (1 :: (lw ++ (w ++ r))) 1 (by omega)
  rw [hdr_slice hl] at hi hv
  have h0 : idx (1 :: (lw ++ (w ++ r))) 0 = .ok 1 := rfl
  have h0' : viewU8 (1 :: (lw ++ (w ++ r))) 0 = .ok 1 := rfl
  have hge : ¬ ((1 : UInt8) :: (lw ++ (w ++ r))).length < 5 + w.length := by omega
  have hlt : ((1 : UInt8) :: (lw ++ (w ++ r))).length < 5 + w.length + 4 := by omega
  have e1 : idxRange (1 :: (lw ++ (w ++ r))) 5 (5 + w.length) = .ok w := by
    rw [idxRange, if_pos (by omega), Nat.add_sub_cancel_left, hdr_w hl]
  simp only [splitCli, splitJs, publicInputBytes, if_neg h4, h0, h0', hi, hv, Res.ok_bind, hw, if_neg hge, e1, if_true, if_pos hlt,
    ne_eq, not_true_eq_false, if_false, and_self]

theorem split_public {lw w lp q : Bytes} (hl : lw.length = 4) (hw : beNat lw = w.length) (hlp : lp.length = 4) :
    splitCli (1 :: (lw ++ (w ++ (lp ++ q)))) = (if q.length < beNat lp then Res.fail "Invalid ciphertext: public input length mismatch" else
      .ok ⟨1, w, some (q.take (beNat lp)), q.drop (beNat lp)⟩) ∧
    splitJs (1 :: (lw ++ (w ++ (lp ++ q)))) = .ok ⟨1, w, some (q.take (beNat lp)), q.drop (beNat lp)⟩ ∧
    publicInputBytes (1 :: (lw ++ (w ++ (lp ++ q)))) = (if q.length < beNat lp then
      Res.fail "Invalid ciphertext: public input length mismatch" else .ok (q.take (beNat lp))) := by
  generalize hb : (1 : UInt8) :: (lw ++ (w ++ (lp ++ q))) = b
  have hlen : b.length = 5 + w.length + 4 + q.length := by rw [← hb]; simp [hl, hlp]; omega
  have h4 : ¬ b.length < 5 := by omega
  have hi := idxU32_eq b 1 (by omega)
  have hv := viewU32_eq b 1 (by omega)
  have hs : slice b 1 4 = lw := by rw [← hb, hdr_slice hl]
  rw [hs] at hi hv
  have h0 : idx b 0 = .ok 1 := by rw [← hb]; rfl
  have h0' : viewU8 b 0 = .ok 1 := by rw [← hb]; rfl
  have hge : ¬ b.length < 5 + w.length := by omega
  have hge4 : ¬ b.length < 5 + w.length + 4 := by omega
  have hd4 : b.drop (5 + w.length + 4) = q := by rw [← hb, hdr_drop hl, append_drop_len _ hlp]
  have e1 : idxRange b 5 (5 + w.length) = .ok w := by
    rw [idxRange, if_pos (by omega), Nat.add_sub_cancel_left, ← hb, hdr_w hl]
  have hs2 : slice b (5 + w.length) 4 = lp := by
    rw [slice_def, ← hb, show 5 + w.length = 5 + w.length + 0 from rfl, hdr_drop hl, List.drop_zero, append_take_len _ hlp]
  have hi2 := idxU32_eq b (5 + w.length) (by omega)
  have hv2 := viewU32_eq b (5 + w.length) (by omega)
  rw [hs2] at hi2 hv2
  have e2 : jsSlice b (5 + w.length + 4) (5 + w.length + 4 + beNat lp) = q.take (beNat lp) := by rw [jsSlice_eq, hd4]
  have e3 : b.drop (5 + w.length + 4 + beNat lp) = q.drop (beNat lp) := by rw [← List.drop_drop, hd4]
  have e4 : jsSlice b 5 (5 + w.length) = w := by rw [← hb, hdr_jsw hl]
  by_cases hq : q.length < beNat lp
  · have hlt : b.length < 5 + w.length + 4 + beNat lp := by omega
    simp only [splitCli, splitJs, publicInputBytes, if_neg h4, h0, h0', hi, hv, Res.ok_bind, hw, if_neg hge, if_neg hge4, e1, if_true,
      if_pos hlt, hi2, hv2, ne_eq, not_true_eq_false, if_false, e2, e3, e4, if_pos hq, and_self]
  · have hlt : ¬ b.length < 5 + w.length + 4 + beNat lp := by omega
    have e5 : idxRange b (5 + w.length + 4) (5 + w.length + 4 + beNat lp) = .ok (q.take (beNat lp)) := by
      rw [idxRange, if_pos (by omega), Nat.add_sub_cancel_left, slice_def, hd4]
    have e6 : idxRange b (5 + w.length + 4 + beNat lp) b.length = .ok (q.drop (beNat lp)) := by
      rw [idxRange, if_pos (by omega), slice_def, e3, List.take_of_length_le (by rw [List.length_drop]; omega)]
    simp only [splitCli, splitJs, publicInputBytes, if_neg h4, h0, h0', hi, hv, Res.ok_bind, hw, if_neg hge, if_neg hge4, e1, if_true,
      if_neg hlt, hi2, hv2, ne_eq, not_true_eq_false, if_false, e2, e3, e4, e5, e6, if_neg hq, and_self]

/-! ## C44 -/

/-- **C44** (CLI) — the CLI unpacks a byte string exactly when it has the documented layout, into exactly its parts; otherwise it reports
an error, never a panic. -/
theorem C44_cli_iff (b : Bytes) : (∀ p, splitCli b = .ok p ↔ Layout b p) ∧
    ((∀ p, ¬ Layout b p) → ∃ e, splitCli b = .error (.err e)) := by
  have key : (∃ e, splitCli b = .error (.err e) ∧ ∀ p, ¬ Layout b p) ∨ ∃ q, splitCli b = .ok q ∧ ∀ p, Layout b p ↔ q = p := by
    have ok_of : ∀ p, Layout b p → splitCli b = .ok p := by
      intro p hp
      cases hp with
      | withPublic w p m lw lp hw hp ew ep =>
        rw [(split_public hw ew hp).1, ep, if_neg (by simp), append_take_len _ rfl, append_drop_len _ rfl]
      | without f hf w m lw hw ew => exact (split_without hf hw ew).1
    have err_of : ∀ e, splitCli b = .error (.err e) → (∃ e, splitCli b = .error (.err e) ∧ ∀ p, ¬ Layout b p) := by
      intro e he
      refine ⟨e, he, fun p hp => ?_⟩
      rw [ok_of p hp] at he
      cases he
    have lay : ∀ q, Layout b q → ∃ q, splitCli b = .ok q ∧ ∀ p, Layout b p ↔ q = p := by
      intro q hq
      refine ⟨q, ok_of q hq, fun p => ⟨fun hp => ?_, fun h => h ▸ hq⟩⟩
      have := ok_of p hp
      rw [ok_of q hq] at this
      cases this; rfl
    rcases header_cases b with h | ⟨f, lw, r, rfl, hl, hr⟩ | ⟨f, lw, w, r, rfl, hl, hw⟩
    · exact Or.inl (err_of _ (split_short b h).1)
    · exact Or.inl (err_of _ (split_overrun_w hl hr).1)
    · by_cases hf : f = 1
      · subst hf
        rcases rest_cases r with h | ⟨lp, p, rfl, hlp, hp⟩ | ⟨lp, p, m, rfl, hlp, hp⟩
        · exact Or.inl (err_of _ (split_short_public hl hw h).1)
        · exact Or.inl (err_of _ (by rw [(split_public hl hw hlp).1, if_pos hp]; rfl))
        · exact Or.inr (lay _ (Layout.withPublic w p m lw lp hl hlp hw hp))
      · exact Or.inr (lay _ (Layout.without f hf w r lw hl hw))
  rcases key with ⟨e, he, hno⟩ | ⟨q, hq, hiff⟩
  · exact ⟨fun p => ⟨fun h => (by rw [he] at h; cases h), fun h => absurd h (hno p)⟩, fun _ => ⟨e, he⟩⟩
  · refine ⟨fun p => ?_, fun h => absurd ((hiff q).2 rfl) (h q)⟩
    rw [hq, hiff]
    simp

/-- **C44** (JS) — JS unpacks exactly the byte strings of the documented layout plus those whose public-input length overruns; for the
latter the encrypted message is empty. Otherwise it reports an error; it never reads outside the data. -/
theorem C44_js_iff (b : Bytes) : (∀ p, splitJs b = .ok p ↔ Layout b p ∨ Overrun b p) ∧
    ((∀ p, ¬ Layout b p ∧ ¬ Overrun b p) → ∃ e, splitJs b = .error (.err e) ∧ e ≠ "RangeError") := by
  have ok_of : ∀ p, Layout b p ∨ Overrun b p → splitJs b = .ok p := by
    rintro p (hp | hp)
    · cases hp with
      | withPublic w p m lw lp hw hp ew ep =>
        rw [(split_public hw ew hp).2.1, ep, append_take_len _ rfl, append_drop_len _ rfl]
      | without f hf w m lw hw ew => exact (split_without hf hw ew).2.1
    · cases hp with
      | mk w p lw lp hw hp ew ep =>
        rw [(split_public hw ew hp).2.1, List.take_of_length_le (by omega), List.drop_of_length_le (by omega)]
  have key : (∃ e, splitJs b = .error (.err e) ∧ e ≠ "RangeError") ∨ ∃ q, Layout b q ∨ Overrun b q := by
    rcases header_cases b with h | ⟨f, lw, r, rfl, hl, hr⟩ | ⟨f, lw, w, r, rfl, hl, hw⟩
    · exact Or.inl ⟨_, (split_short b h).2.1, by decide⟩
    · exact Or.inl ⟨_, (split_overrun_w hl hr).2.1, by decide⟩
    · by_cases hf : f = 1
      · subst hf
        rcases rest_cases r with h | ⟨lp, p, rfl, hlp, hp⟩ | ⟨lp, p, m, rfl, hlp, hp⟩
        · exact Or.inl ⟨_, (split_short_public hl hw h).2.1, by decide⟩
        · exact Or.inr ⟨_, Or.inr (Overrun.mk w p lw lp hl hlp hw hp)⟩
        · exact Or.inr ⟨_, Or.inl (Layout.withPublic w p m lw lp hl hlp hw hp)⟩
      · exact Or.inr ⟨_, Or.inl (Layout.without f hf w r lw hl hw)⟩
  refine ⟨fun p => ⟨fun h => ?_, ok_of p⟩, fun h => ?_⟩
  · rcases key with ⟨e, he, -⟩ | ⟨q, hq⟩
    · rw [he] at h; cases h
    · rw [ok_of q hq] at h
      cases h
      exact hq
  · rcases key with h' | ⟨q, hq⟩
    · exact h'
    · exact absurd hq (not_or.2 (h q))

/-- **C44** (tools compared) — whenever the CLI unpacks, JS unpacks to the same parts; whenever JS unpacks and the CLI does not, the
message part is empty (and so, by C41, decryption fails). -/
theorem C44_tools (b : Bytes) (p : Parts) : (splitCli b = .ok p → splitJs b = .ok p) ∧
    (splitJs b = .ok p → splitCli b = .ok p ∨ p.encrypted = []) := by
  rw [(C44_cli_iff b).1, (C44_js_iff b).1]
  refine ⟨Or.inl, ?_⟩
  rintro (h | h)
  · exact Or.inl h
  · cases h; exact Or.inr rfl

/-- **C44** — a byte string has at most one layout. -/
theorem C44_layout_unique (b : Bytes) (p q : Parts) (hp : Layout b p) (hq : Layout b q) : p = q := by
  have h1 := ((C44_cli_iff b).1 p).2 hp
  rw [((C44_cli_iff b).1 q).2 hq] at h1
  cases h1; rfl

/-! ## C43 -/

theorem combine_layout (incl : Bool) (w p m : Bytes) (hw : w.length < 2 ^ 32) (hp : incl = true → p.length < 2 ^ 32) :
    Layout (combine incl w p m) ⟨if incl then 1 else 0, w, if incl then some p else none, m⟩ := by
  cases incl with
  | true =>
    have := Layout.withPublic w p m (u32be w.length) (u32be p.length) (by simp) (by simp) (beNat_u32be hw) (beNat_u32be (hp rfl))
    simpa [combine] using this
  | false =>
    have := Layout.without 0 (by decide) w m (u32be w.length) (by simp) (beNat_u32be hw)
    simpa [combine] using this

/-- **C43** (round trip) — both tools get back exactly what was packed, with or without the public input, provided both lengths fit in 32
bits. -/
theorem C43_roundtrip (incl : Bool) (w p m : Bytes) (hw : w.length < 2 ^ 32) (hp : incl = true → p.length < 2 ^ 32) :
    splitCli (combine incl w p m) = .ok ⟨if incl then 1 else 0, w, if incl then some p else none, m⟩ ∧
    splitJs (combine incl w p m) = .ok ⟨if incl then 1 else 0, w, if incl then some p else none, m⟩ := by
  have h := combine_layout incl w p m hw hp
  exact ⟨((C44_cli_iff _).1 _).2 h, ((C44_js_iff _).1 _).2 (Or.inl h)⟩

/-- **C43** (unambiguous) — two packings are the same byte string only if all visible parts are the same. -/
theorem C43_injective (incl incl' : Bool) (w w' p p' m m' : Bytes) (hw : w.length < 2 ^ 32) (hp : incl = true → p.length < 2 ^ 32)
    (hw' : w'.length < 2 ^ 32) (hp' : incl' = true → p'.length < 2 ^ 32) (h : combine incl w p m = combine incl' w' p' m') :
    incl = incl' ∧ w = w' ∧ m = m' ∧ (incl = true → p = p') := by
  have h1 := (C43_roundtrip incl w p m hw hp).1
  rw [h, (C43_roundtrip incl' w' p' m' hw' hp').1] at h1
  cases incl <;> cases incl' <;> simp_all

/-- **C43** (length) — header of 5 or 9 bytes plus the parts. -/
theorem C43_length (incl : Bool) (w p m : Bytes) :
    (combine incl w p m).length = 5 + w.length + m.length + (if incl then 4 + p.length else 0) := by
  cases incl <;> simp [combine] <;> omega

/-- **C43** (the 32-bit limit is real) — a public input of `2^32` bytes or more is packed without an error, but neither tool gets the
message back. -/
theorem C43_overflow (w p m : Bytes) (hw : w.length < 2 ^ 32) (hp : 2 ^ 32 ≤ p.length) :
    ∃ q, splitCli (combine true w p m) = .ok q ∧ splitJs (combine true w p m) = .ok q ∧ q.encrypted ≠ m := by
  have e : combine true w p m = 1 :: (u32be w.length ++ (w ++ (u32be p.length ++ (p ++ m)))) := by simp [combine]
  obtain ⟨h1, h2, -⟩ := split_public (lw := u32be w.length) (w := w) (lp := u32be p.length) (q := p ++ m) (by simp) (beNat_u32be hw)
    (by simp)
  rw [beNat_u32be_mod] at h1 h2
  have hlt := Nat.mod_lt p.length (show 0 < 2 ^ 32 by norm_num)
  rw [if_neg (by rw [List.length_append]; omega)] at h1
  refine ⟨_, by rw [e, h1], by rw [e, h2], fun hc => ?_⟩
  have := congrArg List.length hc
  simp only [List.length_drop, List.length_append] at this
  omega

/-! ## C45 -/

/-- **C45** (made with public input) — the embedded bytes are returned and parsed. -/
theorem C45_returns {α : Type} (decode : Bytes → List Char) (parse : List Char → Option α) (w p m : Bytes) (hw : w.length < 2 ^ 32)
    (hp : p.length < 2 ^ 32) (x : α) (hx : parse (decode p) = some x) : getPublicInput decode parse (combine true w p m) = .ok x := by
  have e : combine true w p m = 1 :: (u32be w.length ++ (w ++ (u32be p.length ++ (p ++ m)))) := by simp [combine]
  obtain ⟨-, -, h3⟩ := split_public (lw := u32be w.length) (w := w) (lp := u32be p.length) (q := p ++ m) (by simp) (beNat_u32be hw)
    (by simp)
  rw [beNat_u32be hp, if_neg (by simp), append_take_len _ rfl] at h3
  rw [getPublicInput, e, h3, Res.ok_bind, hx]
  rfl

/-- **C45** (made without) — an error is thrown. -/
theorem C45_refuses {α : Type} (decode : Bytes → List Char) (parse : List Char → Option α) (w p m : Bytes) :
    getPublicInput decode parse (combine false w p m) = Res.fail "Public inputs are not included in this ciphertext" := by
  rw [getPublicInput, publicInputBytes, if_neg (by rw [C43_length]; omega)]
  rfl

/-- **C45** (arbitrary bytes) — a result is returned exactly when the data has the documented layout with a public input that parses;
otherwise an error is thrown, and never because of a read outside the data. -/
theorem C45_arbitrary {α : Type} (decode : Bytes → List Char) (parse : List Char → Option α) (b : Bytes) :
    (∀ x, getPublicInput decode parse b = .ok x ↔ ∃ w p m, Layout b ⟨1, w, some p, m⟩ ∧ parse (decode p) = some x) ∧
    ((∀ x, getPublicInput decode parse b ≠ .ok x) → ∃ e, getPublicInput decode parse b = .error (.err e) ∧ e ≠ "RangeError") := by
  have key : (∃ e, publicInputBytes b = .error (.err e) ∧ e ≠ "RangeError" ∧ ∀ w p m, ¬ Layout b ⟨1, w, some p, m⟩) ∨
      ∃ w p m, publicInputBytes b = .ok p ∧ Layout b ⟨1, w, some p, m⟩ := by
    have ok_of : ∀ w p m, Layout b ⟨1, w, some p, m⟩ → publicInputBytes b = .ok p := by
      intro w p m hp
      cases hp with
      | withPublic w p m lw lp hw hp ew ep => rw [(split_public hw ew hp).2.2, ep, if_neg (by simp), append_take_len _ rfl]
    have err_of : ∀ e, publicInputBytes b = .error (.err e) → e ≠ "RangeError" →
        ∃ e, publicInputBytes b = .error (.err e) ∧ e ≠ "RangeError" ∧ ∀ w p m, ¬ Layout b ⟨1, w, some p, m⟩ := by
      intro e he hr
      refine ⟨e, he, hr, fun w p m hp => ?_⟩
      rw [ok_of w p m hp] at he
      cases he
    rcases header_cases b with h | ⟨f, lw, r, rfl, hl, hr⟩ | ⟨f, lw, w, r, rfl, hl, hw⟩
    · exact Or.inl (err_of _ (split_short b h).2.2 (by decide))
    · rcases (split_overrun_w (f := f) hl hr).2.2 with h | h
      · exact Or.inl (err_of _ h (by decide))
      · exact Or.inl (err_of _ h (by decide))
    · by_cases hf : f = 1
      · subst hf
        rcases rest_cases r with h | ⟨lp, p, rfl, hlp, hp⟩ | ⟨lp, p, m, rfl, hlp, hp⟩
        · exact Or.inl (err_of _ (split_short_public hl hw h).2.2 (by decide))
        · exact Or.inl (err_of _ (by rw [(split_public hl hw hlp).2.2, if_pos hp]; rfl) (by decide))
        · have := Layout.withPublic w p m lw lp hl hlp hw hp
          exact Or.inr ⟨w, p, m, ok_of _ _ _ this, this⟩
      · exact Or.inl (err_of _ (split_without hf hl hw).2.2 (by decide))
  rcases key with ⟨e, he, hr, hno⟩ | ⟨w, p, m, hp, hlay⟩
  · have : getPublicInput decode parse b = .error (.err e) := by rw [getPublicInput, he]; rfl
    rw [this]
    exact ⟨fun x => ⟨fun h => (by cases h), fun ⟨w, p, m, h, _⟩ => absurd h (hno w p m)⟩, fun _ => ⟨e, rfl, hr⟩⟩
  · have hu : ∀ w' p' m', Layout b ⟨1, w', some p', m'⟩ → p' = p := by
      intro w' p' m' h
      have := C44_layout_unique b _ _ h hlay
      simp only [Parts.mk.injEq, Option.some.injEq] at this
      exact this.2.2.1
    rw [getPublicInput, hp, Res.ok_bind]
    cases hx : parse (decode p) with
    | none =>
      refine ⟨fun x => ⟨fun h => (by cases h), fun ⟨w', p', m', h, hx'⟩ => ?_⟩, fun _ => ⟨_, rfl, by decide⟩⟩
      rw [hu _ _ _ h, hx] at hx'
      cases hx'
    | some x =>
      refine ⟨fun y => ⟨fun h => ?_, fun ⟨w', p', m', h, hx'⟩ => ?_⟩, fun h => absurd rfl (h x)⟩
      · cases h
        exact ⟨w, p, m, hlay, hx⟩
      · rw [hu _ _ _ h, hx] at hx'
        cases hx'
        rfl

/-! ## C46 -/

/-- **C46** (container) — removing the public input, or replacing it by any other bytes, leaves the witness ciphertext and the encrypted
message that either tool extracts unchanged. The consequence for whole decryptions is `C46_cli_decrypt` and `C46_js_decrypt`. -/
theorem C46_parts_unchanged (incl incl' : Bool) (w p p' m : Bytes) (hw : w.length < 2 ^ 32) (hp : p.length < 2 ^ 32)
    (hp' : p'.length < 2 ^ 32) : ∃ q q', splitCli (combine incl w p m) = .ok q ∧ splitCli (combine incl' w p' m) = .ok q' ∧
      splitJs (combine incl w p m) = .ok q ∧ splitJs (combine incl' w p' m) = .ok q' ∧ q.witnessCt = q'.witnessCt ∧
      q.encrypted = q'.encrypted := by
  obtain ⟨h1, h2⟩ := C43_roundtrip incl w p m hw fun _ => hp
  obtain ⟨h3, h4⟩ := C43_roundtrip incl' w p' m hw fun _ => hp'
  exact ⟨_, _, h1, h3, h2, h4, rfl, rfl⟩

/-- Example. -/
example : splitCli (combine true [1, 2] [3] [4, 5, 6]) = .ok ⟨1, [1, 2], some [3], [4, 5, 6]⟩ ∧
    splitJs [1, 0, 0, 0, 1, 9, 0, 0, 0, 200, 7] = .ok ⟨1, [9], some [7], []⟩ ∧ ∃ e, splitCli [1, 0, 0, 0, 1, 9, 0, 0, 0, 200, 7] = .error (.err e) := by
  refine ⟨(C43_roundtrip true [1, 2] [3] [4, 5, 6] (by simp) (by simp)).1, ?_, ?_⟩
  · exact ((C44_js_iff _).1 _).2 (Or.inr (Overrun.mk [9] [7] [0, 0, 0, 1] [0, 0, 0, 200] rfl rfl (by decide) (by decide)))
  · exact ⟨_, (split_public (lw := [0, 0, 0, 1]) (w := [9]) (lp := [0, 0, 0, 200]) (q := [7]) rfl (by decide) rfl).1.trans
      (if_pos (by decide))⟩

end Zkenc.Props
