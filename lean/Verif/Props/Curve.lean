import Verif.Model.CurveCodec
import Verif.Proofs.G2Card
import Verif.Props.EndToEndExample
import Verif.Spec.Curve
import Verif.Props.Serialize
import Verif.Props.EndToEnd
/-!
# C69, C70: encodings of curve points and of ciphertexts
-/

namespace Zkenc.Props

open Zkenc Spec WeierstrassCurve.Affine

theorem fq_neg_val {y : Fq} (hy : y ≠ 0) : (-y).val = fqModulus - y.val ∧ 0 < y.val ∧ y.val < fqModulus := by
  haveI : NeZero y := ⟨hy⟩
  exact ⟨ZMod.val_neg_of_ne_zero y, Nat.pos_of_ne_zero fun h => hy ((ZMod.val_eq_zero y).1 h), ZMod.val_lt y⟩

theorem fq_odd : fqModulus % 2 = 1 := by decide

theorem fqLt_neg {y : Fq} (hy : y ≠ 0) : fqCoord.lt (-y) y = true ↔ ¬ Low y := by
  obtain ⟨h1, h2, h3⟩ := fq_neg_val hy
  have := fq_odd
  simp only [fqCoord, decide_eq_true_eq, Low, h1]
  omega

theorem fq_eq_neg {y : Fq} : y = -y ↔ y = 0 := by
  constructor
  · intro h
    have : 2 * y = 0 := by linear_combination h
    exact (mul_eq_zero.1 this).resolve_left fq_two_ne
  · rintro rfl; simp

theorem yFlag_fq {y : Fq} (hy : y ≠ 0) : (Low y → yFlag fqCoord y = .yPos) ∧ (¬ Low y → yFlag fqCoord y = .yNeg) := by
  unfold yFlag
  exact ⟨fun h => if_neg (by rw [fqLt_neg hy]; simpa using h), fun h => if_pos ((fqLt_neg hy).2 h)⟩

theorem fq2_eq_neg {y : Fq2} : y = -y ↔ y = 0 := by
  constructor
  · intro h
    have h1 : y.re = -y.re := by conv_lhs => rw [h]; simp
    have h2 : y.im = -y.im := by conv_lhs => rw [h]; simp
    exact QuadraticAlgebra.ext (fq_eq_neg.1 h1) (fq_eq_neg.1 h2)
  · rintro rfl; simp

theorem yFlag_fq2 {y : Fq2} (hy : y ≠ 0) : (Low2 y → yFlag fq2Coord y = .yPos) ∧ (¬ Low2 y → yFlag fq2Coord y = .yNeg) := by
  have key : fq2Coord.lt (-y) y = true ↔ ¬ Low2 y := by
    simp only [fq2Coord, QuadraticAlgebra.im_neg, QuadraticAlgebra.re_neg, Low2]
    by_cases him : y.im = 0
    · have hre : y.re ≠ 0 := fun h => hy (QuadraticAlgebra.ext h him)
      rw [if_pos (by rw [him]; simp), if_pos him]
      exact fqLt_neg hre
    · rw [if_neg (fun h => him (fq_eq_neg.1 h.symm)), if_neg him]
      exact fqLt_neg him
  unfold yFlag
  exact ⟨fun h => if_neg (by rw [key]; simpa using h), fun h => if_pos (key.2 h)⟩

theorem byte_num : SWFlag.yPos.byte.toNat = 0 ∧ SWFlag.yNeg.byte.toNat = 2 ^ 7 ∧ SWFlag.inf.byte.toNat = 2 ^ 6 := ⟨rfl, rfl, rfl⟩
theorem two_pow_254 : (2 : Nat) ^ 248 * 2 ^ 6 = 2 ^ 254 := by rw [← pow_add]
theorem two_pow_255 : (2 : Nat) ^ 248 * 2 ^ 7 = 2 ^ 255 := by rw [← pow_add]
theorem two_pow_510 : (2 : Nat) ^ 504 * 2 ^ 6 = 2 ^ 510 := by rw [← pow_add]
theorem two_pow_511 : (2 : Nat) ^ 504 * 2 ^ 7 = 2 ^ 511 := by rw [← pow_add]
theorem pow_256 (n : Nat) : (256 : Nat) ^ n = 2 ^ (8 * n) := by rw [pow_mul]; rfl

theorem fqEnc_num (x : Fq) : leNat (fqCoord.enc x) = x.val ∧ (fqCoord.enc x).length = 32 := by
  have h1 : x.val < fqModulus := ZMod.val_lt x
  exact ⟨leNat_leBytes_of_lt (by have := fqModulus_lt; omega), fqCoord_lawful.enc_len x⟩

theorem fqFlag_num (x : Fq) (f : SWFlag) : leNat (addFlag (fqCoord.enc x) f) = x.val + 2 ^ 248 * f.byte.toNat ∧
    (addFlag (fqCoord.enc x) f).length = 32 := by
  obtain ⟨h1, h2⟩ := addFlag_num f (fqCoord_lawful.roomy x)
  rw [(fqEnc_num x).1, (fqEnc_num x).2] at h1
  rw [(fqEnc_num x).2] at h2
  exact ⟨by rw [h1, pow_256], h2⟩

theorem fq2Flag_num (x : Fq2) (f : SWFlag) : leNat (addFlag (fq2Coord.enc x) f) =
    x.re.val + x.im.val * 2 ^ 256 + 2 ^ 504 * f.byte.toNat ∧ (addFlag (fq2Coord.enc x) f).length = 64 := by
  obtain ⟨h1, h2⟩ := addFlag_num f (fq2Coord_lawful.roomy x)
  have hl : (fq2Coord.enc x).length = 64 := fq2Coord_lawful.enc_len x
  have hn : leNat (fq2Coord.enc x) = x.re.val + x.im.val * 2 ^ 256 := by
    simp only [fq2Coord, leNat_append, (fqEnc_num _).1, (fqEnc_num _).2]
    rw [pow_256, mul_comm]
  rw [hl, hn] at h1
  rw [hl] at h2
  exact ⟨by rw [h1, pow_256], h2⟩

theorem eq_flag_iff {b e : Bytes} (hl : e.length = n) : b = e ↔ b.length = n ∧ leNat b = leNat e := by
  constructor
  · rintro rfl; exact ⟨hl, rfl⟩
  · rintro ⟨h1, h2⟩; exact leNat_inj (h1.trans hl.symm) h2

/-- **C69** (first group) — 32 bytes are accepted as a point of the first group exactly if they are an encoding of it in the sense
of the specification. -/
theorem C69_g1_accepts (b : Bytes) (P : G1Point) : g1Codec.dec b = some P ↔ IsG1Encoding b P := by
  have h0 : g1Codec.dec b = some P ↔ b.length = 32 ∧ swDec fqCoord 3 b = some P := by
    show g1Dec b = some P ↔ _
    unfold g1Dec
    split <;> simp_all
  rw [h0, swDec_iff fqCoord_lawful]
  cases P with
  | zero =>
    simp only [reduceCtorEq, false_and, exists_false, or_false, true_and, IsG1Encoding]
    refine and_congr_right fun hl => ?_
    constructor
    · rintro ⟨x, rfl⟩
      refine ⟨x.val, ZMod.val_lt x, ?_⟩
      rw [(fqFlag_num x .inf).1, byte_num.2.2, two_pow_254]
    · rintro ⟨n, hn, h⟩
      refine ⟨(n : Fq), leNat_inj (hl.trans (fqFlag_num _ _).2.symm) ?_⟩
      rw [h, (fqFlag_num _ .inf).1, ZMod.val_natCast, Nat.mod_eq_of_lt hn, byte_num.2.2, two_pow_254]
  | some x y hns =>
    have hy : y ≠ 0 := by
      rintro rfl
      have := (swEquation_iff 3 x 0).1 hns.1
      exact fq_no_cube x (by rw [← this]; ring)
    simp only [reduceCtorEq, false_and, false_or, Point.some.injEq, IsG1Encoding]
    refine and_congr_right fun hl => ?_
    have hfl : (∃ x' y', ∃ _ : (swCurve (3 : Fq)).Nonsingular x' y', ∃ f, (x = x' ∧ y = y') ∧ FlagOf fqCoord y' f ∧ b = addFlag (fqCoord.enc x') f) ↔
        b = addFlag (fqCoord.enc x) (yFlag fqCoord y) := by
      constructor
      · rintro ⟨x', y', -, f, ⟨rfl, rfl⟩, hf, rfl⟩
        rw [(flagOf_iff fqCoord_lawful (fun h => hy (fq_eq_neg.1 h)) f).1 hf]
      · rintro rfl
        exact ⟨x, y, hns, _, ⟨rfl, rfl⟩, (flagOf_iff fqCoord_lawful (fun h => hy (fq_eq_neg.1 h)) _).2 rfl, rfl⟩
    rw [hfl, eq_flag_iff (fqFlag_num x _).2, (fqFlag_num x _).1]
    by_cases h : Low y
    · rw [(yFlag_fq hy).1 h, byte_num.1]
      simp [h, hl]
    · rw [(yFlag_fq hy).2 h, byte_num.2.1, two_pow_255]
      simp only [h, hl, true_and, false_and, false_or, not_false_eq_true]

theorem g2_y_ne {x y : Fq2} {h : (swCurve g2CoeffB).Nonsingular x y} (hP : frModulus • (Point.some x y h : TwistPoint) = 0) : y ≠ 0 := by
  rintro rfl
  have h2 : (2 : Nat) • (Point.some x 0 h : TwistPoint) = 0 := by
    rw [two_smul]
    exact Point.add_self_of_Y_eq (by simp [negY, swCurve])
  have hg : Nat.gcd frModulus 2 = 1 := by decide
  have h1 := addOrderOf_dvd_of_nsmul_eq_zero hP
  have h3 := addOrderOf_dvd_of_nsmul_eq_zero h2
  have := Nat.dvd_gcd h1 h3
  rw [hg, Nat.dvd_one, AddMonoid.addOrderOf_eq_one_iff] at this
  exact Point.some_ne_zero h this

theorem twist_iff (b : Bytes) (Q : TwistPoint) (hQ : frModulus • Q = 0) :
    (b.length = 64 ∧ swDec fq2Coord g2CoeffB b = some Q) ↔ IsTwistEncoding b Q := by
  rw [swDec_iff fq2Coord_lawful]
  cases Q with
  | zero =>
    simp only [reduceCtorEq, false_and, exists_false, or_false, true_and, IsTwistEncoding]
    refine and_congr_right fun hl => ?_
    constructor
    · rintro ⟨x, rfl⟩
      refine ⟨x.re.val, ZMod.val_lt _, x.im.val, ZMod.val_lt _, ?_⟩
      rw [(fq2Flag_num x .inf).1, byte_num.2.2, two_pow_510]
    · rintro ⟨m, hm, n, hn, h⟩
      refine ⟨⟨(m : Fq), (n : Fq)⟩, leNat_inj (hl.trans (fq2Flag_num _ _).2.symm) ?_⟩
      rw [h, (fq2Flag_num _ .inf).1, byte_num.2.2, two_pow_510]
      simp only [ZMod.val_natCast, Nat.mod_eq_of_lt hm, Nat.mod_eq_of_lt hn]
  | some x y hns =>
    have hy : y ≠ 0 := g2_y_ne hQ
    simp only [reduceCtorEq, false_and, false_or, Point.some.injEq, IsTwistEncoding]
    refine and_congr_right fun hl => ?_
    have hfl : (∃ x' y', ∃ _ : (swCurve g2CoeffB).Nonsingular x' y', ∃ f, (x = x' ∧ y = y') ∧ FlagOf fq2Coord y' f ∧
        b = addFlag (fq2Coord.enc x') f) ↔ b = addFlag (fq2Coord.enc x) (yFlag fq2Coord y) := by
      constructor
      · rintro ⟨x', y', -, f, ⟨rfl, rfl⟩, hf, rfl⟩
        rw [(flagOf_iff fq2Coord_lawful (fun h => hy (fq2_eq_neg.1 h)) f).1 hf]
      · rintro rfl
        exact ⟨x, y, hns, _, ⟨rfl, rfl⟩, (flagOf_iff fq2Coord_lawful (fun h => hy (fq2_eq_neg.1 h)) _).2 rfl, rfl⟩
    rw [hfl, eq_flag_iff (fq2Flag_num x _).2, (fq2Flag_num x _).1]
    by_cases h : Low2 y
    · rw [(yFlag_fq2 hy).1 h, byte_num.1]
      simp [h, hl]
    · rw [(yFlag_fq2 hy).2 h, byte_num.2.1, two_pow_511]
      simp only [h, hl, true_and, false_and, false_or, not_false_eq_true]

/-- **C69** (second group) — the same for the second group. -/
theorem C69_g2_accepts (b : Bytes) (P : G2Point) : g2Codec.dec b = some P ↔ IsG2Encoding b P := by
  rw [IsG2Encoding, ← twist_iff b P.1 ((mem_g2Subgroup _).1 P.2)]
  show g2Dec b = some P ↔ _
  unfold g2Dec
  by_cases hl : b.length = 64
  · rw [if_pos hl, Option.bind_eq_some_iff]
    constructor
    · rintro ⟨Q, hQ, h⟩
      split at h
      · simp only [Option.some.injEq] at h
        subst h
        exact ⟨hl, hQ⟩
      · cases h
    · rintro ⟨-, h⟩
      exact ⟨P.1, h, by rw [dif_pos ((mem_g2Subgroup _).1 P.2)]⟩
  · simp [hl]

/-- **C69** (subgroup) — an encoding of a point of the twist outside the subgroup of order `r` is rejected. -/
theorem C69_g2_rejects_outside (b : Bytes) (Q : TwistPoint) (h : swDec fq2Coord g2CoeffB b = some Q) (hQ : frModulus • Q ≠ 0) :
    g2Codec.dec b = none := by
  show g2Dec b = none
  unfold g2Dec
  rw [h, Option.bind_some, dif_neg hQ]
  split <;> rfl

/-- **C69** (one encoding) — a point other than the identity has exactly one encoding. -/
theorem C69_unique (b b' : Bytes) :
    (∀ P : G1Point, P ≠ 0 → IsG1Encoding b P → IsG1Encoding b' P → b = b') ∧
    (∀ P : G2Point, P ≠ 0 → IsG2Encoding b P → IsG2Encoding b' P → b = b') := by
  constructor
  · intro P hP h h'
    cases P with
    | zero => exact absurd rfl hP
    | some x y hns =>
      obtain ⟨hl, h⟩ := h
      obtain ⟨hl', h'⟩ := h'
      refine leNat_inj (hl.trans hl'.symm) ?_
      rcases h with ⟨h1, h⟩ | ⟨h1, h⟩ <;> rcases h' with ⟨h2, h'⟩ | ⟨h2, h'⟩
      · rw [h, h']
      · exact absurd h1 h2
      · exact absurd h2 h1
      · rw [h, h']
  · rintro ⟨P, hmem⟩ hP h h'
    simp only [IsG2Encoding] at h h'
    cases P with
    | zero => exact absurd rfl hP
    | some x y hns =>
      obtain ⟨hl, h⟩ := h
      obtain ⟨hl', h'⟩ := h'
      refine leNat_inj (hl.trans hl'.symm) ?_
      rcases h with ⟨h1, h⟩ | ⟨h1, h⟩ <;> rcases h' with ⟨h2, h'⟩ | ⟨h2, h'⟩
      · rw [h, h']
      · exact absurd h1 h2
      · exact absurd h2 h1
      · rw [h, h']

/-- The encoding of the identity with the number `n`. -/
def altZero1 (n : Nat) : Bytes := leBytes 32 (n + 2 ^ 254)

theorem altZero1_spec {n : Nat} (h : n < fqModulus) : leNat (altZero1 n) = n + 2 ^ 254 ∧ IsG1Encoding (altZero1 n) 0 := by
  have h1 : leNat (altZero1 n) = n + 2 ^ 254 := by
    refine leNat_leBytes_of_lt ?_
    have := fqModulus_lt
    have e : (256 : Nat) ^ 32 = 256 * 256 ^ 31 := by rw [← pow_succ']
    have e2 : (2 : Nat) ^ 254 = 64 * 256 ^ 31 := by rw [pow_256, ← two_pow_254]; ring
    rw [e, e2]
    omega
  exact ⟨h1, by simp [altZero1], n, h, h1⟩

/-- **C69** (encodings of the identity) — the identity of the first group has exactly `q` accepted encodings, that of the second `q²`. -/
theorem C69_identity_encodings : Nat.card {b : Bytes // g1Codec.dec b = some 0} = fqModulus ∧
    Nat.card {b : Bytes // g2Codec.dec b = some 0} = fqModulus ^ 2 := by
  constructor
  · have hb : Function.Bijective (fun n : Fin fqModulus => (⟨altZero1 n, (C69_g1_accepts _ _).2 (altZero1_spec n.2).2⟩ :
        {b : Bytes // g1Codec.dec b = some 0})) := by
      constructor
      · intro m n h
        simp only [Subtype.mk.injEq] at h
        have := congrArg leNat h
        rw [(altZero1_spec m.2).1, (altZero1_spec n.2).1] at this
        exact Fin.ext (by omega)
      · rintro ⟨b, hb⟩
        obtain ⟨hl, n, hn, h⟩ := (C69_g1_accepts _ _).1 hb
        refine ⟨⟨n, hn⟩, Subtype.ext (leNat_inj ?_ ?_)⟩
        · simp only [altZero1, leBytes_length, hl]
        · simp only
          rw [(altZero1_spec hn).1, h]
    rw [← Nat.card_eq_of_bijective _ hb, Nat.card_eq_fintype_card, Fintype.card_fin]
  · have hbd : ∀ m n, m < fqModulus → n < fqModulus → leNat (leBytes 64 (m + n * 2 ^ 256 + 2 ^ 510)) = m + n * 2 ^ 256 + 2 ^ 510 := by
      intro m n hm hn
      refine leNat_leBytes_of_lt ?_
      have hq := fqModulus_lt
      have e1 : 64 * (256 : Nat) ^ 31 = 2 ^ 254 := by rw [pow_256, ← two_pow_254]; ring
      rw [e1] at hq
      have e2 : (256 : Nat) ^ 64 = 4 * 2 ^ 510 := by rw [pow_256, show 8 * 64 = 2 + 510 from rfl, pow_add]; congr 1
      have e3 : (2 : Nat) ^ 510 = 2 ^ 254 * 2 ^ 256 := by rw [← pow_add]
      have e4 : n * 2 ^ 256 ≤ 2 ^ 254 * 2 ^ 256 := Nat.mul_le_mul_right _ (by omega)
      have e5 : 2 ^ 254 ≤ 2 ^ 254 * 2 ^ 256 := Nat.le_mul_of_pos_right _ (by positivity)
      rw [e2, e3]
      omega
    have henc : ∀ p : Fin fqModulus × Fin fqModulus, IsG2Encoding (leBytes 64 (p.1 + p.2 * 2 ^ 256 + 2 ^ 510)) 0 := by
      rintro ⟨m, n⟩
      exact ⟨by simp, m, m.2, n, n.2, hbd m n m.2 n.2⟩
    have hb : Function.Bijective (fun p : Fin fqModulus × Fin fqModulus => (⟨_, (C69_g2_accepts _ _).2 (henc p)⟩ :
        {b : Bytes // g2Codec.dec b = some 0})) := by
      constructor
      · rintro ⟨m, n⟩ ⟨m', n'⟩ h
        simp only [Subtype.mk.injEq] at h
        have := congrArg leNat h
        rw [hbd m n m.2 n.2, hbd m' n' m'.2 n'.2] at this
        have hq : fqModulus < 2 ^ 256 := by decide
        have hm := m.2
        have hm' := m'.2
        have h1 : (m : Nat) + n * 2 ^ 256 = m' + n' * 2 ^ 256 := Nat.add_right_cancel this
        have h2 : (m : Nat) = m' := by
          have := congrArg (· % 2 ^ 256) h1
          simp only [Nat.add_mul_mod_self_right] at this
          rwa [Nat.mod_eq_of_lt (by omega), Nat.mod_eq_of_lt (by omega)] at this
        rw [h2] at h1
        have h3 : (n : Nat) = n' := Nat.eq_of_mul_eq_mul_right (by positivity) (Nat.add_left_cancel h1)
        exact Prod.ext (Fin.ext h2) (Fin.ext h3)
      · rintro ⟨b, hb⟩
        obtain ⟨hl, m, hm, n, hn, h⟩ := (C69_g2_accepts _ _).1 hb
        refine ⟨(⟨m, hm⟩, ⟨n, hn⟩), Subtype.ext (leNat_inj ?_ ?_)⟩
        · simp only [leBytes_length, hl]
        · simp only
          rw [hbd m n hm hn, h]
    rw [← Nat.card_eq_of_bijective _ hb, Nat.card_prod, Nat.card_eq_fintype_card, Fintype.card_fin, pow_two]

theorem cyclic_span {G : Type} [AddCommGroup G] [Module Fr G] (g : G) (hg : addOrderOf g = frModulus) (hc : Nat.card G = frModulus) (P : G) :
    ∃ k : Fr, P = k • g := by
  haveI : Finite G := Nat.finite_of_card_ne_zero (by rw [hc]; exact frModulus_prime.ne_zero)
  have hz : AddSubgroup.zmultiples g = ⊤ := by
    rw [← AddSubgroup.card_eq_iff_eq_top, Nat.card_zmultiples, hg, hc]
  have hP : P ∈ AddSubgroup.zmultiples g := by rw [hz]; trivial
  obtain ⟨z, rfl⟩ := AddSubgroup.mem_zmultiples_iff.1 hP
  exact ⟨(z : Fr), by rw [Int.cast_smul_eq_zsmul]⟩

/-- **C69** (group order) — both groups have exactly `r` elements; every point accepted is a multiple, by a scalar, of the generator of
its group. In particular the first group consists of all points of the curve. -/
theorem C69_group_order : (Nat.card G1Point = frModulus ∧ ∀ P : G1Point, ∃ k : Fr, P = k • g1Gen) ∧
    Nat.card G2Point = frModulus ∧ ∀ P : G2Point, ∃ k : Fr, P = k • g2Gen :=
  ⟨⟨g1_card, cyclic_span _ g1Gen_order g1_card⟩, g2_card, cyclic_span _ g2Gen_order g2_card⟩

/-- Non-vacuity: the generator of the first group is the number 1. -/
example : g1Codec.dec (leBytes 32 1) = some g1Gen := by
  rw [C69_g1_accepts]
  have h2 : (2 : Fq).val = 2 := by
    have := ZMod.val_natCast_of_lt (n := fqModulus) (a := 2) (by decide)
    exact_mod_cast this
  have h1 : (1 : Fq).val = 1 := by
    have := ZMod.val_natCast_of_lt (n := fqModulus) (a := 1) (by decide)
    exact_mod_cast this
  have hq : 4 < fqModulus := by decide
  refine ⟨leBytes_length _ _, .inl ⟨by unfold Low; omega, ?_⟩⟩
  rw [leNat_leBytes_of_lt (by norm_num), h1]

/-- Non-vacuity: there are points of the twist outside the group, with an encoding; it is rejected. -/
example : g2Codec.dec (swEnc fq2Coord g2CoeffB strayPoint) = none :=
  C69_g2_rejects_outside _ strayPoint (swDec_swEnc fq2Coord_lawful _ _) stray_smul

/-- Non-vacuity: there are points other than the identity, with an encoding. -/
example : g1Gen ≠ 0 ∧ IsG1Encoding (g1Codec.enc g1Gen) g1Gen ∧ g2Gen ≠ 0 ∧ IsG2Encoding (g2Codec.enc g2Gen) g2Gen :=
  ⟨Point.some_ne_zero _, (C69_g1_accepts _ _).1 (g1Codec.dec_enc _),
    fun h => Point.some_ne_zero _ (congrArg Subtype.val h : g2GenPoint = 0), (C69_g2_accepts _ _).1 (g2Codec.dec_enc _)⟩

/-! ## C70: ciphertexts -/

section readers
variable {α β : Type}

theorem bind_some_iff (r : Reader α) (f : α → Reader β) (b : Bytes) (x : β) (t : Bytes) :
    Reader.bind r f b = some (x, t) ↔ ∃ a t', r b = some (a, t') ∧ f a t' = some (x, t) := by
  unfold Reader.bind
  cases r b with
  | none => simp
  | some p => obtain ⟨a, t'⟩ := p; simp

/-- The reader accepts exactly the byte strings that begin with an encoding. -/
def Accepts (r : Reader α) (E : Bytes → α → Prop) : Prop := ∀ b a t, r b = some (a, t) ↔ ∃ e, E e a ∧ b = e ++ t

theorem readElem_accepts (c : Codec α) (E : Bytes → α → Prop) (hE : ∀ b a, c.dec b = some a ↔ E b a) (hl : ∀ b a, E b a → b.length = c.size) :
    Accepts (readElem c) E := by
  intro b a t
  unfold readElem
  rw [bind_some_iff]
  constructor
  · rintro ⟨e, t', h1, h2⟩
    unfold Reader.take at h1
    split at h1
    · cases h1
    · simp only [Option.some.injEq, Prod.mk.injEq] at h1
      obtain ⟨rfl, rfl⟩ := h1
      simp only [Reader.lift, Option.map_eq_some_iff, Prod.mk.injEq] at h2
      obtain ⟨a', h3, rfl, rfl⟩ := h2
      exact ⟨_, (hE _ _).1 h3, (List.take_append_drop _ _).symm⟩
  · rintro ⟨e, h, rfl⟩
    exact ⟨e, t, Reader.Reads.take e (hl e a h) t, by simp [Reader.lift, (hE e a).2 h]⟩

theorem many_accepts {r : Reader α} {E : Bytes → α → Prop} (h : Accepts r E) (n : Nat) :
    Accepts (Reader.many r n) (fun b l => l.length = n ∧ ∃ es, List.Forall₂ E es l ∧ b = es.flatten) := by
  induction n with
  | zero =>
    intro b l t
    simp only [Reader.many, Reader.pure, Option.some.injEq, Prod.mk.injEq]
    constructor
    · rintro ⟨rfl, rfl⟩
      exact ⟨[], ⟨rfl, [], .nil, rfl⟩, rfl⟩
    · rintro ⟨e, ⟨hl, es, hes, rfl⟩, rfl⟩
      rw [List.length_eq_zero_iff] at hl
      subst hl
      cases hes
      exact ⟨rfl, rfl⟩
  | succ n ih =>
    intro b l t
    simp only [Reader.many]
    rw [bind_some_iff]
    constructor
    · rintro ⟨a, t1, h1, h2⟩
      rw [bind_some_iff] at h2
      obtain ⟨l', t2, h3, h4⟩ := h2
      simp only [Reader.pure, Option.some.injEq, Prod.mk.injEq] at h4
      obtain ⟨rfl, rfl⟩ := h4
      obtain ⟨e, he, rfl⟩ := (h _ _ _).1 h1
      obtain ⟨e', ⟨hl, es, hes, rfl⟩, rfl⟩ := (ih _ _ _).1 h3
      exact ⟨e ++ es.flatten, ⟨by simp [hl], e :: es, .cons he hes, by simp⟩, by simp⟩
    · rintro ⟨e, ⟨hl, es, hes, rfl⟩, rfl⟩
      cases hes with
      | nil => simp at hl
      | cons he hes =>
        rename_i e1 a1 es l'
        refine ⟨a1, es.flatten ++ t, (h _ _ _).2 ⟨e1, he, by simp⟩, (bind_some_iff _ _ _ _ _).2 ⟨l', t, (ih _ _ _).2
          ⟨es.flatten, ⟨by simpa using hl, es, hes, rfl⟩, rfl⟩, rfl⟩⟩

theorem readVec_accepts (c : Codec α) (E : Bytes → α → Prop) (hE : Accepts (readElem c) E) : Accepts (readVec c) (IsVecEncoding E) := by
  intro b l t
  unfold readVec
  rw [bind_some_iff]
  constructor
  · rintro ⟨n, t', h1, h2⟩
    unfold Reader.take at h1
    split at h1
    · cases h1
    · rename_i hlen
      simp only [Option.some.injEq, Prod.mk.injEq] at h1
      obtain ⟨rfl, rfl⟩ := h1
      obtain ⟨e, ⟨hl, es, hes, rfl⟩, ht⟩ := (many_accepts hE _ _ _ _).1 h2
      refine ⟨b.take 8 ++ es.flatten, ⟨b.take 8, es, by simp; omega, hl.symm, hes, rfl⟩, ?_⟩
      rw [List.append_assoc, ← ht, List.take_append_drop]
  · rintro ⟨e, ⟨n, es, h8, hn, hes, rfl⟩, rfl⟩
    refine ⟨n, es.flatten ++ t, ?_, (many_accepts hE _ _ _ _).2 ⟨es.flatten, ⟨hn.symm, es, hes, rfl⟩, rfl⟩⟩
    rw [List.append_assoc]
    exact Reader.Reads.take n h8 _

end readers

theorem frCodec_accepts (b : Bytes) (x : Fr) : frCodec.dec b = some x ↔ IsFrEncoding b x := by
  constructor
  · intro h
    have h' : frDec b = some x := h
    unfold frDec at h'
    split at h'
    · rename_i hb
      simp only [Option.some.injEq] at h'
      subst h'
      exact ⟨hb.1, by rw [ZMod.val_natCast, Nat.mod_eq_of_lt hb.2]⟩
    · cases h'
  · rintro ⟨hl, h⟩
    show frDec b = some x
    unfold frDec
    rw [if_pos ⟨hl, by rw [h]; exact ZMod.val_lt x⟩, h, ZMod.natCast_zmod_val]

theorem isG1_len {b : Bytes} {P : G1Point} (h : IsG1Encoding b P) : b.length = 32 := by
  cases P <;> exact h.1

theorem isG2_len {b : Bytes} {P : G2Point} (h : IsG2Encoding b P) : b.length = 64 := by
  obtain ⟨P, hP⟩ := P
  unfold IsG2Encoding at h
  cases P <;> exact h.1

theorem acc1 : Accepts (readElem g1Codec) IsG1Encoding := readElem_accepts _ _ C69_g1_accepts fun _ _ h => isG1_len h
theorem acc2 : Accepts (readElem g2Codec) IsG2Encoding := readElem_accepts _ _ C69_g2_accepts fun _ _ h => isG2_len h
theorem accF : Accepts (readElem frCodec) IsFrEncoding := readElem_accepts _ _ frCodec_accepts fun _ _ h => h.1

/-- **C70** (what is accepted) — a byte string is accepted as a ciphertext exactly if it begins with an encoding of it in the sense of the
specification; what follows is ignored. -/
theorem C70_accepted_iff (b : Bytes) (ct : Ciphertext Fr G1Point G2Point) :
    decCiphertext g1Codec g2Codec b = some ct ↔ ∃ e t, IsCtEncoding e ct ∧ b = e ++ t := by
  unfold decCiphertext
  rw [Option.map_eq_some_iff]
  have v1 := readVec_accepts _ _ acc1
  have v2 := readVec_accepts _ _ acc2
  have vF := readVec_accepts _ _ accF
  constructor
  · rintro ⟨⟨ct', t⟩, h, rfl⟩
    unfold readCiphertext at h
    rw [bind_some_iff] at h
    obtain ⟨k, t0, hk, h⟩ := h
    rw [bind_some_iff] at h
    obtain ⟨pub, t1, hpub, h⟩ := h
    simp only [Reader.pure, Option.some.injEq, Prod.mk.injEq] at h
    obtain ⟨rfl, rfl⟩ := h
    unfold readEncapKey at hk
    simp only [bind_some_iff, acc1 _ _ _, acc2 _ _ _, v1 _ _ _, v2 _ _ _, Reader.pure, Option.some.injEq, Prod.mk.injEq] at hk
    obtain ⟨a, _, ⟨e1, h1, rfl⟩, e, _, ⟨e2, h2, rfl⟩, d, _, ⟨e3, h3, rfl⟩, u, _, ⟨e4, h4, rfl⟩, v, _, ⟨e5, h5, rfl⟩, p, _, ⟨e6, h6, rfl⟩, q, _,
      ⟨e7, h7, rfl⟩, rfl, rfl⟩ := hk
    obtain ⟨e8, h8, rfl⟩ := (vF _ _ _).1 hpub
    exact ⟨_, t1, ⟨e1, e2, e3, e4, e5, e6, e7, e8, h1, h2, h3, h4, h5, h6, h7, h8, rfl⟩, by simp⟩
  · rintro ⟨e, t, ⟨e1, e2, e3, e4, e5, e6, e7, e8, h1, h2, h3, h4, h5, h6, h7, h8, rfl⟩, rfl⟩
    refine ⟨(ct, t), ?_, rfl⟩
    unfold readCiphertext
    rw [bind_some_iff]
    refine ⟨ct.encapKey, e8 ++ t, ?_, (bind_some_iff _ _ _ _ _).2 ⟨ct.publicInputs, t, (vF _ _ _).2 ⟨e8, h8, rfl⟩, rfl⟩⟩
    unfold readEncapKey
    simp only [bind_some_iff, acc1 _ _ _, acc2 _ _ _, v1 _ _ _, v2 _ _ _, Reader.pure, Option.some.injEq, Prod.mk.injEq]
    exact ⟨_, _, ⟨e1, h1, by simp⟩, _, _, ⟨e2, h2, rfl⟩, _, _, ⟨e3, h3, rfl⟩, _, _, ⟨e4, h4, rfl⟩, _, _, ⟨e5, h5, rfl⟩, _, _, ⟨e6, h6, rfl⟩, _, _,
      ⟨e7, h7, rfl⟩, rfl, rfl⟩

/-- No point of the ciphertext is an identity. -/
def NoIdentity (ct : Ciphertext Fr G1Point G2Point) : Prop :=
  ct.encapKey.alphaG1 ≠ 0 ∧ ct.encapKey.betaG2 ≠ 0 ∧ ct.encapKey.deltaG2 ≠ 0 ∧ (∀ P ∈ ct.encapKey.rU, P ≠ 0) ∧
  (∀ P ∈ ct.encapKey.rV, P ≠ 0) ∧ (∀ P ∈ ct.encapKey.phiDelta, P ≠ 0) ∧ ∀ P ∈ ct.encapKey.hQuery, P ≠ 0

theorem vec_unique {α : Type} {E : Bytes → α → Prop} {l : List α} (hu : ∀ a ∈ l, ∀ b b', E b a → E b' a → b = b') {b b' : Bytes}
    (h : IsVecEncoding E b l) (h' : IsVecEncoding E b' l) : b = b' := by
  obtain ⟨n, es, h1, h2, h3, rfl⟩ := h
  obtain ⟨n', es', h1', h2', h3', rfl⟩ := h'
  have hn : n = n' := leNat_inj (h1.trans h1'.symm) (h2.trans h2'.symm)
  have hes : es = es' := by
    clear h1 h1' h2 h2' hn
    induction h3 generalizing es' with
    | nil => cases h3'; rfl
    | cons ha _ ih =>
      cases h3' with
      | cons ha' hr' =>
        rw [hu _ (by simp) _ _ ha ha', ih (fun a ha => hu a (by simp [ha])) _ hr']
  rw [hn, hes]

/-- **C70** (unique bytes) — two encodings of a ciphertext without identity points are equal. -/
theorem C70_unique_without_identity (ct : Ciphertext Fr G1Point G2Point) (hno : NoIdentity ct) (b b' : Bytes) (h : IsCtEncoding b ct)
    (h' : IsCtEncoding b' ct) : b = b' := by
  obtain ⟨n1, n2, n3, n4, n5, n6, n7⟩ := hno
  obtain ⟨e1, e2, e3, e4, e5, e6, e7, e8, h1, h2, h3, h4, h5, h6, h7, h8, rfl⟩ := h
  obtain ⟨f1, f2, f3, f4, f5, f6, f7, f8, g1, g2, g3, g4, g5, g6, g7, g8, rfl⟩ := h'
  have uF : ∀ a ∈ ct.publicInputs, ∀ b b', IsFrEncoding b a → IsFrEncoding b' a → b = b' := fun a _ b b' h h' =>
    leNat_inj (h.1.trans h'.1.symm) (h.2.trans h'.2.symm)
  rw [(C69_unique _ _).1 _ n1 h1 g1, (C69_unique _ _).2 _ n2 h2 g2, (C69_unique _ _).2 _ n3 h3 g3,
    vec_unique (fun a ha b b' => (C69_unique b b').1 a (n4 a ha)) h4 g4, vec_unique (fun a ha b b' => (C69_unique b b').2 a (n5 a ha)) h5 g5,
    vec_unique (fun a ha b b' => (C69_unique b b').1 a (n6 a ha)) h6 g6, vec_unique (fun a ha b b' => (C69_unique b b').1 a (n7 a ha)) h7 g7,
    vec_unique uF h8 g8]

variable {GT : Type} [AddCommGroup GT] [Module Fr GT]

theorem encVec_isVec {α : Type} (c : Codec α) (E : Bytes → α → Prop) (hE : ∀ a, E (c.enc a) a) (l : List α) (h : l.length < 2 ^ 64) :
    IsVecEncoding E (encVec c l) l := by
  refine ⟨u64le l.length, l.map c.enc, by simp, leNat_u64le h, ?_, rfl⟩
  induction l with
  | nil => exact .nil
  | cons a l ih => exact .cons (hE a) (ih (by simp at h; omega))

/-- **C70** (alternatives) — a ciphertext of the documented workflow (some wire of the circuit had no value) has at least `q` different
encodings of the same length as its own, all of which are accepted as the same ciphertext. -/
theorem C70_documented_malleable (P : Pairing Fr G1Point G2Point GT) (dom : Domains Fr) (t : Tool) (r : R1csFile) (hf : PublicFits r)
    (w : WireMap) (hm : SomeWireMissing r w) (ρ : Rand Fr) (ct : Ciphertext Fr G1Point G2Point) (k : Key)
    (henc : encap P dom (t.circuit r w) ρ = .ok (ct, k)) (hfit : Fits64 ct) :
    ∃ f : Fin fqModulus → Bytes, Function.Injective f ∧ (∃ n, f n = encCiphertext g1Codec g2Codec ct) ∧
      ∀ n, (f n).length = (encCiphertext g1Codec g2Codec ct).length ∧ decCiphertext g1Codec g2Codec (f n) = some ct := by
  obtain ⟨-, -, -, cs, hct, hcons, hn, -⟩ := encap_missing P dom t r w hf hm ρ ct k henc
  have hrU : ∃ l, ct.encapKey.rU = 0 :: l := by
    rw [hct]
    simp only [encapCt, evaluateQap_no_cons dom cs ρ.x hcons]
    obtain ⟨m, hm⟩ : ∃ m, cs.numVars = m + 1 := ⟨cs.numVars - 1, by unfold CS.numVars; omega⟩
    rw [hm, List.range_succ_eq_map]
    rw [List.map_cons]
    refine ⟨_, List.cons_eq_cons.2 ⟨?_, rfl⟩⟩
    simp
  obtain ⟨l, hl⟩ := hrU
  obtain ⟨f1, f2, f3, f4, f5⟩ := hfit
  have E1 : ∀ a, IsG1Encoding (g1Codec.enc a) a := fun a => (C69_g1_accepts _ _).1 (g1Codec.dec_enc a)
  have E2 : ∀ a, IsG2Encoding (g2Codec.enc a) a := fun a => (C69_g2_accepts _ _).1 (g2Codec.dec_enc a)
  have EF : ∀ a, IsFrEncoding (frCodec.enc a) a := fun a => (frCodec_accepts _ _).1 (frCodec.dec_enc a)
  have hz : altZero1 0 = g1Codec.enc 0 := by
    obtain ⟨hl1, n, hn, h1⟩ := E1 0
    have h2 : g1Codec.enc 0 = addFlag (fqCoord.enc 0) .inf := rfl
    refine leNat_inj (by rw [hl1]; simp [altZero1]) ?_
    rw [(altZero1_spec fqModulus_prime.pos).1, h2, (fqFlag_num 0 .inf).1, byte_num.2.2, two_pow_254]
    simp
  let pre := g1Codec.enc ct.encapKey.alphaG1 ++ g2Codec.enc ct.encapKey.betaG2 ++ g2Codec.enc ct.encapKey.deltaG2 ++ u64le (l.length + 1)
  let post := (l.map g1Codec.enc).flatten ++ encVec g2Codec ct.encapKey.rV ++ encVec g1Codec ct.encapKey.phiDelta ++
    encVec g1Codec ct.encapKey.hQuery ++ encVec frCodec ct.publicInputs
  have hown : encCiphertext g1Codec g2Codec ct = pre ++ (altZero1 0 ++ post) := by
    simp only [encCiphertext, encEncapKey, hl, hz, pre, post]
    simp [encVec]
  have hlen : ∀ n, (altZero1 n).length = 32 := fun n => by simp [altZero1]
  refine ⟨fun n => pre ++ (altZero1 n ++ post), fun m n h => ?_, ⟨⟨0, fqModulus_prime.pos⟩, hown.symm⟩, fun n => ⟨?_, ?_⟩⟩
  · have h1 := List.append_cancel_left h
    have h2 := congrArg leNat (List.append_cancel_right h1)
    rw [(altZero1_spec m.2).1, (altZero1_spec n.2).1] at h2
    exact Fin.ext (by omega)
  · rw [hown]
    simp only [List.length_append, hlen]
  · refine (C70_accepted_iff _ _).2 ⟨_, [], ⟨_, _, _, u64le (l.length + 1) ++ (altZero1 n :: l.map g1Codec.enc).flatten, _, _, _, _, E1 _, E2 _, E2 _, ?_,
      encVec_isVec g2Codec _ E2 _ f2, encVec_isVec g1Codec _ E1 _ f3, encVec_isVec g1Codec _ E1 _ f4, encVec_isVec frCodec _ EF _ f5, rfl⟩, ?_⟩
    · rw [hl]
      rw [hl] at f1
      refine ⟨_, altZero1 n :: l.map g1Codec.enc, by simp, by simpa using leNat_u64le f1, ?_, rfl⟩
      refine .cons (altZero1_spec n.2).2 ?_
      clear hl f1 hown
      clear_value pre post
      clear pre post
      induction l with
      | nil => exact .nil
      | cons a l ih => exact .cons (E1 a) ih
    · simp [pre, post]

variable {G1 G2 : Type} [AddCommGroup G1] [Module Fr G1] [AddCommGroup G2] [Module Fr G2]

/-- **C70** (decryption, CLI) — `decrypt` and `decap` see the witness ciphertext only through its decoded value: replacing it by other bytes that
decode to the same ciphertext changes nothing. -/
theorem C70_cli_only_decoded (S : Sys G1 G2 GT) (b b' : Bytes) (h : decCiphertext S.c1 S.c2 b = decCiphertext S.c1 S.c2 b')
    (hl : b.length < 2 ^ 32) (hl' : b'.length < 2 ^ 32) (incl : Bool) (p enc : Bytes) (hp : incl = true → p.length < 2 ^ 32) (fs : FS)
    (circuit witness ciphertext ciphertext' output : Path) :
    (fs ciphertext = some b → fs ciphertext' = some b' →
      (decapCommand S circuit witness ciphertext output).exec fs = (decapCommand S circuit witness ciphertext' output).exec fs) ∧
    (fs ciphertext = some (combine incl b p enc) → fs ciphertext' = some (combine incl b' p enc) →
      (decryptCommand S circuit witness ciphertext output).exec fs = (decryptCommand S circuit witness ciphertext' output).exec fs) := by
  have part : ∀ k, (cliDecapPart S circuit witness (fun k => k b) k).exec fs = (cliDecapPart S circuit witness (fun k => k b') k).exec fs := by
    intro k
    unfold cliDecapPart
    simp only [h]
  constructor
  · intro h1 h2
    unfold decapCommand cliDecapPart
    have hr : ∀ k : Bytes → Cmd, (Cmd.readFile ciphertext "Failed to read ciphertext file" k).exec fs = (k b).exec fs := by
      intro k; simp [Cmd.readFile, Cmd.exec, h1]
    have hr' : ∀ k : Bytes → Cmd, (Cmd.readFile ciphertext' "Failed to read ciphertext file" k).exec fs = (k b').exec fs := by
      intro k; simp [Cmd.readFile, Cmd.exec, h2]
    cases hc : fs circuit with
    | none => simp [Cmd.readFile, Cmd.exec, hc]
    | some data =>
      simp only [Cmd.readFile, Cmd.exec, hc]
      cases cliParseR1cs S.lim data with
      | error e => rfl
      | ok r =>
        simp only [Cmd.lift, Cmd.exec]
        cases hw : fs witness with
        | none => rfl
        | some wdata =>
          simp only
          cases cliParseWtns wdata with
          | error e => rfl
          | ok wf =>
            simp only
            cases wf.toFieldElements with
            | error e => rfl
            | ok vals =>
              simp only [Cmd.exec, h1, h2, h]
  · intro h1 h2
    obtain ⟨q1, -⟩ := C43_roundtrip incl b p enc hl hp
    obtain ⟨q2, -⟩ := C43_roundtrip incl b' p enc hl' hp
    unfold decryptCommand
    simp only [Cmd.readFile, Cmd.exec, h1, h2, q1, q2, Cmd.lift]
    exact part _

/-- **C70** (decryption, JS) — the same in JS. -/
theorem C70_js_only_decoded (S : Sys G1 G2 GT) (b b' : Bytes) (h : decCiphertext S.c1 S.c2 b = decCiphertext S.c1 S.c2 b')
    (hl : b.length < 2 ^ 32) (hl' : b'.length < 2 ^ 32) (incl : Bool) (p enc : Bytes) (hp : incl = true → p.length < 2 ^ 32) (r1cs : Bytes)
    (wit : Res Bytes) :
    jsDecap S r1cs wit b = jsDecap S r1cs wit b' ∧
    jsDecrypt S r1cs wit (combine incl b p enc) = jsDecrypt S r1cs wit (combine incl b' p enc) := by
  have h1 : jsDecap S r1cs wit b = jsDecap S r1cs wit b' := by
    unfold jsDecap wasmDecap
    rw [h]
  obtain ⟨-, q1⟩ := C43_roundtrip incl b p enc hl hp
  obtain ⟨-, q2⟩ := C43_roundtrip incl b' p enc hl' hp
  refine ⟨h1, ?_⟩
  simp only [jsDecrypt, q1, q2, Res.ok_bind, h1]

/-- **C70** (messages) — a combined ciphertext of the documented workflow has at least `q` different variants of the same length, all of which
are decrypted in the same way, whatever circuit and witness are given. -/
theorem C70_message_malleable (S : Sys G1Point G2Point GT) (hc1 : S.c1 = g1Codec) (hc2 : S.c2 = g2Codec) (t : Tool) (r : R1csFile)
    (hf : PublicFits r) (w : WireMap) (hm : SomeWireMissing r w) (ρ : Rand Fr) (ct : Ciphertext Fr G1Point G2Point) (k : Key)
    (henc : encap S.P S.dom (t.circuit r w) ρ = .ok (ct, k)) (hfit : Fits64 ct) (hl : (encCiphertext S.c1 S.c2 ct).length < 2 ^ 32)
    (incl : Bool) (p enc : Bytes) (hp : incl = true → p.length < 2 ^ 32) :
    ∃ f : Fin fqModulus → Bytes, Function.Injective f ∧ (∃ n, f n = combine incl (encCiphertext S.c1 S.c2 ct) p enc) ∧
      ∀ n, (f n).length = (combine incl (encCiphertext S.c1 S.c2 ct) p enc).length ∧
        (∀ r1cs wit, jsDecrypt S r1cs wit (f n) = jsDecrypt S r1cs wit (combine incl (encCiphertext S.c1 S.c2 ct) p enc)) ∧
        ∀ (fs : FS) (circuit witness c c' output : Path), fs c = some (f n) → fs c' = some (combine incl (encCiphertext S.c1 S.c2 ct) p enc) →
          (decryptCommand S circuit witness c output).exec fs = (decryptCommand S circuit witness c' output).exec fs := by
  rw [hc1, hc2] at hl
  obtain ⟨f, hinj, ⟨n0, h0⟩, h⟩ := C70_documented_malleable S.P S.dom t r hf w hm ρ ct k henc hfit
  have hlen : ∀ n, (f n).length < 2 ^ 32 := fun n => by rw [(h n).1]; exact hl
  have hd : ∀ n, decCiphertext S.c1 S.c2 (f n) = decCiphertext S.c1 S.c2 (encCiphertext g1Codec g2Codec ct) := by
    intro n
    rw [hc1, hc2, (h n).2, ← h0, (h n0).2]
  rw [hc1, hc2]
  refine ⟨fun n => combine incl (f n) p enc, fun m n hmn => ?_, ⟨n0, by simp only [h0]⟩, fun n => ⟨?_, fun r1cs wit => ?_, ?_⟩⟩
  · have h1 := (C43_roundtrip incl (f m) p enc (hlen m) hp).1
    simp only at hmn
    rw [hmn, (C43_roundtrip incl (f n) p enc (hlen n) hp).1] at h1
    simp only [Except.ok.injEq, Parts.mk.injEq] at h1
    exact hinj h1.2.1.symm
  · simp only [combine, List.length_cons, List.length_append, (h n).1, u32be_length]
  · exact (C70_js_only_decoded S _ _ (hd n) (hlen n) hl incl p enc hp r1cs wit).2
  · intro fs circuit witness c c' output h1 h2
    exact (C70_cli_only_decoded S _ _ (hd n) (hlen n) hl incl p enc hp fs circuit witness c c' output).2 h1 h2

/-! ### Non-vacuity -/

namespace Ex

/-- `k ↦ k · g`. -/
noncomputable def spanEquiv {G : Type} [AddCommGroup G] [Module Fr G] (g : G) (h0 : g ≠ 0) (h : ∀ P : G, ∃ k : Fr, P = k • g) : Fr ≃ₗ[Fr] G :=
  LinearEquiv.ofBijective (LinearMap.toSpanSingleton Fr G g) ⟨by
    rw [injective_iff_map_eq_zero]
    intro k hk
    exact (smul_eq_zero.1 hk).resolve_right h0, fun P => by
    obtain ⟨k, rfl⟩ := h P
    exact ⟨k, rfl⟩⟩

theorem g1Gen_ne : g1Gen ≠ 0 := Point.some_ne_zero _
theorem g2Gen_ne : g2Gen ≠ 0 := fun h => Point.some_ne_zero _ (congrArg Subtype.val h : g2GenPoint = 0)

/-- A pairing of the two groups: `e(a · g1, b · g2) = a b`. -/
noncomputable def bnPairing : Pairing Fr G1Point G2Point Fr where
  g1 := g1Gen
  g2 := g2Gen
  e := (LinearMap.mul Fr Fr).compl₁₂ (spanEquiv g1Gen g1Gen_ne C69_group_order.1.2).symm.toLinearMap
    (spanEquiv g2Gen g2Gen_ne C69_group_order.2.2).symm.toLinearMap
  kdf x := ⟨frEnc x, leBytes_length _ _⟩

/-- The parameters with the groups and encodings of BN254. -/
noncomputable def bnSys : Sys G1Point G2Point Fr where
  P := bnPairing
  dom := bn254Domains
  c1 := g1Codec
  c2 := g2Codec
  c1_size := rfl
  c2_size := rfl
  cipher := toyBlock
  lim := 2 ^ 62
  hash := S.hash
  serdeParse := S.serdeParse
  stringify := S.stringify
  jsonParse := S.jsonParse
  lossyDecode := S.lossyDecode

/-- A ciphertext without identity points. -/
example : NoIdentity ⟨⟨g1Gen, g2Gen, g2Gen, [g1Gen, g1Gen], [g2Gen, g2Gen], [g1Gen, g1Gen], []⟩, [9]⟩ := by
  simp [NoIdentity, g1Gen_ne, g2Gen_ne]

/-- The circuit `y = x²` with only `y = 9` assigned: the hypotheses of C70 are met. -/
example : ∃ ct k, PublicFits sq ∧ SomeWireMissing sq (fun i => if i = 1 then some (9 : Fr) else none) ∧
    encap bnSys.P bnSys.dom (Tool.cli.circuit sq fun i => if i = 1 then some 9 else none) ρ = .ok (ct, k) ∧ Fits64 ct ∧
    (encCiphertext bnSys.c1 bnSys.c2 ct).length < 2 ^ 32 := by
  obtain ⟨ct, k, h⟩ := (C07_encap_outcome_circom bnSys.P bnSys.dom .cli sq (fun i => if i = 1 then some (9 : Fr) else none) ρ).2 delta_ne
  have hs := ct_size bnSys .cli sq (by decide) (fun i => if i = 1 then some (9 : Fr) else none) (fun i hi => by
    simp only [sq] at hi
    exact if_neg (by omega)) ρ ct k h
  refine ⟨ct, k, by decide, ⟨2, by norm_num, by decide, rfl⟩, h, hs.2, ?_⟩
  have := hs.1
  simp only [sq] at this
  omega

end Ex

end Zkenc.Props
