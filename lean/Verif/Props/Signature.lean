import Verif.Props.Sudoku
import Verif.Props.EndToEndEnforced
import Verif.Spec.Signature
/-!
# C83: the signers in the multi-signature circuit
-/

namespace Zkenc.Props

open Zkenc Zkenc.Spec Zkenc.SudokuLc Zkenc.SignatureSpec

theorem usable_not_zero : ¬ Usable (0, 0) := by
  rintro ⟨P, Q, ⟨h1, h2⟩, ⟨h3, -⟩, h⟩
  have hp1 : P.1 = 0 := by linear_combination h1
  apply h
  rw [hp1] at h3
  linear_combination h3

/-- The coefficient of the range check: minus one half (proof helper). -/
def halfInt : Int := 10944121435919637611123202872628637544274182200208017171849102093287904247808

theorem half_fr : (2 : Fr) * ((halfInt : Int) : Fr) = -1 := by
  have h : ((frModulus : Nat) : Fr) = 0 := ZMod.natCast_self _
  have e : (2 * halfInt : Int) = (frModulus : Int) - 1 := by
    unfold frModulus halfInt; norm_num
  have := congrArg (Int.cast (R := Fr)) e
  push_cast at this
  rw [h] at this
  linear_combination this

theorem half_ne : ((halfInt : Int) : Fr) ≠ 0 := by
  intro h
  have := half_fr
  rw [h] at this
  simp at this

theorem frCast_inj {a b : Nat} (ha : a < 10) (hb : b < 10) (h : (a : Fr) = (b : Fr)) : a = b := by
  have h1 : (10 : Nat) < frModulus := by unfold frModulus; norm_num
  have := (ZMod.natCast_eq_natCast_iff' a b frModulus).1 h
  rwa [Nat.mod_eq_of_lt (by omega), Nat.mod_eq_of_lt (by omega)] at this

/-- What the constraints of one `SelectPublicKey` with its range check say (proof helper). -/
structure Chosen (k : Fin 3 → Fr × Fr) (s b x y t0x t1x t0y t1y o0 i0 o1 i1 o2 i2 : Fr) : Prop where
  bit : (-1 + b) * b = 0
  range : (1 - s + b) * (-1 - s + b) = 0
  e5 : o0 * (k 0).1 = t0x
  e6 : o1 * (k 1).1 = t1x
  e7 : o2 * (k 2).1 = x - t0x - t1x
  e8 : o0 * (k 0).2 = t0y
  e9 : o1 * (k 1).2 = t1y
  e10 : o2 * (k 2).2 = y - t0y - t1y
  e11 : (0 - s) * i0 = 1 - o0
  e12 : (0 - s) * o0 = 0
  e13 : (1 - s) * i1 = 1 - o1
  e14 : (1 - s) * o1 = 0
  e15 : (2 - s) * i2 = 1 - o2
  e16 : (2 - s) * o2 = 0

theorem range_cases {s b : Fr} (h1 : (-1 + b) * b = 0) (h2 : (1 - s + b) * (-1 - s + b) = 0) : s = -1 ∨ s = 0 ∨ s = 1 ∨ s = 2 := by
  rcases mul_eq_zero.1 h1 with hb | hb
  · have hb : b = 1 := by linear_combination hb
    subst hb
    rcases mul_eq_zero.1 h2 with h | h
    · exact .inr (.inr (.inr (by linear_combination -h)))
    · exact .inr (.inl (by linear_combination -h))
  · subst hb
    rcases mul_eq_zero.1 h2 with h | h
    · exact .inr (.inr (.inl (by linear_combination -h)))
    · exact .inl (by linear_combination -h)

theorem small_ne {a : Int} (h : a ≠ 0) (hl : a.natAbs < 10) : ((a : Int) : Fr) ≠ 0 := by
  intro h0
  have h1 : (10 : Nat) < frModulus := by unfold frModulus; norm_num
  rw [ZMod.intCast_zmod_eq_zero_iff_dvd] at h0
  have := Int.natAbs_dvd_natAbs.2 h0
  have := Nat.le_of_dvd (by omega) this
  simp at this
  omega

theorem two_ne : (2 : Fr) ≠ 0 := by have := small_ne (a := 2) (by norm_num) (by norm_num); push_cast at this; exact this
theorem three_ne : (3 : Fr) ≠ 0 := by have := small_ne (a := 3) (by norm_num) (by norm_num); push_cast at this; exact this

theorem chosen_choice {k : Fin 3 → Fr × Fr} {s b x y t0x t1x t0y t1y o0 i0 o1 i1 o2 i2 : Fr}
    (h : Chosen k s b x y t0x t1x t0y t1y o0 i0 o1 i1 o2 i2) : Selected k s (x, y) := by
  obtain ⟨h1, h2, e5, e6, e7, e8, e9, e10, e11, e12, e13, e14, e15, e16⟩ := h
  have hx : x = o0 * (k 0).1 + o1 * (k 1).1 + o2 * (k 2).1 := by rw [e5, e6, e7]; ring
  have hy : y = o0 * (k 0).2 + o1 * (k 1).2 + o2 * (k 2).2 := by rw [e8, e9, e10]; ring
  have z : ∀ {c o : Fr}, c ≠ 0 → c * o = 0 → o = 0 := fun hc h => (mul_eq_zero.1 h).resolve_left hc
  rcases range_cases h1 h2 with rfl | rfl | rfl | rfl
  · refine .inr ⟨rfl, ?_⟩
    have a0 : o0 = 0 := z (by norm_num) e12
    have a1 : o1 = 0 := z (by have := two_ne; intro h; exact this (by linear_combination h)) e14
    have a2 : o2 = 0 := z (by have := three_ne; intro h; exact this (by linear_combination h)) e16
    rw [hx, hy, a0, a1, a2]; simp
  · refine .inl ⟨0, by simp, ?_⟩
    have a0 : o0 = 1 := by linear_combination e11
    have a1 : o1 = 0 := z (by norm_num) e14
    have a2 : o2 = 0 := z (by have := two_ne; intro h; exact this (by linear_combination h)) e16
    rw [hx, hy, a0, a1, a2]; simp
  · refine .inl ⟨1, by simp, ?_⟩
    have a0 : o0 = 0 := z (by norm_num) e12
    have a1 : o1 = 1 := by linear_combination e13
    have a2 : o2 = 0 := z (by intro h; exact one_ne_zero (α := Fr) (by linear_combination h)) e16
    rw [hx, hy, a0, a1, a2]; simp
  · refine .inl ⟨2, by simp, ?_⟩
    have a0 : o0 = 0 := z (by have := two_ne; intro h; exact this (by linear_combination -h)) e12
    have a1 : o1 = 0 := z (by intro h; exact one_ne_zero (α := Fr) (by linear_combination -h)) e14
    have a2 : o2 = 1 := by linear_combination e15
    rw [hx, hy, a0, a1, a2]; simp

/-- Is the index `n`? (proof helper) -/
def eqBit (n s : Fr) : Fr := if s = n then 1 else 0

theorem eqBit_inv (n s : Fr) : (n - s) * (n - s)⁻¹ = 1 - eqBit n s := by
  unfold eqBit
  split
  · rename_i h; subst h; simp
  · rename_i h
    rw [mul_inv_cancel₀ (sub_ne_zero.2 (Ne.symm h))]; simp

theorem eqBit_zero (n s : Fr) : (n - s) * eqBit n s = 0 := by
  unfold eqBit
  split
  · rename_i h; subst h; simp
  · simp

theorem choice_chosen {k : Fin 3 → Fr × Fr} {s : Fr} {A : Fr × Fr} (h : Selected k s A) :
    ∃ b, Chosen k s b A.1 A.2 (eqBit 0 s * (k 0).1) (eqBit 1 s * (k 1).1) (eqBit 0 s * (k 0).2) (eqBit 1 s * (k 1).2)
      (eqBit 0 s) (0 - s)⁻¹ (eqBit 1 s) (1 - s)⁻¹ (eqBit 2 s) (2 - s)⁻¹ := by
  have hb : ∃ b : Fr, (-1 + b) * b = 0 ∧ (1 - s + b) * (-1 - s + b) = 0 := by
    rcases h.symm with ⟨rfl, -⟩ | ⟨i, rfl, -⟩
    · exact ⟨0, by ring, by ring⟩
    · fin_cases i
      · exact ⟨1, by ring, by push_cast; ring⟩
      · exact ⟨0, by ring, by push_cast; ring⟩
      · exact ⟨1, by ring, by push_cast; ring⟩
  obtain ⟨b, hb1, hb2⟩ := hb
  have n01 : (0 : Fr) ≠ 1 := zero_ne_one
  have n02 : (0 : Fr) ≠ 2 := two_ne.symm
  have n12 : (1 : Fr) ≠ 2 := fun h => one_ne_zero (α := Fr) (by linear_combination -h)
  have m0 : (-1 : Fr) ≠ 0 := by norm_num
  have m1 : (-1 : Fr) ≠ 1 := fun h => two_ne (by linear_combination -h)
  have m2 : (-1 : Fr) ≠ 2 := fun h => three_ne (by linear_combination -h)
  have hA : A.1 = eqBit 0 s * (k 0).1 + eqBit 1 s * (k 1).1 + eqBit 2 s * (k 2).1 ∧
      A.2 = eqBit 0 s * (k 0).2 + eqBit 1 s * (k 1).2 + eqBit 2 s * (k 2).2 := by
    rcases h.symm with ⟨rfl, rfl⟩ | ⟨i, rfl, rfl⟩
    · simp [eqBit, m0, m1, m2]
    · fin_cases i
      · simp [eqBit, n01, n02]
      · simp [eqBit, n01.symm, n12]
      · simp [eqBit, n02.symm, n12.symm]
  refine ⟨b, hb1, hb2, rfl, rfl, ?_, rfl, rfl, ?_, eqBit_inv _ _, eqBit_zero _ _, eqBit_inv _ _, eqBit_zero _ _, eqBit_inv _ _, eqBit_zero _ _⟩
  · rw [hA.1]; ring
  · rw [hA.2]; ring

/-- What the constraints of the first two doublings in a verifier say (proof helper). -/
structure Doubled (x y be ga de ta x' y' : Fr) : Prop where
  e1 : x * y = be
  e2 : y * x = ga
  e3 : (168700 * x - y) * (x + y) = -de
  e4 : be * ga = ta
  e5 : (1 + 168696 * ta) * x' = be + ga
  e6 : (1 - 168696 * ta) * y' = 168700 * be - ga + de

theorem doubled_twice {x y be ga de ta x' y' : Fr} (h : Doubled x y be ga de ta x' y') : Twice (x, y) (x', y') := by
  obtain ⟨rfl, rfl, e3, rfl, e5, e6⟩ := h
  constructor
  · show (1 + 168696 * x ^ 2 * y ^ 2) * x' = 2 * x * y
    linear_combination e5
  · show (1 - 168696 * x ^ 2 * y ^ 2) * y' = y ^ 2 - 168700 * x ^ 2
    linear_combination e6 + e3

theorem twice_doubled {x y x' y' : Fr} (h : Twice (x, y) (x', y')) :
    Doubled x y (x * y) (y * x) (-((168700 * x - y) * (x + y))) (x * y * (y * x)) x' y' := by
  obtain ⟨h1, h2⟩ := h
  refine ⟨rfl, rfl, by ring, rfl, ?_, ?_⟩
  · linear_combination h1
  · linear_combination h2


/-- The keys among the wire values (proof helper). -/
def keysOf (v : Nat → Fr) (i : Fin 3) : Fr × Fr := (v (2 + 2 * i), v (3 + 2 * i))

/-- What the checks of the circuit itself say (proof helper). -/
structure OwnHold (v : Nat → Fr) : Prop where
  differ : (v 14 - v 15) * v 16 = 1
  first : Chosen (keysOf v) (v 14) (v 17) (v 19) (v 20) (v 21) (v 22) (v 23) (v 24) (v 25) (v 26) (v 27) (v 28) (v 29) (v 30)
  second : Chosen (keysOf v) (v 15) (v 18) (v 31) (v 32) (v 33) (v 34) (v 35) (v 36) (v 37) (v 38) (v 39) (v 40) (v 41) (v 42)

/-- What the verifiers say about the keys (proof helper). -/
structure VerHold (v : Nat → Fr) : Prop where
  d1 : Doubled (v 19) (v 20) (v 564) (v 565) (v 566) (v 567) (v 562) (v 563)
  d2 : Doubled (v 562) (v 563) (v 570) (v 571) (v 572) (v 573) (v 568) (v 569)
  n1 : v 568 * v 1416 = 1
  d3 : Doubled (v 31) (v 32) (v 4767) (v 4768) (v 4769) (v 4770) (v 4765) (v 4766)
  d4 : Doubled (v 4765) (v 4766) (v 4773) (v 4774) (v 4775) (v 4776) (v 4771) (v 4772)
  n2 : v 4771 * v 5619 = 1

theorem satisfies_rules (l : List (Nat × IntCstr)) (v : Nat → Fr) :
    Satisfies (l.map fun p => p.2.toFile) v ↔ ∀ p ∈ l, Holds v p.2 := by
  unfold Satisfies Holds
  simp only [List.forall_mem_map, IntCstr.toFile, lcSum_factors]

theorem ownHold_iff {v : Nat → Fr} (h0 : v 0 = 1) : Satisfies (signatureOwnRules.map fun p => p.2.toFile) v ↔ OwnHold v := by
  have hsq : (4 : Fr) * ((halfInt : Int) : Fr) * ((halfInt : Int) : Fr) = 1 := by
    linear_combination (2 * ((halfInt : Int) : Fr) - 1) * half_fr
  have fold : (10944121435919637611123202872628637544274182200208017171849102093287904247808 : Int) = halfInt := rfl
  have k0 : keysOf v 0 = (v 2, v 3) := rfl
  have k1 : keysOf v 1 = (v 4, v 5) := rfl
  have k2 : keysOf v 2 = (v 6, v 7) := rfl
  rw [satisfies_rules]
  unfold signatureOwnRules
  rw [fold]
  simp only [List.forall_mem_cons, Holds, ev_cons, ev_nil, h0]
  constructor
  · rintro ⟨c0, c1, c2, c3, c4, c5, c6, c7, c8, c9, c10, c11, c12, c13, c14, c15, c16, c17, c18, c19, c20, c21, c22, c23, c24, c25, c26, c27, c28, -⟩
    push_cast at *
    exact ⟨by linear_combination c0,
      ⟨by linear_combination c1, by linear_combination 4 * c2 - ((1 - v 14 + v 17) * (-1 - v 14 + v 17)) * hsq, by rw [k0]; linear_combination -c5, by rw [k1]; linear_combination -c6, by rw [k2]; linear_combination -c7, by rw [k0]; linear_combination -c8, by rw [k1]; linear_combination -c9, by rw [k2]; linear_combination -c10, by linear_combination c11, by linear_combination c12, by linear_combination c13, by linear_combination c14, by linear_combination c15, by linear_combination c16⟩,
      ⟨by linear_combination c3, by linear_combination 4 * c4 - ((1 - v 15 + v 18) * (-1 - v 15 + v 18)) * hsq, by rw [k0]; linear_combination -c17, by rw [k1]; linear_combination -c18, by rw [k2]; linear_combination -c19, by rw [k0]; linear_combination -c20, by rw [k1]; linear_combination -c21, by rw [k2]; linear_combination -c22, by linear_combination c23, by linear_combination c24, by linear_combination c25, by linear_combination c26, by linear_combination c27, by linear_combination c28⟩⟩
  · rintro ⟨z0, ⟨f1, f2, f5, f6, f7, f8, f9, f10, f11, f12, f13, f14, f15, f16⟩, ⟨g1, g2, g5, g6, g7, g8, g9, g10, g11, g12, g13, g14, g15, g16⟩⟩
    push_cast at *
    simp only [k0, k1, k2] at f5 f6 f7 f8 f9 f10 g5 g6 g7 g8 g9 g10
    exact ⟨by linear_combination z0,
      by linear_combination f1,
      by linear_combination ((halfInt : Int) : Fr) * ((halfInt : Int) : Fr) * f2,
      by linear_combination g1,
      by linear_combination ((halfInt : Int) : Fr) * ((halfInt : Int) : Fr) * g2,
      by linear_combination -f5,
      by linear_combination -f6,
      by linear_combination -f7,
      by linear_combination -f8,
      by linear_combination -f9,
      by linear_combination -f10,
      by linear_combination f11,
      by linear_combination f12,
      by linear_combination f13,
      by linear_combination f14,
      by linear_combination f15,
      by linear_combination f16,
      by linear_combination -g5,
      by linear_combination -g6,
      by linear_combination -g7,
      by linear_combination -g8,
      by linear_combination -g9,
      by linear_combination -g10,
      by linear_combination g11,
      by linear_combination g12,
      by linear_combination g13,
      by linear_combination g14,
      by linear_combination g15,
      by linear_combination g16, by simp⟩

theorem verHold_iff {v : Nat → Fr} (h0 : v 0 = 1) : Satisfies (signatureVerifierRules.map fun p => p.2.toFile) v ↔ VerHold v := by
  rw [satisfies_rules]
  unfold signatureVerifierRules
  simp only [List.forall_mem_cons, Holds, ev_cons, ev_nil, h0]
  constructor
  · rintro ⟨b1, b2, b3, b4, b5, b6, b7, b8, b9, b10, b11, b12, b13, d1, d2, d3, d4, d5, d6, d7, d8, d9, d10, d11, d12, d13, -⟩
    push_cast at *
    exact ⟨⟨by linear_combination -b1, by linear_combination -b2, by linear_combination b3, by linear_combination -b4, by linear_combination b5, by linear_combination b6⟩, ⟨by linear_combination -b7, by linear_combination -b8, by linear_combination b9, by linear_combination -b10, by linear_combination b11, by linear_combination b12⟩, by linear_combination b13,
      ⟨by linear_combination -d1, by linear_combination -d2, by linear_combination d3, by linear_combination -d4, by linear_combination d5, by linear_combination d6⟩, ⟨by linear_combination -d7, by linear_combination -d8, by linear_combination d9, by linear_combination -d10, by linear_combination d11, by linear_combination d12⟩, by linear_combination d13⟩
  · rintro ⟨⟨p1, p2, p3, p4, p5, p6⟩, ⟨q1, q2, q3, q4, q5, q6⟩, z1, ⟨r1, r2, r3, r4, r5, r6⟩, ⟨s1, s2, s3, s4, s5, s6⟩, z2⟩
    push_cast at *
    exact ⟨by linear_combination -p1,
      by linear_combination -p2,
      by linear_combination p3,
      by linear_combination -p4,
      by linear_combination p5,
      by linear_combination p6,
      by linear_combination -q1,
      by linear_combination -q2,
      by linear_combination q3,
      by linear_combination -q4,
      by linear_combination q5,
      by linear_combination q6,
      by linear_combination z1,
      by linear_combination -r1,
      by linear_combination -r2,
      by linear_combination r3,
      by linear_combination -r4,
      by linear_combination r5,
      by linear_combination r6,
      by linear_combination -s1,
      by linear_combination -s2,
      by linear_combination s3,
      by linear_combination -s4,
      by linear_combination s5,
      by linear_combination s6,
      by linear_combination z2, by simp⟩

theorem ownHold_selected {v : Nat → Fr} (h : OwnHold v) :
    v 14 ≠ v 15 ∧ Selected (keysOf v) (v 14) (v 19, v 20) ∧ Selected (keysOf v) (v 15) (v 31, v 32) := by
  refine ⟨fun he => ?_, chosen_choice h.first, chosen_choice h.second⟩
  have := h.differ
  rw [he] at this
  simp at this

theorem verHold_usable {v : Nat → Fr} (h : VerHold v) : Usable (v 19, v 20) ∧ Usable (v 31, v 32) := by
  refine ⟨⟨_, _, doubled_twice h.d1, doubled_twice h.d2, fun h0 => ?_⟩, ⟨_, _, doubled_twice h.d3, doubled_twice h.d4, fun h0 => ?_⟩⟩
  · have := h.n1
    rw [show v 568 = 0 from h0] at this
    simp at this
  · have := h.n2
    rw [show v 4771 = 0 from h0] at this
    simp at this

/-- Wire values from a table (proof helper). -/
def tableVal (l : List (Nat × Fr)) (w : Nat) : Fr := match l.find? (fun e => e.1 == w) with
  | some e => e.2
  | none => 0

/-- The wires of the circuit's own checks (proof helper). -/
def ownTable (k : Fin 3 → Fr × Fr) (s t b c : Fr) (A B : Fr × Fr) : List (Nat × Fr) := [(0, 1), (2, (k 0).1), (3, (k 0).2), (4, (k 1).1), (5, (k 1).2),
  (6, (k 2).1), (7, (k 2).2), (14, s), (15, t), (16, (s - t)⁻¹), (17, b), (18, c), (19, A.1), (20, A.2), (21, eqBit 0 s * (k 0).1),
  (22, eqBit 1 s * (k 1).1), (23, eqBit 0 s * (k 0).2), (24, eqBit 1 s * (k 1).2), (25, eqBit 0 s), (26, (0 - s)⁻¹), (27, eqBit 1 s),
  (28, (1 - s)⁻¹), (29, eqBit 2 s), (30, (2 - s)⁻¹), (31, B.1), (32, B.2), (33, eqBit 0 t * (k 0).1),
  (34, eqBit 1 t * (k 1).1), (35, eqBit 0 t * (k 0).2), (36, eqBit 1 t * (k 1).2), (37, eqBit 0 t), (38, (0 - t)⁻¹), (39, eqBit 1 t),
  (40, (1 - t)⁻¹), (41, eqBit 2 t), (42, (2 - t)⁻¹)]

/-- The wires of the doublings (proof helper). -/
def verTable (A P Q B P' Q' : Fr × Fr) : List (Nat × Fr) :=
  let dbl (o x y : Nat) (A P : Fr × Fr) := [(x, P.1), (y, P.2), (o, A.1 * A.2), (o + 1, A.2 * A.1), (o + 2, -((168700 * A.1 - A.2) * (A.1 + A.2))),
    (o + 3, A.1 * A.2 * (A.2 * A.1))]
  dbl 564 562 563 A P ++ dbl 570 568 569 P Q ++ dbl 4767 4765 4766 B P' ++ dbl 4773 4771 4772 P' Q' ++ [(1416, Q.1⁻¹), (5619, Q'.1⁻¹)]

/-- The values fit the public wires, the indices and the keys that the verifiers get (proof helper). -/
def Fits (v : Nat → Fr) (keys : Fin 3 → Fr × Fr) (s t : Fr) (A B : Fr × Fr) : Prop :=
  v 0 = 1 ∧ (∀ i : Fin 3, (v (2 + 2 * i), v (3 + 2 * i)) = keys i) ∧ v 14 = s ∧ v 15 = t ∧ (v 19, v 20) = A ∧ (v 31, v 32) = B

theorem build {keys : Fin 3 → Fr × Fr} {s t : Fr} {A B : Fr × Fr} (hne : s ≠ t) (h1 : Selected keys s A) (h2 : Selected keys t B)
    (l : List (Nat × Fr)) : ∃ b c, Fits (tableVal (ownTable keys s t b c A B ++ l)) keys s t A B ∧
      OwnHold (tableVal (ownTable keys s t b c A B ++ l)) := by
  obtain ⟨b, hb⟩ := choice_chosen h1
  obtain ⟨c, hc⟩ := choice_chosen h2
  have hk : keysOf (tableVal (ownTable keys s t b c A B ++ l)) = keys := by
    funext i; fin_cases i <;> rfl
  refine ⟨b, c, ⟨rfl, fun i => congrFun hk i, rfl, rfl, rfl, rfl⟩, ?_, ?_, ?_⟩
  · show (s - t) * (s - t)⁻¹ = 1
    exact mul_inv_cancel₀ (sub_ne_zero.2 hne)
  · rw [hk]; exact hb
  · rw [hk]; exact hc

theorem satisfies_append (l m : List FileCstr) (v : Nat → Fr) : Satisfies (l ++ m) v ↔ Satisfies l v ∧ Satisfies m v := by
  unfold Satisfies
  simp only [List.mem_append, or_imp, forall_and]

theorem satisfies_rules_iff {v : Nat → Fr} (h0 : v 0 = 1) :
    Satisfies (signatureRules.map fun p => p.2.toFile) v ↔ OwnHold v ∧ VerHold v := by
  rw [signatureRules, List.map_append, satisfies_append, ownHold_iff h0, verHold_iff h0]

/-- **C83** (the circuit's own checks) — without the verifiers, the checks of `MultiSig2of3` on the indices let through exactly this: two different indices, each
0, 1 or 2 with the key of this number, or `-1` with `(0, 0)`. The range check `LessEqThan(2)` does not keep `-1` out. -/
theorem C83_own_checks (keys : Fin 3 → Fr × Fr) (s t : Fr) (A B : Fr × Fr) :
    (∃ v : Nat → Fr, v 0 = 1 ∧ (∀ i : Fin 3, (v (2 + 2 * i), v (3 + 2 * i)) = keys i) ∧ v 14 = s ∧ v 15 = t ∧ (v 19, v 20) = A ∧ (v 31, v 32) = B ∧
      Satisfies (signatureOwnRules.map fun p => p.2.toFile) v) ↔ s ≠ t ∧ Selected keys s A ∧ Selected keys t B := by
  constructor
  · rintro ⟨v, h0, hk, rfl, rfl, rfl, rfl, h⟩
    have := ownHold_selected ((ownHold_iff h0).1 h)
    rwa [show keysOf v = keys from funext hk] at this
  · rintro ⟨hne, h1, h2⟩
    obtain ⟨b, c, ⟨f1, f2, f3, f4, f5, f6⟩, h⟩ := build hne h1 h2 []
    exact ⟨_, f1, f2, f3, f4, f5, f6, (ownHold_iff f1).2 h⟩

/-- **C83** (exactly) — with the check of the keys in the two verifiers: the signers are two different numbers from 0 to 2, and the verifiers get the keys of these
numbers, which are not of small order. Index `-1` is out, and every such choice is let through. -/
theorem C83_exactly (keys : Fin 3 → Fr × Fr) (s t : Fr) (A B : Fr × Fr) :
    (∃ v : Nat → Fr, v 0 = 1 ∧ (∀ i : Fin 3, (v (2 + 2 * i), v (3 + 2 * i)) = keys i) ∧ v 14 = s ∧ v 15 = t ∧ (v 19, v 20) = A ∧ (v 31, v 32) = B ∧
      Satisfies (signatureRules.map fun p => p.2.toFile) v) ↔ TwoSigners keys s t A B := by
  constructor
  · rintro ⟨v, h0, hk, rfl, rfl, rfl, rfl, h⟩
    rw [satisfies_rules_iff h0] at h
    obtain ⟨hne, h1, h2⟩ := ownHold_selected h.1
    obtain ⟨u1, u2⟩ := verHold_usable h.2
    rw [show keysOf v = keys from funext hk] at h1 h2
    rcases h1 with ⟨i, hi, hA⟩ | ⟨-, hA⟩
    · rcases h2 with ⟨j, hj, hB⟩ | ⟨-, hB⟩
      · refine ⟨i, j, ?_, hi, hj, hA, hB, hA ▸ u1, hB ▸ u2⟩
        rintro rfl
        exact hne (hi.trans hj.symm)
      · rw [hB] at u2; exact absurd u2 usable_not_zero
    · rw [hA] at u1; exact absurd u1 usable_not_zero
  · rintro ⟨i, j, hij, rfl, rfl, rfl, rfl, ⟨P, Q, a1, a2, a3⟩, ⟨P', Q', b1, b2, b3⟩⟩
    have hne : ((i : Nat) : Fr) ≠ ((j : Nat) : Fr) := fun h => hij (Fin.ext (frCast_inj (by omega) (by omega) h))
    obtain ⟨b, c, ⟨f1, f2, f3, f4, f5, f6⟩, h⟩ := build (A := keys i) (B := keys j) hne (.inl ⟨i, rfl, rfl⟩) (.inl ⟨j, rfl, rfl⟩)
      (verTable (keys i) P Q (keys j) P' Q')
    refine ⟨_, f1, f2, f3, f4, f5, f6, (satisfies_rules_iff f1).2 ⟨h, ?_⟩⟩
    exact ⟨twice_doubled a1, twice_doubled a2, mul_inv_cancel₀ a3, twice_doubled b1, twice_doubled b2, mul_inv_cancel₀ b3⟩

/-- **C83** (the compiled circuit) — whoever satisfies the compiled circuit `signature.r1cs` has two different signer numbers from 0 to 2, and the two signature
verifiers work with the public keys of these numbers. -/
theorem C83_signers (r : R1csFile) (hr : IsSignature r) (vals : List Fr) (h : Accepted r vals) :
    TwoSigners (fun i => (vals.getD (2 + 2 * i) 0, vals.getD (3 + 2 * i) 0)) (vals.getD 14 0) (vals.getD 15 0) (vals.getD 19 0, vals.getD 20 0)
      (vals.getD 31 0, vals.getD 32 0) := by
  obtain ⟨val, hv, ha, hs⟩ := h
  have hn : 8449 ≤ r.nAlloc := by unfold R1csFile.nAlloc; rw [hr.wires]; omega
  have get : ∀ i, 1 ≤ i → i < 8449 → vals.getD i 0 = val i := by
    intro i h1 h2
    have := ha i h1 (by omega)
    unfold fullWires at this
    rw [List.getD_eq_getElem?_getD, this]; rfl
  refine (C83_exactly _ _ _ _ _).1 ⟨val, hv.one, fun i => ?_, ?_, ?_, ?_, ?_, ?_⟩
  · rw [get _ (by omega) (by omega), get _ (by omega) (by omega)]
  · rw [get _ (by omega) (by omega)]
  · rw [get _ (by omega) (by omega)]
  · rw [get _ (by omega) (by omega), get _ (by omega) (by omega)]
  · rw [get _ (by omega) (by omega), get _ (by omega) (by omega)]
  · intro k hk
    obtain ⟨p, hp, rfl⟩ := List.mem_map.1 hk
    exact hs _ (List.mem_of_getElem? (hr.rules p hp))

/-! ## The hypotheses are met -/

namespace Ex

/-- The three public keys of `tests/inputs/signature_basic.json`. -/
def repoKeys : Fin 3 → Nat × Nat := ![
  (6009826206664631762425195104551483519464780417855034312675013183895652229081, 10734004088266146241393102410697198390225666634906567834302254376371681698208),
  (19793466303173795825746369112468155612672506628654075136170081711800466095141, 14262475615980935241842534355789095678830309728980966821144278016885304112793),
  (3511175822494205853792874951717762611554165356396980816782388787335548579703, 12399050215914342194645126279704166832646984181975547988718077527360099492910)]

/-- Keys as field elements. -/
def frKeys (k : Fin 3 → Nat × Nat) (i : Fin 3) : Fr × Fr := (((k i).1 : Fr), ((k i).2 : Fr))

theorem twice_of_nat (x y x' y' : Nat) (h1 : (x' + 168696 * x ^ 2 * y ^ 2 * x') % frModulus = 2 * x * y % frModulus)
    (h2 : (y' + 168700 * x ^ 2) % frModulus = (y ^ 2 + 168696 * x ^ 2 * y ^ 2 * y') % frModulus) :
    Twice ((x : Fr), (y : Fr)) ((x' : Fr), (y' : Fr)) := by
  have e1 := (ZMod.natCast_eq_natCast_iff' _ _ frModulus).2 h1
  have e2 := (ZMod.natCast_eq_natCast_iff' _ _ frModulus).2 h2
  push_cast at e1 e2
  constructor
  · linear_combination e1
  · linear_combination e2

theorem usable_of_nat (x y x' y' x'' y'' : Nat) (h1 : (x' + 168696 * x ^ 2 * y ^ 2 * x') % frModulus = 2 * x * y % frModulus)
    (h2 : (y' + 168700 * x ^ 2) % frModulus = (y ^ 2 + 168696 * x ^ 2 * y ^ 2 * y') % frModulus)
    (h3 : (x'' + 168696 * x' ^ 2 * y' ^ 2 * x'') % frModulus = 2 * x' * y' % frModulus)
    (h4 : (y'' + 168700 * x' ^ 2) % frModulus = (y' ^ 2 + 168696 * x' ^ 2 * y' ^ 2 * y'') % frModulus) (h5 : x'' % frModulus ≠ 0) :
    Usable ((x : Fr), (y : Fr)) := by
  refine ⟨_, _, twice_of_nat x y x' y' h1 h2, twice_of_nat x' y' x'' y'' h3 h4, fun h0 => h5 ?_⟩
  have := (ZMod.natCast_eq_natCast_iff' x'' 0 frModulus).1 (by simpa using h0)
  simpa using this

/-- Two of the keys of the repository's own test are usable, so signers 0 and 1 are a choice that the circuit lets through. -/
theorem repo_signers : TwoSigners (frKeys repoKeys) 0 1 (frKeys repoKeys 0) (frKeys repoKeys 1) := by
  refine ⟨0, 1, by decide, by simp, by simp, rfl, rfl, ?_, ?_⟩
  · exact usable_of_nat _ _ 13638533001248852047736310077110738072491216025433630678541907691035805968258 7991525705634692237065179368791743357306548580079954586038519454219222305166 244803937913048497283953941056717025044783431754809979255657921883805211697 21058126182050711864129033448959970092176129639354607189506541905468742996645
      (by decide +kernel) (by decide +kernel) (by decide +kernel) (by decide +kernel) (by decide +kernel)
  · exact usable_of_nat _ _ 15183122898848946887957667020862871951640009863682769633272227546064088569098 3656554413830304706141142835224193718330156024686494700571246879716437238008 346318985981204745232179120907780153125263360891907712199794965700806731609 19880501845866377830961376100008136590540942100971696423240596099573702323812
      (by decide +kernel) (by decide +kernel) (by decide +kernel) (by decide +kernel) (by decide +kernel)

/-- A circuit file with the constraints of the model at their places and empty constraints elsewhere. -/
def signatureConstraint (n : Nat) : FileCstr := match signatureRules.find? (fun p => p.1 == n) with
  | some p => p.2.toFile
  | none => ⟨[], [], []⟩

/-- The circuit file. -/
def signatureR1cs : R1csFile where
  fieldSize := 32
  prime := leBytes 32 frModulus
  nWires := 8449
  nPubOut := 0
  nPubIn := 7
  nPrvIn := 8
  nLabels := 8449
  nConstraints := 5357
  constraints := (List.range 5357).map signatureConstraint
  wire2label := List.range 8449

theorem rules_find : signatureRules.all (fun p => decide (p.1 < 5357) && decide (signatureRules.find? (fun q => q.1 == p.1) = some p)) = true := by
  decide +kernel

theorem constraints_eq : signatureR1cs.constraints = (List.range 5357).map signatureConstraint := by rw [signatureR1cs]

theorem isSignature : IsSignature signatureR1cs := by
  refine ⟨by rw [signatureR1cs], by rw [signatureR1cs], by rw [signatureR1cs], fun p hp => ?_⟩
  have h := List.all_eq_true.1 rules_find p hp
  rw [Bool.and_eq_true, decide_eq_true_eq, decide_eq_true_eq] at h
  rw [constraints_eq, List.getElem?_map, List.getElem?_range h.1]
  simp only [Option.map_some, signatureConstraint, h.2]

/-- Every choice of two signers among three usable keys has a witness, for every message. -/
theorem signature_accepted {keys : Fin 3 → Fr × Fr} {s t : Fr} {A B : Fr × Fr} (h : TwoSigners keys s t A B) (msg : Fr) :
    ∃ vals : List Fr, Accepted signatureR1cs vals ∧ vals.length = 8449 ∧ vals[1]? = some msg ∧
      ∀ i : Fin 3, vals[2 + 2 * (i : Nat)]? = some (keys i).1 ∧ vals[3 + 2 * (i : Nat)]? = some (keys i).2 := by
  obtain ⟨v₀, h0', hk, -, -, -, -, hs⟩ := (C83_exactly _ _ _ _ _).2 h
  have hw : signatureRules.all (fun p => (p.2.a ++ p.2.b ++ p.2.c).all fun t => decide (t.1 < 8449) && decide (t.1 ≠ 1)) = true := by decide +kernel
  have hal : signatureR1cs.nAlloc = 8449 := by unfold R1csFile.nAlloc; rw [isSignature.wires]; rw [signatureR1cs]; rfl
  obtain ⟨v, hv⟩ : ∃ v : Nat → Fr, v = fun i => if i = 1 then msg else v₀ i := ⟨_, rfl⟩
  have h0 : v 0 = 1 := by rw [hv]; exact h0'
  have hget : ∀ i, i < 8449 → ((List.range 8449).map v)[i]? = some (v i) := by
    intro i hi
    rw [List.getElem?_map, List.getElem?_range hi]; rfl
  refine ⟨(List.range 8449).map v, ⟨fun i => if i < 8449 then v i else 0, ⟨by simpa using h0, ?_⟩, ?_, ?_⟩, by simp, by rw [hget 1 (by omega), hv]; rfl, ?_⟩
  · intro i hi; rw [hal] at hi; simp [Nat.not_lt.2 hi]
  · intro i h1 h2
    rw [hal] at h2
    unfold fullWires
    rw [hget i h2]
    show some (v i) = some (if i < 8449 then v i else 0)
    rw [if_pos h2]
  · rintro k hk
    rw [constraints_eq] at hk
    obtain ⟨n, -, rfl⟩ := List.mem_map.1 hk
    unfold signatureConstraint
    split
    · rename_i p hp
      have hm := List.mem_of_find?_eq_some hp
      have hb := List.all_eq_true.1 hw p hm
      have hc : ∀ t ∈ p.2.a ++ p.2.b ++ p.2.c, (fun i => if i < 8449 then v i else 0) t.1 = v₀ t.1 := by
        intro t ht
        have := List.all_eq_true.1 hb t ht
        rw [Bool.and_eq_true, decide_eq_true_eq, decide_eq_true_eq] at this
        rw [hv]
        simp [this.1, this.2]
      have := (satisfies_rules _ _).1 hs p hm
      unfold Holds at this
      simp only [IntCstr.toFile, lcSum_factors]
      rw [ev_congr (l := p.2.a) (fun t ht => hc t (by simp [ht])), ev_congr (l := p.2.b) (fun t ht => hc t (by simp [ht])),
        ev_congr (l := p.2.c) (fun t ht => hc t (by simp [ht]))]
      exact this
    · simp [lcSum]
  · intro i
    have := hk i
    rw [hget _ (by omega), hget _ (by omega), hv]
    simp only
    rw [if_neg (by omega), if_neg (by omega), ← this]
    exact ⟨rfl, rfl⟩

end Ex

end Zkenc.Props
