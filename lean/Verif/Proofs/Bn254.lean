import Mathlib.FieldTheory.Finite.Basic
import Mathlib.RingTheory.RootsOfUnity.PrimitiveRoots
import Verif.Model.Bn254
import Verif.Proofs.Qap
import Verif.Spec.Bn254
/-! Helper lemmas about the BN254 evaluation domain. -/

namespace Zkenc

open Polynomial

/-! ### The root of unity -/

theorem fr_pow_ne_one (e : Nat) (he : e < 2 ^ 254) (h : Pratt.powMod frModulus 254 5 e ≠ 1) :
    frGenerator ^ e ≠ 1 := by
  rw [Pratt.powMod_eq _ _ _ _ he] at h
  intro hc
  apply h
  have h5 : frGenerator = ((5 : Nat) : Fr) := by unfold frGenerator; norm_num
  rw [h5, ← Nat.cast_pow, ← Nat.cast_one, ZMod.natCast_eq_natCast_iff, Nat.ModEq] at hc
  rw [hc, Nat.mod_eq_of_lt frModulus_prime.one_lt]

theorem gen_half : frGenerator ^ ((frModulus - 1) / 2) ≠ 1 :=
  fr_pow_ne_one _ (by decide +kernel) (by decide +kernel)

theorem gen_third : frGenerator ^ ((frModulus - 1) / 3) ≠ 1 :=
  fr_pow_ne_one _ (by decide +kernel) (by decide +kernel)

theorem gen_fermat : frGenerator ^ (frModulus - 1) = 1 := by
  apply ZMod.pow_card_sub_one_eq_one
  intro h
  have h5 : frGenerator = ((5 : Nat) : Fr) := by unfold frGenerator; norm_num
  rw [h5] at h
  rw [ZMod.natCast_eq_zero_iff] at h
  have := Nat.le_of_dvd (by decide) h
  exact absurd this (by decide +kernel)

theorem largeRoot_order : orderOf largeRoot = 2 ^ 28 * 3 ^ 2 := by
  apply orderOf_eq_of_pow_and_pow_div_prime (by decide)
  · unfold largeRoot
    rw [← pow_mul]
    have : (frModulus - 1) / (2 ^ twoAdicity * smallBase ^ smallAdicity) * (2 ^ 28 * 3 ^ 2) = frModulus - 1 := by
      decide +kernel
    rw [this, gen_fermat]
  · intro q hq hd
    have h23 : q = 2 ∨ q = 3 := by
      rcases (Nat.Prime.dvd_mul hq).1 hd with h | h
      · exact Or.inl ((Nat.prime_dvd_prime_iff_eq hq Nat.prime_two).1 (hq.dvd_of_dvd_pow h))
      · exact Or.inr ((Nat.prime_dvd_prime_iff_eq hq Nat.prime_three).1 (hq.dvd_of_dvd_pow h))
    unfold largeRoot
    rw [← pow_mul]
    rcases h23 with rfl | rfl
    · have : (frModulus - 1) / (2 ^ twoAdicity * smallBase ^ smallAdicity) * (2 ^ 28 * 3 ^ 2 / 2)
        = (frModulus - 1) / 2 := by decide +kernel
      rw [this]; exact gen_half
    · have : (frModulus - 1) / (2 ^ twoAdicity * smallBase ^ smallAdicity) * (2 ^ 28 * 3 ^ 2 / 3)
        = (frModulus - 1) / 3 := by decide +kernel
      rw [this]; exact gen_third

theorem iter_pow {M : Type} [Monoid M] (k n : Nat) (w : M) : (fun w => w ^ k)^[n] w = w ^ (k ^ n) := by
  induction n generalizing w with
  | zero => simp
  | succ n ih => rw [Function.iterate_succ_apply, ih, ← pow_mul, pow_succ, mul_comm]

/-! ### Adicities -/

theorem kAdicity_spec (k o : Nat) (hk : 1 < k) (ho : 0 < o) (hko : o % k ≠ 0) (a fuel : Nat)
    (hf : k ^ a * o ≤ fuel) : kAdicity k fuel (k ^ a * o) = a := by
  induction a generalizing fuel with
  | zero =>
    cases fuel with
    | zero => rfl
    | succ f =>
      simp only [kAdicity, pow_zero, one_mul]
      rw [if_neg hko]
      split <;> rfl
  | succ a ih =>
    have hpos : 0 < k ^ a * o := Nat.mul_pos (pow_pos (by omega) _) ho
    have hexp : k ^ (a + 1) * o = k * (k ^ a * o) := by rw [pow_succ]; ring
    have h2 : 2 * (k ^ a * o) ≤ k * (k ^ a * o) := Nat.mul_le_mul_right _ hk
    rw [hexp] at hf ⊢
    cases fuel with
    | zero => omega
    | succ f =>
      simp only [kAdicity]
      rw [if_pos (by omega), if_pos (Nat.mul_mod_right _ _), Nat.mul_div_cancel_left _ (by omega), ih f (by omega)]

theorem three_pow_mod_two (b : Nat) : 3 ^ b % 2 ≠ 0 := by
  rw [Nat.pow_mod]; simp

theorem two_pow_mod_three (a : Nat) : 2 ^ a % 3 ≠ 0 := by
  intro h
  have := Nat.prime_three.dvd_of_dvd_pow (Nat.dvd_of_mod_eq_zero h)
  omega

theorem kAdicity_two (a b : Nat) : kAdicity 2 (2 ^ a * 3 ^ b) (2 ^ a * 3 ^ b) = a :=
  kAdicity_spec 2 (3 ^ b) (by omega) (pow_pos (by omega) _) (three_pow_mod_two b) a _ (Nat.le_refl _)

theorem kAdicity_three (a b : Nat) : kAdicity 3 (2 ^ a * 3 ^ b) (2 ^ a * 3 ^ b) = b := by
  rw [mul_comm]
  exact kAdicity_spec 3 (2 ^ a) (by omega) (pow_pos (by omega) _) (two_pow_mod_three a) b _ (Nat.le_refl _)

theorem getRoot_spec (a b : Nat) (ha : a ≤ 28) (hb : b ≤ 2) :
    ∃ w, getRootOfUnity (2 ^ a * 3 ^ b) = some w ∧ orderOf w = 2 ^ a * 3 ^ b := by
  unfold getRootOfUnity
  simp only [smallBase, twoAdicity, smallAdicity, kAdicity_two, kAdicity_three]
  rw [if_neg (by omega)]
  refine ⟨_, rfl, ?_⟩
  rw [iter_pow, iter_pow, ← pow_mul]
  have hpos : 3 ^ (2 - b) * 2 ^ (28 - a) ≠ 0 := by positivity
  have e : (2 ^ a * 3 ^ b) * (3 ^ (2 - b) * 2 ^ (28 - a)) = 2 ^ 28 * 3 ^ 2 := by
    have h1 : 2 ^ 28 = 2 ^ a * 2 ^ (28 - a) := by rw [← pow_add]; congr 1; omega
    have h2 : 3 ^ 2 = 3 ^ b * 3 ^ (2 - b) := by rw [← pow_add]; congr 1; omega
    rw [h1, h2]; ring
  rw [orderOf_pow_of_dvd hpos (by rw [largeRoot_order, ← e]; exact dvd_mul_left _ _), largeRoot_order, ← e,
    Nat.mul_div_cancel _ (Nat.pos_of_ne_zero hpos)]

/-! ### Sizes -/

theorem radix2_some (n : Nat) (h : n ≤ 2 ^ 28) :
    ∃ w, radix2Domain n = some (2 ^ Nat.clog 2 n, w) ∧ orderOf w = 2 ^ Nat.clog 2 n ∧ Nat.clog 2 n ≤ 28 := by
  have hc : Nat.clog 2 n ≤ 28 := (Nat.clog_le_iff_le_pow (by omega)).2 h
  obtain ⟨w, hw, ho⟩ := getRoot_spec (Nat.clog 2 n) 0 hc (by omega)
  simp only [pow_zero, mul_one] at hw ho
  refine ⟨w, ?_, ho, hc⟩
  unfold radix2Domain
  rw [if_neg (by unfold twoAdicity; omega)]
  simp only [hw, Option.map_some]

theorem radix2_none (n : Nat) (h : 2 ^ 28 < n) : radix2Domain n = none := by
  have hc : 28 < Nat.clog 2 n := by
    by_contra hc
    have := (Nat.clog_le_iff_le_pow (b := 2) (by omega)).1 (Nat.le_of_not_lt hc)
    omega
  unfold radix2Domain
  rw [if_pos (by unfold twoAdicity; omega)]

/-- Result of the doubling loop. -/
theorem doubleUntil_spec (n fuel r k : Nat) (hr : 0 < r) (hf : n ≤ r + fuel) :
    ∃ t, doubleUntil n fuel r k = (r * 2 ^ t, k + t) ∧ n ≤ r * 2 ^ t ∧ ∀ s, s < t → r * 2 ^ s < n := by
  induction fuel generalizing r k with
  | zero => exact ⟨0, by simp [doubleUntil], by omega, by omega⟩
  | succ f ih =>
    unfold doubleUntil
    split
    · rename_i hlt
      obtain ⟨t, h1, h2, h3⟩ := ih (r * 2) (k + 1) (by omega) (by omega)
      refine ⟨t + 1, ?_, ?_, ?_⟩
      · rw [h1, pow_succ]; congr 1
        · ring
        · omega
      · rw [pow_succ]; calc n ≤ _ := h2
          _ = _ := by ring
      · intro s hs
        cases s with
        | zero => simpa using hlt
        | succ s =>
          have := h3 s (by omega)
          rw [pow_succ]; calc _ = r * 2 * 2 ^ s := by ring
            _ < n := this
    · exact ⟨0, by simp, by simp; omega, by omega⟩

theorem bestMixed_spec (n : Nat) (h : 2 ^ 28 < n) :
    (n ≤ 2 ^ 28 * 3 ^ 2 → Spec.SmoothSize (bestMixedSize n) ∧ n ≤ bestMixedSize n ∧
      ∀ N, Spec.SmoothSize N → n ≤ N → bestMixedSize n ≤ N) ∧
    (2 ^ 28 * 3 ^ 2 < n → bestMixedSize n = 2 ^ 64 - 1) := by
  obtain ⟨t0, e0, g0, l0⟩ := doubleUntil_spec n n 1 0 (by omega) (by omega)
  obtain ⟨t1, e1, g1, l1⟩ := doubleUntil_spec n n 3 0 (by omega) (by omega)
  obtain ⟨t2, e2, g2, l2⟩ := doubleUntil_spec n n 9 0 (by omega) (by omega)
  have mono : ∀ a b : Nat, a ≤ b → 2 ^ a ≤ 2 ^ b := fun a b hab => Nat.pow_le_pow_right (by omega) hab
  have h0 : ¬ t0 ≤ 28 := fun hc => by have := mono _ _ hc; omega
  have hb : bestMixedSize n =
      if t2 ≤ 28 then min (if t1 ≤ 28 then min (2 ^ 64 - 1) (3 * 2 ^ t1) else 2 ^ 64 - 1) (9 * 2 ^ t2)
      else (if t1 ≤ 28 then min (2 ^ 64 - 1) (3 * 2 ^ t1) else 2 ^ 64 - 1) := by
    unfold bestMixedSize
    have hr : List.range (smallAdicity + 1) = [0, 1, 2] := by decide
    have p0 : smallBase ^ 0 = 1 := rfl
    have p1 : smallBase ^ 1 = 3 := rfl
    have p2 : smallBase ^ 2 = 9 := rfl
    simp only [hr, List.foldl_cons, List.foldl_nil, p0, p1, p2, e0, e1, e2, twoAdicity, Nat.zero_add, if_neg h0]
  constructor
  · intro hle
    have h2 : t2 ≤ 28 := by
      by_contra hc
      have := l2 28 (by omega)
      omega
    have m2 := mono _ _ h2
    rw [hb, if_pos h2]
    by_cases h1 : t1 ≤ 28
    · have m1 := mono _ _ h1
      rw [if_pos h1]
      have hm : min (min (2 ^ 64 - 1) (3 * 2 ^ t1)) (9 * 2 ^ t2) = min (3 * 2 ^ t1) (9 * 2 ^ t2) := by
        omega
      rw [hm]
      refine ⟨?_, by omega, ?_⟩
      · rcases Nat.le_total (3 * 2 ^ t1) (9 * 2 ^ t2) with hh | hh
        · exact ⟨t1, 1, h1, by omega, by rw [min_eq_left hh]; ring⟩
        · exact ⟨t2, 2, h2, by omega, by rw [min_eq_right hh]; ring⟩
      · rintro N ⟨a, b, ha, hb2, rfl⟩ hN
        have ma := mono _ _ ha
        rcases (by omega : b = 0 ∨ b = 1 ∨ b = 2) with rfl | rfl | rfl
        · omega
        · have : t1 ≤ a := by
            by_contra hc
            have := l1 a (by omega)
            omega
          have := mono _ _ this
          omega
        · have : t2 ≤ a := by
            by_contra hc
            have := l2 a (by omega)
            omega
          have := mono _ _ this
          omega
    · rw [if_neg h1]
      have hm : min (2 ^ 64 - 1) (9 * 2 ^ t2) = 9 * 2 ^ t2 := by omega
      rw [hm]
      refine ⟨⟨t2, 2, h2, by omega, by ring⟩, g2, ?_⟩
      rintro N ⟨a, b, ha, hb2, rfl⟩ hN
      have ma := mono _ _ ha
      rcases (by omega : b = 0 ∨ b = 1 ∨ b = 2) with rfl | rfl | rfl
      · omega
      · exfalso
        have := l1 a (by omega)
        omega
      · have : t2 ≤ a := by
          by_contra hc
          have := l2 a (by omega)
          omega
        have := mono _ _ this
        omega
  · intro hgt
    have h1 : ¬ t1 ≤ 28 := fun hc => by have := mono _ _ hc; omega
    have h2 : ¬ t2 ≤ 28 := fun hc => by have := mono _ _ hc; omega
    rw [hb, if_neg h2, if_neg h1]

theorem kAdicity_le_of_small (k : Nat) (fuel n : Nat) (h : n % k ≠ 0) : kAdicity k fuel n = 0 := by
  cases fuel with
  | zero => rfl
  | succ f => simp only [kAdicity]; rw [if_neg h]; split <;> rfl

theorem mixed_some (n N : Nat) (hb : bestMixedSize n = N) (hs : Spec.SmoothSize N) :
    ∃ w, mixedDomain n = some (N, w) ∧ orderOf w = N := by
  obtain ⟨a, b, ha, hb2, rfl⟩ := hs
  obtain ⟨w, hw, ho⟩ := getRoot_spec a b ha hb2
  refine ⟨w, ?_, ho⟩
  unfold mixedDomain
  simp only [hb, smallBase, kAdicity_two, kAdicity_three, hw]
  rw [if_neg (by rw [mul_comm]; simp)]
  rfl

theorem mixed_none (n : Nat) (hb : bestMixedSize n = 2 ^ 64 - 1) : mixedDomain n = none := by
  unfold mixedDomain
  have h2 : kAdicity 2 (2 ^ 64 - 1) (2 ^ 64 - 1) = 0 := kAdicity_le_of_small _ _ _ (by norm_num)
  have h3 : kAdicity 3 (2 ^ 64 - 1) (2 ^ 64 - 1) = 1 := by
    have e : 2 ^ 64 - 1 = 3 ^ 1 * 6148914691236517205 := by norm_num
    rw [e]
    exact kAdicity_spec 3 _ (by omega) (by omega) (by norm_num) 1 _ (Nat.le_refl _)
  simp only [hb, smallBase, h2, h3]
  rw [if_pos (by norm_num)]

theorem generalDomain_spec (n : Nat) :
    (n ≤ 2 ^ 28 * 3 ^ 2 → ∃ N w, generalDomain n = some (N, w) ∧ orderOf w = N ∧ Spec.IsDomainSize n N) ∧
    (2 ^ 28 * 3 ^ 2 < n → generalDomain n = none) := by
  unfold generalDomain
  by_cases h : n ≤ 2 ^ 28
  · refine ⟨fun _ => ?_, fun hc => by omega⟩
    obtain ⟨w, hw, ho, hc⟩ := radix2_some n h
    rw [hw]
    refine ⟨_, w, rfl, ho, Or.inl ⟨h, ⟨⟨_, rfl⟩, Nat.le_pow_clog (by omega) n⟩, ?_⟩⟩
    rintro M ⟨⟨a, rfl⟩, hM⟩
    exact Nat.pow_le_pow_right (by omega) ((Nat.clog_le_iff_le_pow (by omega)).2 hM)
  · have h := Nat.lt_of_not_le h
    rw [radix2_none n h]
    obtain ⟨b1, b2⟩ := bestMixed_spec n h
    refine ⟨fun hle => ?_, fun hgt => mixed_none n (b2 hgt)⟩
    obtain ⟨s1, s2, s3⟩ := b1 hle
    obtain ⟨w, hw, ho⟩ := mixed_some n _ rfl s1
    exact ⟨_, w, hw, ho, Or.inr ⟨h, ⟨s1, s2⟩, fun M hM => s3 M hM.1 hM.2⟩⟩

/-! ### Points -/

theorem generalDomain_order (n N : Nat) (w : Fr) (h : generalDomain n = some (N, w)) :
    orderOf w = N ∧ Spec.IsDomainSize n N := by
  obtain ⟨h1, h2⟩ := generalDomain_spec n
  by_cases hn : n ≤ 2 ^ 28 * 3 ^ 2
  · obtain ⟨N', w', e, ho, hs⟩ := h1 hn
    rw [h] at e
    simp only [Option.some.injEq, Prod.mk.injEq] at e
    obtain ⟨rfl, rfl⟩ := e
    exact ⟨ho, hs⟩
  · rw [h2 (by omega)] at h
    simp at h

theorem domainSize_pos {n N : Nat} (h : Spec.IsDomainSize n N) : 0 < N ∧ n ≤ N ∧ N ≤ 2 ^ 28 * 3 ^ 2 := by
  rcases h with ⟨h0, ⟨⟨a, rfl⟩, h2⟩, h3⟩ | ⟨-, ⟨⟨a, b, ha, hb, rfl⟩, h2⟩, -⟩
  · refine ⟨pow_pos (by omega) _, h2, ?_⟩
    have := h3 (a := 2 ^ 28) ⟨⟨28, rfl⟩, h0⟩
    omega
  · exact ⟨by positivity, h2, Nat.mul_le_mul (Nat.pow_le_pow_right (by omega) ha)
      (Nat.pow_le_pow_right (by omega) hb)⟩

/-- The list of powers. -/
def powers (N : Nat) (w : Fr) : List Fr := (List.range N).map fun i => w ^ i

theorem powers_nodup (w : Fr) : (powers (orderOf w) w).Nodup := by
  unfold powers
  rw [List.nodup_map_iff_inj_on List.nodup_range]
  intro a ha b hb hab
  exact pow_injOn_Iio_orderOf (by simpa using ha) (by simpa using hb) hab

theorem mem_powers (w : Fr) (hw : 0 < orderOf w) (x : Fr) :
    x ∈ powers (orderOf w) w ↔ x ^ orderOf w = 1 := by
  unfold powers
  simp only [List.mem_map, List.mem_range]
  constructor
  · rintro ⟨i, -, rfl⟩
    rw [← pow_mul, mul_comm, pow_mul, pow_orderOf_eq_one, one_pow]
  · intro h
    have : NeZero (orderOf w) := ⟨by omega⟩
    exact (IsPrimitiveRoot.orderOf w).eq_pow_of_pow_eq_one h

theorem powers_getD (N : Nat) (w : Fr) (i : Nat) (hi : i < N) : (powers N w).getD i 0 = w ^ i := by
  simp [powers, List.getD_eq_getElem?_getD, hi]

theorem vanishing_powers (w : Fr) (hw : 0 < orderOf w) :
    Spec.vanishing (powers (orderOf w) w) = X ^ orderOf w - 1 := by
  have h1 : Spec.vanishing (powers (orderOf w) w) ∣ X ^ orderOf w - 1 := by
    rw [vanishing_dvd_iff (powers_nodup w)]
    intro d hd
    rw [mem_powers w hw] at hd
    simp [hd]
  have hm1 : (Spec.vanishing (powers (orderOf w) w)).Monic := by
    rw [vanishing_eq_nodal]; exact Lagrange.nodal_monic
  have hm2 : (X ^ orderOf w - 1 : Fr[X]).Monic := monic_X_pow_sub_C 1 (by omega)
  refine (Polynomial.eq_of_monic_of_dvd_of_natDegree_le hm1 hm2 h1 ?_).symm
  rw [vanishing_eq_nodal, Lagrange.natDegree_nodal]
  have : (X ^ orderOf w - 1 : Fr[X]).natDegree = orderOf w := natDegree_X_pow_sub_C (r := (1 : Fr))
  rw [this]
  simp [powers]

/-! ### Lagrange coefficients -/

theorem lagrange_off (w tau : Fr) (hw : 0 < orderOf w) (ht : tau ^ orderOf w ≠ 1) (j : Nat)
    (hj : j < orderOf w) :
    lagrangeAt (powers (orderOf w) w) tau j =
      ((tau ^ orderOf w - 1)⁻¹ * (orderOf w : Fr) * (w⁻¹) ^ j * (tau + -(w ^ j)))⁻¹ := by
  have hlen : (powers (orderOf w) w).length = orderOf w := by simp [powers]
  have hv : node (powers (orderOf w) w) j = w ^ j := powers_getD _ _ _ hj
  have hne : tau ≠ w ^ j := by
    intro h
    apply ht
    rw [h, ← pow_mul, mul_comm, pow_mul, pow_orderOf_eq_one, one_pow]
  have hw0 : w ≠ 0 := by
    intro h
    rw [h] at hw
    have := pow_orderOf_eq_one (0 : Fr)
    rw [zero_pow (by omega)] at this
    exact zero_ne_one this
  rw [lagrangeAt_eq, Lagrange.eval_basis_not_at_node (by rw [hlen]; simpa using hj) (by rw [hv]; exact hne),
    Lagrange.nodalWeight_eq_eval_derivative_nodal (by rw [hlen]; simpa using hj), ← vanishing_eq_nodal,
    vanishing_powers w hw, hv]
  have hd : eval (w ^ j) (derivative (X ^ orderOf w - 1 : Fr[X])) = (orderOf w : Fr) * (w⁻¹) ^ j := by
    simp only [derivative_sub, derivative_X_pow, derivative_one, sub_zero, eval_mul, eval_pow, eval_X, eval_natCast,
      C_eq_natCast]
    congr 1
    have h1 : (w ^ j) ^ (orderOf w - 1) * w ^ j = 1 := by
      rw [← pow_succ, Nat.sub_add_cancel hw, ← pow_mul, mul_comm, pow_mul, pow_orderOf_eq_one, one_pow]
    rw [inv_pow]
    exact eq_inv_of_mul_eq_one_left h1
  rw [hd]
  simp only [eval_sub, eval_pow, eval_X, eval_one, mul_inv, inv_inv, ← sub_eq_add_neg]
  ring

theorem offGo (w tau li neg : Fr) (n : Nat) :
    lagrangeOffDomain.go w tau n li neg =
      (List.range n).map fun j => (li * (w⁻¹) ^ j * (tau + neg * w ^ j))⁻¹ := by
  induction n generalizing li neg with
  | zero => rfl
  | succ n ih =>
    rw [lagrangeOffDomain.go, ih, List.range_succ_eq_map, List.map_cons, List.map_map]
    congr 1
    · simp
    · apply List.map_congr_left
      intro j _
      simp only [Function.comp_apply]
      congr 1
      rw [pow_succ, pow_succ]
      ring

theorem onGo (w tau wi : Fr) (n : Nat) (i : Nat) (hi : i < n) (h : wi * w ^ i = tau)
    (hu : ∀ j, j < n → wi * w ^ j = tau → j = i) :
    lagrangeOnDomain.go w tau n wi = (List.range n).map fun j => if j = i then 1 else 0 := by
  induction n generalizing wi i with
  | zero => omega
  | succ n ih =>
    rw [lagrangeOnDomain.go, List.range_succ_eq_map, List.map_cons, List.map_map]
    by_cases h0 : wi = tau
    · have : 0 = i := hu 0 (by omega) (by simpa using h0)
      subst this
      rw [if_pos h0, if_pos rfl]
      congr 1
      symm
      rw [List.eq_replicate_iff]
      exact ⟨by simp, by simp⟩
    · have hi0 : i ≠ 0 := by rintro rfl; exact h0 (by simpa using h)
      obtain ⟨i, rfl⟩ := Nat.exists_eq_succ_of_ne_zero hi0
      rw [if_neg h0, if_neg (by omega), ih (wi * w) i (by omega)]
      · congr 1
        apply List.map_congr_left
        intro j _
        simp
      · rw [← h, Nat.succ_eq_add_one, pow_succ]; ring
      · intro j hj hje
        have := hu (j + 1) (by omega) (by rw [← hje, pow_succ]; ring)
        omega

theorem arkLagrange_eq (w tau : Fr) (hw : 0 < orderOf w) :
    arkLagrange (orderOf w) w tau = lagrangeCoeffs (powers (orderOf w) w) tau := by
  have hlen : (powers (orderOf w) w).length = orderOf w := by simp [powers]
  unfold arkLagrange lagrangeCoeffs
  rw [hlen]
  split
  · rename_i h0
    have h1 : tau ^ orderOf w = 1 := sub_eq_zero.1 h0
    obtain ⟨i, hi, hie⟩ := List.mem_map.1 ((mem_powers w hw tau).2 h1)
    have hi : i < orderOf w := by simpa using hi
    unfold lagrangeOnDomain
    have hinj : ∀ j, j < orderOf w → 1 * w ^ j = tau → j = i := by
      intro j hj hje
      rw [one_mul, ← hie] at hje
      exact pow_injOn_Iio_orderOf hj hi hje
    rw [onGo w tau 1 _ i hi (by simpa using hie) hinj]
    apply List.map_congr_left
    intro j hj
    have hj : j < orderOf w := by simpa using hj
    have hv : node (powers (orderOf w) w) i = tau := by rw [← hie]; exact powers_getD _ _ _ hi
    rw [lagrangeAt_eq, ← hv, hlen]
    have inj := node_injOn (powers_nodup w)
    rw [hlen] at inj
    split
    · rename_i hji
      subst hji
      exact (Lagrange.eval_basis_self inj (by simpa using hj)).symm
    · rename_i hji
      exact (Lagrange.eval_basis_of_ne hji (by simpa using hi)).symm
  · rename_i h0
    have h1 : tau ^ orderOf w ≠ 1 := fun h => h0 (by rw [h, sub_self])
    unfold lagrangeOffDomain
    rw [offGo]
    apply List.map_congr_left
    intro j hj
    have hj : j < orderOf w := by simpa using hj
    rw [lagrange_off w tau hw h1 j hj]
    congr 2
    ring

end Zkenc
