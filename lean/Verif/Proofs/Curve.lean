import Verif.Model.Curve
/-!
# Lemmas about the point codec
-/

namespace Zkenc

theorem flag_ofByte (v : UInt8) (f : SWFlag) : SWFlag.ofByte v = some f ↔
    (v &&& ~~~f.byte).toNat < 64 ∧ v.toNat = (v &&& ~~~f.byte).toNat + f.byte.toNat := by
  have h : ∀ n : Fin 256, ∀ f : Fin 3,
      let v := UInt8.ofNat n
      let f : SWFlag := if f = 0 then .yPos else if f = 1 then .yNeg else .inf
      (SWFlag.ofByte v = some f) = ((v &&& ~~~f.byte).toNat < 64 ∧ v.toNat = (v &&& ~~~f.byte).toNat + f.byte.toNat) := by
    intro n f
    rw [eq_iff_iff]
    revert n f
    decide +kernel
  have hv : UInt8.ofNat (⟨v.toNat, v.toNat_lt⟩ : Fin 256) = v := by simp
  cases f
  · have := h ⟨v.toNat, v.toNat_lt⟩ 0
    simp only [hv] at this
    exact this.to_iff
  · have := h ⟨v.toNat, v.toNat_lt⟩ 1
    simp only [hv] at this
    exact this.to_iff
  · have := h ⟨v.toNat, v.toNat_lt⟩ 2
    simp only [hv] at this
    exact this.to_iff

theorem flag_or (v : UInt8) (f : SWFlag) (h : v.toNat < 64) : (v ||| f.byte).toNat = v.toNat + f.byte.toNat ∧
    SWFlag.ofByte (v ||| f.byte) = some f ∧ (v ||| f.byte) &&& ~~~f.byte = v := by
  have h' : ∀ n : Fin 64, ∀ f : Fin 3,
      let v := UInt8.ofNat n
      let f : SWFlag := if f = 0 then .yPos else if f = 1 then .yNeg else .inf
      (v ||| f.byte).toNat = v.toNat + f.byte.toNat ∧ SWFlag.ofByte (v ||| f.byte) = some f ∧ (v ||| f.byte) &&& ~~~f.byte = v := by
    decide +kernel
  have hv : UInt8.ofNat (⟨v.toNat, h⟩ : Fin 64) = v := by simp
  cases f
  · have := h' ⟨v.toNat, h⟩ 0
    simp only [hv] at this
    exact this
  · have := h' ⟨v.toNat, h⟩ 1
    simp only [hv] at this
    exact this
  · have := h' ⟨v.toNat, h⟩ 2
    simp only [hv] at this
    exact this

theorem leNat_snoc (b : Bytes) (v : UInt8) : leNat (b ++ [v]) = leNat b + 256 ^ b.length * v.toNat := by
  rw [leNat_append]; simp [leNat]

/-- Room for the flags: the number is below `2^6 · 256^(n-1)`. -/
def Roomy (b : Bytes) : Prop := b ≠ [] ∧ leNat b < 64 * 256 ^ (b.length - 1)

theorem roomy_snoc (a : Bytes) (v : UInt8) : Roomy (a ++ [v]) ↔ v.toNat < 64 := by
  have hp : 0 < 256 ^ a.length := by positivity
  have hlt := leNat_lt a
  simp only [Roomy, ne_eq, List.append_eq_nil_iff, List.cons_ne_self, and_false, not_false_eq_true, true_and, List.length_append,
    List.length_singleton, Nat.add_sub_cancel, leNat_snoc]
  constructor
  · intro h
    by_contra hc
    have : 256 ^ a.length * 64 ≤ 256 ^ a.length * v.toNat := Nat.mul_le_mul_left _ (by omega)
    omega
  · intro h
    have : 256 ^ a.length * (v.toNat + 1) ≤ 256 ^ a.length * 64 := Nat.mul_le_mul_left _ (by omega)
    rw [Nat.mul_add] at this
    omega

theorem takeFlag_iff (b xb : Bytes) (f : SWFlag) : takeFlag b = some (xb, f) ↔ Roomy xb ∧ b = addFlag xb f := by
  constructor
  · intro h
    rcases List.eq_nil_or_concat b with rfl | ⟨a, v, rfl⟩
    · cases h
    · simp only [takeFlag, List.concat_eq_append, List.getLast?_append, List.getLast?_singleton, Option.some_or, Option.bind_some,
        Option.map_eq_some_iff, Prod.mk.injEq, List.dropLast_concat] at h
      obtain ⟨f', hf, rfl, rfl⟩ := h
      obtain ⟨h1, h2⟩ := (flag_ofByte v f').1 hf
      refine ⟨(roomy_snoc _ _).2 h1, ?_⟩
      simp only [addFlag, List.concat_eq_append, List.dropLast_concat, List.getLast?_append, List.getLast?_singleton, Option.some_or,
        Option.toList_some, List.map_cons, List.map_nil, List.append_cancel_left_eq, List.cons.injEq, and_true]
      apply UInt8.toNat_inj.1
      rw [(flag_or _ f' h1).1, h2]
  · rintro ⟨hr, rfl⟩
    rcases List.eq_nil_or_concat xb with rfl | ⟨a, v, rfl⟩
    · exact absurd rfl hr.1
    · rw [List.concat_eq_append, roomy_snoc] at hr
      obtain ⟨-, h2, h3⟩ := flag_or v f hr
      simp [takeFlag, addFlag, h2, h3]

theorem addFlag_inj {a b : Bytes} {f g : SWFlag} (ha : Roomy a) (hb : Roomy b) (h : addFlag a f = addFlag b g) : a = b ∧ f = g := by
  have h1 := (takeFlag_iff _ a f).2 ⟨ha, rfl⟩
  rw [(takeFlag_iff _ b g).2 ⟨hb, h⟩] at h1
  simp only [Option.some.injEq, Prod.mk.injEq] at h1
  exact ⟨h1.1.symm, h1.2.symm⟩

theorem addFlag_num {a : Bytes} (f : SWFlag) (h : Roomy a) : leNat (addFlag a f) = leNat a + 256 ^ (a.length - 1) * f.byte.toNat ∧
    (addFlag a f).length = a.length := by
  rcases List.eq_nil_or_concat a with rfl | ⟨a, v, rfl⟩
  · exact absurd rfl h.1
  · rw [List.concat_eq_append] at h ⊢
    rw [roomy_snoc] at h
    simp only [addFlag, List.dropLast_concat, List.getLast?_append, List.getLast?_singleton, Option.some_or, Option.toList_some, List.map_cons,
      List.map_nil, leNat_snoc, (flag_or v f h).1, List.length_append, List.length_singleton, Nat.add_sub_cancel]
    exact ⟨by ring, trivial⟩

/-! ## Coordinate fields -/

/-- What is needed of the coordinate codec: one accepted encoding per element, room for the flags, a strict total order. -/
structure CoordField.Lawful {K : Type} (c : CoordField K) : Prop where
  dec_iff : ∀ b x, c.dec b = some x ↔ b = c.enc x
  enc_len : ∀ x, (c.enc x).length = c.size
  roomy : ∀ x, Roomy (c.enc x)
  total : ∀ x y, x ≠ y → (c.lt x y = true ↔ ¬ c.lt y x = true)
  irrefl : ∀ x, c.lt x x = false

theorem fqModulus_lt : fqModulus < 64 * 256 ^ 31 := by decide

theorem fqCoord_lawful : fqCoord.Lawful where
  dec_iff b x := by
    have h1 : x.val < fqModulus := ZMod.val_lt x
    have h2 : leNat (leBytes 32 x.val) = x.val := leNat_leBytes_of_lt (by have := fqModulus_lt; omega)
    simp only [fqCoord]
    constructor
    · intro h
      split at h
      · rename_i hb
        simp only [Option.some.injEq] at h
        subst h
        rw [ZMod.val_natCast, Nat.mod_eq_of_lt hb.2, ← hb.1, leBytes_leNat]
      · cases h
    · rintro rfl
      rw [if_pos ⟨by simp, by rw [h2]; exact h1⟩, h2, ZMod.natCast_zmod_val]
  enc_len x := by simp [fqCoord]
  roomy x := by
    have h1 : x.val < fqModulus := ZMod.val_lt x
    have h2 : leNat (leBytes 32 x.val) = x.val := leNat_leBytes_of_lt (by have := fqModulus_lt; omega)
    refine ⟨fun h => by simpa [fqCoord] using congrArg List.length h, ?_⟩
    simp only [fqCoord, h2, leBytes_length]
    have := fqModulus_lt
    omega
  total x y h := by
    have : x.val ≠ y.val := fun hc => h (ZMod.val_injective _ hc)
    simp only [fqCoord, decide_eq_true_eq]
    omega
  irrefl x := by simp [fqCoord]

theorem fq2Coord_lawful : fq2Coord.Lawful where
  dec_iff b x := by
    simp only [fq2Coord]
    constructor
    · intro h
      rw [Option.bind_eq_some_iff] at h
      obtain ⟨re, h1, h⟩ := h
      rw [Option.map_eq_some_iff] at h
      obtain ⟨im, h2, rfl⟩ := h
      rw [fqCoord_lawful.dec_iff] at h1 h2
      simp only
      rw [← h1, ← h2, List.take_append_drop]
    · rintro rfl
      have hl : (fqCoord.enc x.re).length = 32 := fqCoord_lawful.enc_len _
      rw [List.take_left' hl, List.drop_left' hl, (fqCoord_lawful.dec_iff _ _).2 rfl, (fqCoord_lawful.dec_iff _ _).2 rfl]
      rfl
  enc_len x := by
    have h1 : (fqCoord.enc x.re).length = 32 := fqCoord_lawful.enc_len _
    have h2 : (fqCoord.enc x.im).length = 32 := fqCoord_lawful.enc_len _
    simp only [fq2Coord, List.length_append, h1, h2]
  roomy x := by
    have h1 : (fqCoord.enc x.re).length = 32 := fqCoord_lawful.enc_len _
    have h2 : (fqCoord.enc x.im).length = 32 := fqCoord_lawful.enc_len _
    obtain ⟨h3, h4⟩ := fqCoord_lawful.roomy x.im
    have h5 := leNat_lt (fqCoord.enc x.re)
    refine ⟨by simp [fq2Coord, h3], ?_⟩
    rw [h1] at h5
    rw [h2] at h4
    simp only [fq2Coord, leNat_append, List.length_append, h1, h2]
    have e1 : 32 + 32 - 1 = 32 + 31 := rfl
    have e2 : 32 - 1 = 31 := rfl
    rw [e2] at h4
    rw [e1, pow_add]
    have : 256 ^ 32 * (leNat (fqCoord.enc x.im) + 1) ≤ 256 ^ 32 * (64 * 256 ^ 31) := Nat.mul_le_mul_left _ h4
    rw [Nat.mul_add] at this
    have e3 : 64 * (256 ^ 32 * 256 ^ 31) = 256 ^ 32 * (64 * 256 ^ 31) := by ring
    rw [e3]
    omega
  total x y h := by
    simp only [fq2Coord]
    by_cases hi : x.im = y.im
    · have hr : x.re ≠ y.re := fun hc => h (QuadraticAlgebra.ext hc hi)
      rw [if_pos hi, if_pos hi.symm]
      exact fqCoord_lawful.total _ _ hr
    · rw [if_neg hi, if_neg (Ne.symm hi)]
      exact fqCoord_lawful.total _ _ hi
  irrefl x := by simp only [fq2Coord, if_pos, fqCoord_lawful.irrefl]

/-! ## Points -/

section
variable {K : Type} [Field K] [DecidableEq K]

theorem swEquation_iff (b x y : K) : (swCurve b).Equation x y ↔ y ^ 2 = x ^ 3 + b := by
  rw [WeierstrassCurve.Affine.equation_iff]
  simp [swCurve]

theorem swRoots_iff {c : CoordField K} (hc : c.Lawful) (b x s l : K) : swRoots c b x = some (s, l) ↔
    s ^ 2 = x ^ 3 + b ∧ l = -s ∧ c.lt l s = false := by
  have key : ∀ y : K, y ^ 2 = x ^ 3 + b → (s ^ 2 = x ^ 3 + b ↔ s = y ∨ s = -y) := by
    intro y hy
    rw [← hy, sq_eq_sq_iff_eq_or_eq_neg]
  unfold swRoots
  rw [Option.map_eq_some_iff]
  constructor
  · rintro ⟨y, hy, h⟩
    unfold fieldSqrt at hy
    split at hy
    · rename_i hex
      simp only [Option.some.injEq] at hy
      have hy2 := hex.choose_spec
      rw [hy] at hy2
      split at h
      · rename_i hlt
        simp only [Prod.mk.injEq] at h
        obtain ⟨rfl, rfl⟩ := h
        refine ⟨hy2, rfl, ?_⟩
        by_cases hyy : y = -y
        · rw [← hyy]; exact hc.irrefl y
        · have := (hc.total _ _ hyy).1 hlt
          simpa using this
      · rename_i hlt
        simp only [Prod.mk.injEq] at h
        obtain ⟨rfl, rfl⟩ := h
        exact ⟨by rw [neg_sq]; exact hy2, by simp, by simpa using hlt⟩
    · cases hy
  · rintro ⟨h1, rfl, h3⟩
    have hex : ∃ y : K, y ^ 2 = x ^ 3 + b := ⟨s, h1⟩
    refine ⟨hex.choose, by unfold fieldSqrt; rw [dif_pos hex], ?_⟩
    have hy2 := hex.choose_spec
    generalize hex.choose = y at hy2
    rcases (key y hy2).1 h1 with rfl | rfl
    · by_cases hyy : s = -s
      · rw [← hyy]; simp
      · rw [if_pos ((hc.total _ _ hyy).2 (by simpa using h3))]
    · rw [neg_neg] at h3
      rw [if_neg (by simpa using h3), neg_neg]

/-- A point and the flag that decoding gives it: the sign of `y`; if `y = -y` both signs. -/
def FlagOf (c : CoordField K) (y : K) (f : SWFlag) : Prop :=
  (f = .yPos ∧ c.lt (-y) y = false) ∨ (f = .yNeg ∧ c.lt y (-y) = false)

theorem flagOf_iff {c : CoordField K} (hc : c.Lawful) {y : K} (hy : y ≠ -y) (f : SWFlag) : FlagOf c y f ↔ f = yFlag c y := by
  unfold FlagOf yFlag
  have := hc.total _ _ hy
  cases h1 : c.lt y (-y) <;> cases h2 : c.lt (-y) y <;> simp_all

theorem swDec_iff {c : CoordField K} (hc : c.Lawful) (b : K) (bytes : Bytes) (P : (swCurve b).Point) :
    swDec c b bytes = some P ↔ (P = .zero ∧ ∃ x, bytes = addFlag (c.enc x) .inf) ∨
      (∃ x y h f, P = .some x y h ∧ FlagOf c y f ∧ bytes = addFlag (c.enc x) f) := by
  unfold swDec
  rw [Option.bind_eq_some_iff]
  constructor
  · rintro ⟨⟨xb, f⟩, h1, h⟩
    rw [takeFlag_iff] at h1
    obtain ⟨-, rfl⟩ := h1
    rw [Option.bind_eq_some_iff] at h
    obtain ⟨x, h2, h⟩ := h
    rw [hc.dec_iff] at h2
    simp only at h2
    subst h2
    have fin : ∀ y f, FlagOf c y f → swPoint b x y = some P → ∃ x' y' h f', P = .some x' y' h ∧ FlagOf c y' f' ∧
        addFlag (c.enc x) f = addFlag (c.enc x') f' := by
      intro y f hf hp
      unfold swPoint at hp
      split at hp
      · rename_i hns
        simp only [Option.some.injEq] at hp
        exact ⟨x, y, hns, f, hp.symm, hf, rfl⟩
      · cases hp
    cases f with
    | inf =>
      simp only [Option.some.injEq] at h
      exact .inl ⟨h.symm, x, rfl⟩
    | yPos =>
      simp only at h
      rw [Option.bind_eq_some_iff] at h
      obtain ⟨⟨s, l⟩, hr, h⟩ := h
      obtain ⟨-, rfl, h3⟩ := (swRoots_iff hc b x s l).1 hr
      exact .inr (fin s .yPos (.inl ⟨rfl, h3⟩) h)
    | yNeg =>
      simp only at h
      rw [Option.bind_eq_some_iff] at h
      obtain ⟨⟨s, l⟩, hr, h⟩ := h
      obtain ⟨-, rfl, h3⟩ := (swRoots_iff hc b x s l).1 hr
      exact .inr (fin (-s) .yNeg (.inr ⟨rfl, by rw [neg_neg]; exact h3⟩) h)
  · rintro (⟨rfl, x, rfl⟩ | ⟨x, y, hns, f, rfl, hf, rfl⟩)
    · exact ⟨(c.enc x, .inf), (takeFlag_iff _ _ _).2 ⟨hc.roomy x, rfl⟩, by rw [(hc.dec_iff _ _).2 rfl]; rfl⟩
    · refine ⟨(c.enc x, f), (takeFlag_iff _ _ _).2 ⟨hc.roomy x, rfl⟩, ?_⟩
      have heq := (swEquation_iff b x y).1 hns.1
      rw [(hc.dec_iff _ _).2 rfl, Option.bind_some]
      rcases hf with ⟨rfl, h⟩ | ⟨rfl, h⟩
      · simp only
        rw [(swRoots_iff hc b x y (-y)).2 ⟨heq, rfl, h⟩, Option.bind_some]
        simp only [swPoint, dif_pos hns]
      · simp only
        rw [(swRoots_iff hc b x (-y) y).2 ⟨by rw [neg_sq]; exact heq, by simp, h⟩, Option.bind_some]
        simp only [swPoint, dif_pos hns]

theorem swDec_swEnc {c : CoordField K} (hc : c.Lawful) (b : K) (P : (swCurve b).Point) : swDec c b (swEnc c b P) = some P := by
  rw [swDec_iff hc]
  cases P with
  | zero => exact .inl ⟨rfl, 0, rfl⟩
  | some x y h =>
    refine .inr ⟨x, y, h, yFlag c y, rfl, ?_, rfl⟩
    unfold FlagOf yFlag
    by_cases hy : y = -y
    · rw [← hy, hc.irrefl]
      simp
    · have := hc.total _ _ hy
      cases h1 : c.lt y (-y) <;> cases h2 : c.lt (-y) y <;> simp_all

theorem swEnc_len {c : CoordField K} (hc : c.Lawful) (b : K) (P : (swCurve b).Point) : (swEnc c b P).length = c.size := by
  cases P with
  | zero => simp only [swEnc]; rw [(addFlag_num _ (hc.roomy _)).2, hc.enc_len]
  | some x y h => simp only [swEnc]; rw [(addFlag_num _ (hc.roomy _)).2, hc.enc_len]

theorem swEnc_injective {c : CoordField K} (hc : c.Lawful) (b : K) : Function.Injective (swEnc c b) := by
  intro P Q h
  have := swDec_swEnc hc b P
  rw [h, swDec_swEnc hc b Q] at this
  exact (Option.some.inj this).symm

end

end Zkenc
