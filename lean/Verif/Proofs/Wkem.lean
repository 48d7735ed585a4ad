import Verif.Model.Wkem
import Mathlib.Tactic.Module
import Mathlib.Tactic.FieldSimp
/-! Helper lemmas about `encap` and `decap`. -/

namespace Zkenc

section
variable {F G1 G2 GT : Type} [Field F] [AddCommGroup G1] [Module F G1]
  [AddCommGroup G2] [Module F G2] [AddCommGroup GT] [Module F GT]

/-- `Σᵢ aᵢ • gᵢ` over the common prefix. -/
def dotG {G : Type} [AddCommGroup G] [Module F G] (a : List F) (g : List G) : G :=
  (List.zipWith (fun b s => s • b) g a).sum

/-- `Σᵢ aᵢ * fᵢ` over the common prefix. -/
def dotF (a f : List F) : F := (List.zipWith (· * ·) a f).sum

@[simp] theorem dotG_nil_left {G : Type} [AddCommGroup G] [Module F G] (g : List G) :
    dotG ([] : List F) g = 0 := by simp [dotG]
@[simp] theorem dotG_nil_right {G : Type} [AddCommGroup G] [Module F G] (a : List F) :
    dotG a ([] : List G) = 0 := by simp [dotG]
@[simp] theorem dotG_cons {G : Type} [AddCommGroup G] [Module F G] (x : F) (a : List F) (y : G) (g : List G) :
    dotG (x :: a) (y :: g) = x • y + dotG a g := by simp [dotG]
@[simp] theorem dotF_nil_left (f : List F) : dotF [] f = 0 := by simp [dotF]
@[simp] theorem dotF_nil_right (a : List F) : dotF a [] = 0 := by simp [dotF]
@[simp] theorem dotF_cons (x : F) (a : List F) (y : F) (f : List F) :
    dotF (x :: a) (y :: f) = x * y + dotF a f := by simp [dotF]

theorem msm_selectQuery {G : Type} [AddCommGroup G] [Module F G] (a : List F) (q : List G) :
    msm (selectQuery a q).1 (selectQuery a q).2 = .ok (dotG a q) := by
  have hl : (selectQuery a q).1.length = (selectQuery a q).2.length := by
    simp [selectQuery]; omega
  unfold msm
  rw [if_pos hl]
  congr 1
  simp only [selectQuery, dotG]
  clear hl
  induction a generalizing q with
  | nil => simp
  | cons x xs ih =>
    cases q with
    | nil => simp
    | cons y ys => simp [List.take_succ_cons, ih ys]

omit [Field F] in
theorem selectQuery_isEmpty {G : Type} (a : List F) (q : List G) :
    (selectQuery a q).1.isEmpty = (a.isEmpty || q.isEmpty) := by
  cases a <;> cases q <;> simp [selectQuery]

theorem dotG_map_smul {G : Type} [AddCommGroup G] [Module F G] (a : List F) (is : List Nat)
    (f : Nat → F) (g : G) :
    dotG a (is.map fun i => f i • g) = dotF a (is.map f) • g := by
  induction a generalizing is with
  | nil => simp
  | cons x xs ih =>
    cases is with
    | nil => simp
    | cons i is => simp [ih, add_smul, mul_smul]

theorem dotF_map_mul (a : List F) (is : List Nat) (c : F) (f : Nat → F) :
    dotF a (is.map fun i => c * f i) = c * dotF a (is.map f) := by
  induction a generalizing is with
  | nil => simp
  | cons x xs ih =>
    cases is with
    | nil => simp
    | cons i is => simp [ih]; ring

theorem dotF_map_add (a : List F) (is : List Nat) (f g : Nat → F) :
    dotF a (is.map fun i => f i + g i) = dotF a (is.map f) + dotF a (is.map g) := by
  induction a generalizing is with
  | nil => simp
  | cons x xs ih =>
    cases is with
    | nil => simp
    | cons i is => simp [ih]; ring

/-- A list of known length is the image of its index range. -/
theorem map_getD_range (l : List F) {m : Nat} (h : l.length = m) :
    ((List.range m).map fun i => l.getD i 0) = l := by
  subst h
  apply List.ext_getElem
  · simp
  · intro i h1 h2
    simp at h1
    simp [h1]

@[simp] theorem accumRow_length (m : Nat) (lj : F) (ev : List F) (row : List (F × Nat)) :
    (accumRow m lj ev row).length = ev.length := by
  induction row generalizing ev with
  | nil => rfl
  | cons t row ih =>
    simp only [accumRow, List.foldl_cons]
    have := ih (if t.2 < m then ev.modify t.2 (· + lj * t.1) else ev)
    rw [accumRow] at this
    rw [this]
    split <;> simp

theorem foldl_accumRow_length (m : Nat) (ts : List (F × List (F × Nat))) (ev : List F) :
    (ts.foldl (fun ev t => accumRow m t.1 ev t.2) ev).length = ev.length := by
  induction ts generalizing ev with
  | nil => rfl
  | cons t ts ih => simp [ih]

@[simp] theorem accumMatrix_length (m : Nat) (cs : List F) (rows : List (List (F × Nat))) :
    (accumMatrix m cs rows).length = m := by
  simp [accumMatrix, foldl_accumRow_length]

theorem evaluateQap_length (dom : Domains F) (cs : CS F) (x : F) :
    (evaluateQap dom cs x).1.length = cs.numVars ∧
    (evaluateQap dom cs x).2.1.length = cs.numVars ∧
    (evaluateQap dom cs x).2.2.length = cs.numVars := by
  unfold evaluateQap
  split <;> simp

/-- With no constraints all evaluations are zero. -/
theorem evaluateQap_no_cons (dom : Domains F) (cs : CS F) (x : F) (h : cs.cons = []) :
    evaluateQap dom cs x =
      (List.replicate cs.numVars 0, List.replicate cs.numVars 0, List.replicate cs.numVars 0) := by
  unfold evaluateQap
  split
  · rfl
  · simp [h, accumMatrix]

/-- The ciphertext `encap` builds from the synthesized system `cs`. -/
def encapCt (P : Pairing F G1 G2 GT) (dom : Domains F) (cs : CS F) (ρ : Rand F) : Ciphertext F G1 G2 :=
  let ev := evaluateQap dom cs ρ.x
  { encapKey :=
      { alphaG1 := ρ.alpha • P.g1, betaG2 := ρ.beta • P.g2, deltaG2 := ρ.delta • P.g2,
        rU := (List.range cs.numVars).map fun i => (ρ.r * ev.1.getD i 0) • P.g1
        rV := (List.range cs.numVars).map fun i => (ρ.r * ev.2.1.getD i 0) • P.g2
        phiDelta := (List.range cs.numVars).map fun i =>
          ((ρ.r * ρ.beta * ev.1.getD i 0 + ρ.r * ρ.alpha * ev.2.1.getD i 0 + ρ.r * ρ.r * ev.2.2.getD i 0)
            * ρ.delta⁻¹) • P.g1
        hQuery := [] }
    publicInputs := cs.inst.drop 1 }

variable [DecidableEq F]

theorem encap_eq (P : Pairing F G1 G2 GT) (dom : Domains F) (c : Circuit F) (ρ : Rand F)
    (h : ¬ ((c (CS.new F)).1.numVars ≠ 0 ∧ ρ.delta = 0)) :
    encap P dom c ρ =
      .ok (encapCt P dom (c (CS.new F)).1 ρ,
        P.kdf (P.e (ρ.alpha • P.g1) (ρ.beta • P.g2) +
          P.e (dotG (1 :: (c (CS.new F)).1.inst.drop 1) (encapCt P dom (c (CS.new F)).1 ρ).encapKey.phiDelta) P.g2)) := by
  unfold encap
  simp only [if_neg h]
  set cs := (c (CS.new F)).1 with hcs
  have key : ∀ (q : List G1),
      (if (selectQuery ((1 : F) :: cs.inst.drop 1) q).1.isEmpty then (.ok (P.g1 - P.g1) : Res G1)
        else msm (selectQuery ((1 : F) :: cs.inst.drop 1) q).1 (selectQuery ((1 : F) :: cs.inst.drop 1) q).2)
      = .ok (dotG (1 :: cs.inst.drop 1) q) := by
    intro q
    rw [msm_selectQuery, selectQuery_isEmpty]
    cases q with
    | nil => simp
    | cons y ys => simp
  rw [key]
  rfl

theorem encap_panic (P : Pairing F G1 G2 GT) (dom : Domains F) (c : Circuit F) (ρ : Rand F)
    (h : (c (CS.new F)).1.numVars ≠ 0 ∧ ρ.delta = 0) : encap P dom c ρ = .error .panic := by
  unfold encap
  simp only [if_pos h]

/-- What decap computes once all checks passed. -/
theorem decap_eq (P : Pairing F G1 G2 GT) (c : Circuit F) (ct : Ciphertext F G1 G2) :
    decap P c ct =
      match c (CS.new F) with
      | (_, .error _) => Res.fail "SynthesisError"
      | (cs, .ok ()) =>
        if cs.isSatisfied = false then Res.fail "InvalidWitness"
        else if (cs.inst ++ cs.wit).length < 1 + ct.publicInputs.length then Res.fail "InvalidPublicInputs"
        else if ((cs.inst ++ cs.wit).drop 1).take ct.publicInputs.length ≠ ct.publicInputs then
          Res.fail "InvalidPublicInputs"
        else if ct.encapKey.rU = [] ∨ ct.encapKey.rV = [] ∨ ct.encapKey.phiDelta = [] then
          Res.fail "InvalidWitness"
        else .ok (P.kdf
          (P.e (ct.encapKey.alphaG1 + dotG (cs.inst ++ cs.wit) ct.encapKey.rU)
              (ct.encapKey.betaG2 + dotG (cs.inst ++ cs.wit) ct.encapKey.rV)
            - P.e (dotG (cs.inst ++ cs.wit) ct.encapKey.phiDelta) ct.encapKey.deltaG2)) := by
  unfold decap
  rcases c (CS.new F) with ⟨cs, e | u⟩
  · rfl
  · simp only
    split
    · rfl
    split
    · rfl
    rename_i h1 h2
    split
    · rfl
    have hne : (cs.inst ++ cs.wit) ≠ [] := by
      intro he; rw [he] at h2; simp at h2
    have hemp : (cs.inst ++ cs.wit).isEmpty = false := by
      cases hh : (cs.inst ++ cs.wit) with
      | nil => exact absurd hh hne
      | cons => rfl
    simp only [msm_selectQuery, selectQuery_isEmpty, hemp, Bool.false_or, Res.ok_bind,
      List.isEmpty_iff]
    by_cases hU : ct.encapKey.rU = []
    · simp [hU]
    · by_cases hV : ct.encapKey.rV = []
      · simp [hU, hV]
      · by_cases hP : ct.encapKey.phiDelta = []
        · simp [hU, hV, hP]
        · simp [hU, hV, hP]

end

end Zkenc
