import Verif.Proofs.Wkem
import Verif.Spec.Qap
import Mathlib.Tactic.Ring
/-! Helper lemmas: the evaluation code computes values of interpolating polynomials. -/

namespace Zkenc

open Polynomial

variable {F : Type} [Field F]

/-- Row entry in column `i`. -/
def rowEntry (row : List (F × Nat)) (i : Nat) : F := (row.map fun t => if t.2 = i then t.1 else 0).sum

theorem accumRow_getD (m : Nat) (lj : F) (ev : List F) (row : List (F × Nat)) (i : Nat)
    (hi : i < m) (hl : ev.length = m) :
    (accumRow m lj ev row).getD i 0 = ev.getD i 0 + lj * rowEntry row i := by
  induction row generalizing ev with
  | nil => simp [accumRow, rowEntry]
  | cons t row ih =>
    have h1 : accumRow m lj ev (t :: row) =
        accumRow m lj (if t.2 < m then ev.modify t.2 (· + lj * t.1) else ev) row := rfl
    rw [h1, ih _ (by split <;> simp [hl])]
    simp only [rowEntry, List.map_cons, List.sum_cons]
    by_cases ht : t.2 = i
    · subst ht
      simp [hi, hl]
      ring
    · by_cases h2 : t.2 < m
      · simp [h2, ht]
      · simp [h2, ht]

theorem foldl_accumRow_getD (m : Nat) (ts : List (F × List (F × Nat))) (ev : List F) (i : Nat)
    (hi : i < m) (hl : ev.length = m) :
    (ts.foldl (fun ev t => accumRow m t.1 ev t.2) ev).getD i 0 =
      ev.getD i 0 + (ts.map fun t => t.1 * rowEntry t.2 i).sum := by
  induction ts generalizing ev with
  | nil => simp
  | cons t ts ih =>
    simp only [List.foldl_cons, List.map_cons, List.sum_cons]
    rw [ih _ (by simp [hl]), accumRow_getD _ _ _ _ _ hi hl]
    ring

theorem accumMatrix_getD (m : Nat) (cs : List F) (rows : List (List (F × Nat))) (i : Nat) (hi : i < m) :
    (accumMatrix m cs rows).getD i 0 = ((cs.zip rows).map fun t => t.1 * rowEntry t.2 i).sum := by
  unfold accumMatrix
  rw [foldl_accumRow_getD _ _ _ _ hi (by simp)]
  simp [hi]

/-- The nodes as a function on indices. -/
def node (ds : List F) (j : Nat) : F := ds.getD j 0

theorem node_injOn {ds : List F} (h : ds.Nodup) :
    Set.InjOn (node ds) (Finset.range ds.length : Set ℕ) := by
  intro a ha b hb hab
  simp only [Finset.coe_range, Set.mem_Iio] at ha hb
  simp only [node, List.getD_eq_getElem?_getD, List.getElem?_eq_getElem ha, List.getElem?_eq_getElem hb,
    Option.getD_some] at hab
  exact (List.Nodup.getElem_inj_iff h).1 hab

theorem filter_range_toFinset (n j : Nat) :
    ((List.range n).filter (fun k => k != j)).toFinset = (Finset.range n).erase j := by
  ext k
  simp
  tauto

theorem lagrangeAt_eq (ds : List F) (x : F) (j : Nat) :
    lagrangeAt ds x j = (Lagrange.basis (Finset.range ds.length) (node ds) j).eval x := by
  unfold lagrangeAt Lagrange.basis
  rw [eval_prod, ← filter_range_toFinset, List.prod_toFinset]
  · congr 1
    apply List.map_congr_left
    intro k _
    simp only [Lagrange.basisDivisor, eval_mul, eval_C, eval_sub, eval_X, node]
    rw [div_eq_inv_mul]
  · exact List.Nodup.filter _ List.nodup_range

/-- Value of a low-degree polynomial from its values on the domain. -/
theorem eval_eq_sum_lagrange {ds : List F} (h : ds.Nodup) (p : F[X]) (hp : p.degree < ds.length) (x : F) :
    p.eval x = ((List.range ds.length).map fun j => lagrangeAt ds x j * p.eval (node ds j)).sum := by
  have h1 := Lagrange.eq_interpolate (s := Finset.range ds.length) (node_injOn h) (f := p)
    (by simpa using hp)
  conv_lhs => rw [h1]
  rw [Lagrange.interpolate_apply, eval_finsetSum, ← List.toFinset_range, List.sum_toFinset _ List.nodup_range]
  congr 1
  apply List.map_congr_left
  intro j _
  rw [eval_mul, eval_C, lagrangeAt_eq, mul_comm, List.toFinset_range]

theorem exists_interp {ds : List F} (h : ds.Nodup) (f : Nat → F) :
    ∃ p : F[X], p.degree < ds.length ∧ ∀ j (hj : j < ds.length), p.eval ds[j] = f j := by
  refine ⟨Lagrange.interpolate (Finset.range ds.length) (node ds) f, ?_, ?_⟩
  · simpa using Lagrange.degree_interpolate_lt (s := Finset.range ds.length) f (node_injOn h)
  · intro j hj
    have := Lagrange.eval_interpolate_at_node (s := Finset.range ds.length) f (node_injOn h)
      (i := j) (by simpa using hj)
    simpa [node, hj] using this

omit [Field F] in
theorem col_eq (cs : CS F) (v : Var) : cs.col v = Spec.varNumber cs v := by
  cases v <;> rfl

theorem rowEntry_row (cs : CS F) (lc : LC F) (i : Nat) :
    rowEntry (cs.row lc) i = Spec.entry cs lc i := by
  simp [rowEntry, CS.row, Spec.entry, Function.comp_def, col_eq]

theorem zip_lagrange_sum (ds : List F) (x : F) (rows : List (List (F × Nat))) (i : Nat)
    (hle : rows.length ≤ ds.length) :
    (((lagrangeCoeffs ds x).zip rows).map fun t => t.1 * rowEntry t.2 i).sum =
      ((List.range ds.length).map fun j =>
        lagrangeAt ds x j * (match rows[j]? with | some r => rowEntry r i | none => 0)).sum := by
  unfold lagrangeCoeffs
  generalize lagrangeAt ds x = L
  generalize ds.length = n at hle
  induction rows generalizing n L with
  | nil =>
    simp
  | cons r rows ih =>
    cases n with
    | zero => simp at hle
    | succ n =>
      rw [List.range_succ_eq_map]
      simp only [List.map_cons, List.zip_cons_cons, List.sum_cons, List.map_map]
      rw [List.getElem?_cons_zero]
      have := ih (fun j => L (j + 1)) n (by simpa using hle)
      simp only [Function.comp_def, Nat.succ_eq_add_one, List.getElem?_cons_succ]
      rw [this]

theorem accumMatrix_spec {ds : List F} (h : ds.Nodup) (cs : CS F) (x : F) (sel : Cstr F → LC F) (i : Nat)
    (hi : i < cs.numVars) (hle : cs.cons.length ≤ ds.length) (p : F[X]) (hp : Spec.IsQapPoly cs ds sel i p) :
    (accumMatrix cs.numVars (lagrangeCoeffs ds x) (cs.cons.map fun k => cs.row (sel k))).getD i 0 = p.eval x := by
  rw [accumMatrix_getD _ _ _ _ hi, zip_lagrange_sum _ _ _ _ (by simpa using hle),
    eval_eq_sum_lagrange h p hp.degree]
  congr 1
  apply List.map_congr_left
  intro j hj
  have hj : j < ds.length := by simpa using hj
  have hv := hp.values j hj
  have : node ds j = ds[j] := by simp [node, hj]
  rw [this, hv, List.getElem?_map]
  unfold Spec.columnValue
  cases cs.cons[j]? with
  | none => rfl
  | some k => simp [rowEntry_row]

/-! ### Divisibility -/

theorem vanishing_eq_nodal (ds : List F) :
    Spec.vanishing ds = Lagrange.nodal (Finset.range ds.length) (node ds) := by
  unfold Spec.vanishing Lagrange.nodal
  rw [← List.toFinset_range, List.prod_toFinset _ List.nodup_range]
  congr 1
  apply List.ext_getElem
  · simp
  · intro j h1 h2
    simp at h1
    simp [node, h1]

theorem vanishing_dvd_iff {ds : List F} (h : ds.Nodup) (p : F[X]) :
    Spec.vanishing ds ∣ p ↔ ∀ d ∈ ds, p.eval d = 0 := by
  constructor
  · rintro ⟨q, rfl⟩ d hd
    have : (Spec.vanishing ds).eval d = 0 := by
      obtain ⟨j, hj, rfl⟩ := List.getElem_of_mem hd
      rw [vanishing_eq_nodal]
      have := Lagrange.eval_nodal_at_node (R := F) (s := Finset.range ds.length) (v := node ds) (i := j) (by simpa using hj)
      simpa [node, hj] using this
    simp [this]
  · intro hz
    have hcop : ∀ ds : List F, ds.Nodup → (∀ d ∈ ds, p.eval d = 0) → Spec.vanishing ds ∣ p := by
      intro ds
      induction ds with
      | nil => intro _ _; simp [Spec.vanishing]
      | cons d ds ih =>
        intro hn hz
        have h1 : (X - C d) ∣ p := by
          rw [dvd_iff_isRoot]; exact hz d (by simp)
        have h2 := ih (List.nodup_cons.1 hn).2 (fun d' hd' => hz d' (by simp [hd']))
        have : Spec.vanishing (d :: ds) = (X - C d) * Spec.vanishing ds := by simp [Spec.vanishing]
        rw [this]
        refine IsCoprime.mul_dvd ?_ h1 h2
        have hd : d ∉ ds := (List.nodup_cons.1 hn).1
        clear ih hn hz h1 h2 this
        induction ds with
        | nil => simpa [Spec.vanishing] using isCoprime_one_right
        | cons e ds ih =>
          have : Spec.vanishing (e :: ds) = (X - C e) * Spec.vanishing ds := by simp [Spec.vanishing]
          rw [this]
          have hne : d ≠ e := fun hc => hd (by simp [hc])
          refine IsCoprime.mul_right ?_ (ih (fun hc => hd (by simp [hc])))
          exact isCoprime_X_sub_C_of_isUnit_sub (sub_ne_zero.2 hne).isUnit
    exact hcop ds h hz

/-! ### Assignments -/

/-- `Σᵢ aᵢ·(coefficient of i)`. -/
def lcDot (cs : CS F) (a : List F) (lc : LC F) : F :=
  ((List.range a.length).map fun i => a.getD i 0 * Spec.entry cs lc i).sum

theorem sum_pick (a : List F) (c : F) (n : Nat) (h : n < a.length) :
    ((List.range a.length).map fun i => a.getD i 0 * (if n = i then c else 0)).sum = a.getD n 0 * c := by
  rw [← List.sum_toFinset _ List.nodup_range]
  rw [Finset.sum_eq_single n]
  · simp
  · intro b _ hb; simp [Ne.symm hb]
  · intro hn; simp at hn; omega

theorem lcDot_cons (cs : CS F) (a : List F) (t : F × Var) (lc : LC F) (h : Spec.varNumber cs t.2 < a.length) :
    lcDot cs a (t :: lc) = a.getD (Spec.varNumber cs t.2) 0 * t.1 + lcDot cs a lc := by
  unfold lcDot
  rw [← sum_pick a t.1 _ h, ← List.sum_map_add]
  congr 1
  apply List.map_congr_left
  intro i _
  simp only [Spec.entry, List.map_cons, List.sum_cons, mul_add]

theorem varVal_dot (cs : CS F) (h : Spec.Complete cs) (v : Var) (hv : Spec.VarIn cs v) :
    cs.varVal v = some ((cs.inst ++ cs.wit).getD (Spec.varNumber cs v) 0) ∧ Spec.varNumber cs v < (cs.inst ++ cs.wit).length := by
  have hl := h.instLen
  have hw := h.witLen
  cases v with
  | one =>
    have := h.one
    rcases hi : cs.inst with _ | ⟨y, ys⟩
    · simp [hi] at this
    · simp [hi] at this
      simp [CS.varVal, Spec.varNumber, this]
  | inst i =>
    simp only [Spec.VarIn] at hv
    have hi : i < cs.inst.length := by omega
    refine ⟨?_, by simp [Spec.varNumber]; omega⟩
    simp [CS.varVal, Spec.varNumber, List.getElem?_append_left hi, List.getElem?_eq_getElem hi]
  | wit i =>
    simp only [Spec.VarIn] at hv
    have hi : i < cs.wit.length := by omega
    refine ⟨?_, by simp [Spec.varNumber]; omega⟩
    have : cs.inst.length ≤ cs.numInst + i := by omega
    simp only [CS.varVal, Spec.varNumber, List.getD_eq_getElem?_getD, List.getElem?_append_right this]
    have : cs.numInst + i - cs.inst.length = i := by omega
    simp [this, List.getElem?_eq_getElem hi]

theorem lcVal_dot (cs : CS F) (h : Spec.Complete cs) (lc : LC F) (hv : ∀ t ∈ lc, Spec.VarIn cs t.2) :
    cs.lcVal lc = some (lcDot cs (cs.inst ++ cs.wit) lc) := by
  induction lc with
  | nil => simp [CS.lcVal, lcDot, Spec.entry]
  | cons t lc ih =>
    obtain ⟨h1, h2⟩ := varVal_dot cs h t.2 (hv t (by simp))
    rw [lcDot_cons _ _ _ _ h2]
    obtain ⟨c, v⟩ := t
    simp only [CS.lcVal]
    rw [ih (fun t ht => hv t (by simp [ht])), h1]
    simp [mul_comm]

theorem isSatisfied_iff [DecidableEq F] (cs : CS F) (h : Spec.Complete cs) :
    cs.isSatisfied = true ↔ ∀ k ∈ cs.cons,
      lcDot cs (cs.inst ++ cs.wit) k.a * lcDot cs (cs.inst ++ cs.wit) k.b = lcDot cs (cs.inst ++ cs.wit) k.c := by
  simp only [CS.isSatisfied, List.all_eq_true]
  refine forall₂_congr fun k hk => ?_
  have hv := h.vars k hk
  rw [CS.cstrOk, lcVal_dot cs h k.a (fun t ht => hv t (by simp [ht])),
    lcVal_dot cs h k.b (fun t ht => hv t (by simp [ht])), lcVal_dot cs h k.c (fun t ht => hv t (by simp [ht]))]
  simp

theorem eval_list_sum (l : List F[X]) (x : F) : l.sum.eval x = (l.map fun p => p.eval x).sum := by
  induction l with
  | nil => simp
  | cons p l ih => simp [ih]

theorem combine_eval (a : List F) (p : Nat → F[X]) (x : F) :
    (Spec.combine a p).eval x = ((List.range a.length).map fun i => a.getD i 0 * (p i).eval x).sum := by
  unfold Spec.combine
  rw [eval_list_sum, List.map_map]
  congr 1
  apply List.map_congr_left
  intro i _
  simp

theorem combine_node (cs : CS F) (ds : List F) (sel : Cstr F → LC F) (a : List F) (p : Nat → F[X])
    (hp : ∀ i, i < a.length → Spec.IsQapPoly cs ds sel i (p i)) (j : Nat) (hj : j < ds.length) :
    (Spec.combine a p).eval ds[j] = match cs.cons[j]? with | some k => lcDot cs a (sel k) | none => 0 := by
  rw [combine_eval]
  cases hk : cs.cons[j]? with
  | none =>
    rw [List.sum_eq_zero]
    intro y hy
    obtain ⟨i, hi, rfl⟩ := List.mem_map.1 hy
    rw [(hp i (by simpa using hi)).values j hj]
    simp [Spec.columnValue, hk]
  | some k =>
    unfold lcDot
    congr 1
    apply List.map_congr_left
    intro i hi
    rw [(hp i (by simpa using hi)).values j hj]
    simp [Spec.columnValue, hk]

theorem dotF_eq_sum (a f : List F) :
    dotF a f = ((List.range a.length).map fun i => a.getD i 0 * f.getD i 0).sum := by
  induction a generalizing f with
  | nil => simp
  | cons x a ih =>
    rw [List.length_cons, List.range_succ_eq_map]
    cases f with
    | nil => simp [Function.comp_def]
    | cons y f => simp [ih, Function.comp_def]

end Zkenc
