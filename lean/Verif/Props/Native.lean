import Verif.Model.Mimc
import Verif.Spec.Native
import Verif.Props.Core
/-!
# C89: synthesizers written in Rust, and the MiMC circuit of the library

`encap` and `decap` take any synthesizer. `NativeSpec.allocateThen` is the common shape: allocate the variables, stop at the first that has no value, then
state the constraints.
-/

namespace Zkenc

section
variable {F : Type}

namespace NativeSpec

theorem allocateThen_run (as : List (Alloc F)) (hm : ∃ a ∈ as, a.value = none) (k : List Var → Prog F) (cs : CS F) :
    ((allocateThen as k).run cs).1.inst = cs.inst ++ publicBeforeMissing as ∧ ((allocateThen as k).run cs).1.cons = cs.cons ∧
      ((allocateThen as k).run cs).2 = .error .assignmentMissing := by
  induction as generalizing cs k with
  | nil => simp at hm
  | cons a as ih =>
    obtain ⟨p, v⟩ := a
    cases v with
    | none => cases p <;> simp [allocateThen, Prog.run, CS.newInput, CS.newWitness, publicBeforeMissing]
    | some x =>
      have hm' : ∃ a ∈ as, a.value = none := by
        obtain ⟨a, ha, hv⟩ := hm
        rcases List.mem_cons.1 ha with rfl | ha
        · simp at hv
        · exact ⟨a, ha, hv⟩
      cases p
      · simpa [allocateThen, Prog.run, CS.newInput, CS.newWitness, publicBeforeMissing] using
          ih hm' (fun vs => k (.wit cs.numWit :: vs)) { cs with numWit := cs.numWit + 1, wit := cs.wit ++ [x] }
      · have := ih hm' (fun vs => k (.inst cs.numInst :: vs)) { cs with numInst := cs.numInst + 1, inst := cs.inst ++ [x] }
        simpa [allocateThen, Prog.run, CS.newInput, CS.newWitness, publicBeforeMissing] using this

end NativeSpec

end

section
variable {F G1 G2 GT : Type} [Field F] [DecidableEq F] [AddCommGroup G1] [Module F G1] [AddCommGroup G2] [Module F G2] [AddCommGroup GT] [Module F GT]

/-- encap of a synthesizer that stops before it states a constraint. -/
theorem encap_noCons (P : Pairing F G1 G2 GT) (dom : Domains F) (p : Prog F) (ρ : Rand F) (ct : Ciphertext F G1 G2) (k : Key)
    (hc : (p.run (CS.new F)).1.cons = []) (h : encap P dom p.run ρ = .ok (ct, k)) :
    ρ.delta ≠ 0 ∧ k = P.kdf ((ρ.alpha * ρ.beta) • P.e P.g1 P.g2) ∧ ct = encapCt P dom (p.run (CS.new F)).1 ρ ∧
      1 ≤ (p.run (CS.new F)).1.numInst := by
  have h4 : 1 ≤ (p.run (CS.new F)).1.numInst := Props.Prog.numInst_le p (CS.new F)
  have hδ : ρ.delta ≠ 0 := by
    intro hd
    rw [encap_panic] at h
    · simp at h
    · exact ⟨by unfold CS.numVars; omega, hd⟩
  rw [encap_eq _ _ _ _ (fun hc => hδ hc.2)] at h
  simp only [Except.ok.injEq, Prod.mk.injEq] at h
  obtain ⟨hct, hk⟩ := h
  refine ⟨hδ, ?_, hct.symm, h4⟩
  rw [← hk, encap_scalar]
  congr 2
  rw [dotF_phiList, evaluateQap_no_cons _ _ _ hc]
  simp [dotF_replicate_zero]

end

section
variable {F : Type} [Field F]

theorem lcVal_lcAdd (cs : CS F) (lc : LC F) (x : F) (h : cs.lcVal lc = some x) (c y : F) (v : Var) (hv : cs.varVal v = some y) :
    cs.lcVal (lcAdd lc (c, v)) = some (x + c * y) := by
  induction lc generalizing x with
  | nil =>
    simp only [CS.lcVal, Option.some.injEq] at h
    subst h
    simp [lcAdd, CS.lcVal, hv]
  | cons t lc ih =>
    obtain ⟨d, u⟩ := t
    simp only [CS.lcVal, bind, Option.bind_eq_some_iff, pure, Option.some.injEq] at h
    obtain ⟨z, hz, w, hw, rfl⟩ := h
    simp only [lcAdd]
    split
    · rename_i he
      subst he
      rw [hz] at hv; cases hv
      simp only [CS.lcVal, hz, hw, bind, Option.bind_some, pure, Option.some.injEq]
      ring
    · simp only [CS.lcVal, hz, ih w hw, bind, Option.bind_some, pure, Option.some.injEq]
      ring

theorem lcVal_foldl (cs : CS F) (l : LC F) (y : F) (hl : cs.lcVal l = some y) (lc : LC F) (x : F) (h : cs.lcVal lc = some x) :
    cs.lcVal (l.foldl lcAdd lc) = some (x + y) := by
  induction l generalizing y lc x with
  | nil => simp only [CS.lcVal, Option.some.injEq] at hl; subst hl; simpa using h
  | cons t l ih =>
    obtain ⟨d, u⟩ := t
    simp only [CS.lcVal, bind, Option.bind_eq_some_iff, pure, Option.some.injEq] at hl
    obtain ⟨z, hz, w, hw, rfl⟩ := hl
    rw [List.foldl_cons, ih w hw _ _ (lcVal_lcAdd cs lc x h d z u hz), add_assoc]

theorem lcVal_neg (cs : CS F) (l : LC F) (y : F) (hl : cs.lcVal l = some y) : cs.lcVal (l.map fun t => (-t.1, t.2)) = some (-y) := by
  induction l generalizing y with
  | nil => simp only [CS.lcVal, Option.some.injEq] at hl; subst hl; simp [CS.lcVal]
  | cons t l ih =>
    obtain ⟨d, u⟩ := t
    simp only [CS.lcVal, bind, Option.bind_eq_some_iff, pure, Option.some.injEq] at hl
    obtain ⟨z, hz, w, hw, rfl⟩ := hl
    simp only [List.map_cons, CS.lcVal, hz, ih w hw, bind, Option.bind_some, pure, Option.some.injEq]
    ring

/-- More witnesses do not change the value of a combination that has one. -/
theorem lcVal_mono (cs cs' : CS F) (hi : cs'.inst = cs.inst) (hw : cs.wit <+: cs'.wit) (lc : LC F) (x : F) (h : cs.lcVal lc = some x) :
    cs'.lcVal lc = some x := by
  induction lc generalizing x with
  | nil => exact h
  | cons t l ih =>
    obtain ⟨d, u⟩ := t
    simp only [CS.lcVal, bind, Option.bind_eq_some_iff, pure, Option.some.injEq] at h
    obtain ⟨z, hz, w, hw', rfl⟩ := h
    have : cs'.varVal u = some z := by
      cases u with
      | one => exact hz
      | inst i => simpa [CS.varVal, hi] using hz
      | wit i =>
        obtain ⟨e, he⟩ := hw
        simp only [CS.varVal] at hz ⊢
        rw [← he, List.getElem?_append_left (List.getElem?_eq_some_iff.1 hz).1]
        exact hz
    simp [CS.lcVal, this, ih w hw']

variable [DecidableEq F]

theorem cstrOk_mono (cs cs' : CS F) (hi : cs'.inst = cs.inst) (hw : cs.wit <+: cs'.wit) (k : Cstr F) (h : cs.cstrOk k = true) :
    cs'.cstrOk k = true := by
  unfold CS.cstrOk at h ⊢
  split at h
  · rename_i a b c ha hb hc
    rw [lcVal_mono cs cs' hi hw _ _ ha, lcVal_mono cs cs' hi hw _ _ hb, lcVal_mono cs cs' hi hw _ _ hc]
    exact h
  · cases h

/-- The system after a multiplication. -/
def mulCs (cs : CS F) (x y : FpV F) : CS F :=
  { cs with numWit := cs.numWit + 1, wit := cs.wit ++ [x.val * y.val], cons := cs.cons ++ [⟨x.lc, y.lc, [(1, .wit cs.numWit)]⟩] }

omit [DecidableEq F] in
theorem fpMul_run (x y : FpV F) (k : FpV F → Prog F) (cs : CS F) :
    (fpMul x y k).run cs = (k ⟨[(1, .wit cs.numWit)], x.val * y.val⟩).run (mulCs cs x y) := rfl

omit [DecidableEq F] in
theorem mulCs_val (cs : CS F) (hn : cs.wit.length = cs.numWit) (x y : FpV F) :
    (mulCs cs x y).lcVal [(1, .wit cs.numWit)] = some (x.val * y.val) := by
  simp [mulCs, CS.lcVal, CS.varVal, ← hn]

theorem mulCs_sat (cs : CS F) (hn : cs.wit.length = cs.numWit) (x y : FpV F) (hx : cs.lcVal x.lc = some x.val) (hy : cs.lcVal y.lc = some y.val)
    (hs : cs.isSatisfied = true) : (mulCs cs x y).isSatisfied = true := by
  have hmono : cs.wit <+: (mulCs cs x y).wit := ⟨_, rfl⟩
  unfold CS.isSatisfied at hs ⊢
  rw [List.all_eq_true] at hs ⊢
  intro k hk
  have : k ∈ cs.cons ∨ k = ⟨x.lc, y.lc, [(1, .wit cs.numWit)]⟩ := by simpa [mulCs] using hk
  rcases this with h | rfl
  · exact cstrOk_mono cs (mulCs cs x y) rfl hmono k (hs k h)
  · unfold CS.cstrOk
    simp only
    rw [lcVal_mono cs (mulCs cs x y) rfl hmono _ _ hx, lcVal_mono cs (mulCs cs x y) rfl hmono _ _ hy, mulCs_val cs hn]
    simp

theorem mimcRounds_run (o : FpV F) (consts : List F) (xl xr : FpV F) (cs : CS F) (hn : cs.wit.length = cs.numWit)
    (ho : cs.lcVal o.lc = some o.val) (hl : cs.lcVal xl.lc = some xl.val) (hr : cs.lcVal xr.lc = some xr.val) (hs : cs.isSatisfied = true) :
    ∃ cs', (mimcRounds o consts xl xr).run cs = (cs', .ok ()) ∧ cs'.inst = cs.inst ∧ cs.wit <+: cs'.wit ∧
      (cs'.isSatisfied = true ↔ mimcNative xl.val xr.val consts = o.val) := by
  induction consts generalizing xl xr cs with
  | nil =>
    refine ⟨cs.enforce ⟨xl.subLc o, [(1, .one)], []⟩, rfl, rfl, List.prefix_rfl, ?_⟩
    unfold CS.isSatisfied at hs ⊢
    have h1 : cs.lcVal (xl.subLc o) = some (xl.val - o.val) := by
      rw [FpV.subLc, lcVal_foldl cs _ _ (lcVal_neg cs _ _ ho) _ _ hl, sub_eq_add_neg]
    have h2 : ∀ l, (cs.enforce ⟨xl.subLc o, [(1, .one)], []⟩).lcVal l = cs.lcVal l := by
      intro l
      induction l with
      | nil => rfl
      | cons t l ih => rw [CS.lcVal, CS.lcVal, ih]; rfl
    have h3 : ∀ k, (cs.enforce ⟨xl.subLc o, [(1, .one)], []⟩).cstrOk k = cs.cstrOk k := by
      intro k
      simp only [CS.cstrOk, h2]
    rw [show (cs.enforce ⟨xl.subLc o, [(1, .one)], []⟩).cstrOk = cs.cstrOk from funext h3]
    simp only [CS.enforce, List.all_append, hs, Bool.true_and, List.all_cons, List.all_nil, Bool.and_true, CS.cstrOk, h1]
    simp [CS.lcVal, CS.varVal, mimcNative, sub_eq_zero]
  | cons c consts ih =>
    have ht : cs.lcVal (xl.addConst c).lc = some (xl.addConst c).val := by
      have := lcVal_lcAdd cs xl.lc xl.val hl c 1 .one rfl
      simpa [FpV.addConst] using this
    set t := xl.addConst c with htd
    have e1 : cs.wit <+: (mulCs cs t t).wit := ⟨_, rfl⟩
    have hn1 : (mulCs cs t t).wit.length = (mulCs cs t t).numWit := by simp [mulCs, hn]
    have s1 := mulCs_sat cs hn t t ht ht hs
    let tmp : FpV F := ⟨[(1, .wit cs.numWit)], t.val * t.val⟩
    have v1 : (mulCs cs t t).lcVal tmp.lc = some tmp.val := mulCs_val cs hn t t
    have ht1 := lcVal_mono cs (mulCs cs t t) rfl e1 _ _ ht
    let cs2 := mulCs (mulCs cs t t) tmp t
    have e2 : (mulCs cs t t).wit <+: cs2.wit := ⟨_, rfl⟩
    have hn2 : cs2.wit.length = cs2.numWit := by simp [cs2, mulCs, hn]
    have s2 : cs2.isSatisfied = true := mulCs_sat _ hn1 tmp t v1 ht1 s1
    let cube : FpV F := ⟨[(1, .wit (mulCs cs t t).numWit)], tmp.val * t.val⟩
    have v2 : cs2.lcVal cube.lc = some cube.val := mulCs_val _ hn1 tmp t
    have up : ∀ l x, cs.lcVal l = some x → cs2.lcVal l = some x := fun l x h => lcVal_mono cs cs2 rfl (e1.trans e2) l x h
    have vx : cs2.lcVal (xr.add cube).lc = some (xr.add cube).val := lcVal_foldl cs2 _ _ v2 _ _ (up _ _ hr)
    obtain ⟨cs', h1, h2, h3, h4⟩ := ih (xr.add cube) xl cs2 hn2 (up _ _ ho) vx (up _ _ hl) s2
    refine ⟨cs', h1, h2.trans rfl, (e1.trans e2).trans h3, h4.trans ?_⟩
    have : (xr.add cube).val = (xl.val + c) * (xl.val + c) * (xl.val + c) + xr.val := by
      simp [FpV.add, cube, tmp, t, FpV.addConst, add_comm]
    rw [this]
    rfl

omit [DecidableEq F] in
theorem mimcNative_eq (consts : List F) (xl xr : F) : mimcNative xl xr consts = NativeSpec.mimc consts xl xr := by
  induction consts generalizing xl xr with
  | nil => rfl
  | cons c consts ih =>
    simp only [mimcNative]
    rw [ih]
    simp only [NativeSpec.mimc, List.foldl_cons, NativeSpec.mimcRound]
    congr 3
    ring

/-- The fully assigned circuit: it is synthesized, its public values are `[output]`, and it is satisfied exactly by preimages. -/
theorem mimcCircuit_full (xl xr o : F) (consts : List F) :
    ∃ cs, (mimcCircuit (some xl) (some xr) (some o) consts).run (CS.new F) = (cs, .ok ()) ∧ cs.inst = [1, o] ∧ [xl, xr] <+: cs.wit ∧
      (cs.isSatisfied = true ↔ NativeSpec.mimc consts xl xr = o) := by
  have := mimcRounds_run (F := F) ⟨[(1, .inst 1)], o⟩ consts ⟨[(1, .wit 0)], xl⟩ ⟨[(1, .wit 1)], xr⟩
    { numInst := 2, numWit := 2, inst := [1, o], wit := [xl, xr], cons := [] } rfl (by simp [CS.lcVal, CS.varVal]) (by simp [CS.lcVal, CS.varVal])
    (by simp [CS.lcVal, CS.varVal]) rfl
  rw [mimcNative_eq] at this
  exact this

end

namespace Props

open Zkenc Zkenc.Spec NativeSpec

variable {F G1 G2 GT : Type} [Field F] [DecidableEq F] [AddCommGroup G1] [Module F G1] [AddCommGroup G2] [Module F G2] [AddCommGroup GT] [Module F GT]

/-- **C89** (what a synthesizer in Rust binds) — a synthesizer allocates its variables in the order `as`, of which at least one has no value at encap, and then
goes on in any way. encap records exactly the public values allocated before the first variable without a value, public or private; and every synthesizer,
of this or any other circuit, that succeeds, is satisfied and begins with those public values recovers the key. -/
theorem C89_bound (P : Pairing F G1 G2 GT) (dom : Domains F) (as : List (Alloc F)) (hm : ∃ a ∈ as, a.value = none) (k : List Var → Prog F)
    (ρ : Rand F) (ct : Ciphertext F G1 G2) (key : Key) (henc : encap P dom (allocateThen as k).run ρ = .ok (ct, key)) :
    ct.publicInputs = publicBeforeMissing as ∧
    ∀ (c : Circuit F) (cs : CS F), c (CS.new F) = (cs, .ok ()) → cs.isSatisfied = true → (1 :: ct.publicInputs) <+: cs.inst →
      decap P c ct = .ok key := by
  obtain ⟨h1, h2, -⟩ := allocateThen_run as hm k (CS.new F)
  have h2 : ((allocateThen as k).run (CS.new F)).1.cons = [] := h2
  obtain ⟨hδ, hk, hct, hn⟩ := encap_noCons P dom _ ρ ct key h2 henc
  refine ⟨by rw [hct]; simp only [encapCt, h1]; rfl, fun c cs hc hs hpre => ?_⟩
  obtain ⟨e, he⟩ := hpre
  have := decap_foreign P dom _ ρ hδ h2 hn c cs hc hs (by simp [← he]) ct.publicInputs (by
    intro i hi
    rw [← he, List.cons_append, List.cons_append, List.getElem?_cons_succ, List.append_assoc, List.getElem?_append_left hi,
      List.getElem?_eq_getElem hi])
  rw [hk, ← this]
  congr 1
  rw [hct]

/-- **C89** (the MiMC circuit) — with all values given, decap finds the circuit satisfied exactly if the public output is the MiMC hash of the two private
inputs, whatever the ciphertext; otherwise it reports an invalid witness. -/
theorem C89_mimc_checks (P : Pairing F G1 G2 GT) (constants : List F) (xl xr output : F) (ct : Ciphertext F G1 G2) :
    (mimc constants xl xr ≠ output →
      decap P (mimcCircuit (some xl) (some xr) (some output) constants).run ct = Res.fail "InvalidWitness") ∧
    (∀ key, decap P (mimcCircuit (some xl) (some xr) (some output) constants).run ct = .ok key → mimc constants xl xr = output) := by
  obtain ⟨cs, h1, h2, -, h4⟩ := mimcCircuit_full xl xr output constants
  have hfail : mimc constants xl xr ≠ output →
      decap P (mimcCircuit (some xl) (some xr) (some output) constants).run ct = Res.fail "InvalidWitness" := by
    intro hne
    rw [decap_eq, h1]
    have : cs.isSatisfied = false := by
      rw [Bool.eq_false_iff]
      exact fun h => hne (h4.1 h)
    simp [this]
  refine ⟨hfail, fun key hk => ?_⟩
  by_contra hne
  rw [hfail hne] at hk
  cases hk

/-- **C89** (the native hash) — `mimc_native` computes the hash the circuit checks. -/
theorem C89_mimc_native (constants : List F) (xl xr : F) : mimcNative xl xr constants = mimc constants xl xr := mimcNative_eq constants xl xr

/-- **C89** (the documented use of the MiMC circuit binds nothing) — encap with the output only, as in the tests and the README, whatever the output: the
ciphertext records no public value, and decap with *any* two private inputs, together with their own hash as output, recovers the key. -/
theorem C89_mimc_unbound (P : Pairing F G1 G2 GT) (dom : Domains F) (constants : List F) (output : Option F) (ρ : Rand F)
    (ct : Ciphertext F G1 G2) (key : Key) (henc : encap P dom (mimcCircuit none none output constants).run ρ = .ok (ct, key)) :
    ct.publicInputs = [] ∧
    ∀ xl xr, decap P (mimcCircuit (some xl) (some xr) (some (mimc constants xl xr)) constants).run ct = .ok key := by
  have hrun : (mimcCircuit none none output constants).run = (allocateThen [⟨false, none⟩] fun _ => .done (.ok ())).run := rfl
  rw [hrun] at henc
  obtain ⟨hp, hd⟩ := C89_bound P dom [⟨false, none⟩] ⟨_, List.mem_singleton.2 rfl, rfl⟩ _ ρ ct key henc
  refine ⟨hp, fun xl xr => ?_⟩
  obtain ⟨cs, h1, h2, -, h4⟩ := mimcCircuit_full xl xr (mimc constants xl xr) constants
  refine hd _ cs h1 (h4.2 rfl) ?_
  rw [hp, h2]
  exact ⟨[mimc constants xl xr], rfl⟩

/-- **C89** (the round trip of the tests) — in particular a preimage of the output given to encap recovers the key. -/
theorem C89_mimc_roundtrip (P : Pairing F G1 G2 GT) (dom : Domains F) (constants : List F) (xl xr : F) (ρ : Rand F) (hδ : ρ.delta ≠ 0) :
    ∃ ct key, encap P dom (mimcCircuit none none (some (mimc constants xl xr)) constants).run ρ = .ok (ct, key) ∧
      decap P (mimcCircuit (some xl) (some xr) (some (mimc constants xl xr)) constants).run ct = .ok key := by
  obtain ⟨ct, key, h⟩ := C07_encap_ok P dom (mimcCircuit none none (some (mimc constants xl xr)) constants).run ρ hδ
  exact ⟨ct, key, h, (C89_mimc_unbound P dom constants _ ρ ct key h).2 xl xr⟩

/-- C89 is not vacuous: with the public output allocated first, one missing private value leaves it bound; with the private value first, it does not. -/
example (a b : F) : publicBeforeMissing [⟨true, some a⟩, ⟨false, some b⟩, ⟨false, none⟩] = [a] ∧
    publicBeforeMissing [⟨false, some b⟩, ⟨false, none⟩, ⟨true, some a⟩] = ([] : List F) := ⟨rfl, rfl⟩

/-- A hash with two rounds. -/
example : mimc [1, 2] (3 : ℚ) 4 = 3 + (4 + (3 + 1) ^ 3 + 2) ^ 3 := rfl

end Props

end Zkenc
