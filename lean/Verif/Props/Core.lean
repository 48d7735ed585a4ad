import Verif.Proofs.Core
/-!
# Property theorems C01–C12: the witness KEM

`P` is an arbitrary pairing setting (groups, generators, bilinear map, key derivation), `dom` an arbitrary
evaluation-domain constructor, `ρ` the sampled randomness.
-/

namespace Zkenc.Props

open Zkenc Spec

variable {F G1 G2 GT : Type} [Field F] [AddCommGroup G1] [Module F G1]
  [AddCommGroup G2] [Module F G2] [AddCommGroup GT] [Module F GT] [DecidableEq F]

/-! ### The running example: `x * x = y`, `y` public (wire 1), `x` private (wire 2) -/

/-- The example circuit. -/
def sq : R1csFile :=
  { fieldSize := 32, prime := [], nWires := 3, nPubOut := 0, nPubIn := 1, nPrvIn := 1, nLabels := 3,
    nConstraints := 1, constraints := [⟨[(2, [1])], [(2, [1])], [(1, [1])]⟩], wire2label := [0, 1, 2] }

/-- Full valuation `y = 9`, `x = 3`. -/
def sqVal : Nat → F := fun i => if i = 0 then 1 else if i = 1 then 9 else if i = 2 then 3 else 0

/-- Only the public wire is assigned. -/
def sqPub : Nat → Option F := fun i => if i = 1 then some 9 else none

theorem sq_fits : PublicFits sq := by decide

theorem sq_nAlloc : sq.nAlloc = 3 := by decide

omit [DecidableEq F] in
theorem sq_missing : SomeWireMissing sq (sqPub : Nat → Option F) := ⟨2, by decide, by decide, rfl⟩

omit [DecidableEq F] in
theorem sq_valuation : Valuation sq (sqVal : Nat → F) :=
  ⟨rfl, fun i hi => by
    rw [sq_nAlloc] at hi
    simp [sqVal, show i ≠ 0 by omega, show i ≠ 1 by omega, show i ≠ 2 by omega]⟩

omit [DecidableEq F] in
theorem sq_satisfies : Satisfies sq.constraints (sqVal : Nat → F) := by
  intro k hk
  simp only [sq, List.mem_singleton] at hk
  subst hk
  simp [lcSum, coeff, leNat, sqVal]
  norm_num

/-! ### C07 -/

/-- **C07 (success).** With a non-zero `delta`, encap succeeds on every circuit whatsoever. -/
theorem C07_encap_ok (P : Pairing F G1 G2 GT) (dom : Domains F) (c : Circuit F) (ρ : Rand F)
    (hδ : ρ.delta ≠ 0) : ∃ ct k, encap P dom c ρ = .ok (ct, k) :=
  ⟨_, _, encap_eq P dom c ρ (fun h => hδ h.2)⟩

omit [Field F] [DecidableEq F] in
theorem Prog.numInst_le (p : Prog F) (cs : CS F) : cs.numInst ≤ (p.run cs).1.numInst := by
  induction p generalizing cs with
  | done r => exact Nat.le_refl _
  | input v k ih =>
    refine Nat.le_trans ?_ (ih _ _)
    unfold CS.newInput
    cases v <;> simp
  | witness v k ih =>
    refine Nat.le_trans ?_ (ih _ _)
    unfold CS.newWitness
    cases v <;> simp
  | enforce c k ih => exact ih (cs.enforce c)
  | inspect k ih => exact ih _ _

/-- **C07 (exact outcome).** For every synthesizer written against the constraint-system API: encap panics iff
the sampled `delta` is zero, returns a value iff it is not, and never returns an error. -/
theorem C07_encap_outcome (P : Pairing F G1 G2 GT) (dom : Domains F) (p : Prog F) (ρ : Rand F) :
    (ρ.delta = 0 → encap P dom p.run ρ = .error .panic) ∧
    (ρ.delta ≠ 0 → ∃ ct k, encap P dom p.run ρ = .ok (ct, k)) ∧
    (∀ m, encap P dom p.run ρ ≠ .error (.err m)) := by
  have hp : ρ.delta = 0 → encap P dom p.run ρ = .error .panic := by
    intro h
    apply encap_panic
    refine ⟨?_, h⟩
    have := Prog.numInst_le p (CS.new F)
    simp only [CS.new] at this
    unfold CS.numVars
    simp only [CS.new]
    omega
  refine ⟨hp, C07_encap_ok P dom p.run ρ, fun m h => ?_⟩
  by_cases hδ : ρ.delta = 0
  · rw [hp hδ] at h; simp at h
  · obtain ⟨ct, k, he⟩ := C07_encap_ok P dom p.run ρ hδ
    rw [he] at h; simp at h

/-- **C07 (Circom circuits).** The same for the circuits of both tools. -/
theorem C07_encap_outcome_circom (P : Pairing F G1 G2 GT) (dom : Domains F) (t : Tool) (r : R1csFile)
    (w : Nat → Option F) (ρ : Rand F) :
    (ρ.delta = 0 → encap P dom (t.circuit r w) ρ = .error .panic) ∧
    (ρ.delta ≠ 0 → ∃ ct k, encap P dom (t.circuit r w) ρ = .ok (ct, k)) := by
  refine ⟨fun h => encap_panic _ _ _ _ ⟨?_, h⟩, C07_encap_ok P dom _ ρ⟩
  have := (cliCircuit_inst r w).2
  rw [Tool.circuit_eq]
  unfold CS.numVars
  omega

/-! ### C09, C01, C10, C11 -/

/-- **C09.** A ciphertext of the documented workflow is opened by *any* circuit with *any* satisfying assignment
whose wires 1, 2, … match the recorded public inputs — the circuit used by encap does not matter.  `c` is an
arbitrary synthesizer; `full` is its assignment (constant, instance, witness). -/
theorem C09_no_circuit_binding (P : Pairing F G1 G2 GT) (dom : Domains F) (t : Tool) (r : R1csFile)
    (hf : PublicFits r) (wEnc : Nat → Option F) (hm : SomeWireMissing r wEnc) (ρ : Rand F)
    (ct : Ciphertext F G1 G2) (k : Key) (henc : encap P dom (t.circuit r wEnc) ρ = .ok (ct, k))
    (c : Circuit F) (cs : CS F) (hsyn : c (CS.new F) = (cs, .ok ())) (hsat : cs.isSatisfied = true)
    (full : List F) (hfull : full = cs.inst ++ cs.wit) (hne : full ≠ [])
    (hpub : ∀ i (h : i < ct.publicInputs.length), full[i + 1]? = some ct.publicInputs[i]) :
    decap P c ct = .ok k := by
  subst hfull
  obtain ⟨hδ, hk, -, csE, hct, hcons, hn, -⟩ := encap_missing P dom t r wEnc hf hm ρ ct k henc
  have := decap_foreign P dom csE ρ hδ hcons hn c cs hsyn hsat hne ct.publicInputs hpub
  rw [hk, ← this]
  congr 1
  rw [hct]

/-- **C09 (public inputs can be stripped).** Removing the recorded public inputs from the ciphertext removes the
last check: every satisfied circuit opens it. -/
theorem C09_strip_public (P : Pairing F G1 G2 GT) (dom : Domains F) (t : Tool) (r : R1csFile)
    (hf : PublicFits r) (wEnc : Nat → Option F) (hm : SomeWireMissing r wEnc) (ρ : Rand F)
    (ct : Ciphertext F G1 G2) (k : Key) (henc : encap P dom (t.circuit r wEnc) ρ = .ok (ct, k))
    (c : Circuit F) (cs : CS F) (hsyn : c (CS.new F) = (cs, .ok ())) (hsat : cs.isSatisfied = true)
    (hne : cs.inst ++ cs.wit ≠ []) :
    decap P c { ct with publicInputs := [] } = .ok k := by
  obtain ⟨hδ, hk, -, csE, hct, hcons, hn, -⟩ := encap_missing P dom t r wEnc hf hm ρ ct k henc
  rw [hk, hct]
  exact decap_foreign P dom csE ρ hδ hcons hn c cs hsyn hsat hne [] (fun i h => absurd h (by simp))

/-- The circuit with no constraints, no public inputs and no private wires: it has no witness at all. -/
def emptyCircuit : R1csFile :=
  { fieldSize := 32, prime := [], nWires := 1, nPubOut := 0, nPubIn := 0, nPrvIn := 0, nLabels := 1,
    nConstraints := 0, constraints := [], wire2label := [0] }

/-- **C09 (witness-free decap).** Consequently the empty circuit with an empty assignment opens every ciphertext of
the documented workflow after the public inputs are stripped. -/
theorem C09_empty_circuit_opens (P : Pairing F G1 G2 GT) (dom : Domains F) (t t' : Tool) (r : R1csFile)
    (hf : PublicFits r) (wEnc : Nat → Option F) (hm : SomeWireMissing r wEnc) (ρ : Rand F)
    (ct : Ciphertext F G1 G2) (k : Key) (henc : encap P dom (t.circuit r wEnc) ρ = .ok (ct, k)) :
    decap P (t'.circuit emptyCircuit (fun _ => none)) { ct with publicInputs := [] } = .ok k := by
  refine C09_strip_public P dom t r hf wEnc hm ρ ct k henc _ (CS.new F) ?_ rfl (by simp [CS.new])
  rw [Tool.circuit_eq]
  rfl

/-- **C01.** Decapsulation recovers the encapsulated key: encap ran with at least one wire of the circuit
unassigned; the decapsulator's assignment satisfies every constraint of the file (plain sums) and agrees with the
public inputs recorded in the ciphertext.  Either tool may encapsulate and either may decapsulate. -/
theorem C01_roundtrip (P : Pairing F G1 G2 GT) (dom : Domains F) (tEnc tDec : Tool) (r : R1csFile)
    (hf : PublicFits r) (wEnc : Nat → Option F) (hm : SomeWireMissing r wEnc) (ρ : Rand F)
    (ct : Ciphertext F G1 G2) (k : Key) (henc : encap P dom (tEnc.circuit r wEnc) ρ = .ok (ct, k))
    (val : Nat → F) (hv : Valuation r val) (hsat : Satisfies r.constraints val) (hpub : PublicMatch ct val)
    (wDec : Nat → Option F) (hw : Assigns r wDec val) :
    decap P (tDec.circuit r wDec) ct = .ok k := by
  obtain ⟨cs, h1, h2, h3, h4, h5, h6⟩ := circuit_full tDec r wDec val hf hv hw
  have hlen : ct.publicInputs.length ≤ r.nPublicInputs := by
    obtain ⟨-, -, hp, -⟩ := encap_missing P dom tEnc r wEnc hf hm ρ ct k henc
    rw [hp]
    have : ∀ ws : List Nat, (assignedPrefix wEnc ws).length ≤ ws.length := by
      intro ws
      induction ws with
      | nil => simp [assignedPrefix]
      | cons i is ih =>
        simp only [assignedPrefix]
        cases wEnc i <;> simp [ih]
    simpa using this (List.range' 1 r.nPublicInputs)
  have hna : r.nPublicInputs + 1 ≤ r.nAlloc := by unfold R1csFile.nAlloc; omega
  refine C09_no_circuit_binding P dom tEnc r hf wEnc hm ρ ct k henc _ cs h1 (h6.2 hsat) _ h3.symm ?_ ?_
  · rw [Ne, List.map_eq_nil_iff, List.range_eq_nil]; omega
  · intro i hi
    rw [List.getElem?_map, List.getElem?_range (by omega), hpub i hi]
    rfl

/-- C01 is not vacuous: for every pairing setting the example circuit meets all its hypotheses. -/
example (P : Pairing F G1 G2 GT) (dom : Domains F) (α β r x : F) :
    ∃ ct k, encap P dom (Tool.cli.circuit sq sqPub) ⟨α, β, 1, r, x⟩ = .ok (ct, k) ∧
      PublicMatch ct (sqVal : Nat → F) ∧ ct.publicInputs = [9] ∧
      decap P (Tool.js.circuit sq fun i => some (sqVal i)) ct = .ok k := by
  obtain ⟨ct, k, h⟩ := C07_encap_ok P dom (Tool.cli.circuit sq sqPub) ⟨α, β, 1, r, x⟩ one_ne_zero
  have hp : ct.publicInputs = [9] := by
    rw [(encap_missing P dom .cli sq sqPub sq_fits sq_missing _ ct k h).2.2.1]
    rfl
  have hm : PublicMatch ct (sqVal : Nat → F) := by
    intro i hi
    have : i = 0 := by rw [hp] at hi; simpa using hi
    subst this
    simp [hp, sqVal]
  exact ⟨ct, k, h, hm, hp, C01_roundtrip P dom .cli .js sq sq_fits sqPub sq_missing _ ct k h sqVal sq_valuation
    sq_satisfies hm _ (fun i _ _ => rfl)⟩

/-- **C10.** Any two successful decapsulations of one ciphertext of the documented workflow (different witnesses,
different circuits) return the same key — the encapsulated one. -/
theorem C10_unique_key (P : Pairing F G1 G2 GT) (dom : Domains F) (t : Tool) (r : R1csFile)
    (hf : PublicFits r) (wEnc : Nat → Option F) (hm : SomeWireMissing r wEnc) (ρ : Rand F)
    (ct : Ciphertext F G1 G2) (k : Key) (henc : encap P dom (t.circuit r wEnc) ρ = .ok (ct, k))
    (c₁ c₂ : Circuit F) (k₁ k₂ : Key) (h₁ : decap P c₁ ct = .ok k₁) (h₂ : decap P c₂ ct = .ok k₂) :
    k₁ = k ∧ k₂ = k := by
  have key : ∀ (c : Circuit F) (k' : Key), decap P c ct = .ok k' → k' = k := by
    intro c k' h
    have hd := h
    rw [decap_eq] at hd
    rcases hc : c (CS.new F) with ⟨cs, e | u⟩
    · rw [hc] at hd; simp [Res.fail] at hd
    · rw [hc] at hd
      simp only at hd
      split at hd
      · simp [Res.fail] at hd
      split at hd
      · simp [Res.fail] at hd
      split at hd
      · simp [Res.fail] at hd
      rename_i h1 h2 h3
      have hne : cs.inst ++ cs.wit ≠ [] := by intro he; rw [he] at h2; simp at h2
      have := C09_no_circuit_binding P dom t r hf wEnc hm ρ ct k henc c cs hc (by simpa using h1) _ rfl hne
        ((take_drop_eq_iff _ _).1 (not_not.1 h3))
      rw [this] at h
      simpa using h.symm
  exact ⟨key c₁ k₁ h₁, key c₂ k₂ h₂⟩

/-- **C11 (key formula).** In the documented workflow the key is the KDF of `(α·β)·e(g₁,g₂)`. -/
theorem C11_key_formula (P : Pairing F G1 G2 GT) (dom : Domains F) (t : Tool) (r : R1csFile)
    (hf : PublicFits r) (wEnc : Nat → Option F) (hm : SomeWireMissing r wEnc) (ρ : Rand F)
    (ct : Ciphertext F G1 G2) (k : Key) (henc : encap P dom (t.circuit r wEnc) ρ = .ok (ct, k)) :
    k = P.kdf ((ρ.alpha * ρ.beta) • P.e P.g1 P.g2) :=
  (encap_missing P dom t r wEnc hf hm ρ ct k henc).2.1

/-- **C11.** Two encapsulations of the documented workflow (different tools, circuits, inputs, randomness) give the
same key iff `α·β` coincides (injective KDF, non-degenerate pairing). -/
theorem C11_keys_equal_iff (P : Pairing F G1 G2 GT) (hkdf : Function.Injective P.kdf)
    (hnd : P.e P.g1 P.g2 ≠ 0) (dom dom' : Domains F)
    (t t' : Tool) (r r' : R1csFile) (hf : PublicFits r) (hf' : PublicFits r')
    (w w' : Nat → Option F) (hm : SomeWireMissing r w) (hm' : SomeWireMissing r' w') (ρ ρ' : Rand F)
    (ct ct' : Ciphertext F G1 G2) (k k' : Key) (henc : encap P dom (t.circuit r w) ρ = .ok (ct, k))
    (henc' : encap P dom' (t'.circuit r' w') ρ' = .ok (ct', k')) :
    k = k' ↔ ρ.alpha * ρ.beta = ρ'.alpha * ρ'.beta := by
  rw [C11_key_formula P dom t r hf w hm ρ ct k henc, C11_key_formula P dom' t' r' hf' w' hm' ρ' ct' k' henc']
  rw [hkdf.eq_iff]
  constructor
  · intro h
    have : (ρ.alpha * ρ.beta - ρ'.alpha * ρ'.beta) • P.e P.g1 P.g2 = 0 := by rw [sub_smul, h, sub_self]
    rcases smul_eq_zero.1 this with h | h
    · exact sub_eq_zero.1 h
    · exact absurd h hnd
  · intro h; rw [h]

/-! ### C03 -/

/-- **C03.** The key is not protected by a witness: `recoverKey`, which sees only the ciphertext, outputs the
encapsulated key for every circuit, every public input and all randomness. -/
theorem C03_key_recoverable (P : Pairing F G1 G2 GT) (dom : Domains F) (c : Circuit F) (ρ : Rand F)
    (ct : Ciphertext F G1 G2) (k : Key) (henc : encap P dom c ρ = .ok (ct, k)) :
    recoverKey P ct = k := by
  have hδ : ¬ ((c (CS.new F)).1.numVars ≠ 0 ∧ ρ.delta = 0) := by
    intro hc
    rw [encap_panic _ _ _ _ hc] at henc
    simp at henc
  rw [encap_eq _ _ _ _ hδ] at henc
  simp only [Except.ok.injEq, Prod.mk.injEq] at henc
  obtain ⟨rfl, rfl⟩ := henc
  unfold recoverKey
  congr 3
  unfold dotG
  rw [List.zipWith_comm]
  rfl

/-- `1 * 1 = 0`: a circuit nobody has a witness for. -/
def impossible : R1csFile :=
  { fieldSize := 32, prime := [], nWires := 2, nPubOut := 0, nPubIn := 0, nPrvIn := 1, nLabels := 2,
    nConstraints := 1, constraints := [⟨[(0, [1])], [(0, [1])], []⟩], wire2label := [0, 1] }

omit [DecidableEq F] in
theorem impossible_unsat (val : Nat → F) (h0 : val 0 = 1) : ¬ Satisfies impossible.constraints val := by
  intro h
  have := h ⟨[(0, [1])], [(0, [1])], []⟩ (by simp [impossible])
  simp [lcSum, coeff, leNat, h0] at this

/-! ### C04, C05, C06 -/

/-- **C06.** Complete description of decap, for every synthesizer and every ciphertext: the five cases are exhaustive
and each determines the result; in particular there is no panic and no other error. -/
theorem C06_outcome (P : Pairing F G1 G2 GT) (c : Circuit F) (ct : Ciphertext F G1 G2) (cs : CS F)
    (res : Except SynthErr Unit) (hc : c (CS.new F) = (cs, res)) (full : List F) (hfull : full = cs.inst ++ cs.wit) :
    ((∃ e, res = .error e) ∧ decap P c ct = Res.fail "SynthesisError") ∨
    (res = .ok () ∧ cs.isSatisfied = false ∧ decap P c ct = Res.fail "InvalidWitness") ∨
    (res = .ok () ∧ cs.isSatisfied = true ∧
      ¬ (1 + ct.publicInputs.length ≤ full.length ∧
          ∀ i (h : i < ct.publicInputs.length), full[i + 1]? = some ct.publicInputs[i]) ∧
      decap P c ct = Res.fail "InvalidPublicInputs") ∨
    (res = .ok () ∧ cs.isSatisfied = true ∧
      (1 + ct.publicInputs.length ≤ full.length ∧
          ∀ i (h : i < ct.publicInputs.length), full[i + 1]? = some ct.publicInputs[i]) ∧
      (ct.encapKey.rU = [] ∨ ct.encapKey.rV = [] ∨ ct.encapKey.phiDelta = []) ∧
      decap P c ct = Res.fail "InvalidWitness") ∨
    (res = .ok () ∧ cs.isSatisfied = true ∧
      (1 + ct.publicInputs.length ≤ full.length ∧
          ∀ i (h : i < ct.publicInputs.length), full[i + 1]? = some ct.publicInputs[i]) ∧
      (ct.encapKey.rU ≠ [] ∧ ct.encapKey.rV ≠ [] ∧ ct.encapKey.phiDelta ≠ []) ∧
      decap P c ct = .ok (P.kdf
        (P.e (ct.encapKey.alphaG1 + (List.zipWith (fun b s => s • b) ct.encapKey.rU full).sum)
             (ct.encapKey.betaG2 + (List.zipWith (fun b s => s • b) ct.encapKey.rV full).sum)
          - P.e (List.zipWith (fun b s => s • b) ct.encapKey.phiDelta full).sum ct.encapKey.deltaG2))) := by
  subst hfull
  have hd := decap_eq P c ct
  rw [hc] at hd
  rcases res with e | u
  · exact Or.inl ⟨⟨e, rfl⟩, hd⟩
  simp only at hd
  right
  by_cases hs : cs.isSatisfied = true
  · right
    rw [if_neg (by simp [hs])] at hd
    by_cases hl : 1 + ct.publicInputs.length ≤ (cs.inst ++ cs.wit).length
    · rw [if_neg (by omega)] at hd
      by_cases hp : ∀ i (h : i < ct.publicInputs.length), (cs.inst ++ cs.wit)[i + 1]? = some ct.publicInputs[i]
      · rw [if_neg (by rw [not_not]; exact (take_drop_eq_iff _ _).2 hp)] at hd
        right
        by_cases hq : ct.encapKey.rU = [] ∨ ct.encapKey.rV = [] ∨ ct.encapKey.phiDelta = []
        · rw [if_pos hq] at hd
          exact Or.inl ⟨rfl, hs, ⟨hl, hp⟩, hq, hd⟩
        · rw [if_neg hq] at hd
          right
          push Not at hq
          exact ⟨rfl, hs, ⟨hl, hp⟩, hq, hd⟩
      · rw [if_pos (by intro h; exact hp ((take_drop_eq_iff _ _).1 h))] at hd
        exact Or.inl ⟨rfl, hs, fun h => hp h.2, hd⟩
    · rw [if_pos (by omega)] at hd
      exact Or.inl ⟨rfl, hs, fun h => hl h.1, hd⟩
  · left
    have hs : cs.isSatisfied = false := by simpa using hs
    rw [if_pos hs] at hd
    exact ⟨rfl, hs, hd⟩

/-- **C06 (no panic).** decap returns a key or a reported error on every input. -/
theorem C06_graceful (P : Pairing F G1 G2 GT) (c : Circuit F) (ct : Ciphertext F G1 G2) :
    Graceful (decap P c ct) := by
  rcases hc : c (CS.new F) with ⟨cs, res⟩
  rcases C06_outcome P c ct cs res hc _ rfl with ⟨-, h⟩ | ⟨-, -, h⟩ | ⟨-, -, -, h⟩ | ⟨-, -, -, -, h⟩ |
    ⟨-, -, -, -, h⟩ <;> rw [h]
  · exact Graceful.fail _
  · exact Graceful.fail _
  · exact Graceful.fail _
  · exact Graceful.fail _
  · exact Graceful.ok _

/-- **C04, C05.** If decap returns a key on a Circom circuit (either tool, any ciphertext, any possibly partial
assignment) then every wire is assigned, the assignment satisfies every constraint of the file, and the recorded
public inputs are exactly the values of wires 1, 2, …, which are wires of the circuit. -/
theorem C04_C05_decap_sound (P : Pairing F G1 G2 GT) (t : Tool) (r : R1csFile) (hf : PublicFits r)
    (w : Nat → Option F) (ct : Ciphertext F G1 G2) (k : Key) (h : decap P (t.circuit r w) ct = .ok k) :
    ∃ val, Valuation r val ∧ Assigns r w val ∧ Satisfies r.constraints val ∧
      PublicMatch ct val ∧ ct.publicInputs.length + 1 ≤ r.nAlloc := by
  rcases hc : t.circuit r w (CS.new F) with ⟨cs, res⟩
  have hres : res = .ok () ∧ cs.isSatisfied = true ∧
      (1 + ct.publicInputs.length ≤ (cs.inst ++ cs.wit).length ∧
          ∀ i (h : i < ct.publicInputs.length), (cs.inst ++ cs.wit)[i + 1]? = some ct.publicInputs[i]) := by
    rcases C06_outcome P (t.circuit r w) ct cs res hc _ rfl with ⟨-, h'⟩ | ⟨-, -, h'⟩ | ⟨-, -, -, h'⟩ |
      ⟨-, -, -, -, h'⟩ | ⟨h1, h2, h3, -, -⟩
    · rw [h] at h'; simp [Res.fail] at h'
    · rw [h] at h'; simp [Res.fail] at h'
    · rw [h] at h'; simp [Res.fail] at h'
    · rw [h] at h'; simp [Res.fail] at h'
    · exact ⟨h1, h2, h3⟩
  obtain ⟨rfl, hs, hl, hp⟩ := hres
  obtain ⟨val, hv, hw⟩ := (circuit_ok_iff t r w hf).1 (by rw [hc])
  obtain ⟨cs', h1, h2, h3, h4, h5, h6⟩ := circuit_full t r w val hf hv hw
  rw [hc] at h1
  simp only [Prod.mk.injEq, and_true] at h1
  subst h1
  rw [h3] at hl hp
  simp only [List.length_map, List.length_range] at hl
  refine ⟨val, hv, hw, h6.1 hs, ?_, by omega⟩
  intro i hi
  have := hp i hi
  rw [List.getElem?_map, List.getElem?_range (by omega)] at this
  simpa using this.symm

/-- **C04.** No key for an assignment that misses a wire or violates a constraint. -/
theorem C04_no_key_without_witness (P : Pairing F G1 G2 GT) (t : Tool) (r : R1csFile) (hf : PublicFits r)
    (w : Nat → Option F) (ct : Ciphertext F G1 G2)
    (h : ∀ val, Valuation r val → Assigns r w val → ¬ Satisfies r.constraints val) (k : Key) :
    decap P (t.circuit r w) ct ≠ .ok k := by
  intro hk
  obtain ⟨val, hv, hw, hs, -⟩ := C04_C05_decap_sound P t r hf w ct k hk
  exact h val hv hw hs

/-- C04 is not vacuous: in the example circuit `x = 3, y = 10` (`9 ≠ 10`) is rejected, in every field. -/
example (P : Pairing F G1 G2 GT) (t : Tool) (ct : Ciphertext F G1 G2) (k : Key) :
    decap P (t.circuit sq fun i => some (if i = 1 then 10 else 3)) ct ≠ .ok k := by
  refine C04_no_key_without_witness P t sq sq_fits _ ct ?_ k
  intro val hv hw hs
  have h1 := hw 1 (by decide) (by decide)
  have h2 := hw 2 (by decide) (by decide)
  simp at h1 h2
  have := hs ⟨[(2, [1])], [(2, [1])], [(1, [1])]⟩ (by simp [sq])
  simp [lcSum, coeff, leNat, ← h1, ← h2] at this
  have h10 : (3 : F) * 3 + 1 = 10 := by norm_num
  rw [this, add_eq_left] at h10
  exact one_ne_zero h10

/-- **C03 (unsatisfiable circuits).** For `1 * 1 = 0` no assignment ever makes decap return a key, yet encap
succeeds and the fixed procedure recovers its key. -/
theorem C03_even_unsatisfiable (P : Pairing F G1 G2 GT) (dom : Domains F) (t : Tool) (ρ : Rand F)
    (hδ : ρ.delta ≠ 0) :
    ∃ ct k, encap P dom (t.circuit impossible fun _ => none) ρ = .ok (ct, k) ∧ recoverKey P ct = k ∧
      ∀ t' w k', decap P (Tool.circuit t' impossible w) ct ≠ .ok k' := by
  obtain ⟨ct, k, h⟩ := C07_encap_ok P dom (t.circuit impossible fun _ => none) ρ hδ
  exact ⟨ct, k, h, C03_key_recoverable P dom _ ρ ct k h, fun t' w k' =>
    C04_no_key_without_witness P t' impossible (by decide) w ct (fun val hv _ => impossible_unsat val hv.one) k'⟩

/-! ### C08 -/

/-- **C08.** The public inputs recorded in a ciphertext are the longest assigned prefix of the public wires. -/
theorem C08_bound_public_inputs (P : Pairing F G1 G2 GT) (dom : Domains F) (t : Tool) (r : R1csFile)
    (hf : PublicFits r) (w : Nat → Option F) (ρ : Rand F) (ct : Ciphertext F G1 G2) (k : Key)
    (henc : encap P dom (t.circuit r w) ρ = .ok (ct, k)) :
    (∀ i (h : i < ct.publicInputs.length), w (i + 1) = some ct.publicInputs[i]) ∧
    ct.publicInputs.length ≤ r.nPubOut + r.nPubIn ∧
    (ct.publicInputs.length < r.nPubOut + r.nPubIn → w (ct.publicInputs.length + 1) = none) := by
  have hct : ct.publicInputs = assignedPrefix w (List.range' 1 (r.nPubOut + r.nPubIn)) := by
    by_cases hδ : ρ.delta = 0
    · rw [(C07_encap_outcome_circom P dom t r w ρ).1 hδ] at henc; simp at henc
    · rw [encap_eq _ _ _ _ (fun h => hδ h.2)] at henc
      simp only [Except.ok.injEq, Prod.mk.injEq] at henc
      rw [← henc.1, Tool.circuit_eq]
      simp only [encapCt, (cliCircuit_inst r w).1, nPublicInputs_eq hf]
      rfl
  rw [hct]
  clear hct henc hf ct
  have key : ∀ n s, (∀ i (h : i < (assignedPrefix w (List.range' s n)).length),
        w (s + i) = some (assignedPrefix w (List.range' s n))[i]) ∧
      (assignedPrefix w (List.range' s n)).length ≤ n ∧
      ((assignedPrefix w (List.range' s n)).length < n → w (s + (assignedPrefix w (List.range' s n)).length) = none) := by
    intro n
    induction n with
    | zero => intro s; simp [assignedPrefix]
    | succ n ih =>
      intro s
      cases hw : w s with
      | none =>
        have : assignedPrefix w (List.range' s (n + 1)) = [] := by simp [List.range'_succ, assignedPrefix, hw]
        simp [this, hw]
      | some x =>
        have : assignedPrefix w (List.range' s (n + 1)) = x :: assignedPrefix w (List.range' (s + 1) n) := by
          simp [List.range'_succ, assignedPrefix, hw]
        rw [this]
        obtain ⟨h1, h2, h3⟩ := ih (s + 1)
        refine ⟨?_, by simpa using h2, ?_⟩
        · intro i hi
          cases i with
          | zero => simpa using hw
          | succ i =>
            have := h1 i (by simpa using hi)
            rw [List.getElem_cons_succ, ← this]
            congr 1
            omega
        · intro hlt
          have := h3 (by simpa using hlt)
          rw [← this]
          simp only [List.length_cons]
          congr 1
          omega
  obtain ⟨h1, h2, h3⟩ := key (r.nPubOut + r.nPubIn) 1
  refine ⟨fun i hi => by rw [Nat.add_comm]; exact h1 i hi, h2, fun h => by rw [Nat.add_comm]; exact h3 h⟩

/-- **C08 (nothing bound).** If wire 1 is not supplied at encap although the circuit has public wires, no public input
is recorded and decap accepts every satisfying assignment, whatever its public values. -/
theorem C08_unbound_if_first_missing (P : Pairing F G1 G2 GT) (dom : Domains F) (t t' : Tool) (r : R1csFile)
    (hf : PublicFits r) (hpos : 1 ≤ r.nPubOut + r.nPubIn) (w : Nat → Option F) (h1 : w 1 = none) (ρ : Rand F)
    (ct : Ciphertext F G1 G2) (k : Key) (henc : encap P dom (t.circuit r w) ρ = .ok (ct, k)) :
    ct.publicInputs = [] ∧
    ∀ val wDec, Valuation r val → Satisfies r.constraints val → Assigns r wDec val →
      decap P (t'.circuit r wDec) ct = .ok k := by
  have hnil : ct.publicInputs = [] := by
    obtain ⟨hb, -, -⟩ := C08_bound_public_inputs P dom t r hf w ρ ct k henc
    cases hp : ct.publicInputs with
    | nil => rfl
    | cons y ys =>
      have := hb 0 (by simp [hp])
      simp [h1] at this
  refine ⟨hnil, fun val wDec hv hs hw => ?_⟩
  refine C01_roundtrip P dom t t' r hf w ⟨1, le_refl _, ?_, h1⟩ ρ ct k henc val hv hs ?_ wDec hw
  · unfold R1csFile.nAlloc
    rw [nPublicInputs_eq hf]
    omega
  · intro i hi
    simp [hnil] at hi

/-- C08 is not vacuous, and truncation really loses values: three public wires, the second missing, leaves one. -/
example : assignedPrefix (fun i => if i = 2 then none else some (i : ℚ)) (List.range' 1 3) = [1] := by
  simp [assignedPrefix, List.range']

/-! ### C12 -/

omit [Field F] [DecidableEq F] [AddCommGroup G1] [Module F G1] [AddCommGroup G2] [Module F G2] in
/-- **C12.** `verify_ciphertext` is true iff the recorded public inputs equal the expected ones. -/
theorem C12_verify_iff [DecidableEq F] (ct : Ciphertext F G1 G2) (expected : List F) :
    verifyCiphertext ct expected = true ↔ ct.publicInputs = expected := by
  unfold verifyCiphertext
  split
  · rename_i h
    simp only [Bool.false_eq_true, false_iff]
    intro he
    exact h (by rw [he])
  · rename_i h
    push Not at h
    generalize ct.publicInputs = l at h
    induction l generalizing expected with
    | nil => cases expected with
      | nil => simp
      | cons => simp at h
    | cons x l ih => cases expected with
      | nil => simp at h
      | cons y e =>
        have := ih e (by simpa using h)
        simp only [List.zip_cons_cons, List.all_cons, Bool.and_eq_true, decide_eq_true_eq, this, List.cons.injEq]

/-- **C12 (well-formedness is not checked).** For every ciphertext there is one with the same verdict on all expected
inputs that no circuit and no witness can ever decapsulate. -/
theorem C12_accepts_broken (P : Pairing F G1 G2 GT) (ct : Ciphertext F G1 G2) :
    ∃ ct' : Ciphertext F G1 G2, (∀ e, verifyCiphertext ct' e = verifyCiphertext ct e) ∧
      ∀ c k, decap P c ct' ≠ .ok k := by
  refine ⟨⟨{ ct.encapKey with rU := [] }, ct.publicInputs⟩, fun e => rfl, fun c k h => ?_⟩
  rcases hc : c (CS.new F) with ⟨cs, res⟩
  rcases C06_outcome P c _ cs res hc _ rfl with ⟨-, h'⟩ | ⟨-, -, h'⟩ | ⟨-, -, -, h'⟩ | ⟨-, -, -, -, h'⟩ |
    ⟨-, -, -, hq, -⟩
  · rw [h] at h'; simp [Res.fail] at h'
  · rw [h] at h'; simp [Res.fail] at h'
  · rw [h] at h'; simp [Res.fail] at h'
  · rw [h] at h'; simp [Res.fail] at h'
  · exact hq.1 rfl

end Zkenc.Props
