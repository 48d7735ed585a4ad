import Verif.Spec.CliErrors
import Verif.Props.Core
import Verif.Props.Container
import Verif.Props.R1csParse
import Verif.Props.WtnsParse
import Verif.Props.Sym
import Verif.Props.Inputs
import Verif.Props.Crypto
import Verif.Proofs.Commands
/-! Helper lemmas for C104. -/

namespace Zkenc.CliErr

open Zkenc Spec InputSpec ContainerSpec CliErrorSpec Props

/-- The command ends this way if nothing disturbs it. -/
def Fin (c : Cmd) (fs : FS) (e : Ending) : Prop := ending (c.exec fs).2 = some e

theorem step {c : Cmd} {fs : FS} {P : Prop} {f : Ending} {rest : List (Prop × Ending)} (hpos : P → ∀ e, Fin c fs e ↔ Ends rest e)
    (hneg : ¬ P → ∀ e, Fin c fs e ↔ e = f) (e : Ending) : Fin c fs e ↔ Ends ((P, f) :: rest) e := by
  by_cases h : P
  · rw [hpos h]; simp [Ends, h]
  · rw [hneg h]; simp [Ends, h]

theorem fin_done_err (m : String) (fs : FS) (e : Ending) : Fin (.done (.error (.err m))) fs e ↔ e = reports m := by
  simp only [Fin, Cmd.exec, ending, reports, Option.some.injEq]
  exact eq_comm

theorem fin_done_panic (fs : FS) (e : Ending) : Fin (.done (.error .panic)) fs e ↔ e = panics := by
  simp only [Fin, Cmd.exec, ending, panics, Option.some.injEq]
  exact eq_comm

theorem fin_done_ok (fs : FS) (e : Ending) : Fin (.done (.ok ())) fs e ↔ Ends [] e := by
  simp only [Fin, Cmd.exec, ending, Ends, Option.some.injEq]
  exact eq_comm

theorem fin_read_some {p : Path} {m : String} {k : Bytes → Cmd} {fs : FS} {b : Bytes} (h : fs p = some b) (e : Ending) :
    Fin (Cmd.readFile p m k) fs e ↔ Fin (k b) fs e := by
  simp only [Fin, Cmd.readFile, Cmd.exec, h]

theorem fin_read_none {p : Path} {m : String} {k : Bytes → Cmd} {fs : FS} (h : fs p = none) (e : Ending) :
    Fin (Cmd.readFile p m k) fs e ↔ e = reports m := by
  rw [← fin_done_err m fs e]
  simp only [Fin, Cmd.readFile, Cmd.exec, h]
  rfl

theorem fin_lift_ok {α : Type} {r : Res α} {k : α → Cmd} {a : α} (h : r = .ok a) (fs : FS) (e : Ending) :
    Fin (Cmd.lift r k) fs e ↔ Fin (k a) fs e := by rw [h]; rfl

theorem fin_lift_err {α : Type} {r : Res α} {k : α → Cmd} {m : String} (h : r = .error (.err m)) (fs : FS) (e : Ending) :
    Fin (Cmd.lift r k) fs e ↔ e = reports m := by rw [h]; exact fin_done_err m fs e

theorem fin_lift_panic {α : Type} {r : Res α} {k : α → Cmd} (h : r = .error .panic) (fs : FS) (e : Ending) :
    Fin (Cmd.lift r k) fs e ↔ e = panics := by rw [h]; exact fin_done_panic fs e

theorem fin_write {p : Path} {b : Bytes} {m : String} {k : Cmd} {fs : FS} (e : Ending) :
    Fin (Cmd.writeFile p b m k) fs e ↔ Fin k (fs.set p b) e := by
  unfold Fin
  rw [exec_writeFile]

theorem context_ok {α : Type} {r : Res α} {a : α} (h : r = .ok a) (m : String) : r.context m = .ok a := by rw [h]; rfl
theorem context_err {α : Type} {r : Res α} {m' : String} (h : r = .error (.err m')) (m : String) : r.context m = .error (.err m) := by rw [h]; rfl
theorem context_panic {α : Type} {r : Res α} (h : r = .error .panic) (m : String) : r.context m = .error .panic := by rw [h]; rfl

theorem r1cs_cases (lim : Nat) (data : Bytes) : (∃ r, cliParseR1cs lim data = .ok r) ∨ ∃ m, cliParseR1cs lim data = .error (.err m) := by
  obtain ⟨h, h'⟩ := C24_r1cs_total lim data
  cases hc : cliParseR1cs lim data with
  | ok a => exact .inl ⟨a, rfl⟩
  | error f =>
    cases f with
    | err m => exact .inr ⟨m, rfl⟩
    | panic => exact absurd hc h
    | hang => exact absurd hc h'

theorem wtns_cases (data : Bytes) : (∃ r, cliParseWtns data = .ok r) ∨ (∃ m, cliParseWtns data = .error (.err m)) ∨ cliParseWtns data = .error .panic := by
  have h := (C24_wtns_total data).1
  cases hc : cliParseWtns data with
  | ok a => exact .inl ⟨a, rfl⟩
  | error f =>
    cases f with
    | err m => exact .inr (.inl ⟨m, rfl⟩)
    | panic => exact .inr (.inr rfl)
    | hang => exact absurd hc h

theorem ofOption_none {α : Type} {o : Option α} (h : o = none) (m : String) : Res.ofOption o m = .error (.err m) := by rw [h]; rfl

section
variable {G1 G2 GT : Type} [AddCommGroup G1] [Module Fr G1] [AddCommGroup G2] [Module Fr G2] [AddCommGroup GT] [Module Fr GT]
  {S : Sys G1 G2 GT}

theorem circuit_unique {fs : FS} {p : Path} {r r' : R1csFile} (h : IsCircuit S fs p r) (h' : IsCircuit S fs p r') : r = r' := by
  obtain ⟨d, h1, h2⟩ := h
  obtain ⟨d', h3, h4⟩ := h'
  rw [h1] at h3
  cases h3
  rw [h2] at h4
  cases h4
  rfl

theorem receives_unique {fs : FS} {p q : Path} {r r' : R1csFile} {v v' : List Fr} (h : Receives S fs p q r v) (h' : Receives S fs p q r' v') :
    r = r' ∧ v = v' := by
  refine ⟨circuit_unique h.1 h'.1, ?_⟩
  obtain ⟨-, d, h1, wf, h2, h3⟩ := h
  obtain ⟨-, d', h4, wf', h5, h6⟩ := h'
  rw [h1] at h4
  cases h4
  rw [h2] at h5
  cases h5
  rw [h3] at h6
  cases h6
  rfl

/-- Loading the circuit and the witness. -/
theorem load_ends {fs : FS} {circuit witness : Path} {getCt : (Bytes → Cmd) → Cmd} {ctMsg : String} {k : Key → Cmd}
    {rest : List (Prop × Ending)}
    (hok : ∀ data r vals, fs circuit = some data → cliParseR1cs S.lim data = .ok r → Receives S fs circuit witness r vals →
      ∀ e, Fin (getCt fun ct =>
        Cmd.lift (Res.ofOption (decCiphertext S.c1 S.c2 ct) ctMsg) fun c =>
        Cmd.readFile circuit "Failed to create circuit" fun data' =>
        Cmd.lift ((cliParseR1cs S.lim data').context "Failed to create circuit") fun r1cs' =>
        Cmd.lift ((decap S.P (cliCircuit r1cs' (fullWires vals)) c).contextDebug "Decap failed: ") k) fs e ↔ Ends rest e) :
    ∀ e, Fin (cliDecapPartE S circuit witness getCt ctMsg k) fs e ↔ Ends (loadChecks S fs circuit witness ++ rest) e := by
  simp only [loadChecks, List.cons_append, List.nil_append]
  unfold cliDecapPartE
  apply step
  · rintro ⟨r, data, h1, h2⟩
    have c1 := fun e => fin_read_some (m := "Failed to load R1CS circuit") (k := fun data => Cmd.lift ((cliParseR1cs S.lim data).context "Failed to load R1CS circuit") fun _ =>
      Cmd.readFile witness "Failed to load witness file" fun wdata =>
      Cmd.lift ((cliParseWtns wdata).context "Failed to load witness file") fun wf =>
      Cmd.lift (wf.toFieldElements.context "Failed to convert witness to field elements") fun vals =>
      getCt fun ct =>
      Cmd.lift (Res.ofOption (decCiphertext S.c1 S.c2 ct) ctMsg) fun c =>
      Cmd.readFile circuit "Failed to create circuit" fun data' =>
      Cmd.lift ((cliParseR1cs S.lim data').context "Failed to create circuit") fun r1cs' =>
      Cmd.lift ((decap S.P (cliCircuit r1cs' (fullWires vals)) c).contextDebug "Decap failed: ") k) h1 e
    simp only [fin_lift_ok (context_ok h2 _)] at c1
    simp only [c1]
    apply step
    · intro hp
      apply step
      · rintro ⟨wdata, wf, h3, h4⟩
        simp only [fin_read_some h3, fin_lift_ok (context_ok h4 _)]
        apply step
        · rintro ⟨wdata', vals, h5, wf', h6, h7⟩
          rw [h3] at h5
          cases h5
          rw [h4] at h6
          cases h6
          simp only [fin_lift_ok (context_ok h7 _)]
          exact hok data r vals h1 h2 ⟨⟨data, h1, h2⟩, wdata, h3, wf, h4, h7⟩
        · intro hn e
          have : wf.toFieldElements = .error (.err "Failed to deserialize wire as field element") := by
            unfold WitnessFile.toFieldElements
            apply ofOption_none
            by_contra hc
            obtain ⟨vals, hv⟩ := Option.ne_none_iff_exists'.1 hc
            exact hn ⟨wdata, vals, h3, wf, h4, by unfold WitnessFile.toFieldElements; rw [hv]; rfl⟩
          exact fin_lift_err (context_err this _) fs e
      · intro hn e
        cases h3 : fs witness with
        | none => exact fin_read_none h3 e
        | some wdata =>
          rw [fin_read_some h3]
          rcases wtns_cases wdata with ⟨wf, h⟩ | ⟨m, h⟩ | h
          · exact absurd ⟨wdata, wf, h3, h⟩ hn
          · exact fin_lift_err (context_err h _) fs e
          · exact absurd h (hp wdata h3)
    · intro hn e
      push Not at hn
      obtain ⟨wdata, h3, h4⟩ := hn
      rw [fin_read_some h3]
      exact fin_lift_panic (context_panic h4 _) fs e
  · intro hn e
    cases h1 : fs circuit with
    | none => exact fin_read_none h1 e
    | some data =>
      rw [fin_read_some h1]
      rcases r1cs_cases S.lim data with ⟨r, h⟩ | ⟨m, h⟩
      · exact absurd ⟨r, data, h1, h⟩ hn
      · exact fin_lift_err (context_err h _) fs e

theorem contextDebug_err {α : Type} {r : Res α} {m : String} (h : r = Res.fail m) (pre : String) :
    r.contextDebug pre = .error (.err (pre ++ coreErrorDebug m)) := by rw [h]; rfl

theorem debug_synth : "Decap failed: " ++ coreErrorDebug "SynthesisError" = "Decap failed: SynthesisError(\"AssignmentMissing\")" := by decide +kernel
theorem debug_witness : "Decap failed: " ++ coreErrorDebug "InvalidWitness" = "Decap failed: InvalidWitness" := by decide +kernel
theorem debug_public : "Decap failed: " ++ coreErrorDebug "InvalidPublicInputs" = "Decap failed: InvalidPublicInputs" := by decide +kernel

theorem range_getElem {N i : Nat} {val : Nat → Fr} {x : Fr} : ((List.range N).map val)[i]? = some x ↔ i < N ∧ val i = x := by
  rw [List.getElem?_map, Option.map_eq_some_iff]
  constructor
  · rintro ⟨a, h1, h2⟩
    obtain ⟨h3, h4⟩ := List.getElem?_eq_some_iff.1 h1
    rw [List.length_range] at h3
    rw [List.getElem_range] at h4
    exact ⟨h3, by rw [h4]; exact h2⟩
  · rintro ⟨h1, h2⟩
    exact ⟨i, by rw [List.getElem?_range h1], h2⟩

theorem nAlloc_pos (r : R1csFile) : 1 ≤ r.nAlloc := by unfold R1csFile.nAlloc; omega

/-- Recovering the key. -/
theorem key_ends {fs fs' : FS} {circuit witness : Path} {r : R1csFile} {vals : List Fr} {c : Ciphertext Fr G1 G2} {k : Key → Cmd}
    {rest : List (Prop × Ending)} (hf : PublicFits r) (hr : Receives S fs circuit witness r vals)
    (hok : ∀ key, decap S.P (cliCircuit r (fullWires vals)) c = .ok key → ∀ e, Fin (k key) fs' e ↔ Ends rest e) :
    ∀ e, Fin (Cmd.lift ((decap S.P (cliCircuit r (fullWires vals)) c).contextDebug "Decap failed: ") k) fs' e ↔
      Ends (keyChecks S fs circuit witness c ++ rest) e := by
  have hu : ∀ {P : R1csFile → List Fr → Prop}, (∀ r' vals', Receives S fs circuit witness r' vals' → P r' vals') ↔ P r vals := by
    intro P
    refine ⟨fun h => h _ _ hr, fun h r' vals' h' => ?_⟩
    obtain ⟨rfl, rfl⟩ := receives_unique hr h'
    exact h
  simp only [keyChecks, List.cons_append, List.nil_append, hu]
  obtain ⟨cs, res, hc⟩ : ∃ cs res, cliCircuit r (fullWires vals) (CS.new Fr) = (cs, res) := ⟨_, _, rfl⟩
  have h06 := C06_outcome S.P (cliCircuit r (fullWires vals)) c cs res hc _ rfl
  have hsyn := circuit_ok_iff Tool.cli r (fullWires vals) hf
  rw [Tool.circuit_eq, hc] at hsyn
  simp only at hsyn
  apply step
  · intro hnm
    have hres : res = .ok () := by
      apply hsyn.2
      refine ⟨fun i => if i = 0 then 1 else if i < r.nAlloc then (fullWires vals i).getD 0 else 0, ⟨by simp, ?_⟩, ?_⟩
      · intro i hi
        have : i ≠ 0 := by have := nAlloc_pos r; omega
        simp [this, Nat.not_lt.2 hi]
      · intro i h1 h2
        have : i ≠ 0 := by omega
        simp only [this, if_false, h2, if_true]
        cases hw : fullWires vals i with
        | none => exact absurd ⟨i, h1, h2, hw⟩ hnm
        | some x => rfl
    obtain ⟨val, hv, hw⟩ := hsyn.1 hres
    obtain ⟨cs', hc', hinst, hfull, -, -, hsat⟩ := circuit_full Tool.cli r (fullWires vals) val hf hv hw
    rw [Tool.circuit_eq, hc] at hc'
    cases hc'
    have hacc : Accepted r vals ↔ cs.isSatisfied = true := by
      rw [hsat]
      refine ⟨?_, fun h => ⟨val, hv, hw, h⟩⟩
      rintro ⟨val', hv', hw', hs'⟩
      have : val' = val := by
        funext i
        by_cases h0 : i = 0
        · rw [h0, hv.one, hv'.one]
        · by_cases hi : i < r.nAlloc
          · have := hw i (by omega) hi
            rw [hw' i (by omega) hi] at this
            exact Option.some.inj this
          · rw [hv.beyond i (by omega), hv'.beyond i (by omega)]
      rw [← this]
      exact hs'
    have hcar : Carries r vals c ↔ (1 + c.publicInputs.length ≤ (cs.inst ++ cs.wit).length ∧
        ∀ i (h : i < c.publicInputs.length), (cs.inst ++ cs.wit)[i + 1]? = some c.publicInputs[i]) := by
      rw [hfull]
      constructor
      · intro h
        have h1 : ∀ i (h : i < c.publicInputs.length), ((List.range r.nAlloc).map val)[i + 1]? = some c.publicInputs[i] := by
          intro i hi
          obtain ⟨h2, h3⟩ := h i _ (List.getElem?_eq_getElem hi)
          rw [range_getElem]
          refine ⟨h2, ?_⟩
          have := hw (i + 1) (by omega) h2
          unfold fullWires at this
          rw [h3] at this
          exact (Option.some.inj this).symm
        refine ⟨?_, h1⟩
        rw [List.length_map, List.length_range]
        rcases Nat.eq_zero_or_pos c.publicInputs.length with h0 | h0
        · rw [h0]; exact nAlloc_pos r
        · have := (h (c.publicInputs.length - 1) _ (List.getElem?_eq_getElem (by omega))).1
          omega
      · rintro ⟨-, h⟩ i x hx
        obtain ⟨hi, hx⟩ := List.getElem?_eq_some_iff.1 hx
        have := h i hi
        rw [range_getElem] at this
        refine ⟨this.1, ?_⟩
        have h2 := hw (i + 1) (by omega) this.1
        unfold fullWires at h2
        rw [h2, this.2, hx]
    apply step
    · intro ha
      have hs := hacc.1 ha
      apply step
      · intro hca
        have hp := hcar.1 hca
        apply step
        · rintro ⟨q1, q2, q3⟩
          rcases h06 with ⟨⟨e, he⟩, -⟩ | ⟨-, h, -⟩ | ⟨-, -, h, -⟩ | ⟨-, -, -, h, -⟩ | ⟨-, -, -, -, h⟩
          · rw [hres] at he; cases he
          · rw [hs] at h; cases h
          · exact absurd hp h
          · rcases h with h | h | h
            · exact absurd h q1
            · exact absurd h q2
            · exact absurd h q3
          · intro e
            rw [← hok _ h e]
            exact fin_lift_ok (by rw [h]; rfl) fs' e
        · intro hq e
          rcases h06 with ⟨⟨e, he⟩, -⟩ | ⟨-, h, -⟩ | ⟨-, -, h, -⟩ | ⟨-, -, -, -, h⟩ | ⟨-, -, -, h, -⟩
          · rw [hres] at he; cases he
          · rw [hs] at h; cases h
          · exact absurd hp h
          · rw [← debug_witness]
            exact fin_lift_err (contextDebug_err h _) fs' e
          · exact absurd h hq
      · intro hca e
        rcases h06 with ⟨⟨e, he⟩, -⟩ | ⟨-, h, -⟩ | ⟨-, -, -, h⟩ | ⟨-, -, h, -⟩ | ⟨-, -, h, -⟩
        · rw [hres] at he; cases he
        · rw [hs] at h; cases h
        · rw [← debug_public]
          exact fin_lift_err (contextDebug_err h _) fs' e
        · exact absurd (hcar.2 h) hca
        · exact absurd (hcar.2 h) hca
    · intro ha e
      have hs : ¬ cs.isSatisfied = true := fun h => ha (hacc.2 h)
      rcases h06 with ⟨⟨e, he⟩, -⟩ | ⟨-, -, h⟩ | ⟨-, h, -⟩ | ⟨-, h, -⟩ | ⟨-, h, -⟩
      · rw [hres] at he; cases he
      · rw [← debug_witness]
        exact fin_lift_err (contextDebug_err h _) fs' e
      · exact absurd h hs
      · exact absurd h hs
      · exact absurd h hs
  · intro hm e
    rw [Classical.not_not] at hm
    have hno : res ≠ .ok () := by
      intro h
      obtain ⟨val, -, hw⟩ := hsyn.1 h
      obtain ⟨i, h1, h2, h3⟩ := hm
      rw [hw i h1 h2] at h3
      cases h3
    rcases h06 with ⟨-, h⟩ | ⟨h, -⟩ | ⟨h, -⟩ | ⟨h, -⟩ | ⟨h, -⟩
    · rw [← debug_synth]
      exact fin_lift_err (contextDebug_err h _) fs' e
    all_goals exact absurd h hno

theorem not_ends_false {P : Prop} {f : Ending} {e : Ending} (h : ¬ P) : Ends [(P, f)] e ↔ e = f := by simp [Ends, h]

/-- Loading, decoding the ciphertext, recovering the key. -/
theorem decap_ends {fs : FS} {circuit witness : Path} {getCt : (Bytes → Cmd) → Cmd} {ctMsg : String} {k : Key → Cmd} {ctB : Bytes} {c : Ciphertext Fr G1 G2}
    {rest : List (Prop × Ending)} (hf : ∀ r, IsCircuit S fs circuit r → PublicFits r) (hg : ∀ k e, Fin (getCt k) fs e ↔ Fin (k ctB) fs e)
    (hc : decCiphertext S.c1 S.c2 ctB = some c)
    (hok : ∀ r vals key, Receives S fs circuit witness r vals → decap S.P (cliCircuit r (fullWires vals)) c = .ok key → ∀ e, Fin (k key) fs e ↔ Ends rest e) :
    ∀ e, Fin (cliDecapPartE S circuit witness getCt ctMsg k) fs e ↔
      Ends (loadChecks S fs circuit witness ++ (keyChecks S fs circuit witness c ++ rest)) e := by
  apply load_ends
  intro data r vals h1 h2 hr e
  rw [hg, fin_lift_ok (a := c) (by rw [hc]; rfl), fin_read_some h1, fin_lift_ok (context_ok h2 _)]
  exact key_ends (hf r hr.1) hr (fun key h => hok r vals key hr h) e

/-- A ciphertext that cannot be decoded. -/
theorem decap_ends_none {fs : FS} {circuit witness : Path} {getCt : (Bytes → Cmd) → Cmd} {ctMsg : String} {k : Key → Cmd} {ctB : Bytes}
    (hg : ∀ k e, Fin (getCt k) fs e ↔ Fin (k ctB) fs e) (hc : decCiphertext S.c1 S.c2 ctB = none) :
    ∀ e, Fin (cliDecapPartE S circuit witness getCt ctMsg k) fs e ↔
      Ends (loadChecks S fs circuit witness ++ [(False, reports ctMsg)]) e := by
  apply load_ends
  intro data r vals h1 h2 hr e
  rw [hg, not_ends_false not_false]
  exact fin_lift_err (by rw [hc]; rfl) fs e

end

end Zkenc.CliErr
