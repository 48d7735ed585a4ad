import Verif.Proofs.Parallel
import Verif.Props.Commands
/-!
# C64-C66: repeating commands after crashes, running them at the same time, and files that change while they are used
-/

namespace Zkenc.Props

open Zkenc

variable {G1 G2 GT : Type} [AddCommGroup G1] [Module Fr G1] [AddCommGroup G2] [Module Fr G2] [AddCommGroup GT] [Module Fr GT]
  (S : Sys G1 G2 GT)

/-! ## C64 -/

theorem lastWrite_congr {out : Path} {c : Cmd} (h : LastWrite out c) {R W : Path → Prop} (hu : Uses R W c) {fs gs : FS}
    (hR : ∀ q, R q → fs q = gs q) : (∃ e, c.exec fs = (fs, .error e) ∧ c.exec gs = (gs, .error e)) ∨
      ∃ b, c.exec fs = (fs.set out b, .ok ()) ∧ c.exec gs = (gs.set out b, .ok ()) := by
  induction h with
  | err e => exact Or.inl ⟨e, rfl, rfl⟩
  | read p k e h0 hk ih =>
    cases hu with
    | read _ _ hp hu =>
      simp only [Cmd.exec]
      rw [← hR p hp]
      cases hf : fs p with
      | none => rw [h0]; exact Or.inl ⟨e, rfl, rfl⟩
      | some b => exact ih b (hu _)
  | write b k e h1 h0 => exact Or.inr ⟨b, by simp only [Cmd.exec, h1], by simp only [Cmd.exec, h1]⟩

theorem lastTwo_congr {o1 o2 : Path} {c : Cmd} (h : LastTwo o1 o2 c) {R W : Path → Prop} (hu : Uses R W c) {fs gs : FS}
    (hR : ∀ q, R q → fs q = gs q) : (∃ e, c.exec fs = (fs, .error e) ∧ c.exec gs = (gs, .error e)) ∨
      ∃ b b', c.exec fs = ((fs.set o1 b).set o2 b', .ok ()) ∧ c.exec gs = ((gs.set o1 b).set o2 b', .ok ()) := by
  induction h with
  | err e => exact Or.inl ⟨e, rfl, rfl⟩
  | read p k e h0 hk ih =>
    cases hu with
    | read _ _ hp hu =>
      simp only [Cmd.exec]
      rw [← hR p hp]
      cases hf : fs p with
      | none => rw [h0]; exact Or.inl ⟨e, rfl, rfl⟩
      | some b => exact ih b (hu _)
  | write b b' k k' e e' h1 h0 h1' h0' =>
    exact Or.inr ⟨b, b', by simp only [Cmd.exec, h1, h1'], by simp only [Cmd.exec, h1, h1']⟩

/-- The error-free run of a command on two file systems that agree on its inputs: the same error and no change, or the same contents for
all its outputs. -/
theorem main_congr (a : Args) (ρ : Rand Fr) (nonce : Bytes) {fs gs : FS} (hR : ∀ q ∈ a.inputs, fs q = gs q) :
    (∃ e, (cliMain S ρ nonce a).exec fs = (fs, .error e) ∧ (cliMain S ρ nonce a).exec gs = (gs, .error e)) ∨
      ∃ fs' gs', (cliMain S ρ nonce a).exec fs = (fs', .ok ()) ∧ (cliMain S ρ nonce a).exec gs = (gs', .ok ()) ∧
        (∀ q ∈ a.outs, fs' q = gs' q) ∧ ∀ q, q ∉ a.outs → fs' q = fs q ∧ gs' q = gs q := by
  have one : ∀ {out}, LastWrite out (cliMain S ρ nonce a) → a.outs = [out] →
      (∃ e, (cliMain S ρ nonce a).exec fs = (fs, .error e) ∧ (cliMain S ρ nonce a).exec gs = (gs, .error e)) ∨
        ∃ fs' gs', (cliMain S ρ nonce a).exec fs = (fs', .ok ()) ∧ (cliMain S ρ nonce a).exec gs = (gs', .ok ()) ∧
          (∀ q ∈ a.outs, fs' q = gs' q) ∧ ∀ q, q ∉ a.outs → fs' q = fs q ∧ gs' q = gs q := by
    intro out hc ho
    rcases lastWrite_congr hc (uses_main S ρ nonce a) hR with h | ⟨b, h1, h2⟩
    · exact Or.inl h
    · refine Or.inr ⟨_, _, h1, h2, fun q hq => ?_, fun q hq => ?_⟩
      · rw [ho, List.mem_singleton] at hq
        subst hq
        rw [FS.set_same, FS.set_same]
      · rw [ho, List.mem_singleton] at hq
        exact ⟨FS.set_other _ hq _, FS.set_other _ hq _⟩
  cases a with
  | encap c s i ct k =>
    rcases lastTwo_congr (lastTwo_encap S c s i ct k ρ) (uses_main S ρ nonce (.encap c s i ct k)) hR with h | ⟨b, b', h1, h2⟩
    · exact Or.inl h
    · refine Or.inr ⟨_, _, h1, h2, fun q hq => ?_, fun q hq => ?_⟩
      · simp only [FS.set]
        split
        · rfl
        split
        · rfl
        · rename_i h1 h2
          simp only [Args.outs, List.mem_cons, List.not_mem_nil, or_false] at hq
          rcases hq with hq | hq
          · exact absurd hq h2
          · exact absurd hq h1
      · simp only [Args.outs, List.mem_cons, List.not_mem_nil, or_false, not_or] at hq
        rw [FS.set_other _ hq.2, FS.set_other _ hq.1, FS.set_other _ hq.2, FS.set_other _ hq.1]
        exact ⟨rfl, rfl⟩
  | decap c w ct k => exact one (lastWrite_decap S c w ct k) rfl
  | encrypt c s i m o np => exact one (lastWrite_encrypt S c s i m o _ ρ nonce) rfl
  | decrypt c w ct o => exact one (lastWrite_decrypt S c w ct o) rfl

/-- **C64** (repeating) — after any run of a command, whatever went wrong in it, the command can be repeated: if no output path is an input path, an
error-free repetition (with any new randomness) ends with the same result as if the first run had not happened, and on success with exactly
the same files; on failure it changes nothing. -/
theorem C64_repeat (a : Args) (hd : ∀ q ∈ a.outs, q ∉ a.inputs) (ρ ρ' : Rand Fr) (nonce nonce' : Bytes) (fs fs' : FS)
    (o : Option (Res Unit)) (h : Run (cliMain S ρ nonce a) fs fs' o) :
    let again := (cliMain S ρ' nonce' a).exec fs'
    let fresh := (cliMain S ρ' nonce' a).exec fs
    again.2 = fresh.2 ∧ (fresh.2 = .ok () → again.1 = fresh.1) ∧ (fresh.2 ≠ .ok () → again.1 = fs') := by
  have houts : outputs a = a.outs := by cases a <;> rfl
  have hdiff : ∀ q, q ∉ a.outs → fs' q = fs q := fun q hq => C50_only_outputs S a ρ nonce fs fs' o h q (houts ▸ hq)
  rcases main_congr S a ρ' nonce' (fs := fs') (gs := fs) fun q hq => hdiff q fun ho => hd q ho hq with
    ⟨e, h1, h2⟩ | ⟨f1, f2, h1, h2, h3, h4⟩
  · simp only [h1, h2]
    exact ⟨trivial, fun h => (by cases h), fun _ => trivial⟩
  · simp only [h1, h2]
    refine ⟨trivial, fun _ => ?_, fun h => absurd rfl h⟩
    funext q
    by_cases hq : q ∈ a.outs
    · exact h3 q hq
    · rw [(h4 q hq).1, (h4 q hq).2, hdiff q hq]

/-- **C64** (in place) — the condition is needed: decrypting a file onto itself, a run that is stopped while writing leaves an empty file, and
the repetition fails: ciphertext and message are both lost. -/
theorem C64_in_place_loses (circuit witness path : Path) (fs fs' : FS)
    (h : (decryptCommand S circuit witness path path).exec fs = (fs', .ok ())) :
    ∃ fs₁, Run (decryptCommand S circuit witness path path) fs fs₁ none ∧ fs₁ path = some [] ∧
      ∃ e, ((decryptCommand S circuit witness path path).exec fs₁).2 = .error e := by
  have hrun : ∀ {c : Cmd}, LastWrite path c → c.exec fs = (fs', .ok ()) → Run c fs (fs.set path []) none := by
    intro c hc hx
    induction hc with
    | err e => simp [Cmd.exec] at hx
    | read p k e h0 hk ih =>
      simp only [Cmd.exec] at hx
      cases hp : fs p with
      | none => rw [hp, h0] at hx; simp [Cmd.exec] at hx
      | some b =>
        rw [hp] at hx
        have := ih b hx
        rw [← hp] at this
        exact .read this
    | write b k e h1 h0 => simpa using Run.writeCrash (p := path) (b := b) (k := k) (fs := fs) 0
  refine ⟨fs.set path [], hrun (lastWrite_decrypt S ..) h, FS.set_same _ _ _, ?_⟩
  have hs : ∃ m, splitCli [] = Res.fail m := ⟨_, rfl⟩
  obtain ⟨m, hm⟩ := hs
  refine ⟨.err m, ?_⟩
  simp only [decryptCommand, Cmd.readFile, Cmd.exec, FS.set_same, hm, Cmd.lift, Res.fail]

/-! ## C65 -/

/-- No process writes a file that another one reads or writes. -/
def Independent {ι : Type} (jobs : ι → Args) : Prop :=
  ∀ i j, i ≠ j → ∀ p ∈ (jobs i).outs, p ∉ (jobs j).inputs ∧ p ∉ (jobs j).outs

/-- **C65** — any number of independent commands running at the same time, in any interleaving of their file operations, with any of them failing
or stopped at any point: each has done what it could have done alone on the original files, its output files are those of that run, and no
other file has changed. -/
theorem C65_parallel {ι : Type} [DecidableEq ι] (jobs : ι → Args) (hd : Independent jobs) (ρ : ι → Rand Fr) (nonce : ι → Bytes)
    (fs fs' : FS) (ps : ι → Cmd) (h : Par (fun i => cliMain S (ρ i) (nonce i) (jobs i)) fs ps fs') :
    (∀ i, ∃ gs, Run (cliMain S (ρ i) (nonce i) (jobs i)) fs gs (ps i).outcome ∧ ∀ q ∈ (jobs i).outs, fs' q = gs q) ∧
      ∀ q, (∀ i, q ∉ (jobs i).outs) → fs' q = fs q := by
  obtain ⟨h1, h2⟩ := par_independent (fun i => (· ∈ (jobs i).inputs)) (fun i => (· ∈ (jobs i).outs))
    (fun i => uses_main S (ρ i) (nonce i) (jobs i)) (fun i j hij p hp => hd i j hij p hp) h
  refine ⟨fun i => ?_, h2⟩
  obtain ⟨gs, h3, h4⟩ := h1 i
  exact ⟨gs, steps_run h3, fun q hq => h4 q (Or.inr hq)⟩

/-- **C65** (all succeed) — then the final files do not depend on the interleaving: every output is the one of the undisturbed command. -/
theorem C65_parallel_success {ι : Type} [DecidableEq ι] (jobs : ι → Args) (hd : Independent jobs) (ρ : ι → Rand Fr) (nonce : ι → Bytes)
    (fs fs' : FS) (ps : ι → Cmd) (h : Par (fun i => cliMain S (ρ i) (nonce i) (jobs i)) fs ps fs')
    (hok : ∀ i, (ps i).outcome = some (.ok ())) (i : ι) :
    ((cliMain S (ρ i) (nonce i) (jobs i)).exec fs).2 = .ok () ∧
      ∀ q ∈ (jobs i).outs, fs' q = ((cliMain S (ρ i) (nonce i) (jobs i)).exec fs).1 q := by
  obtain ⟨gs, h1, h2⟩ := (C65_parallel S jobs hd ρ nonce fs fs' ps h).1 i
  rw [hok i] at h1
  have := C50_success_complete S (jobs i) (ρ i) (nonce i) fs gs h1
  rw [this]
  exact ⟨rfl, h2⟩

/-- **C65** (no deadlock, nothing added) — every run of a single command is one of the interleavings of a system with that command alone. -/
theorem C65_single (a : Args) (ρ : Rand Fr) (nonce : Bytes) (fs fs' : FS) (o : Option (Res Unit)) (h : Run (cliMain S ρ nonce a) fs fs' o) :
    ∃ c, Par (fun _ : Unit => cliMain S ρ nonce a) fs (fun _ => c) fs' ∧ ∀ r, o = some r → c.outcome = some r := by
  obtain ⟨c, h1, h2⟩ := run_steps h
  refine ⟨c, ?_, fun r hr => by rw [h2 r hr]; rfl⟩
  clear h2 h
  induction h1 with
  | refl => exact .refl _ _
  | tail h1 h2 ih =>
    have := Par.tail () _ ih h2
    simpa using this

/-- Non-vacuity: two encryptions of different messages for the same circuit, to different files. -/
example : Independent (fun b : Bool => if b then Args.encrypt ['c'] ['s'] ['i'] ['m'] ['o'] false
    else Args.encrypt ['c'] ['s'] ['i'] ['n'] ['p'] false) := by
  intro i j hij p hp
  cases i <;> cases j
  · exact absurd rfl hij
  · simp only [Bool.false_eq_true, if_false, Args.outs, List.mem_singleton] at hp
    subst hp
    decide
  · simp only [if_true, Args.outs, List.mem_singleton] at hp
    subst hp
    decide
  · exact absurd rfl hij

/-- **C65** (why independence) — two commands with the same output path: there is an interleaving in which both report success although one of
the outputs is lost, whenever both succeed alone. -/
theorem C65_same_output_lost (a a' : Args) (out : Path) (ha : a.outs = [out]) (ha' : a'.outs = [out]) (hi : out ∉ a'.inputs)
    (ρ ρ' : Rand Fr) (nonce nonce' : Bytes) (fs f f' : FS) (h : (cliMain S ρ nonce a).exec fs = (f, .ok ()))
    (h' : (cliMain S ρ' nonce' a').exec fs = (f', .ok ())) :
    ∃ ps fs', Par (fun b : Bool => if b then cliMain S ρ nonce a else cliMain S ρ' nonce' a') fs ps fs' ∧
      (∀ b, (ps b).outcome = some (.ok ())) ∧ fs' out = f' out := by
  -- first all of `a`, then all of `a'`
  have lift1 : ∀ {c1 c2 : Cmd} {f1 f2 : FS} (d : Cmd), Steps c1 f1 c2 f2 →
      Par (fun b : Bool => if b then c1 else d) f1 (fun b => if b then c2 else d) f2 := by
    intro c1 c2 f1 f2 d hs
    induction hs with
    | refl => exact .refl _ _
    | @tail c' fs' c'' fs'' _ h2 ih =>
      have h2' : Step ((fun b : Bool => if b then c' else d) true) fs' c'' fs'' := by simpa using h2
      have := Par.tail true c'' ih h2'
      convert this using 1
      funext b
      cases b <;> simp
  have lift2 : ∀ {c1 c2 : Cmd} {f0 f1 f2 : FS} (d : Cmd) {p0 : Bool → Cmd}, Steps c1 f1 c2 f2 →
      Par p0 f0 (fun b => if b then d else c1) f1 → Par p0 f0 (fun b => if b then d else c2) f2 := by
    intro c1 c2 f0 f1 f2 d p0 hs hp
    induction hs with
    | refl => exact hp
    | @tail c' fs' c'' fs'' _ h2 ih =>
      have h2' : Step ((fun b : Bool => if b then d else c') false) fs' c'' fs'' := by simpa using h2
      have := Par.tail false c'' ih h2'
      convert this using 1
      funext b
      cases b <;> simp
  have h1 := run_exec (cliMain S ρ nonce a) fs
  rw [h] at h1
  obtain ⟨c1, s1, e1⟩ := run_steps h1
  have hf : ∀ q, q ∉ a.outs → f q = fs q := fun q hq =>
    C50_only_outputs S a ρ nonce fs f (some (.ok ())) h1 q (by have : outputs a = a.outs := by cases a <;> rfl
                                                               rwa [this])
  have hag : ∀ q ∈ a'.inputs, f q = fs q := fun q hq => hf q (by rw [ha, List.mem_singleton]; rintro rfl; exact hi hq)
  rcases main_congr S a' ρ' nonce' hag with ⟨e, -, h3⟩ | ⟨g1, g2, h3, h4, h5, -⟩
  · rw [h'] at h3; cases h3
  · have h2 := run_exec (cliMain S ρ' nonce' a') f
    rw [h3] at h2
    obtain ⟨c2, s2, e2⟩ := run_steps h2
    rw [h'] at h4
    cases h4
    refine ⟨_, g1, lift2 c1 s2 (lift1 _ s1), ?_, h5 out (by rw [ha']; simp)⟩
    intro b
    cases b
    · simp [e2 _ rfl, Cmd.outcome]
    · simp [e1 _ rfl, Cmd.outcome]

/-! ## C66 -/

/-- The files in the order in which a command reads them. -/
def readOrder : Args → List Path
  | .encap c s i _ _ => [c, s, i, c]
  | .decap c w ct _ => [c, w, ct, c]
  | .encrypt c s i m _ _ => [c, s, i, c, m]
  | .decrypt c w ct _ => [ct, c, w, c]

/-- Reads happen in this order at most (proof helper). -/
inductive ReadsIn : List Path → Cmd → Prop
  | done (l r) : ReadsIn l (.done r)
  | write (l p b k) : ReadsIn l (.write p b k)
  | read (l p k) (h : ∀ o, ReadsIn l (k o)) : ReadsIn (p :: l) (.read p k)

theorem ReadsIn.lift {l : List Path} {α : Type} {r : Res α} {k : α → Cmd} (h : ∀ a, ReadsIn l (k a)) : ReadsIn l (Cmd.lift r k) := by
  cases r with
  | ok a => exact h a
  | error e => exact .done _ _

theorem ReadsIn.readFile {l : List Path} {p : Path} {msg : String} {k : Bytes → Cmd} (h : ∀ b, ReadsIn l (k b)) :
    ReadsIn (p :: l) (Cmd.readFile p msg k) := by
  refine .read _ _ _ fun o => ?_
  cases o with
  | none => exact .done _ _
  | some b => exact h b

theorem ReadsIn.readText {l : List Path} {p : Path} {msg : String} {k : Bytes → Str → Cmd} (h : ∀ b s, ReadsIn l (k b s)) :
    ReadsIn (p :: l) (Cmd.readText p msg k) := .readFile fun _ => .lift fun _ => h _ _

theorem readsIn_main (ρ : Rand Fr) (nonce : Bytes) (a : Args) : ReadsIn (readOrder a) (cliMain S ρ nonce a) := by
  cases a with
  | encap c s i ct k =>
    rw [cliMain, encapCommand, cliEncapPart, readOrder]
    exact ReadsIn.readFile fun _ => ReadsIn.lift fun _ => ReadsIn.readText fun _ _ => ReadsIn.lift fun _ => ReadsIn.readText fun _ _ =>
      ReadsIn.lift fun _ => ReadsIn.readFile fun _ => ReadsIn.lift fun _ => ReadsIn.lift fun _ => ReadsIn.write _ _ _ _
  | decap c w ct k =>
    rw [cliMain, decapCommand, cliDecapPart, readOrder]
    exact ReadsIn.readFile fun _ => ReadsIn.lift fun _ => ReadsIn.readFile fun _ => ReadsIn.lift fun _ => ReadsIn.lift fun _ =>
      ReadsIn.readFile fun _ => ReadsIn.lift fun _ => ReadsIn.readFile fun _ => ReadsIn.lift fun _ => ReadsIn.lift fun _ =>
      ReadsIn.write _ _ _ _
  | encrypt c s i m o np =>
    rw [cliMain, encryptCommand, cliEncapPart, readOrder]
    exact ReadsIn.readFile fun _ => ReadsIn.lift fun _ => ReadsIn.readText fun _ _ => ReadsIn.lift fun _ => ReadsIn.readText fun _ _ =>
      ReadsIn.lift fun _ => ReadsIn.readFile fun _ => ReadsIn.lift fun _ => ReadsIn.lift fun _ => ReadsIn.readFile fun _ =>
      ReadsIn.lift fun _ => ReadsIn.write _ _ _ _
  | decrypt c w ct o =>
    rw [cliMain, decryptCommand, readOrder]
    unfold cliDecapPart
    exact ReadsIn.readFile fun _ => ReadsIn.lift fun _ => ReadsIn.readFile fun _ => ReadsIn.lift fun _ => ReadsIn.readFile fun _ =>
      ReadsIn.lift fun _ => ReadsIn.lift fun _ => ReadsIn.lift fun _ => ReadsIn.readFile fun _ => ReadsIn.lift fun _ =>
      ReadsIn.lift fun _ => ReadsIn.lift fun _ => ReadsIn.write _ _ _ _

theorem ReadsIn.sees {l : List Path} {c c' : Cmd} (h : ReadsIn l c) {seen : List (Path × Option Bytes)} (hs : Sees c seen c') :
    seen.map (·.1) <+: l := by
  induction hs generalizing l with
  | nil => exact List.nil_prefix
  | read _ ih =>
    cases h with
    | read _ _ _ h =>
      obtain ⟨t, ht⟩ := ih (h _)
      exact ⟨t, by simp [← ht]⟩

/-- **C66** — other processes may change the files while a command reads them. The command reads its files in a fixed order, each at most once,
except the circuit, which it reads twice. -/
theorem C66_read_order (a : Args) (ρ : Rand Fr) (nonce : Bytes) (seen : List (Path × Option Bytes)) (c : Cmd)
    (h : Sees (cliMain S ρ nonce a) seen c) : seen.map (·.1) <+: readOrder a := (readsIn_main S ρ nonce a).sees h

/-- **C66** (snapshot) — if whenever a path was read twice the same content was found, then the command does what it does undisturbed on a file
system that has, for every path read, the content that was found. -/
theorem C66_snapshot (a : Args) (ρ : Rand Fr) (nonce : Bytes) (seen : List (Path × Option Bytes)) (c : Cmd)
    (h : Sees (cliMain S ρ nonce a) seen c) (hs : ∀ p o o', (p, o) ∈ seen → (p, o') ∈ seen → o = o') (fs : FS) :
    ∃ fs₀ : FS, (∀ e ∈ seen, fs₀ e.1 = e.2) ∧ (∀ q, q ∉ seen.map (·.1) → fs₀ q = fs q) ∧
      (cliMain S ρ nonce a).exec fs₀ = c.exec fs₀ := by
  classical
  let fs₀ : FS := fun q => match seen.find? (fun e => e.1 = q) with
    | some e => e.2
    | none => fs q
  have h1 : ∀ e ∈ seen, fs₀ e.1 = e.2 := by
    rintro ⟨p, o⟩ he
    simp only [fs₀]
    cases hf : seen.find? (fun e => e.1 = p) with
    | none =>
      rw [List.find?_eq_none] at hf
      exact absurd (hf _ he) (by simp)
    | some e' =>
      have hm := List.mem_of_find?_eq_some hf
      have hp := List.find?_some hf
      simp only [decide_eq_true_eq] at hp
      obtain ⟨p', o'⟩ := e'
      simp only at hp
      subst hp
      exact hs p' o' o hm he
  refine ⟨fs₀, h1, fun q hq => ?_, sees_exec h fs₀ h1⟩
  simp only [fs₀]
  cases hf : seen.find? (fun e => e.1 = q) with
  | none => rfl
  | some e' =>
    have hm := List.mem_of_find?_eq_some hf
    have hp := List.find?_some hf
    simp only [decide_eq_true_eq] at hp
    exact absurd (List.mem_map.2 ⟨e', hm, hp⟩) hq

/-- **C66** (decap) — the first content of the circuit file only has to be readable and well-formed: the result is that of an undisturbed run with
the second content. -/
theorem C66_decap_second_circuit (c w ct k : Path) (d₁ : Bytes) (r₁ : R1csFile)
    (hd₁ : cliParseR1cs S.lim d₁ = .ok r₁) (d₂ : Bytes) (r₂ : R1csFile) (hd₂ : cliParseR1cs S.lim d₂ = .ok r₂)
    (ow oct : Option Bytes) (rest : Cmd) (fs : FS)
    (h : Sees (decapCommand S c w ct k) [(c, some d₁), (w, ow), (ct, oct), (c, some d₂)] rest)
    (hfc : fs c = some d₂) (hfw : fs w = ow) (hfct : fs ct = oct) : (decapCommand S c w ct k).exec fs = rest.exec fs := by
  refine Eq.trans ?_ (sees_exec (c := (decapCommand S c w ct k)) (seen := [(c, some d₂), (w, ow), (ct, oct), (c, some d₂)])
    (c' := rest) ?_ fs ?_)
  · rfl
  · unfold decapCommand cliDecapPart Cmd.readFile at h ⊢
    cases h with
    | read h =>
      refine .read ?_
      simp only [hd₁, Cmd.lift] at h
      simp only [hd₂, Cmd.lift]
      exact h
  · intro e he
    simp only [List.mem_cons, List.not_mem_nil, or_false] at he
    rcases he with rfl | rfl | rfl | rfl
    · exact hfc
    · exact hfw
    · exact hfct
    · exact hfc

/-- **C66** (encap mixes the two contents) — the number of public inputs, hence which inputs are used, comes from the first content of the
circuit file, and everything else from the second: the ciphertext is the encapsulation for the second circuit under an assignment made for
the first. (`fs` is arbitrary: nothing more is read.) -/
theorem C66_encap_mixes (c s i ctp kp : Path) (ρ : Rand Fr) (d₁ d₂ sb ib : Bytes) (rest : Cmd) (fs fs' : FS)
    (h : Sees (encapCommand S c s i ctp kp ρ) [(c, some d₁), (s, some sb), (i, some ib), (c, some d₂)] rest)
    (hok : rest.exec fs = (fs', .ok ())) :
    ∃ r₁ r₂ st it json w ct key, cliParseR1cs S.lim d₁ = .ok r₁ ∧ cliParseR1cs S.lim d₂ = .ok r₂ ∧ utf8Dec sb = some st ∧
      utf8Dec ib = some it ∧ S.serdeParse it.toList = some json ∧ cliAssign S.hash r₁.nPubIn st.toList json = .ok w ∧
      encap S.P S.dom (cliCircuit r₂ w) ρ = .ok (ct, key) ∧ fs' = (fs.set ctp (encCiphertext S.c1 S.c2 ct)).set kp key.bytes := by
  unfold encapCommand cliEncapPart Cmd.readText Cmd.readFile at h
  cases h with
  | read h =>
  simp only at h
  cases h1 : cliParseR1cs S.lim d₁ with
  | error e => rw [h1] at h; cases h
  | ok r₁ =>
  rw [h1] at h
  simp only [Cmd.lift] at h
  cases h with
  | read h =>
  simp only at h
  cases h2 : utf8Dec sb with
  | none => rw [h2] at h; cases h
  | some st =>
  rw [h2] at h
  simp only [Res.ofOption] at h
  cases h3 : parseSymFile st.toList with
  | error e => rw [h3] at h; cases h
  | ok wm =>
  rw [h3] at h
  cases h with
  | read h =>
  simp only at h
  cases h4 : utf8Dec ib with
  | none => rw [h4] at h; cases h
  | some it =>
  rw [h4] at h
  simp only at h
  cases h5 : S.serdeParse it.toList with
  | none => rw [h5] at h; cases h
  | some json =>
  rw [h5] at h
  simp only [Res.ok_bind] at h
  cases h6 : cliInputs json with
  | error e => rw [h6] at h; cases h
  | ok inputs =>
  rw [h6] at h
  cases h with
  | read h =>
  simp only at h
  cases h7 : cliParseR1cs S.lim d₂ with
  | error e =>
    rw [h7] at h
    cases h
    simp [Cmd.exec] at hok
  | ok r₂ =>
  rw [h7] at h
  simp only at h
  refine ⟨r₁, r₂, st, it, json, cliWires (inputSignals (S.hash.ord wm) (some r₁.nPubIn)) (S.hash.ord inputs), ?_⟩
  cases h8 : encap S.P S.dom (cliCircuit r₂ (cliWires (inputSignals (S.hash.ord wm) (some r₁.nPubIn)) (S.hash.ord inputs))) ρ with
  | error e =>
    rw [h8] at h
    cases h
    simp [Cmd.exec] at hok
  | ok res =>
  rw [h8] at h
  obtain ⟨ct, key⟩ := res
  cases h
  rw [exec_writeFile, exec_writeFile] at hok
  simp only [Cmd.exec, Prod.mk.injEq, and_true] at hok
  refine ⟨ct, key, rfl, rfl, rfl, rfl, h5, ?_, rfl, hok.symm⟩
  simp only [cliAssign, h3, h6, Res.ok_bind]

/-- **C66** (undisturbed) — every error-free run is such a reading: it finds exactly the contents of the files, ends its reading phase (what
remains reads nothing any more at its next step), and does the rest of the run. -/
theorem C66_undisturbed (a : Args) (ρ : Rand Fr) (nonce : Bytes) (fs : FS) :
    ∃ seen c, Sees (cliMain S ρ nonce a) seen c ∧ (∀ e ∈ seen, e.2 = fs e.1) ∧ (∀ p k, c ≠ .read p k) ∧
      (cliMain S ρ nonce a).exec fs = c.exec fs := by
  have key : ∀ c : Cmd, ∃ seen c', Sees c seen c' ∧ (∀ e ∈ seen, e.2 = fs e.1) ∧ (∀ p k, c' ≠ .read p k) ∧ c.exec fs = c'.exec fs := by
    intro c
    induction c with
    | done r => exact ⟨[], _, .nil _, by simp, by simp, rfl⟩
    | write p b k _ => exact ⟨[], _, .nil _, by simp, by simp, rfl⟩
    | read p k ih =>
      obtain ⟨seen, c', h1, h2, h3, h4⟩ := ih (fs p)
      refine ⟨(p, fs p) :: seen, c', .read h1, ?_, h3, by simpa only [Cmd.exec] using h4⟩
      intro e he
      rcases List.mem_cons.1 he with rfl | he
      · rfl
      · exact h2 e he
  exact key _

end Zkenc.Props
