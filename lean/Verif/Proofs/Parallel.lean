import Verif.Model.Parallel
import Verif.Proofs.Commands
/-!
# Lemmas on interleaved commands
-/

namespace Zkenc

/-- A command reads only files in `R` and writes only files in `W`. -/
inductive Uses (R W : Path → Prop) : Cmd → Prop
  | done (r : Res Unit) : Uses R W (.done r)
  | read (p : Path) (k : Option Bytes → Cmd) (hp : R p) (h : ∀ o, Uses R W (k o)) : Uses R W (.read p k)
  | write (p : Path) (b : Bytes) (k : Bool → Cmd) (hp : W p) (h : ∀ ok, Uses R W (k ok)) : Uses R W (.write p b k)

theorem Uses.lift {R W : Path → Prop} {α : Type} {r : Res α} {k : α → Cmd} (h : ∀ a, Uses R W (k a)) : Uses R W (Cmd.lift r k) := by
  cases r with
  | ok a => exact h a
  | error e => exact .done _

theorem Uses.readFile {R W : Path → Prop} {p : Path} {msg : String} {k : Bytes → Cmd} (hp : R p) (h : ∀ b, Uses R W (k b)) :
    Uses R W (Cmd.readFile p msg k) := by
  refine .read _ _ hp fun o => ?_
  cases o with
  | none => exact .done _
  | some b => exact h b

theorem Uses.readText {R W : Path → Prop} {p : Path} {msg : String} {k : Bytes → Str → Cmd} (hp : R p) (h : ∀ b s, Uses R W (k b s)) :
    Uses R W (Cmd.readText p msg k) := .readFile hp fun _ => .lift fun _ => h _ _

theorem Uses.writeFile {R W : Path → Prop} {p : Path} {b : Bytes} {msg : String} {k : Cmd} (hp : W p) (h : Uses R W k) :
    Uses R W (Cmd.writeFile p b msg k) := by
  refine .write _ _ _ hp fun ok => ?_
  cases ok with
  | true => simpa using h
  | false => simpa using Uses.done _

section
variable {G1 G2 GT : Type} [AddCommGroup G1] [Module Fr G1] [AddCommGroup G2] [Module Fr G2] [AddCommGroup GT] [Module Fr GT]
  (S : Sys G1 G2 GT)

theorem Uses.encapPart {R W : Path → Prop} {circuit sym input : Path} {ρ : Rand Fr} {k : Bytes → Key → Bytes → Cmd}
    (hc : R circuit) (hs : R sym) (hi : R input) (h : ∀ a b c, Uses R W (k a b c)) : Uses R W (cliEncapPart S circuit sym input ρ k) :=
  .readFile hc fun _ => .lift fun _ => .readText hs fun _ _ => .lift fun _ => .readText hi fun _ _ => .lift fun _ =>
    .readFile hc fun _ => .lift fun _ => .lift fun _ => h _ _ _

theorem Uses.decapPart {R W : Path → Prop} {circuit witness : Path} {getCt : (Bytes → Cmd) → Cmd} {k : Key → Cmd}
    (hc : R circuit) (hw : R witness) (hg : ∀ k, (∀ b, Uses R W (k b)) → Uses R W (getCt k)) (h : ∀ a, Uses R W (k a)) :
    Uses R W (cliDecapPart S circuit witness getCt k) :=
  .readFile hc fun _ => .lift fun _ => .readFile hw fun _ => .lift fun _ => .lift fun _ => hg _ fun _ => .lift fun _ =>
    .readFile hc fun _ => .lift fun _ => .lift fun _ => h _

/-- Every command reads only its input files and writes only its output files. -/
theorem uses_main (ρ : Rand Fr) (nonce : Bytes) (a : Args) : Uses (· ∈ a.inputs) (· ∈ a.outs) (cliMain S ρ nonce a) := by
  cases a with
  | encap c s i ct k =>
    have h : ∀ q, q = c ∨ q = s ∨ q = i → q ∈ (Args.encap c s i ct k).inputs := fun q hq => by simpa [Args.inputs] using hq
    have h' : ∀ q, q = ct ∨ q = k → q ∈ (Args.encap c s i ct k).outs := fun q hq => by simpa [Args.outs] using hq
    generalize (Args.encap c s i ct k).inputs = I at h ⊢
    generalize (Args.encap c s i ct k).outs = O at h' ⊢
    rw [cliMain, encapCommand]
    exact Uses.encapPart S (h _ (by simp)) (h _ (by simp)) (h _ (by simp)) fun _ _ _ =>
      Uses.writeFile (h' _ (by simp)) (Uses.writeFile (h' _ (by simp)) (Uses.done _))
  | decap c w ct k =>
    have h : ∀ q, q = c ∨ q = w ∨ q = ct → q ∈ (Args.decap c w ct k).inputs := fun q hq => by simpa [Args.inputs] using hq
    have h' : k ∈ (Args.decap c w ct k).outs := by simp [Args.outs]
    generalize (Args.decap c w ct k).inputs = I at h ⊢
    generalize (Args.decap c w ct k).outs = O at h' ⊢
    rw [cliMain, decapCommand]
    exact Uses.decapPart S (h _ (by simp)) (h _ (by simp)) (fun _ h1 => Uses.readFile (h _ (by simp)) h1) fun _ =>
      Uses.writeFile h' (Uses.done _)
  | encrypt c s i m o np =>
    have h : ∀ q, q = c ∨ q = s ∨ q = i ∨ q = m → q ∈ (Args.encrypt c s i m o np).inputs := fun q hq => by simpa [Args.inputs] using hq
    have h' : o ∈ (Args.encrypt c s i m o np).outs := by simp [Args.outs]
    generalize (Args.encrypt c s i m o np).inputs = I at h ⊢
    generalize (Args.encrypt c s i m o np).outs = O at h' ⊢
    rw [cliMain, encryptCommand]
    exact Uses.encapPart S (h _ (by simp)) (h _ (by simp)) (h _ (by simp)) fun _ _ _ =>
      Uses.readFile (h _ (by simp)) fun _ => Uses.lift fun _ => Uses.writeFile h' (Uses.done _)
  | decrypt c w ct o =>
    have h : ∀ q, q = c ∨ q = w ∨ q = ct → q ∈ (Args.decrypt c w ct o).inputs := fun q hq => by simpa [Args.inputs] using hq
    have h' : o ∈ (Args.decrypt c w ct o).outs := by simp [Args.outs]
    generalize (Args.decrypt c w ct o).inputs = I at h ⊢
    generalize (Args.decrypt c w ct o).outs = O at h' ⊢
    rw [cliMain, decryptCommand]
    exact Uses.readFile (h _ (by simp)) fun _ => Uses.lift fun _ =>
      Uses.decapPart S (h _ (by simp)) (h _ (by simp)) (fun _ h => h _) fun _ => Uses.lift fun _ =>
      Uses.writeFile h' (Uses.done _)

end

theorem Uses.step {R W : Path → Prop} {c c' : Cmd} {fs fs' : FS} (h : Uses R W c) (hs : Step c fs c' fs') :
    Uses R W c' ∧ ∀ q, ¬ W q → fs' q = fs q := by
  cases hs with
  | read p k => cases h with | read _ _ hp h => exact ⟨h _, fun _ _ => rfl⟩
  | readError p k => cases h with | read _ _ hp h => exact ⟨h _, fun _ _ => rfl⟩
  | writing p b k _ n =>
    have h' := h
    cases h with | write _ _ _ hp h => exact ⟨h', fun q hq => FS.set_other _ (by rintro rfl; exact hq hp) _⟩
  | write p b k => cases h with | write _ _ _ hp h => exact ⟨h _, fun q hq => FS.set_other _ (by rintro rfl; exact hq hp) _⟩
  | writeError p b k => cases h with | write _ _ _ hp h => exact ⟨h _, fun _ _ => rfl⟩
  | writePartial p b k _ n => cases h with | write _ _ _ hp h => exact ⟨h _, fun q hq => FS.set_other _ (by rintro rfl; exact hq hp) _⟩

theorem FS.set_congr {fs gs : FS} (p : Path) (b : Bytes) {q : Path} (h : fs q = gs q) : (fs.set p b) q = (gs.set p b) q := by
  unfold FS.set; split
  · rfl
  · exact h

/-- A step depends only on the files that the command uses. -/
theorem Uses.step_congr {R W : Path → Prop} {c c' : Cmd} {fs fs' gs : FS} (h : Uses R W c) (hs : Step c fs c' fs')
    (hg : ∀ q, R q ∨ W q → fs q = gs q) : ∃ gs', Step c gs c' gs' ∧ ∀ q, R q ∨ W q → fs' q = gs' q := by
  cases hs with
  | read p k =>
    cases h with
    | read _ _ hp h => refine ⟨gs, ?_, hg⟩; rw [hg p (Or.inl hp)]; exact .read p k gs
  | readError p k => exact ⟨gs, .readError p k gs, hg⟩
  | writing p b k _ n => exact ⟨_, .writing p b k gs n, fun q hq => FS.set_congr _ _ (hg q hq)⟩
  | write p b k => exact ⟨_, .write p b k gs, fun q hq => FS.set_congr _ _ (hg q hq)⟩
  | writeError p b k => exact ⟨gs, .writeError p b k gs, hg⟩
  | writePartial p b k _ n => exact ⟨_, .writePartial p b k gs n, fun q hq => FS.set_congr _ _ (hg q hq)⟩

theorem Uses.steps {R W : Path → Prop} {c c' : Cmd} {fs fs' : FS} (h : Uses R W c) (hs : Steps c fs c' fs') : Uses R W c' := by
  induction hs with
  | refl => exact h
  | tail _ h2 ih => exact (ih.step h2).1

/-- Independent processes do not notice each other. -/
theorem par_independent {ι : Type} [DecidableEq ι] {ps ps' : ι → Cmd} {fs fs' : FS} (R W : ι → Path → Prop)
    (hu : ∀ i, Uses (R i) (W i) (ps i)) (hd : ∀ i j, i ≠ j → ∀ p, W i p → ¬ R j p ∧ ¬ W j p) (h : Par ps fs ps' fs') :
    (∀ i, ∃ gs, Steps (ps i) fs (ps' i) gs ∧ ∀ q, R i q ∨ W i q → fs' q = gs q) ∧ ∀ q, (∀ i, ¬ W i q) → fs' q = fs q := by
  induction h with
  | refl => exact ⟨fun i => ⟨_, .refl _ _, fun _ _ => rfl⟩, fun _ _ => rfl⟩
  | @tail ps' fs' fs'' i c hp hs ih =>
    obtain ⟨ih1, ih2⟩ := ih
    obtain ⟨gs, hg1, hg2⟩ := ih1 i
    have hui := (hu i).steps hg1
    obtain ⟨gs', hs1, hs2⟩ := hui.step_congr hs hg2
    have hother := (hui.step hs).2
    refine ⟨fun j => ?_, fun q hq => ?_⟩
    · by_cases hj : j = i
      · subst hj
        refine ⟨gs', ?_, hs2⟩
        simp only [if_true]
        exact .tail hg1 hs1
      · obtain ⟨gj, hj1, hj2⟩ := ih1 j
        refine ⟨gj, ?_, fun q hq => ?_⟩
        · simp only [if_neg hj]; exact hj1
        · rw [hother q, hj2 q hq]
          intro hW
          have := hd i j (fun h => hj h.symm) q hW
          rcases hq with hq | hq
          · exact this.1 hq
          · exact this.2 hq
    · rw [hother q (hq i), ih2 q hq]

/-- What a process did on its own so far is one of the runs of the command, ending there. -/
theorem steps_run {c c' : Cmd} {fs fs' : FS} (h : Steps c fs c' fs') : Run c fs fs' c'.outcome := by
  -- extend the run of the rest of the command to the front
  have ext : ∀ {c c' fs fs' fs'' o}, Step c fs c' fs' → Run c' fs' fs'' o → Run c fs fs'' o := by
    intro c c' fs fs' fs'' o hs hr
    cases hs with
    | read p k => exact .read hr
    | readError p k => exact .readError hr
    | write p b k => exact .write hr
    | writeError p b k => exact .writeError hr
    | writePartial p b k _ n => exact .writePartial n hr
    | writing p b k _ n =>
      cases hr with
      | crash => exact .writeCrash n
      | write h => rw [FS.set_set] at h; exact .write h
      | writeError h => exact .writePartial n h
      | writePartial m h => rw [FS.set_set] at h; exact .writePartial m h
      | writeCrash m => rw [FS.set_set]; exact .writeCrash m
  have key : ∀ {c fs c' fs'}, Steps c fs c' fs' → ∀ {fs'' o}, Run c' fs' fs'' o → Run c fs fs'' o := by
    intro c fs c' fs' h
    induction h with
    | refl => exact fun h => h
    | tail _ h2 ih => exact fun h => ih (ext h2 h)
  refine key h ?_
  cases c' with
  | done r => exact .done r _
  | read p k => exact .crash _ _
  | write p b k => exact .crash _ _

/-- Conversely every run is made of steps, up to a write that was cut. -/
theorem run_steps {c : Cmd} {fs fs' : FS} {o : Option (Res Unit)} (h : Run c fs fs' o) :
    ∃ c', Steps c fs c' fs' ∧ (∀ r, o = some r → c' = .done r) := by
  have front : ∀ {c c1 c' fs fs1 fs'}, Step c fs c1 fs1 → Steps c1 fs1 c' fs' → Steps c fs c' fs' := by
    intro c c1 c' fs fs1 fs' hs h
    induction h with
    | refl => exact .tail (.refl _ _) hs
    | tail _ h2 ih => exact .tail ih h2
  induction h with
  | done r fs => exact ⟨_, .refl _ _, fun _ h => by cases h; rfl⟩
  | crash c fs => exact ⟨_, .refl _ _, fun _ h => by cases h⟩
  | read _ ih => obtain ⟨c', h1, h2⟩ := ih; exact ⟨c', front (.read _ _ _) h1, h2⟩
  | readError _ ih => obtain ⟨c', h1, h2⟩ := ih; exact ⟨c', front (.readError _ _ _) h1, h2⟩
  | write _ ih => obtain ⟨c', h1, h2⟩ := ih; exact ⟨c', front (.write _ _ _ _) h1, h2⟩
  | writeError _ ih => obtain ⟨c', h1, h2⟩ := ih; exact ⟨c', front (.writeError _ _ _ _) h1, h2⟩
  | writePartial n _ ih => obtain ⟨c', h1, h2⟩ := ih; exact ⟨c', front (.writePartial _ _ _ _ n) h1, h2⟩
  | writeCrash n => exact ⟨_, .tail (.refl _ _) (.writing _ _ _ _ n), fun _ h => by cases h⟩

/-- The error-free run depends only on the files that the command uses. -/
theorem Uses.exec_congr {R W : Path → Prop} {c : Cmd} (h : Uses R W c) {fs gs : FS} (hR : ∀ q, R q → fs q = gs q) : (c.exec fs).2 = (c.exec gs).2 ∧
      ∀ q, (c.exec fs).1 q = (c.exec gs).1 q ∨ ((c.exec fs).1 q = fs q ∧ (c.exec gs).1 q = gs q) := by
  induction h generalizing fs gs with
  | done r => exact ⟨rfl, fun q => Or.inr ⟨rfl, rfl⟩⟩
  | read p k hp h ih =>
    simp only [Cmd.exec]
    rw [hR p hp]
    exact ih _ hR
  | write p b k hp h ih =>
    simp only [Cmd.exec]
    have hR' : ∀ q, R q → (fs.set p b) q = (gs.set p b) q := fun q hq => FS.set_congr _ _ (hR q hq)
    obtain ⟨h1, h2⟩ := ih true hR'
    refine ⟨h1, fun q => ?_⟩
    rcases h2 q with h2 | ⟨h2, h3⟩
    · exact Or.inl h2
    · by_cases hq : q = p
      · subst hq
        rw [h2, h3, FS.set_same, FS.set_same]
        exact Or.inl rfl
      · rw [FS.set_other _ hq] at h2 h3
        exact Or.inr ⟨h2, h3⟩

/-- The error-free run of a command whose reads found consistent answers. -/
theorem sees_exec {c c' : Cmd} {seen : List (Path × Option Bytes)} (h : Sees c seen c') (fs : FS)
    (hfs : ∀ e ∈ seen, fs e.1 = e.2) : c.exec fs = c'.exec fs := by
  induction h with
  | nil c => rfl
  | @read p k o seen c' _ ih =>
    simp only [Cmd.exec]
    rw [hfs (p, o) (by simp)]
    exact ih fun e he => hfs e (by simp [he])

end Zkenc
