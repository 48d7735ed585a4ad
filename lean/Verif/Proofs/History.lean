import Verif.Spec.History
import Verif.Proofs.Parallel
/-!
# Lemmas on histories
-/

namespace Zkenc

open HistSpec

variable {G1 G2 GT : Type} [AddCommGroup G1] [Module Fr G1] [AddCommGroup G2] [Module Fr G2] [AddCommGroup GT] [Module Fr GT]
  {S : Sys G1 G2 GT}

theorem World.put_same (w : World) (i : Nat) (c : Cmd) (fs : FS) : (w.put i c fs).procs i = some c := by simp [World.put]

theorem World.put_other (w : World) {i j : Nat} (h : j ≠ i) (c : Cmd) (fs : FS) : (w.put i c fs).procs j = w.procs j := by simp [World.put, h]

theorem Next.kept {w w' : World} {e : Event} (h : Next S w e w') {p : Path} (hp : ¬ Touches p e) : w'.fs p = w.fs p := by
  cases h with
  | start => rfl
  | read => rfl
  | readFailed => rfl
  | writing i q b k n => exact FS.set_other _ (fun h => hp h.symm) _
  | write i q b k => exact FS.set_other _ (fun h => hp h.symm) _
  | writeFailed => rfl
  | writeCut i q b k n => exact FS.set_other _ (fun h => hp h.symm) _
  | other q b =>
    have : p ≠ q := fun h => hp h.symm
    simp [this]

theorem Hist.kept {w w' : World} {es : List Event} (h : Hist S w es w') {p : Path} (hp : Kept p es) : w'.fs p = w.fs p := by
  induction h with
  | nil => rfl
  | @snoc es w' e w'' h1 h2 ih =>
    rw [h2.kept (hp e (by simp)), ih fun e he => hp e (by simp [he])]

/-- An event of another process, or of another program, leaves the process where it is. -/
theorem Next.not_by {w w' : World} {e : Event} (h : Next S w e w') {i : Nat} {c : Cmd} (hi : w.procs i = some c) (hb : ¬ By i e) :
    w'.procs i = some c := by
  cases h with
  | start j ρ nonce argv h =>
    rw [World.put_other _ (by rintro rfl; rw [hi] at h; cases h), hi]
  | read j p k h => rw [World.put_other _ (fun h => hb h.symm), hi]
  | readFailed j p k h => rw [World.put_other _ (fun h => hb h.symm), hi]
  | writing j p b k n h => rw [World.put_other _ (fun h => hb h.symm), hi]
  | write j p b k h => rw [World.put_other _ (fun h => hb h.symm), hi]
  | writeFailed j p b k h => rw [World.put_other _ (fun h => hb h.symm), hi]
  | writeCut j p b k n h => rw [World.put_other _ (fun h => hb h.symm), hi]
  | other => exact hi

/-- An event of the process is one of its steps; without failure the error-free run stays the same. -/
theorem Next.by {w w' : World} {e : Event} (h : Next S w e w') {i : Nat} {c : Cmd} (hi : w.procs i = some c) (hb : By i e) :
    ∃ c', w'.procs i = some c' ∧ Step c w.fs c' w'.fs := by
  cases h with
  | start => cases hb
  | other => cases hb
  | read j p k h =>
    have hj : j = i := hb
    subst hj; rw [hi] at h; cases h
    exact ⟨_, World.put_same .., .read p k w.fs⟩
  | readFailed j p k h =>
    have hj : j = i := hb
    subst hj; rw [hi] at h; cases h
    exact ⟨_, World.put_same .., .readError p k w.fs⟩
  | writing j p b k n h =>
    have hj : j = i := hb
    subst hj; rw [hi] at h; cases h
    exact ⟨_, World.put_same .., .writing p b k w.fs n⟩
  | write j p b k h =>
    have hj : j = i := hb
    subst hj; rw [hi] at h; cases h
    exact ⟨_, World.put_same .., .write p b k w.fs⟩
  | writeFailed j p b k h =>
    have hj : j = i := hb
    subst hj; rw [hi] at h; cases h
    exact ⟨_, World.put_same .., .writeError p b k w.fs⟩
  | writeCut j p b k n h =>
    have hj : j = i := hb
    subst hj; rw [hi] at h; cases h
    exact ⟨_, World.put_same .., .writePartial p b k w.fs n⟩

/-- Steps that did not fail. -/
inductive Step.Good : Cmd → FS → Cmd → FS → Prop
  | read (p k fs) : Step.Good (.read p k) fs (k (fs p)) fs
  | writing (p b k fs) (n : Nat) : Step.Good (.write p b k) fs (.write p b k) (fs.set p (b.take n))
  | write (p b k fs) : Step.Good (.write p b k) fs (k true) (fs.set p b)

theorem Step.Good.exec {c c' : Cmd} {fs fs' : FS} (h : Step.Good c fs c' fs') : c.exec fs = c'.exec fs' := by
  cases h with
  | read => rfl
  | writing p b k _ n => simp only [Cmd.exec, FS.set_set]
  | write => rfl

theorem Step.Good.congr {R W : Path → Prop} {c c' : Cmd} {fs fs' gs : FS} (h : Uses R W c) (hs : Step.Good c fs c' fs')
    (hg : ∀ q, R q ∨ W q → fs q = gs q) : ∃ gs', Step.Good c gs c' gs' ∧ Step c gs c' gs' ∧ ∀ q, R q ∨ W q → fs' q = gs' q := by
  cases hs with
  | read p k =>
    cases h with
    | read _ _ hp h => refine ⟨gs, ?_, ?_, hg⟩ <;> rw [hg p (Or.inl hp)] <;> constructor
  | writing p b k _ n => exact ⟨_, .writing p b k gs n, .writing p b k gs n, fun q hq => FS.set_congr _ _ (hg q hq)⟩
  | write p b k => exact ⟨_, .write p b k gs, .write p b k gs, fun q hq => FS.set_congr _ _ (hg q hq)⟩

theorem Next.good {w w' : World} {e : Event} (h : Next S w e w') {i : Nat} {c : Cmd} (hi : w.procs i = some c) (hb : By i e)
    (hf : ¬ FailedFor i e) : ∃ c', w'.procs i = some c' ∧ Step.Good c w.fs c' w'.fs := by
  cases h with
  | start => cases hb
  | other => cases hb
  | read j p k h =>
    have hj : j = i := hb
    subst hj; rw [hi] at h; cases h
    exact ⟨_, World.put_same .., .read p k w.fs⟩
  | readFailed j p k h => exact absurd ⟨hb, rfl⟩ hf
  | writing j p b k n h =>
    have hj : j = i := hb
    subst hj; rw [hi] at h; cases h
    exact ⟨_, World.put_same .., .writing p b k w.fs n⟩
  | write j p b k h =>
    have hj : j = i := hb
    subst hj; rw [hi] at h; cases h
    exact ⟨_, World.put_same .., .write p b k w.fs⟩
  | writeFailed j p b k h => exact absurd ⟨hb, rfl⟩ hf
  | writeCut j p b k n h => exact absurd ⟨hb, rfl⟩ hf

/-- A process to which its files are left runs as if it were alone. -/
theorem Hist.alone {w w' : World} {es : List Event} (h : Hist S w es w') {i : Nat} {c : Cmd} (hi : w.procs i = some c) {R W : Path → Prop}
    (hu : Uses R W c) (hq : ∀ e ∈ es, ¬ By i e → ∀ p, R p ∨ W p → ¬ Touches p e) :
    ∃ c' gs, w'.procs i = some c' ∧ Steps c w.fs c' gs ∧ (∀ q, R q ∨ W q → w'.fs q = gs q) ∧
      ((∀ e ∈ es, ¬ FailedFor i e) → c.exec w.fs = c'.exec gs) := by
  induction h with
  | nil => exact ⟨c, w.fs, hi, .refl _ _, fun _ _ => rfl, fun _ => rfl⟩
  | @snoc es w' e w'' h1 h2 ih =>
    obtain ⟨c', gs, g1, g2, g3, g4⟩ := ih fun e he => hq e (by simp [he])
    by_cases hb : By i e
    · by_cases hf : FailedFor i e
      · obtain ⟨c'', k1, k2⟩ := h2.by g1 hb
        obtain ⟨gs', k3, k4⟩ := (hu.steps g2).step_congr k2 g3
        exact ⟨c'', gs', k1, .tail g2 k3, k4, fun hn => absurd hf (hn e (by simp))⟩
      · obtain ⟨c'', k1, k2⟩ := h2.good g1 hb hf
        obtain ⟨gs', k3, k4, k5⟩ := Step.Good.congr (hu.steps g2) k2 g3
        exact ⟨c'', gs', k1, .tail g2 k4, k5, fun hn => by rw [g4 fun e he => hn e (by simp [he]), k3.exec]⟩
    · refine ⟨c', gs, h2.not_by g1 hb, g2, fun q hq' => ?_, fun hn => g4 fun e he => hn e (by simp [he])⟩
      rw [h2.kept (hq e (by simp) hb q hq'), g3 q hq']

/-- A finished process stays finished. -/
theorem Hist.finished {w w' : World} {es : List Event} (h : Hist S w es w') {i : Nat} {r : Res Unit} (hi : w.outcome i = some r) :
    w'.outcome i = some r := by
  have hd : ∀ {w : World}, w.outcome i = some r ↔ w.procs i = some (.done r) := by
    intro w
    unfold World.outcome
    cases hc : w.procs i with
    | none => simp
    | some c => cases c <;> simp [Cmd.outcome]
  rw [hd] at hi ⊢
  obtain ⟨c', gs, h1, h2, -⟩ := h.alone (R := fun _ => False) (W := fun _ => False) hi (.done r) (fun _ _ _ _ h => by rcases h with h | h <;> cases h)
  have : ∀ {c c' fs fs'}, Steps c fs c' fs' → c = .done r → c' = .done r := by
    intro c c' fs fs' h hc
    induction h with
    | refl => exact hc
    | tail _ h2 ih => subst ih; cases h2
  rw [h1, this h2 rfl]

theorem Hist.append {w w' w'' : World} {es es' : List Event} (h : Hist S w es w') (h' : Hist S w' es' w'') : Hist S w (es ++ es') w'' := by
  induction h' with
  | nil => simpa using h
  | snoc _ h2 ih => rw [← List.append_assoc]; exact .snoc ih h2

theorem Hist.single {w w' : World} {e : Event} (h : Next S w e w') : Hist S w [e] w' := .snoc (.nil w) h

theorem World.put_put (w : World) (i : Nat) (c c' : Cmd) (fs fs' : FS) : (w.put i c fs).put i c' fs' = w.put i c' fs' := by
  unfold World.put
  congr 1
  funext j
  simp only
  split <;> rfl

/-- A process can always be run to its end. -/
theorem Hist.finish (w : World) (i : Nat) (c : Cmd) (hi : w.procs i = some c) :
    ∃ es, Hist S w es (w.put i (.done (c.exec w.fs).2) (c.exec w.fs).1) ∧ ∀ e ∈ es, By i e ∧ ¬ FailedFor i e := by
  induction c generalizing w with
  | done r =>
    refine ⟨[], ?_, by simp⟩
    have : w.put i (.done r) w.fs = w := by
      unfold World.put
      congr 1
      funext j
      split
      · next h => rw [h, hi]
      · rfl
    simp only [Cmd.exec, this]
    exact .nil w
  | read p k ih =>
    obtain ⟨es, h1, h2⟩ := ih (w.fs p) (w.put i (k (w.fs p)) w.fs) (World.put_same ..)
    rw [World.put_put] at h1
    refine ⟨[.read i p false] ++ es, (Hist.single (.read w i p k hi)).append h1, ?_⟩
    intro e he
    rcases List.mem_append.1 he with he | he
    · rw [List.mem_singleton] at he; subst he; exact ⟨rfl, fun h => by cases h.2⟩
    · exact h2 e he
  | write p b k ih =>
    obtain ⟨es, h1, h2⟩ := ih true (w.put i (k true) (w.fs.set p b)) (World.put_same ..)
    rw [World.put_put] at h1
    refine ⟨[.write i p false] ++ es, (Hist.single (.write w i p b k hi)).append h1, ?_⟩
    intro e he
    rcases List.mem_append.1 he with he | he
    · rw [List.mem_singleton] at he; subst he; exact ⟨rfl, fun h => by cases h.2⟩
    · exact h2 e he

end Zkenc
