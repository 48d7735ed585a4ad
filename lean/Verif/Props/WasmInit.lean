import Verif.Model.WasmInit
/-!
# C51: initialisation of the wasm module
-/

namespace Zkenc.Props

open Zkenc

/-- The invariant. -/
structure InitInv (s : InitState) : Prop where
  none_iff : s.promise = none ↔ s.invocations = 0
  le_one : s.invocations ≤ 1
  init_iff : s.initialized = true ↔ s.promise = some .resolved
  idle : s.promise = none → ∀ c, s.pc c = .idle
  good : ∀ c, s.pc c = .returned ∨ s.pc c = .running → s.promise = some .resolved
  bad : ∀ c, s.pc c = .threw ∨ s.pc c = .failed → s.promise = some .rejected

theorem InitInv.start : InitInv InitState.start := by
  constructor <;> simp [InitState.start]

theorem InitInv.step {s t : InitState} (hs : InitInv s) (h : InitStep s t) : InitInv t := by
  obtain ⟨h1, h2, h3, h4, h5, h6⟩ := hs
  cases h with
  | @call c hc =>
    unfold InitState.enter
    by_cases hi : s.initialized = true
    · have hr := h3.1 hi
      simp only [hi, Bool.not_true, Bool.false_eq_true, if_false]
      refine ⟨h1, h2, h3, fun hn => by simp [InitState.move, hr] at hn, fun d _ => hr, fun d hd => ?_⟩
      simp only [InitState.move] at hd
      by_cases hdc : d = c
      · simp [hdc] at hd
      · simp only [hdc, if_false] at hd; exact h6 d hd
    · simp only [hi, Bool.not_false, if_true]
      cases hp : s.promise with
      | none =>
        have h0 := h1.1 hp
        have hidle := h4 hp
        refine ⟨by simp [InitState.move], by simp [InitState.move, h0], by simp [InitState.move, hi], by simp [InitState.move],
          fun d hd => ?_, fun d hd => ?_⟩ <;>
        · simp only [InitState.move, hidle] at hd
          by_cases hdc : d = c <;> simp [hdc] at hd
      | some p =>
        refine ⟨h1, h2, h3, by simp [InitState.move, hp], fun d hd => ?_, fun d hd => ?_⟩
        · simp only [InitState.move] at hd ⊢
          by_cases hdc : d = c
          · simp [hdc] at hd
          · simp only [hdc, if_false] at hd; exact h5 d hd
        · simp only [InitState.move] at hd ⊢
          by_cases hdc : d = c
          · simp [hdc] at hd
          · simp only [hdc, if_false] at hd; exact h6 d hd
  | settle ok hp =>
    have hgood : ∀ c, ¬(s.pc c = .returned ∨ s.pc c = .running) := fun c hc => by simpa [hp] using h5 c hc
    have hbad : ∀ c, ¬(s.pc c = .threw ∨ s.pc c = .failed) := fun c hc => by simpa [hp] using h6 c hc
    have hinv : s.invocations ≠ 0 := fun h => by simpa [hp] using h1.2 h
    cases ok with
    | true => exact ⟨by simp [InitState.settle, hinv], h2, by simp [InitState.settle], by simp [InitState.settle],
        fun c _ => by simp [InitState.settle], fun c hc => absurd hc (hbad c)⟩
    | false =>
      have hi : ¬s.initialized = true := fun h => by simpa [hp] using h3.1 h
      exact ⟨by simp [InitState.settle, hinv], h2, by simp [InitState.settle, hi], by simp [InitState.settle],
        fun c hc => absurd hc (hgood c), fun c _ => by simp [InitState.settle]⟩
  | @resume c hc hp =>
    refine ⟨h1, h2, h3, by simp [InitState.move, hp], fun d _ => hp, fun d hd => ?_⟩
    simp only [InitState.move] at hd
    by_cases hdc : d = c
    · simp [hdc] at hd
    · simp only [hdc, if_false] at hd; exact h6 d hd
  | @reject c hc hp =>
    refine ⟨h1, h2, h3, by simp [InitState.move, hp], fun d hd => ?_, fun d _ => hp⟩
    simp only [InitState.move] at hd
    by_cases hdc : d = c
    · simp [hdc] at hd
    · simp only [hdc, if_false] at hd; exact h5 d hd
  | @go c hc =>
    have hp := h5 c (Or.inl hc)
    refine ⟨h1, h2, h3, by simp [InitState.move, hp], fun d _ => hp, fun d hd => ?_⟩
    simp only [InitState.move] at hd
    by_cases hdc : d = c
    · simp [hdc] at hd
    · simp only [hdc, if_false] at hd; exact h6 d hd
  | @stop c hc =>
    have hp := h6 c (Or.inl hc)
    refine ⟨h1, h2, h3, by simp [InitState.move, hp], fun d hd => ?_, fun d _ => hp⟩
    simp only [InitState.move] at hd
    by_cases hdc : d = c
    · simp [hdc] at hd
    · simp only [hdc, if_false] at hd; exact h5 d hd

theorem initInv {s : InitState} (h : InitReachable s) : InitInv s := by
  induction h with
  | refl => exact InitInv.start
  | tail _ hs ih => exact ih.step hs

/-- **C51** — under every interleaving of any number of API calls the initializer is called at most once; it is called exactly once as
soon as some API call has started. -/
theorem C51_at_most_once {s : InitState} (h : InitReachable s) :
    s.invocations ≤ 1 ∧ ((∃ c, s.pc c ≠ .idle) → s.invocations = 1) := by
  have hi := initInv h
  refine ⟨hi.le_one, fun ⟨c, hc⟩ => ?_⟩
  have := hi.le_one
  have : s.invocations ≠ 0 := fun h0 => hc (hi.idle (hi.none_iff.2 h0) c)
  omega

/-- **C51** — a call that runs the code behind `await ensureWasmInit()` does so only after the initializer has finished successfully. -/
theorem C51_runs_only_initialized {s : InitState} (h : InitReachable s) {c : Nat} (hc : s.pc c = .running) :
    s.initialized = true ∧ s.promise = some .resolved := by
  have hi := initInv h
  have := hi.good c (Or.inr hc)
  exact ⟨hi.init_iff.2 this, this⟩

theorem rejected_stays {s t : InitState} (hs : InitInv s) (h : s.promise = some .rejected) (hst : InitSteps s t) :
    InitInv t ∧ t.promise = some .rejected ∧ t.invocations = s.invocations := by
  induction hst with
  | refl => exact ⟨hs, h, rfl⟩
  | @tail t u _ htu ih =>
    obtain ⟨ih1, ih2, ih3⟩ := ih
    refine ⟨ih1.step htu, ?_⟩
    cases htu with
    | @call c hc =>
      unfold InitState.enter
      have : ¬t.initialized = true := fun hi => by simpa [ih2] using ih1.init_iff.1 hi
      simp [this, ih2, ih3, InitState.move]
    | settle ok hp => simp [ih2] at hp
    | resume hc hp => simp [ih2] at hp
    | reject hc hp => exact ⟨ih2, ih3⟩
    | go hc => exact ⟨ih2, ih3⟩
    | stop hc => exact ⟨ih2, ih3⟩

/-- **C51** (failure is final) — once the initializer has failed, it is never tried again and no call, old or new, ever runs. -/
theorem C51_failure_sticky {s t : InitState} (h : InitReachable s) (hf : s.promise = some .rejected) (hst : InitSteps s t) :
    t.invocations = 1 ∧ t.initialized = false ∧ ∀ c, t.pc c ≠ .running := by
  obtain ⟨h1, h2, h3⟩ := rejected_stays (initInv h) hf hst
  have hle := (initInv h).le_one
  have hne : s.invocations ≠ 0 := fun h0 => by simpa [hf] using (initInv h).none_iff.2 h0
  refine ⟨by omega, ?_, fun c hc => by simpa [h2] using h1.good c (Or.inr hc)⟩
  cases hi : t.initialized with
  | false => rfl
  | true => simpa [h2] using h1.init_iff.1 hi

/-- **C51** (success is final) — once initialised, no call ever fails in initialisation, and the initializer is not called again. -/
theorem C51_success_sticky {s t : InitState} (h : InitReachable s) (hi : s.initialized = true) (hst : InitSteps s t) :
    t.initialized = true ∧ t.invocations = 1 ∧ ∀ c, t.pc c ≠ .failed := by
  have key : InitInv t ∧ t.promise = some .resolved := by
    induction hst with
    | refl => exact ⟨initInv h, (initInv h).init_iff.1 hi⟩
    | @tail t u _ htu ih =>
      obtain ⟨ih1, ih2⟩ := ih
      refine ⟨ih1.step htu, ?_⟩
      cases htu with
      | @call c hc =>
        unfold InitState.enter
        simp [ih1.init_iff.2 ih2, ih2, InitState.move]
      | settle ok hp => simp [ih2] at hp
      | resume hc hp => exact ih2
      | reject hc hp => simp [ih2] at hp
      | go hc => exact ih2
      | stop hc => exact ih2
  obtain ⟨h1, h2⟩ := key
  have hne : t.invocations ≠ 0 := fun h0 => by simpa [h2] using h1.none_iff.2 h0
  have := h1.le_one
  exact ⟨h1.init_iff.2 h2, by omega, fun c hc => by simpa [h2] using h1.bad c (Or.inr hc)⟩

/-- **C51** (no lost call) — when nothing is left to do except starting new calls, every call that was started has either passed
initialisation or failed with it: none waits forever. -/
theorem C51_no_lost_call {s : InitState} (h : InitReachable s)
    (hq : ∀ t, InitStep s t → ∃ c, s.pc c = .idle ∧ t = s.enter c) (c : Nat) :
    s.pc c = .idle ∨ s.pc c = .running ∨ s.pc c = .failed := by
  have hinv := initInv h
  -- a step that is not a call step changes `c` from a non-idle position, which `enter d` cannot do for idle `d`
  have noMove : ∀ p, s.pc c ≠ .idle → s.pc c ≠ p → ¬InitStep s (s.move c p) := by
    intro p hni hne hst
    obtain ⟨d, hd, he⟩ := hq _ hst
    have hdc : d ≠ c := fun hdc => hni (hdc ▸ hd)
    have := congrArg (fun u => InitState.pc u c) he
    simp only [InitState.move, InitState.enter, if_true] at this
    split at this
    · cases hp : s.promise <;> simp [hp, Ne.symm hdc] at this <;> exact hne this.symm
    · simp [Ne.symm hdc] at this; exact hne this.symm
  cases hc : s.pc c with
  | idle => simp
  | running => simp
  | failed => simp
  | returned => exact absurd (InitStep.go hc) (noMove _ (by simp [hc]) (by simp [hc]))
  | threw => exact absurd (InitStep.stop hc) (noMove _ (by simp [hc]) (by simp [hc]))
  | waiting =>
    exfalso
    cases hp : s.promise with
    | none => simpa [hc] using hinv.idle hp c
    | some p =>
      cases p with
      | resolved => exact noMove _ (by simp [hc]) (by simp [hc]) (InitStep.resume hc hp)
      | rejected => exact noMove _ (by simp [hc]) (by simp [hc]) (InitStep.reject hc hp)
      | pending =>
        obtain ⟨d, hd, he⟩ := hq _ (InitStep.settle false hp)
        have := congrArg InitState.promise he
        simp only [InitState.settle, InitState.enter, Bool.false_eq_true, if_false] at this
        split at this <;> simp [hp, InitState.move] at this

/-- Non-vacuity: two calls start before the initializer finishes; it is called once and both run. -/
example : ∃ s, InitReachable s ∧ s.pc 0 = .running ∧ s.pc 1 = .running ∧ s.invocations = 1 := by
  refine ⟨_, .tail (.tail (.tail (.tail (.tail (.tail (.tail .refl (.call (c := 0) rfl)) (.call (c := 1) rfl)) (.settle true rfl))
    (.resume (c := 1) rfl rfl)) (.resume (c := 0) rfl rfl)) (.go (c := 0) rfl)) (.go (c := 1) rfl), rfl, rfl, rfl⟩

/-- Non-vacuity: the initializer fails; the call waiting for it fails, a later call fails. -/
example : ∃ s t, InitReachable s ∧ s.promise = some .rejected ∧ InitSteps s t ∧ t.pc 0 = .failed ∧ t.pc 1 = .failed := by
  refine ⟨_, _, .tail (.tail .refl (.call (c := 0) rfl)) (.settle false rfl), rfl,
    .tail (.tail (.tail (.tail (.tail .refl (.reject (c := 0) rfl rfl)) (.stop (c := 0) rfl)) (.call (c := 1) rfl))
      (.reject (c := 1) rfl rfl)) (.stop (c := 1) rfl), rfl, rfl⟩

end Zkenc.Props
