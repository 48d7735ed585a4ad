import Verif.Model.JsCalls
import Verif.Props.WasmInit
/-!
# C67: concurrent calls of the JavaScript API
-/

namespace Zkenc.Props

open Zkenc

section
variable {σ : Type} {N : JsNums} {G1 G2 GT : Type} [AddCommGroup G1] [Module Fr G1] [AddCommGroup G2] [Module Fr G2] [AddCommGroup GT]
  [Module Fr GT] {S : Sys G1 G2 GT} {inst : Bytes → Res (CircuitWasm σ)}

/-- Run code on objects that do not change (proof helper). -/
def runOn (h : JsHeap) : JsCode → Res (List Bytes)
  | .await k => runOn h (k h)
  | .done r => r

@[simp] theorem runOn_done (h : JsHeap) (r) : runOn h (.done r) = r := by rw [runOn]
@[simp] theorem runOn_await (h : JsHeap) (k) : runOn h (.await k) = runOn h (k h) := by rw [runOn]

theorem runOn_lift {α : Type} (h : JsHeap) (r : Res α) (k : α → JsCode) : runOn h (.lift r k) = r >>= fun a => runOn h (k a) := by
  cases r <;> simp [JsCode.lift, Bind.bind, Except.bind]

/-- The code behind the first segment, on unchanging objects, computes the function. -/
theorem runOn_start (a : JsCall) (h : JsHeap) : (a.start N S inst h >>= fun k => runOn h k) = a.value N S inst h := by
  cases a with
  | encap f i ρ => simp [JsCall.start, JsCall.value, encapCode, runOn_lift]
  | decap f c i =>
    simp [JsCall.start, JsCall.value, decapCode, runOn_lift, jsDecapApi, jsDecap, calculateWitness]
  | encrypt f i m o ρ nonce => simp [JsCall.start, JsCall.value, encapCode, runOn_lift, jsEncrypt]
  | decrypt f c i =>
    simp [JsCall.start, JsCall.value, decapCode, runOn_lift, jsDecryptApi, jsDecrypt, jsDecap, calculateWitness]

/-! ## Helpers -/

theorem sameArgs_refl (a : JsCall) (h : JsHeap) : a.SameArgs h h := by cases a <;> simp [JsCall.SameArgs]

theorem sameArgs_trans {a : JsCall} {h h' h'' : JsHeap} (h1 : a.SameArgs h h') (h2 : a.SameArgs h' h'') : a.SameArgs h h'' := by
  cases a <;> simp_all [JsCall.SameArgs]

/-- Code that looks at the arguments of `a` only (proof helper). -/
inductive Looks (a : JsCall) : JsCode → Prop
  | done (r) : Looks a (.done r)
  | await (k) (h1 : ∀ h h', a.SameArgs h h' → k h = k h') (h2 : ∀ h, Looks a (k h)) : Looks a (.await k)

theorem Looks.lift {a : JsCall} {α : Type} {r : Res α} {k : α → JsCode} (h : ∀ x, Looks a (k x)) : Looks a (.lift r k) := by
  cases r with
  | ok x => exact h x
  | error e => exact .done _

theorem Looks.runOn {a : JsCall} {k : JsCode} (hk : Looks a k) {h h' : JsHeap} (hs : a.SameArgs h h') : runOn h k = runOn h' k := by
  induction hk with
  | done r => simp
  | await k h1 h2 ih => rw [runOn_await, runOn_await, ← h1 h h' hs]; exact ih h

theorem looks_start {a : JsCall} {h : JsHeap} {k : JsCode} (hk : a.start N S inst h = .ok k) : Looks a k := by
  cases a with
  | encap f i ρ =>
    cases hk
    refine .await _ (fun h h' hs => ?_) fun h => .lift fun ck => .done _
    simp only [JsCall.SameArgs] at hs
    simp only [hs]
  | decap f c i =>
    cases hk
    refine .await _ (fun h h' hs => ?_) fun h₁ => .await _ (fun h h' hs => rfl) fun h₂ => .lift fun x => .await _ (fun h h' hs => ?_)
      fun h₃ => .lift fun t => .await _ (fun h h' hs => ?_) fun h₄ => .lift fun key => .done _
    all_goals
      simp only [JsCall.SameArgs] at hs
      simp only [hs]
  | encrypt f i m o ρ nonce =>
    cases hk
    refine .await _ (fun h h' hs => ?_) fun h₁ => .lift fun ck => .await _ (fun h h' hs => rfl) fun h₂ => .await _ (fun h h' hs => ?_)
      fun h₃ => .lift fun enc => .await _ (fun h h' hs => ?_) fun h₄ => .lift fun pub => .done _
    all_goals
      simp only [JsCall.SameArgs] at hs
      simp only [hs]
  | decrypt f c i =>
    simp only [JsCall.start] at hk
    cases hp : splitJs (h.buffers c) with
    | error e => rw [hp] at hk; cases hk
    | ok p =>
    rw [hp] at hk
    cases hk
    refine .await _ (fun h h' hs => ?_) fun h₁ => .await _ (fun h h' hs => rfl) fun h₂ => .lift fun x => .await _ (fun h h' hs => ?_)
      fun h₃ => .lift fun t => .await _ (fun h h' hs => ?_) fun h₄ => .lift fun key => .await _ (fun h h' hs => rfl) fun h₅ =>
      .lift fun m => .done _
    all_goals
      simp only [JsCall.SameArgs] at hs
      simp only [hs]

/-- What every step keeps (proof helper). -/
structure JsInv (s : JsState) : Prop where
  init : InitReachable s.init
  idle : ∀ c, s.calls c = none → s.init.pc c = .idle
  live : ∀ c k, s.code c = .await k → s.init.pc c ≠ .idle ∧ s.init.pc c ≠ .failed

theorem enter_pc (s : InitState) (c d : Nat) : (s.enter c).pc d = if d = c then (if s.initialized then .returned else .waiting) else s.pc d := by
  unfold InitState.enter InitState.move
  cases hi : s.initialized
  · simp only [Bool.not_false, if_true]
    cases s.promise <;> rfl
  · rfl

theorem jsInv_fresh (h : JsHeap) : JsInv (.fresh h) :=
  ⟨.refl, fun _ _ => rfl, fun c k hk => by simp [JsState.fresh] at hk⟩

theorem start_error_or (a : JsCall) (h : JsHeap) : (∃ e, a.start N S inst h = .error e) ∨ ∃ k, a.start N S inst h = .ok k := by
  cases hs : a.start N S inst h with
  | error e => exact Or.inl ⟨e, rfl⟩
  | ok k => exact Or.inr ⟨k, rfl⟩

theorem call_error {s : JsState} {c : Nat} {a : JsCall} {e} (h : a.start N S inst s.heap = .error e) :
    s.call N S inst c a = ⟨s.init, s.heap, fun d => if d = c then some a else s.calls d,
      fun d => if d = c then .done (.error e) else s.code d⟩ := by
  simp only [JsState.call, h, JsState.setCode]

theorem call_ok {s : JsState} {c : Nat} {a : JsCall} {k} (h : a.start N S inst s.heap = .ok k) :
    s.call N S inst c a = ⟨s.init.enter c, s.heap, fun d => if d = c then some a else s.calls d,
      fun d => if d = c then k else s.code d⟩ := by
  simp only [JsState.call, h, JsState.setCode]

theorem JsInv.step {allowed : JsHeap → JsHeap → Prop} {s t : JsState} (hs : JsInv s) (h : JsStep N S inst allowed s t) : JsInv t := by
  obtain ⟨h1, h2, h3⟩ := hs
  have moveIdle : ∀ c p, s.init.pc c ≠ .idle → ∀ d, s.calls d = none → (s.init.move c p).pc d = .idle := by
    intro c p hc d hd
    simp only [InitState.move]
    split
    · rename_i he; subst he; exact absurd (h2 _ hd) hc
    · exact h2 d hd
  have moveLive : ∀ c p, p ≠ .idle → p ≠ .failed → ∀ d k, s.code d = .await k → (s.init.move c p).pc d ≠ .idle ∧ (s.init.move c p).pc d ≠ .failed := by
    intro c p hp hp' d k hd
    simp only [InitState.move]
    split
    · exact ⟨hp, hp'⟩
    · exact h3 d k hd
  cases h with
  | call c a hc =>
    rcases start_error_or (N := N) (S := S) (inst := inst) a s.heap with ⟨e, he⟩ | ⟨k, hk⟩
    · rw [call_error he]
      refine ⟨h1, fun d hd => ?_, fun d k hd => ?_⟩
      · simp only at hd
        split at hd
        · cases hd
        · exact h2 d hd
      · simp only at hd
        split at hd
        · cases hd
        · exact h3 d k hd
    · rw [call_ok hk]
      refine ⟨.tail h1 (.call (h2 c hc)), fun d hd => ?_, fun d k hd => ?_⟩
      · simp only at hd
        split at hd
        · cases hd
        · rename_i hne
          simp only [enter_pc, hne, if_false]
          exact h2 d hd
      · simp only at hd ⊢
        rw [enter_pc]
        split
        · split <;> simp
        · rename_i hne
          rw [if_neg hne] at hd
          exact h3 d k hd
  | settle ok hp =>
    refine ⟨.tail h1 (.settle ok hp), fun d hd => ?_, fun d k hd => ?_⟩
    · have : (s.init.settle ok).pc = s.init.pc := by unfold InitState.settle; split <;> rfl
      simp only [this]
      exact h2 d hd
    · have : (s.init.settle ok).pc = s.init.pc := by unfold InitState.settle; split <;> rfl
      simp only [this]
      exact h3 d k hd
  | @resume c hc hp =>
    exact ⟨.tail h1 (.resume hc hp), moveIdle c _ (by simp [hc]), moveLive c _ (by simp) (by simp)⟩
  | @reject c hc hp =>
    exact ⟨.tail h1 (.reject hc hp), moveIdle c _ (by simp [hc]), moveLive c _ (by simp) (by simp)⟩
  | @go c hc =>
    exact ⟨.tail h1 (.go hc), moveIdle c _ (by simp [hc]), moveLive c _ (by simp) (by simp)⟩
  | @stop c hc =>
    refine ⟨.tail h1 (.stop hc), moveIdle c _ (by simp [hc]), fun d k hd => ?_⟩
    simp only [JsState.setCode] at hd
    simp only [InitState.move]
    split at hd
    · cases hd
    · rename_i hne
      rw [if_neg hne]
      exact h3 d k hd
  | @segment c k hc hk =>
    refine ⟨h1, h2, fun d k' hd => ?_⟩
    simp only [JsState.setCode] at hd ⊢
    split at hd
    · rename_i he
      subst he
      rw [hc]
      simp
    · exact h3 d k' hd
  | user h' ha => exact ⟨h1, h2, h3⟩

theorem jsInv {s : JsState} (h : JsReachable N S inst s) : JsInv s := by
  obtain ⟨h0, hist, h⟩ := h
  generalize hf : JsState.fresh h0 = s0 at h
  induction h with
  | refl => subst hf; exact jsInv_fresh h0
  | tail _ hstep ih => exact ih.step hstep

theorem jsReachable_steps {allowed : JsHeap → JsHeap → Prop} {s t : JsState} {hist : List JsHeap} (h : JsReachable N S inst s)
    (hs : JsSteps N S inst allowed s hist t) : JsReachable N S inst t := by
  induction hs with
  | refl => exact h
  | @tail hist t u _ hstep ih =>
    obtain ⟨h0, hi, h1⟩ := ih
    refine ⟨h0, _, .tail h1 ?_⟩
    cases hstep with
    | call c a hc => exact .call c a hc
    | settle ok hp => exact .settle ok hp
    | resume hc hp => exact .resume hc hp
    | reject hc hp => exact .reject hc hp
    | go hc => exact .go hc
    | stop hc => exact .stop hc
    | segment hc hk => exact .segment hc hk
    | user h' ha => exact .user h' trivial

/-- A call never changes (proof helper). -/
theorem calls_kept {allowed : JsHeap → JsHeap → Prop} {s t : JsState} (h : JsStep N S inst allowed s t) {c : Nat} {a : JsCall}
    (hc : s.calls c = some a) : t.calls c = some a := by
  cases h with
  | call d a' hd =>
    have hne : c ≠ d := by rintro rfl; rw [hd] at hc; cases hc
    rcases start_error_or (N := N) (S := S) (inst := inst) a' s.heap with ⟨e, he⟩ | ⟨k, hk⟩
    · rw [call_error he]; simpa [hne] using hc
    · rw [call_ok hk]; simpa [hne] using hc
  | settle ok hp => exact hc
  | resume _ hp => exact hc
  | reject _ hp => exact hc
  | go _ => exact hc
  | stop _ => exact hc
  | segment _ hk => exact hc
  | user h' ha => exact hc

/-- What one step does to the code of a call that has been made (proof helper). -/
theorem code_step {allowed : JsHeap → JsHeap → Prop} {s t : JsState} (h : JsStep N S inst allowed s t) {c : Nat} {a : JsCall}
    (hc : s.calls c = some a) :
    (t.code c = s.code c ∧ (t.init.pc c = .failed → s.init.pc c = .failed) ∧ (t.heap = s.heap ∨ allowed s.heap t.heap)) ∨
    (t.code c = .done initError ∧ t.init.pc c = .failed ∧ t.heap = s.heap) ∨
    (∃ k, s.code c = .await k ∧ t.code c = k s.heap ∧ t.init.pc c = s.init.pc c ∧ t.heap = s.heap) := by
  have moveNe : ∀ d p, p ≠ .failed → (s.init.move d p).pc c = .failed → s.init.pc c = .failed := by
    intro d p hp hf
    simp only [InitState.move] at hf
    split at hf
    · exact absurd hf hp
    · exact hf
  cases h with
  | call d a' hd =>
    have hne : c ≠ d := by rintro rfl; rw [hd] at hc; cases hc
    rcases start_error_or (N := N) (S := S) (inst := inst) a' s.heap with ⟨e, he⟩ | ⟨k, hk⟩
    · rw [call_error he]; simp [hne]
    · rw [call_ok hk]; simp [hne, enter_pc]
  | settle ok hp =>
    refine Or.inl ⟨rfl, fun hf => ?_, Or.inl rfl⟩
    have : (s.init.settle ok).pc = s.init.pc := by unfold InitState.settle; split <;> rfl
    simpa only [this] using hf
  | resume _ hp => exact Or.inl ⟨rfl, moveNe _ _ (by simp), Or.inl rfl⟩
  | reject _ hp => exact Or.inl ⟨rfl, moveNe _ _ (by simp), Or.inl rfl⟩
  | go _ => exact Or.inl ⟨rfl, moveNe _ _ (by simp), Or.inl rfl⟩
  | @stop d hd =>
    by_cases hcd : c = d
    · subst hcd
      exact Or.inr (Or.inl ⟨by simp [JsState.setCode], by simp [InitState.move], rfl⟩)
    · refine Or.inl ⟨by simp [JsState.setCode, hcd], fun hf => ?_, Or.inl rfl⟩
      simpa [InitState.move, hcd] using hf
  | @segment d k hd hk =>
    by_cases hcd : c = d
    · subst hcd
      exact Or.inr (Or.inr ⟨k, hk, by simp [JsState.setCode], rfl, rfl⟩)
    · exact Or.inl ⟨by simp [JsState.setCode, hcd], fun hf => hf, Or.inl rfl⟩
  | user h' ha => exact Or.inl ⟨rfl, fun hf => hf, Or.inr ha⟩

theorem runOn_call {s : JsState} {c : Nat} {a : JsCall} :
    (s.call N S inst c a).calls c = some a ∧ (s.call N S inst c a).heap = s.heap ∧ Looks a ((s.call N S inst c a).code c) ∧
      runOn s.heap ((s.call N S inst c a).code c) = a.value N S inst s.heap := by
  have hv := runOn_start (N := N) (S := S) (inst := inst) a s.heap
  rcases start_error_or (N := N) (S := S) (inst := inst) a s.heap with ⟨e, he⟩ | ⟨k, hk⟩
  · rw [call_error he]
    rw [he] at hv
    refine ⟨by simp, rfl, by simp; exact .done _, ?_⟩
    simp only [if_true, runOn_done]
    exact hv
  · rw [call_ok hk]
    rw [hk] at hv
    refine ⟨by simp, rfl, by simp; exact looks_start hk, ?_⟩
    simp only [if_true]
    exact hv

/-! ## C67 -/

/-- **C67** (calls do not disturb each other) — at any point of any program, a call is made; other calls may be made and run in any interleaving, the
user's code may do anything to its objects except to change the arguments of this call. Then whenever the call finishes, its result is
that of the function on its arguments, or the initialisation of the wasm module has failed. -/
theorem C67_isolated {s t : JsState} (hr : JsReachable N S inst s) (c : Nat) (a : JsCall) (hc : s.calls c = none)
    (allowed : JsHeap → JsHeap → Prop) (hal : ∀ h h', allowed h h' → a.SameArgs h h') {hist : List JsHeap}
    (h : JsSteps N S inst allowed (s.call N S inst c a) hist t) (r : Res (List Bytes)) (hres : t.result c = some r) :
    r = a.value N S inst s.heap ∨ (r = initError ∧ t.init.promise = some .rejected) := by
  have hr' : JsReachable N S inst (s.call N S inst c a) := by
    obtain ⟨h0, hi, h1⟩ := hr
    exact ⟨h0, _, .tail h1 (.call c a hc)⟩
  have key : t.calls c = some a ∧ a.SameArgs s.heap t.heap ∧
      ((t.code c = .done initError ∧ t.init.pc c = .failed) ∨
        (Looks a (t.code c) ∧ runOn t.heap (t.code c) = a.value N S inst s.heap)) := by
    clear hres
    generalize hs0 : s.call N S inst c a = s0 at h
    induction h with
    | refl =>
      subst hs0
      obtain ⟨h1, h2, h3, h4⟩ := runOn_call (N := N) (S := S) (inst := inst) (s := s) (c := c) (a := a)
      exact ⟨h1, by rw [h2]; exact sameArgs_refl _ _, Or.inr ⟨h3, by rw [h2]; exact h4⟩⟩
    | @tail hist t u _ hstep ih =>
      obtain ⟨i1, i2, i3⟩ := ih
      refine ⟨calls_kept hstep i1, ?_⟩
      rcases code_step hstep i1 with ⟨c1, c2, c3⟩ | ⟨c1, c2, c3⟩ | ⟨k, c1, c2, c3, c4⟩
      · have hsa : a.SameArgs t.heap u.heap := by
          rcases c3 with c3 | c3
          · rw [c3]; exact sameArgs_refl _ _
          · exact hal _ _ c3
        refine ⟨sameArgs_trans i2 hsa, ?_⟩
        rw [c1]
        rcases i3 with ⟨j1, j2⟩ | ⟨j1, j2⟩
        · refine Or.inl ⟨j1, ?_⟩
          -- the call has failed already
          cases hstep with
          | call d a' hd =>
            have hne : c ≠ d := by rintro rfl; rw [hd] at i1; cases i1
            rcases start_error_or (N := N) (S := S) (inst := inst) a' t.heap with ⟨e, he⟩ | ⟨k, hk⟩
            · rw [call_error he]; exact j2
            · rw [call_ok hk]; simp [enter_pc, hne, j2]
          | settle ok hp =>
            have : (t.init.settle ok).pc = t.init.pc := by unfold InitState.settle; split <;> rfl
            simp only [this]; exact j2
          | @resume d hd hp =>
            have : c ≠ d := by rintro rfl; rw [j2] at hd; cases hd
            simp [InitState.move, this, j2]
          | @reject d hd hp =>
            have : c ≠ d := by rintro rfl; rw [j2] at hd; cases hd
            simp [InitState.move, this, j2]
          | @go d hd =>
            have : c ≠ d := by rintro rfl; rw [j2] at hd; cases hd
            simp [InitState.move, this, j2]
          | @stop d hd =>
            have : c ≠ d := by rintro rfl; rw [j2] at hd; cases hd
            simp [InitState.move, this, j2]
          | segment hd hk => exact j2
          | user h' ha => exact j2
        · exact Or.inr ⟨j1, by rw [← j2]; exact (j1.runOn hsa).symm⟩
      · exact ⟨by rw [c3]; exact i2, Or.inl ⟨c1, c2⟩⟩
      · refine ⟨by rw [c4]; exact i2, ?_⟩
        rcases i3 with ⟨j1, -⟩ | ⟨j1, j2⟩
        · rw [j1] at c1; cases c1
        · rw [c1] at j1 j2
          rw [c2, c4]
          cases j1 with
          | await _ g1 g2 => exact Or.inr ⟨g2 _, by rw [← j2, runOn_await]⟩
  obtain ⟨k1, k2, k3⟩ := key
  simp only [JsState.result, k1] at hres
  rcases k3 with ⟨j1, j2⟩ | ⟨j1, j2⟩
  · rw [j1] at hres
    cases hres
    exact Or.inr ⟨rfl, (initInv (jsInv (jsReachable_steps hr' h)).init).bad c (Or.inr j2)⟩
  · cases hcode : t.code c with
    | await k => rw [hcode] at hres; cases hres
    | done r' =>
      rw [hcode] at hres j2
      cases hres
      exact Or.inl (by simpa using j2)

/-- Run the segments of a call on the given states of the objects (proof helper). -/
def feed : JsCode → List JsHeap → JsCode
  | .await k, h :: hs => feed (k h) hs
  | k, _ => k

theorem feed_nil (k : JsCode) : feed k [] = k := by cases k <;> rfl

theorem feed_snoc {k : JsCode} {hs : List JsHeap} {h : JsHeap} {k' : JsHeap → JsCode} (hk : feed k hs = .await k') :
    feed k (hs ++ [h]) = k' h := by
  induction hs generalizing k with
  | nil => rw [feed_nil] at hk; subst hk; simp [feed]
  | cons x xs ih =>
    cases k with
    | done r => simp [feed] at hk
    | await k => exact ih hk

/-- What a call has seen of the history (proof helper). -/
theorem seen_of {s t : JsState} {c : Nat} {hist : List JsHeap} {a : JsCall}
    (h : JsSteps N S inst (fun _ _ => True) (s.call N S inst c a) hist t) :
    t.calls c = some a ∧ (∃ pre, hist = pre ++ [t.heap]) ∧
      ((t.code c = .done initError ∧ t.init.pc c = .failed) ∨
        (∃ e, a.start N S inst s.heap = .error e ∧ t.code c = .done (.error e)) ∨
        ∃ k hs, a.start N S inst s.heap = .ok k ∧ hs.Sublist hist ∧ t.code c = feed k hs) := by
  induction h with
  | refl =>
    obtain ⟨h1, h2, -, -⟩ := runOn_call (N := N) (S := S) (inst := inst) (s := s) (c := c) (a := a)
    refine ⟨h1, ⟨[], rfl⟩, Or.inr ?_⟩
    rcases start_error_or (N := N) (S := S) (inst := inst) a s.heap with ⟨e, he⟩ | ⟨k, hk⟩
    · exact Or.inl ⟨e, he, by rw [call_error he]; simp⟩
    · exact Or.inr ⟨k, [], hk, List.nil_sublist _, by rw [call_ok hk, feed_nil]; simp⟩
  | @tail hist t u _ hstep ih =>
    obtain ⟨i1, ⟨pre, hpre⟩, i3⟩ := ih
    refine ⟨calls_kept hstep i1, ⟨_, rfl⟩, ?_⟩
    have up : ∀ {hs : List JsHeap}, hs.Sublist hist → hs.Sublist (hist ++ [u.heap]) := fun h => h.trans (List.sublist_append_left _ _)
    rcases code_step hstep i1 with ⟨c1, c2, c3⟩ | ⟨c1, c2, c3⟩ | ⟨k', c1, c2, c3, c4⟩
    · rw [c1]
      rcases i3 with ⟨j1, j2⟩ | ⟨e, j1, j2⟩ | ⟨k, hs, j1, j2, j3⟩
      · refine Or.inl ⟨j1, ?_⟩
        cases hstep with
        | call d a' hd =>
          have hne : c ≠ d := by rintro rfl; rw [hd] at i1; cases i1
          rcases start_error_or (N := N) (S := S) (inst := inst) a' t.heap with ⟨e, he⟩ | ⟨k, hk⟩
          · rw [call_error he]; exact j2
          · rw [call_ok hk]; simp [enter_pc, hne, j2]
        | settle ok hp =>
          have : (t.init.settle ok).pc = t.init.pc := by unfold InitState.settle; split <;> rfl
          simp only [this]; exact j2
        | @resume d hd hp =>
          have : c ≠ d := by rintro rfl; rw [j2] at hd; cases hd
          simp [InitState.move, this, j2]
        | @reject d hd hp =>
          have : c ≠ d := by rintro rfl; rw [j2] at hd; cases hd
          simp [InitState.move, this, j2]
        | @go d hd =>
          have : c ≠ d := by rintro rfl; rw [j2] at hd; cases hd
          simp [InitState.move, this, j2]
        | @stop d hd =>
          have : c ≠ d := by rintro rfl; rw [j2] at hd; cases hd
          simp [InitState.move, this, j2]
        | segment hd hk => exact j2
        | user h' ha => exact j2
      · exact Or.inr (Or.inl ⟨e, j1, j2⟩)
      · exact Or.inr (Or.inr ⟨k, hs, j1, up j2, j3⟩)
    · exact Or.inl ⟨c1, c2⟩
    · rcases i3 with ⟨j1, -⟩ | ⟨e, -, j2⟩ | ⟨k, hs, j1, j2, j3⟩
      · rw [j1] at c1; cases c1
      · rw [j2] at c1; cases c1
      · refine Or.inr (Or.inr ⟨k, hs ++ [t.heap], j1, ?_, ?_⟩)
        · rw [c4]
          exact List.Sublist.append j2 (List.Sublist.refl _)
        · rw [c2]
          exact (feed_snoc (j3 ▸ c1)).symm

theorem lift_done {α : Type} {r : Res α} {k : α → JsCode} {hs : List JsHeap} {out : List Bytes}
    (h : feed (.lift r k) hs = .done (.ok out)) : ∃ a, r = .ok a ∧ feed (k a) hs = .done (.ok out) := by
  cases r with
  | ok a => exact ⟨a, rfl, h⟩
  | error e => cases hs <;> simp [JsCode.lift, feed] at h

theorem await_done {k : JsHeap → JsCode} {hs : List JsHeap} {out : List Bytes} (h : feed (.await k) hs = .done (.ok out)) :
    ∃ x xs, hs = x :: xs ∧ feed (k x) xs = .done (.ok out) := by
  cases hs with
  | nil => simp [feed] at h
  | cons x xs => exact ⟨x, xs, rfl, h⟩

theorem done_done {r : Res (List Bytes)} {hs : List JsHeap} {out : List Bytes} (h : feed (.done r) hs = .done (.ok out)) : r = .ok out := by
  cases hs <;> · simp only [feed, JsCode.done.injEq] at h; exact h

theorem result_seen {s t : JsState} {c : Nat} {hist : List JsHeap} {a : JsCall}
    (h : JsSteps N S inst (fun _ _ => True) (s.call N S inst c a) hist t) {out : List Bytes} (hres : t.result c = some (.ok out)) :
    ∃ k hs, a.start N S inst s.heap = .ok k ∧ hs.Sublist hist ∧ feed k hs = .done (.ok out) := by
  obtain ⟨h1, -, h3⟩ := seen_of h
  simp only [JsState.result, h1] at hres
  rcases h3 with ⟨j1, j2⟩ | ⟨e, j1, j2⟩ | ⟨k, hs, j1, j2, j3⟩
  · rw [j1] at hres; simp [initError, Res.fail] at hres
  · rw [j2] at hres; simp at hres
  · refine ⟨k, hs, j1, j2, ?_⟩
    rw [j3] at hres
    cases hf : feed k hs with
    | await k' => rw [hf] at hres; cases hres
    | done r => rw [hf] at hres; cases hres; rfl

/-- **C67** (what `encrypt` reads, and when) — if the user's code changes the arguments while the call is running, the result is made of: the options
as they were at the call; the circuit, symbols and inputs at one later moment; the message at a later one; and, for the embedded public
input, the inputs again at a still later one. -/
theorem C67_encrypt_reads {s t : JsState} (c f i m o : Nat) (ρ : Rand Fr) (nonce : Bytes) {hist : List JsHeap}
    (h : JsSteps N S inst (fun _ _ => True) (s.call N S inst c (.encrypt f i m o ρ nonce)) hist t) (ct key : Bytes)
    (hres : t.result c = some (.ok [ct, key])) :
    ∃ h₁ h₂ h₃ : JsHeap, [h₁, h₂, h₃].Sublist hist ∧ ∃ wct enc,
      jsEncap S (h₁.files f).r1cs (h₁.files f).sym (h₁.inputs i) ρ = .ok (wct, key) ∧
      encryptGcm S.cipher .js key nonce (h₂.buffers m) = .ok enc ∧
      (if s.heap.options o then ∃ txt, S.stringify (h₃.inputs i) = .ok txt ∧ ct = combine true wct (utf8Enc txt) enc
        else ct = combine false wct [] enc) := by
  obtain ⟨k, hs, hk, hsub, hf⟩ := result_seen h hres
  cases hk
  beta_reduce at hf
  obtain ⟨h₁, hs, rfl, hg⟩ := await_done hf
  clear hf
  have hf := hg
  clear hg
  obtain ⟨⟨wct, key'⟩, h1, hf⟩ := lift_done hf
  beta_reduce at hf
  obtain ⟨h₂, hs, rfl, hg⟩ := await_done hf
  clear hf
  have hf := hg
  clear hg
  beta_reduce at hf
  obtain ⟨h₃, hs, rfl, hg⟩ := await_done hf
  clear hf
  have hf := hg
  clear hg
  obtain ⟨enc, h2, hf⟩ := lift_done hf
  beta_reduce at hf
  obtain ⟨h₄, hs, rfl, hg⟩ := await_done hf
  clear hf
  have hf := hg
  clear hg
  obtain ⟨pub, h3, hf⟩ := lift_done hf
  have := done_done hf
  simp only [Except.ok.injEq, List.cons.injEq, and_true] at this
  obtain ⟨rfl, rfl⟩ := this
  refine ⟨h₁, h₃, h₄, .trans ?_ hsub, wct, enc, h1, h2, ?_⟩
  · exact .cons_cons _ (.cons _ (.cons_cons _ (.cons_cons _ (List.nil_sublist _))))
  · cases ho : s.heap.options o
    · simp only [ho, Bool.false_eq_true, if_false, Except.ok.injEq] at h3
      subst h3
      simp
    · simp only [ho, if_true] at h3
      cases ht : S.stringify (h₄.inputs i) with
      | error e => rw [ht] at h3; cases h3
      | ok txt =>
        rw [ht] at h3
        cases h3
        simp

/-- **C67** (what `decrypt` reads, and when) — the ciphertext is read completely when the function is called, so the buffer can be reused at once; the
wasm file, the inputs and the circuit are read at three later moments. -/
theorem C67_decrypt_reads {s t : JsState} (c f cb i : Nat) {hist : List JsHeap}
    (h : JsSteps N S inst (fun _ _ => True) (s.call N S inst c (.decrypt f cb i)) hist t) (msg : Bytes)
    (hres : t.result c = some (.ok [msg])) :
    ∃ h₁ h₂ h₃ : JsHeap, [h₁, h₂, h₃].Sublist hist ∧ ∃ p x u key, splitJs (s.heap.buffers cb) = .ok p ∧
      inst (h₁.files f).wasm = .ok x ∧ doCalculateWitness N x.toCalcInst false (h₂.inputs i) x.start = .ok u ∧
      wasmDecap S (h₃.files f).r1cs (calcWtnsBin (x.exports u)) p.witnessCt = .ok key ∧
      decryptGcm S.cipher .js key p.encrypted = .ok msg := by
  obtain ⟨k, hs, hk, hsub, hf⟩ := result_seen h hres
  simp only [JsCall.start] at hk
  cases hp : splitJs (s.heap.buffers cb) with
  | error e => rw [hp] at hk; cases hk
  | ok p =>
  rw [hp] at hk
  cases hk
  beta_reduce at hf
  obtain ⟨h₁, hs, rfl, hg⟩ := await_done hf
  clear hf
  have hf := hg
  clear hg
  beta_reduce at hf
  obtain ⟨h₂, hs, rfl, hg⟩ := await_done hf
  clear hf
  have hf := hg
  clear hg
  obtain ⟨x, h1, hf⟩ := lift_done hf
  beta_reduce at hf
  obtain ⟨h₃, hs, rfl, hg⟩ := await_done hf
  clear hf
  have hf := hg
  clear hg
  obtain ⟨u, h2, hf⟩ := lift_done hf
  beta_reduce at hf
  obtain ⟨h₄, hs, rfl, hg⟩ := await_done hf
  clear hf
  have hf := hg
  clear hg
  obtain ⟨key, h3, hf⟩ := lift_done hf
  beta_reduce at hf
  obtain ⟨h₅, hs, rfl, hg⟩ := await_done hf
  clear hf
  have hf := hg
  clear hg
  obtain ⟨m, h4, hf⟩ := lift_done hf
  have := done_done hf
  simp only [Except.ok.injEq, List.cons.injEq, and_true] at this
  subst this
  exact ⟨h₁, h₃, h₄, .trans (.cons_cons _ (.cons _ (.cons_cons _ (.cons_cons _ (List.nil_sublist _))))) hsub, p, x, u, key, rfl, h1, h2, h3, h4⟩

/-- **C67** (what `decap` reads, and when) — unlike `decrypt`, the ciphertext is read last, after the witness has been calculated. -/
theorem C67_decap_reads {s t : JsState} (c f cb i : Nat) {hist : List JsHeap}
    (h : JsSteps N S inst (fun _ _ => True) (s.call N S inst c (.decap f cb i)) hist t) (key : Bytes)
    (hres : t.result c = some (.ok [key])) :
    ∃ h₁ h₂ h₃ : JsHeap, [h₁, h₂, h₃].Sublist hist ∧ ∃ x u,
      inst (h₁.files f).wasm = .ok x ∧ doCalculateWitness N x.toCalcInst false (h₂.inputs i) x.start = .ok u ∧
      wasmDecap S (h₃.files f).r1cs (calcWtnsBin (x.exports u)) (h₃.buffers cb) = .ok key := by
  obtain ⟨k, hs, hk, hsub, hf⟩ := result_seen h hres
  cases hk
  beta_reduce at hf
  obtain ⟨h₁, hs, rfl, hg⟩ := await_done hf
  clear hf
  have hf := hg
  clear hg
  beta_reduce at hf
  obtain ⟨h₂, hs, rfl, hg⟩ := await_done hf
  clear hf
  have hf := hg
  clear hg
  obtain ⟨x, h1, hf⟩ := lift_done hf
  beta_reduce at hf
  obtain ⟨h₃, hs, rfl, hg⟩ := await_done hf
  clear hf
  have hf := hg
  clear hg
  obtain ⟨u, h2, hf⟩ := lift_done hf
  beta_reduce at hf
  obtain ⟨h₄, hs, rfl, hg⟩ := await_done hf
  clear hf
  have hf := hg
  clear hg
  obtain ⟨key', h3, hf⟩ := lift_done hf
  have := done_done hf
  simp only [Except.ok.injEq, List.cons.injEq, and_true] at this
  subst this
  exact ⟨h₁, h₃, h₄, .trans (.cons_cons _ (.cons _ (.cons_cons _ (.cons_cons _ (List.nil_sublist _))))) hsub, x, u, h1, h2, h3⟩

/-- **C67** (what `encap` reads, and when) — everything at one moment, after the call. -/
theorem C67_encap_reads {s t : JsState} (c f i : Nat) (ρ : Rand Fr) {hist : List JsHeap}
    (h : JsSteps N S inst (fun _ _ => True) (s.call N S inst c (.encap f i ρ)) hist t) (ct key : Bytes)
    (hres : t.result c = some (.ok [ct, key])) :
    ∃ h₁ ∈ hist, jsEncap S (h₁.files f).r1cs (h₁.files f).sym (h₁.inputs i) ρ = .ok (ct, key) := by
  obtain ⟨k, hs, hk, hsub, hf⟩ := result_seen h hres
  cases hk
  beta_reduce at hf
  obtain ⟨h₁, hs, rfl, hg⟩ := await_done hf
  clear hf
  have hf := hg
  clear hg
  obtain ⟨⟨ct', key'⟩, h1, hf⟩ := lift_done hf
  have := done_done hf
  simp only [Except.ok.injEq, List.cons.injEq, and_true] at this
  obtain ⟨rfl, rfl⟩ := this
  exact ⟨h₁, hsub.subset (by simp), h1⟩

/-! ### Every view is possible -/

theorem steps_trans {allowed : JsHeap → JsHeap → Prop} {s t u : JsState} {h1 h2 : List JsHeap} (a : JsSteps N S inst allowed s h1 t)
    (b : JsSteps N S inst allowed t h2 u) : ∃ h, JsSteps N S inst allowed s h u := by
  induction b with
  | refl => exact ⟨_, a⟩
  | tail _ hstep ih =>
    obtain ⟨h, ih⟩ := ih
    exact ⟨_, .tail ih hstep⟩

theorem feed_possible (c : Nat) (a : JsCall) (hs : List JsHeap) (r : Res (List Bytes)) (s : JsState) (hc : s.calls c = some a)
    (hp : s.init.pc c = .running) (hf : feed (s.code c) hs = .done r) :
    ∃ hist t, JsSteps N S inst (fun _ _ => True) s hist t ∧ t.result c = some r := by
  induction hs generalizing s with
  | nil =>
    rw [feed_nil] at hf
    exact ⟨_, s, .refl s, by simp [JsState.result, hc, hf]⟩
  | cons h hs ih =>
    cases hk : s.code c with
    | done r' =>
      rw [hk] at hf
      simp only [feed, JsCode.done.injEq] at hf
      subst hf
      exact ⟨_, s, .refl s, by simp [JsState.result, hc, hk]⟩
    | await k =>
      rw [hk] at hf
      let s1 : JsState := { s with heap := h }
      have st1 : JsStep N S inst (fun _ _ => True) s s1 := .user h trivial
      have st2 : JsStep N S inst (fun _ _ => True) s1 (s1.setCode c (k s1.heap)) := .segment hp hk
      obtain ⟨hist, t, h1, h2⟩ := ih (s1.setCode c (k s1.heap)) hc hp (by simp only [JsState.setCode, if_true]; exact hf)
      obtain ⟨hist', h3⟩ := steps_trans (.tail (.tail (.refl s) st1) st2) h1
      exact ⟨hist', t, h3, h2⟩

theorem views_possible (a : JsCall) (h₀ : JsHeap) (hs : List JsHeap) (k : JsCode) (r : Res (List Bytes))
    (hk : a.start N S inst h₀ = .ok k) (hf : feed k hs = .done r) :
    ∃ hist t, JsSteps N S inst (fun _ _ => True) ((JsState.fresh h₀).call N S inst 0 a) hist t ∧ t.result 0 = some r := by
  have e : (JsState.fresh h₀).call N S inst 0 a = ⟨InitState.start.enter 0, h₀, fun d => if d = 0 then some a else none,
      fun d => if d = 0 then k else .done (Res.fail "not called")⟩ := call_ok (s := JsState.fresh h₀) hk
  rw [e]
  let s0 : JsState := ⟨InitState.start.enter 0, h₀, fun d => if d = 0 then some a else none,
      fun d => if d = 0 then k else .done (Res.fail "not called")⟩
  let s1 : JsState := { s0 with init := s0.init.settle true }
  let s2 : JsState := { s1 with init := s1.init.move 0 .returned }
  let s3 : JsState := { s2 with init := s2.init.move 0 .running }
  have st1 : JsStep N S inst (fun _ _ => True) s0 s1 := .settle true rfl
  have st2 : JsStep N S inst (fun _ _ => True) s1 s2 := .resume rfl rfl
  have st3 : JsStep N S inst (fun _ _ => True) s2 s3 := .go rfl
  obtain ⟨hist, t, h1, h2⟩ := feed_possible (N := N) (S := S) (inst := inst) 0 a hs r s3 rfl rfl hf
  obtain ⟨hist', h3⟩ := steps_trans (.tail (.tail (.tail (.refl s0) st1) st2) st3) h1
  exact ⟨hist', t, h3, h2⟩

/-- **C67** (the embedded public input can differ from the bound one) — if the user's code changes the inputs object between the two readings, `encrypt`
succeeds and delivers a message whose key belongs to the first inputs and whose embedded public input is the second. -/
theorem C67_encrypt_mixes (r1cs : Bytes) (sym : Str) (inputs₁ inputs₂ : List (Str × JsVal)) (message : Bytes) (ρ : Rand Fr) (nonce : Bytes)
    (wct key enc : Bytes) (txt : Str) (h1 : jsEncap S r1cs sym inputs₁ ρ = .ok (wct, key))
    (h2 : encryptGcm S.cipher .js key nonce message = .ok enc) (h3 : S.stringify inputs₂ = .ok txt) :
    ∃ h₀ hist t, JsSteps N S inst (fun _ _ => True) ((JsState.fresh h₀).call N S inst 0 (.encrypt 0 0 0 0 ρ nonce)) hist t ∧
      h₀.inputs 0 = inputs₁ ∧ h₀.files 0 = ⟨r1cs, sym, []⟩ ∧ h₀.buffers 0 = message ∧ h₀.options 0 = true ∧
      t.result 0 = some (.ok [combine true wct (utf8Enc txt) enc, key]) := by
  let hp (i : List (Str × JsVal)) : JsHeap := ⟨fun _ => ⟨r1cs, sym, []⟩, fun _ => i, fun _ => message, fun _ => true⟩
  obtain ⟨hist, t, h4, h5⟩ := views_possible (N := N) (S := S) (inst := inst) (.encrypt 0 0 0 0 ρ nonce) (hp inputs₁)
    [hp inputs₁, hp inputs₁, hp inputs₁, hp inputs₂] _ (.ok [combine true wct (utf8Enc txt) enc, key]) rfl (by
      simp only [encapCode, feed, hp, h1, JsCode.lift, h2, h3, if_true, Res.ok_bind])
  exact ⟨hp inputs₁, hist, t, h4, rfl, rfl, rfl, rfl, h5⟩

/-! ### Every call finishes -/

theorem run_finishes (c : Nat) (a : JsCall) (k : JsCode) (s : JsState) (hc : s.calls c = some a) (hp : s.init.pc c = .running)
    (hk : s.code c = k) : ∃ hist t, JsSteps N S inst Eq s hist t ∧ t.result c ≠ none ∧ t.heap = s.heap := by
  induction k generalizing s with
  | done r => exact ⟨_, s, .refl s, by simp [JsState.result, hc, hk], rfl⟩
  | await k ih =>
    have st : JsStep N S inst Eq s (s.setCode c (k s.heap)) := .segment hp hk
    obtain ⟨hist, t, h1, h2, h3⟩ := ih s.heap (s.setCode c (k s.heap)) hc hp (by simp [JsState.setCode])
    obtain ⟨hist', h4⟩ := steps_trans (.tail (.refl s) st) h1
    exact ⟨hist', t, h4, h2, h3⟩

/-- **C67** (no call is lost) — at any point of any program, once the initialiser has settled, every call that has been made can finish, without any
step of other calls or of the user's code changing objects. -/
theorem C67_can_finish {s : JsState} (hr : JsReachable N S inst s) (c : Nat) (a : JsCall) (hc : s.calls c = some a)
    (hp : s.init.promise ≠ some .pending) : ∃ hist t, JsSteps N S inst Eq s hist t ∧ t.result c ≠ none ∧ t.heap = s.heap := by
  have inv := jsInv hr
  cases hk : s.code c with
  | done r => exact ⟨_, s, .refl s, by simp [JsState.result, hc, hk], rfl⟩
  | await k =>
    obtain ⟨n1, n2⟩ := inv.live c k hk
    have stepped : ∀ {s1 : JsState}, JsStep N S inst Eq s s1 → (∃ hist t, JsSteps N S inst Eq s1 hist t ∧ t.result c ≠ none ∧
        t.heap = s1.heap) → s1.heap = s.heap → ∃ hist t, JsSteps N S inst Eq s hist t ∧ t.result c ≠ none ∧ t.heap = s.heap := by
      rintro s1 st ⟨hist, t, h1, h2, h3⟩ h4
      obtain ⟨hist', h5⟩ := steps_trans (.tail (.refl s) st) h1
      exact ⟨hist', t, h5, h2, h3.trans h4⟩
    cases hpc : s.init.pc c with
    | idle => exact absurd hpc n1
    | failed => exact absurd hpc n2
    | running => exact run_finishes c a _ s hc hpc rfl
    | returned =>
      exact stepped (.go hpc) (run_finishes c a _ { s with init := s.init.move c .running } hc (by simp [InitState.move]) rfl) rfl
    | threw =>
      exact stepped (.stop hpc) ⟨_, _, .refl _, by simp [JsState.result, hc, JsState.setCode], rfl⟩ rfl
    | waiting =>
      cases hpr : s.init.promise with
      | none =>
        have := (initInv inv.init).idle hpr c
        rw [hpc] at this
        cases this
      | some p =>
        cases p with
        | pending => exact absurd hpr hp
        | resolved =>
          let s1 : JsState := { s with init := s.init.move c .returned }
          refine stepped (s1 := s1) (.resume hpc hpr) ?_ rfl
          have st : JsStep N S inst Eq s1 { s1 with init := s1.init.move c .running } := .go (by simp [s1, InitState.move])
          obtain ⟨hist, t, h1, h2, h3⟩ := run_finishes (N := N) (S := S) (inst := inst) c a _
            { s1 with init := s1.init.move c .running } hc (by simp [InitState.move]) rfl
          obtain ⟨hist', h4⟩ := steps_trans (.tail (.refl s1) st) h1
          exact ⟨hist', t, h4, h2, h3⟩
        | rejected =>
          let s1 : JsState := { s with init := s.init.move c .threw }
          refine stepped (s1 := s1) (.reject hpc hpr) ?_ rfl
          have st : JsStep N S inst Eq s1 { s1.setCode c (.done initError) with init := s1.init.move c .failed } :=
            .stop (by simp [s1, InitState.move])
          exact ⟨_, _, .tail (.refl s1) st, by simp [JsState.result, s1, hc, JsState.setCode], rfl⟩

end

end Zkenc.Props
