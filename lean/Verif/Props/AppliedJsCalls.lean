import Verif.Props.JsCalls
import Verif.Props.AppliedCompose
/-!
# The theorems about concurrent calls of the JS library, applied

Every theorem of `Props/JsCalls.lean` is applied, with all its hypotheses, to calls on the circuit `y = x²` and its witness program.
-/

namespace Zkenc.Props

open Zkenc Zkenc.Spec Zkenc.InputSpec CalcSpec

namespace Ex

/-- The module of the only circuit. -/
def inst1 (_ : Bytes) : Res (CircuitWasm (Option Nat × Option Nat)) := .ok sqWasm

/-- Objects: the circuit; the public inputs and all inputs; the message and a ciphertext; the switch. -/
def heap (incl : Bool) (ct : Bytes) : JsHeap :=
  ⟨fun _ => ⟨sqData, sym, []⟩, fun i => if i = 0 then inputs else full, fun b => if b = 0 then [1, 2, 3] else ct, fun _ => incl⟩

/-- A call of which nobody disturbs the arguments gives the value of the function. -/
theorem undisturbed (allowed : JsHeap → JsHeap → Prop) (a : JsCall) (h₀ : JsHeap) (k : JsCode) (hk : a.start smallNums S inst1 h₀ = .ok k) :
    ∃ hist t, JsSteps smallNums S inst1 allowed ((JsState.fresh h₀).call smallNums S inst1 0 a) hist t ∧
      t.result 0 = some (a.value smallNums S inst1 h₀) := by
  have run : ∀ (k : JsCode) (s : JsState), s.calls 0 = some a → s.init.pc 0 = .running → s.code 0 = k →
      ∃ hist t, JsSteps smallNums S inst1 allowed s hist t ∧ t.result 0 = some (runOn s.heap k) := by
    intro k
    induction k with
    | done r => intro s hc _ hk; exact ⟨_, s, .refl s, by simp [JsState.result, hc, hk]⟩
    | await k ih =>
      intro s hc hp hk
      have st : JsStep smallNums S inst1 allowed s (s.setCode 0 (k s.heap)) := .segment hp hk
      obtain ⟨hist, t, h1, h2⟩ := ih s.heap (s.setCode 0 (k s.heap)) hc hp (by simp [JsState.setCode])
      obtain ⟨hist', h4⟩ := steps_trans (.tail (.refl s) st) h1
      exact ⟨hist', t, h4, by rw [runOn_await]; exact h2⟩
  have e : (JsState.fresh h₀).call smallNums S inst1 0 a = ⟨InitState.start.enter 0, h₀, fun d => if d = 0 then some a else none,
      fun d => if d = 0 then k else .done (Res.fail "not called")⟩ := call_ok (s := JsState.fresh h₀) hk
  rw [e]
  let s0 : JsState := ⟨InitState.start.enter 0, h₀, fun d => if d = 0 then some a else none,
      fun d => if d = 0 then k else .done (Res.fail "not called")⟩
  let s1 : JsState := { s0 with init := s0.init.settle true }
  let s2 : JsState := { s1 with init := s1.init.move 0 .returned }
  let s3 : JsState := { s2 with init := s2.init.move 0 .running }
  have st1 : JsStep smallNums S inst1 allowed s0 s1 := .settle true rfl
  have st2 : JsStep smallNums S inst1 allowed s1 s2 := .resume rfl rfl
  have st3 : JsStep smallNums S inst1 allowed s2 s3 := .go rfl
  obtain ⟨hist, t, h1, h2⟩ := run k s3 rfl rfl rfl
  obtain ⟨hist', h3⟩ := steps_trans (.tail (.tail (.tail (.refl s0) st1) st2) st3) h1
  refine ⟨hist', t, h3, ?_⟩
  rw [h2, ← runOn_start, hk]
  rfl

theorem heap_reachable (h : JsHeap) : JsReachable smallNums S inst1 (.fresh h) := ⟨h, _, .refl _⟩

/-! ### encap and encrypt -/

theorem encrypt_call (incl : Bool) (allowed : JsHeap → JsHeap → Prop) : ∃ b k hist t,
    JsSteps smallNums S inst1 allowed ((JsState.fresh (heap incl [])).call smallNums S inst1 0 (.encrypt 0 0 0 0 ρ nonce)) hist t ∧
    t.result 0 = some (.ok [b, k]) ∧ jsEncrypt S sqData sym inputs [1, 2, 3] incl ρ nonce = .ok (b, k) := by
  obtain ⟨b, k, hb, -⟩ := js_run incl
  obtain ⟨hist, t, h1, h2⟩ := undisturbed allowed (.encrypt 0 0 0 0 ρ nonce) (heap incl []) _ rfl
  refine ⟨b, k, hist, t, h1, ?_, hb⟩
  rw [h2]
  have : jsEncrypt S ((heap incl []).files 0).r1cs ((heap incl []).files 0).sym ((heap incl []).inputs 0) ((heap incl []).buffers 0)
      ((heap incl []).options 0) ρ nonce = .ok (b, k) := hb
  simp only [JsCall.value, this, Res.ok_bind]

/-- C67: the user's code changes everything but the arguments. -/
example (incl : Bool) : ∃ (t : JsState) (b k : Bytes), t.result 0 = some (.ok [b, k]) ∧
    ((Except.ok [b, k] : Res (List Bytes)) = (JsCall.encrypt 0 0 0 0 ρ nonce).value smallNums S inst1 (heap incl []) ∨
      ((Except.ok [b, k] : Res (List Bytes)) = initError ∧ t.init.promise = some .rejected)) := by
  obtain ⟨b, k, hist, t, h1, h2, -⟩ := encrypt_call incl (fun h h' => (JsCall.encrypt 0 0 0 0 ρ nonce).SameArgs h h')
  exact ⟨t, b, k, h2, C67_isolated (heap_reachable _) 0 _ rfl _ (fun _ _ h => h) h1 _ h2⟩

/-- What the call read. -/
example (incl : Bool) : ∃ b k, ∃ h₁ h₂ h₃ : JsHeap, ∃ wct enc, jsEncap S (h₁.files 0).r1cs (h₁.files 0).sym (h₁.inputs 0) ρ = .ok (wct, k) ∧
    encryptGcm S.cipher .js k nonce (h₂.buffers 0) = .ok enc ∧
    (if incl then ∃ txt, S.stringify (h₃.inputs 0) = .ok txt ∧ b = Zkenc.combine true wct (utf8Enc txt) enc else b = Zkenc.combine false wct [] enc) := by
  obtain ⟨b, k, hist, t, h1, h2, -⟩ := encrypt_call incl (fun _ _ => True)
  obtain ⟨h₁, h₂, h₃, -, wct, enc, g1, g2, g3⟩ := C67_encrypt_reads 0 0 0 0 0 ρ nonce h1 b k h2
  exact ⟨b, k, h₁, h₂, h₃, wct, enc, g1, g2, g3⟩

/-- The inputs are changed to `full` between the two readings. -/
example : ∃ wct key enc txt, jsEncap S sqData sym inputs ρ = .ok (wct, key) ∧
    ∃ h₀ hist t, JsSteps smallNums S inst1 (fun _ _ => True) ((JsState.fresh h₀).call smallNums S inst1 0 (.encrypt 0 0 0 0 ρ nonce)) hist t ∧
      h₀.inputs 0 = inputs ∧ S.stringify full = .ok txt ∧ t.result 0 = some (.ok [Zkenc.combine true wct (utf8Enc txt) enc, key]) := by
  obtain ⟨ct, k, hb, -⟩ := js_kem_run
  obtain ⟨b, k', hb', -⟩ := js_run false
  have hfull : ∃ txt, S.stringify full = .ok txt := ⟨_, rfl⟩
  obtain ⟨txt, ht⟩ := hfull
  unfold jsEncrypt at hb'
  rw [hb, Res.ok_bind] at hb'
  obtain ⟨enc, he, -⟩ := Res.bind_eq_ok.1 hb'
  obtain ⟨h₀, hist, t, g1, g2, -, -, -, g3⟩ := C67_encrypt_mixes (N := smallNums) (S := S) (inst := inst1) sqData sym inputs full [1, 2, 3] ρ nonce ct k enc txt
    hb he ht
  exact ⟨ct, k, enc, txt, hb, h₀, hist, t, g1, g2, ht, g3⟩

example : ∃ ct k, ∃ h₁ : JsHeap, jsEncap S (h₁.files 0).r1cs (h₁.files 0).sym (h₁.inputs 0) ρ = .ok (ct, k) ∧
    jsEncap S sqData sym inputs ρ = .ok (ct, k) := by
  obtain ⟨ct, k, hb, -⟩ := js_kem_run
  obtain ⟨hist, t, h1, h2⟩ := undisturbed (fun _ _ => True) (.encap 0 0 ρ) (heap true []) _ rfl
  have : jsEncap S ((heap true []).files 0).r1cs ((heap true []).files 0).sym ((heap true []).inputs 0) ρ = .ok (ct, k) := hb
  simp only [JsCall.value, this, Res.ok_bind] at h2
  obtain ⟨h₁, -, h⟩ := C67_encap_reads 0 0 0 ρ h1 ct k h2
  exact ⟨ct, k, h₁, h, hb⟩

/-! ### decrypt and decap -/

theorem decrypt_call (allowed : JsHeap → JsHeap → Prop) : ∃ b hist t,
    JsSteps smallNums S inst1 allowed ((JsState.fresh (heap true b)).call smallNums S inst1 0 (.decrypt 0 1 1)) hist t ∧
    t.result 0 = some (.ok [[1, 2, 3]]) := by
  obtain ⟨b, k, -, h⟩ := js_flow true
  have hsplit : ∃ p, splitJs b = .ok p := by
    unfold jsDecryptApi jsDecrypt at h
    obtain ⟨p, hp, -⟩ := Res.bind_eq_ok.1 h
    exact ⟨p, hp⟩
  obtain ⟨p, hp⟩ := hsplit
  have hst : ∃ k, (JsCall.decrypt 0 1 1).start smallNums S inst1 (heap true b) = .ok k := by
    simp only [JsCall.start]
    rw [show splitJs ((heap true b).buffers 1) = .ok p from hp]
    exact ⟨_, rfl⟩
  obtain ⟨code, hst⟩ := hst
  obtain ⟨hist, t, h1, h2⟩ := undisturbed allowed (.decrypt 0 1 1) (heap true b) _ hst
  have : jsDecryptApi smallNums S ((heap true b).files 0).r1cs (inst1 ((heap true b).files 0).wasm) ((heap true b).buffers 1) ((heap true b).inputs 1) =
    .ok [1, 2, 3] := h
  simp only [JsCall.value, this, Res.ok_bind] at h2
  exact ⟨b, hist, t, h1, h2⟩

example : ∃ b, ∃ h₁ h₂ h₃ : JsHeap, ∃ p x u key, splitJs b = .ok p ∧ inst1 (h₁.files 0).wasm = .ok x ∧
    doCalculateWitness smallNums x.toCalcInst false (h₂.inputs 1) x.start = .ok u ∧
    wasmDecap S (h₃.files 0).r1cs (calcWtnsBin (x.exports u)) p.witnessCt = .ok key ∧ decryptGcm S.cipher .js key p.encrypted = .ok [1, 2, 3] := by
  obtain ⟨b, hist, t, h1, h2⟩ := decrypt_call fun _ _ => True
  obtain ⟨h₁, h₂, h₃, -, p, x, u, key, g1, g2, g3, g4, g5⟩ := C67_decrypt_reads 0 0 1 1 h1 [1, 2, 3] h2
  exact ⟨b, h₁, h₂, h₃, p, x, u, key, g1, g2, g3, g4, g5⟩

example : ∃ ct key, ∃ h₁ h₂ h₃ : JsHeap, ∃ x u, inst1 (h₁.files 0).wasm = .ok x ∧
    doCalculateWitness smallNums x.toCalcInst false (h₂.inputs 1) x.start = .ok u ∧
    wasmDecap S (h₃.files 0).r1cs (calcWtnsBin (x.exports u)) (h₃.buffers 1) = .ok key ∧ jsEncap S sqData sym inputs ρ = .ok (ct, key) := by
  obtain ⟨ct, k, hb, -⟩ := js_kem_run
  have h := (C94_js_kem (N := smallNums) S sqData sqData_js sym inputs js_noAlias js_small ρ ct k hb sq_wf sq_priv' sq_small sq_compiled (other 9 ['3'])
    (gives_bound 9 ['3'])).1 ⟨full_ok, js_same⟩
  obtain ⟨hist, t, h1, h2⟩ := undisturbed (fun _ _ => True) (.decap 0 1 1) (heap true ct) _ rfl
  have : jsDecapApi smallNums S ((heap true ct).files 0).r1cs (inst1 ((heap true ct).files 0).wasm) ((heap true ct).buffers 1) ((heap true ct).inputs 1) =
    .ok k := h
  simp only [JsCall.value, this, Res.ok_bind] at h2
  obtain ⟨h₁, h₂, h₃, -, x, u, g1, g2, g3⟩ := C67_decap_reads 0 0 1 1 h1 k h2
  exact ⟨ct, k, h₁, h₂, h₃, x, u, g1, g2, g3, hb⟩

/-- Two calls have been made, the initialiser has failed: both calls can finish. -/
example : ∃ s : JsState, JsReachable smallNums S inst1 s ∧ (∃ hist t, JsSteps smallNums S inst1 Eq s hist t ∧ t.result 0 ≠ none ∧ t.heap = s.heap) ∧
    ∃ hist t, JsSteps smallNums S inst1 Eq s hist t ∧ t.result 7 ≠ none ∧ t.heap = s.heap := by
  let s0 : JsState := .fresh (heap true [])
  let s1 := s0.call smallNums S inst1 0 (.encap 0 0 ρ)
  let s2 := s1.call smallNums S inst1 7 (.encrypt 0 0 0 0 ρ nonce)
  let s3 : JsState := { s2 with init := s2.init.settle false }
  have hr : JsReachable smallNums S inst1 s3 :=
    ⟨heap true [], _, .tail (.tail (.tail (.refl s0) (.call 0 _ rfl)) (.call 7 _ rfl)) (.settle false rfl)⟩
  have hp : s3.init.promise ≠ some .pending := by
    intro h
    cases h
  exact ⟨s3, hr, C67_can_finish hr 0 (.encap 0 0 ρ) rfl hp, C67_can_finish hr 7 (.encrypt 0 0 0 0 ρ nonce) rfl hp⟩

end Ex

end Zkenc.Props
