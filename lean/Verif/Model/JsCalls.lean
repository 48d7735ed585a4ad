import Verif.Model.WasmInit
import Verif.Model.Witness
/-!
# Concurrent calls of the JavaScript API on shared objects — `packages/zkenc-js/src/zkenc.ts`

An `async` function runs in synchronous segments, separated by `await`s; between two segments other calls and the user's own code run, and
the user's code may change the objects it passed as arguments. The functions keep references to their arguments and read them when a
segment needs them. Nothing in zkenc.ts, witness.ts and crypto.ts writes to an argument, and the only state shared by calls is that of
`ensureWasmInit` (`Model/WasmInit`).
-/

namespace Zkenc

/-- Contents of a `circuitFiles` object (zkenc.ts 44-59). -/
structure JsFiles where
  r1cs : Bytes
  sym : Str
  wasm : Bytes

/-- The user's objects that can be passed as arguments, by reference number. Simplification: the buffers in a `circuitFiles` object are part of
it. -/
structure JsHeap where
  files : Nat → JsFiles
  inputs : Nat → List (Str × JsVal)
  buffers : Nat → Bytes
  /-- `includePublicInput` of an options object, with its default (zkenc.ts 315). -/
  options : Nat → Bool

/-- A call of one of the four asynchronous functions; arguments are references. The randomness of the call is part of it. -/
inductive JsCall where
  | encap (files inputs : Nat) (ρ : Rand Fr)
  | decap (files ciphertext inputs : Nat)
  | encrypt (files inputs message options : Nat) (ρ : Rand Fr) (nonce : Bytes)
  | decrypt (files ciphertext inputs : Nat)

/-- What a call has still to do: the next segment sees the objects as they are when it runs. -/
inductive JsCode where
  | await (k : JsHeap → JsCode)
  | done (r : Res (List Bytes))

/-- An exception ends the call. -/
def JsCode.lift {α : Type} (r : Res α) (k : α → JsCode) : JsCode :=
  match r with
  | .ok a => k a
  | .error e => .done (.error e)

section
variable {σ : Type} (N : JsNums) {G1 G2 GT : Type} [AddCommGroup G1] [Module Fr G1] [AddCommGroup G2] [Module Fr G2] [AddCommGroup GT]
  [Module Fr GT] (S : Sys G1 G2 GT) (inst : Bytes → Res (CircuitWasm σ))

/-- `encap` behind `await ensureWasmInit()` (zkenc.ts 87-121): one segment. -/
def encapCode (f i : Nat) (ρ : Rand Fr) (k : Bytes × Bytes → JsCode) : JsCode :=
  .await fun h => .lift (jsEncap S (h.files f).r1cs (h.files f).sym (h.inputs i) ρ) k

/-- `decap` behind `await ensureWasmInit()` (zkenc.ts 255-264). `ct` is how the ciphertext is found when it is needed. `WebAssembly.compile`
copies the code when it is called (witness_calculator.ts 233); the inputs are read after two more `await`s
(witness_calculator.ts 226-312, witness.ts 27-31); the circuit and the ciphertext after the witness has been calculated
(zkenc.ts 262). `inst` is the outcome of compiling and instantiating. -/
def decapCode (f i : Nat) (ct : JsHeap → Bytes) (k : Bytes → JsCode) : JsCode :=
  .await fun h₁ =>
  .await fun _ =>
  .lift (inst (h₁.files f).wasm) fun x =>
  .await fun h₃ =>
  .lift (doCalculateWitness N x.toCalcInst false (h₃.inputs i) x.start) fun t =>
  .await fun h₄ =>
  .lift (wasmDecap S (h₄.files f).r1cs (calcWtnsBin (x.exports t)) (ct h₄)) k

/-- The first segment of a call, up to `await ensureWasmInit()`: an exception, or the code behind it. -/
def JsCall.start (a : JsCall) (h : JsHeap) : Res JsCode :=
  match a with
  | .encap f i ρ => .ok (encapCode S f i ρ fun ck => .done (.ok [ck.1, ck.2]))
  | .decap f c i => .ok (decapCode N S inst f i (fun h => h.buffers c) fun key => .done (.ok [key]))
  -- zkenc.ts 315-379: the message is read behind `import` and `importKey` (321, crypto.ts 24), the inputs again after the encryption (327)
  | .encrypt f i m o ρ nonce => .ok (
      let includePublicInput := h.options o
      encapCode S f i ρ fun ck =>
      .await fun _ =>
      .await fun h₃ =>
      .lift (encryptGcm S.cipher .js ck.2 nonce (h₃.buffers m)) fun enc =>
      .await fun h₄ =>
      .lift (if includePublicInput then S.stringify (h₄.inputs i) >>= fun s => .ok (utf8Enc s) else .ok []) fun pub =>
      .done (.ok [combine includePublicInput ck.1 pub enc, ck.2]))
  -- zkenc.ts 411-455: the parts of the container are copied before the first `await`
  | .decrypt f c i =>
      splitJs (h.buffers c) >>= fun p =>
      .ok (decapCode N S inst f i (fun _ => p.witnessCt) fun key =>
        .await fun _ =>
        .lift (decryptGcm S.cipher .js key p.encrypted) fun m =>
        .done (.ok [m]))

/-- The function called on the values its arguments have now (the functions of `Model/Api`, `Model/Witness`). -/
def JsCall.value (a : JsCall) (h : JsHeap) : Res (List Bytes) :=
  match a with
  | .encap f i ρ => jsEncap S (h.files f).r1cs (h.files f).sym (h.inputs i) ρ >>= fun ck => .ok [ck.1, ck.2]
  | .decap f c i => jsDecapApi N S (h.files f).r1cs (inst (h.files f).wasm) (h.buffers c) (h.inputs i) >>= fun key => .ok [key]
  | .encrypt f i m o ρ nonce =>
      jsEncrypt S (h.files f).r1cs (h.files f).sym (h.inputs i) (h.buffers m) (h.options o) ρ nonce >>= fun ck => .ok [ck.1, ck.2]
  | .decrypt f c i => jsDecryptApi N S (h.files f).r1cs (inst (h.files f).wasm) (h.buffers c) (h.inputs i) >>= fun m => .ok [m]

end

/-- Two states of the objects are the same for the arguments of a call. -/
def JsCall.SameArgs (a : JsCall) (h h' : JsHeap) : Prop :=
  match a with
  | .encap f i _ => h.files f = h'.files f ∧ h.inputs i = h'.inputs i
  | .decap f c i => h.files f = h'.files f ∧ h.buffers c = h'.buffers c ∧ h.inputs i = h'.inputs i
  | .encrypt f i m o _ _ => h.files f = h'.files f ∧ h.inputs i = h'.inputs i ∧ h.buffers m = h'.buffers m ∧ h.options o = h'.options o
  | .decrypt f c i => h.files f = h'.files f ∧ h.buffers c = h'.buffers c ∧ h.inputs i = h'.inputs i

/-- The state of the program: initialisation of the wasm module, the user's objects, the calls made so far and what they have still to do. -/
structure JsState where
  init : InitState
  heap : JsHeap
  calls : Nat → Option JsCall
  code : Nat → JsCode

/-- Before the first call. -/
def JsState.fresh (h : JsHeap) : JsState := ⟨InitState.start, h, fun _ => none, fun _ => .done (Res.fail "not called")⟩

/-- Set what call `c` has still to do. -/
def JsState.setCode (s : JsState) (c : Nat) (k : JsCode) : JsState := { s with code := fun d => if d = c then k else s.code d }

/-- The result with which the promise of call `c` is settled, if it is. -/
def JsState.result (s : JsState) (c : Nat) : Option (Res (List Bytes)) :=
  match s.calls c, s.code c with
  | some _, .done r => some r
  | _, _ => none

/-- What a call that could not initialise the wasm module throws. -/
def initError : Res (List Bytes) := Res.fail "WASM initialization failed"

section
variable {σ : Type} (N : JsNums) {G1 G2 GT : Type} [AddCommGroup G1] [Module Fr G1] [AddCommGroup G2] [Module Fr G2] [AddCommGroup GT]
  [Module Fr GT] (S : Sys G1 G2 GT) (inst : Bytes → Res (CircuitWasm σ))

/-- Call number `c` is made with arguments `a`: its first segment runs at once. -/
def JsState.call (s : JsState) (c : Nat) (a : JsCall) : JsState :=
  let s := { s with calls := fun d => if d = c then some a else s.calls d }
  match a.start N S inst s.heap with
  | .error e => s.setCode c (.done (.error e))
  | .ok k => { s.setCode c k with init := s.init.enter c }

/-- One step of the program. The user's code may change its objects as `allowed` says. -/
inductive JsStep (allowed : JsHeap → JsHeap → Prop) : JsState → JsState → Prop
  | call {s} (c : Nat) (a : JsCall) (h : s.calls c = none) : JsStep allowed s (s.call N S inst c a)
  | settle {s : JsState} (ok : Bool) (h : s.init.promise = some .pending) : JsStep allowed s { s with init := s.init.settle ok }
  | resume {s : JsState} {c} (h : s.init.pc c = .waiting) (hp : s.init.promise = some .resolved) :
      JsStep allowed s { s with init := s.init.move c .returned }
  | reject {s : JsState} {c} (h : s.init.pc c = .waiting) (hp : s.init.promise = some .rejected) :
      JsStep allowed s { s with init := s.init.move c .threw }
  | go {s : JsState} {c} (h : s.init.pc c = .returned) : JsStep allowed s { s with init := s.init.move c .running }
  | stop {s : JsState} {c} (h : s.init.pc c = .threw) :
      JsStep allowed s { s.setCode c (.done initError) with init := s.init.move c .failed }
  | segment {s : JsState} {c} {k : JsHeap → JsCode} (h : s.init.pc c = .running) (hk : s.code c = .await k) :
      JsStep allowed s (s.setCode c (k s.heap))
  | user {s : JsState} (h' : JsHeap) (h : allowed s.heap h') : JsStep allowed s { s with heap := h' }

/-- Executions from one state to another; the list is the history of the user's objects: their first state and their state after every step. -/
inductive JsSteps (allowed : JsHeap → JsHeap → Prop) : JsState → List JsHeap → JsState → Prop
  | refl (s : JsState) : JsSteps allowed s [s.heap] s
  | tail {s hist t u} : JsSteps allowed s hist t → JsStep N S inst allowed t u → JsSteps allowed s (hist ++ [u.heap]) u

/-- States of a program whose code may do anything to its objects. -/
def JsReachable (s : JsState) : Prop := ∃ h hist, JsSteps N S inst (fun _ _ => True) (.fresh h) hist s

end

end Zkenc
