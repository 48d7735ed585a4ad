import Mathlib.Logic.Relation
/-!
# Initialisation of the wasm module under concurrent calls — `packages/zkenc-js/src/zkenc.ts` 15-29

JavaScript runs one synchronous segment at a time: code between two `await`s is never interrupted. The state is the two module
variables, the state of the promise object they refer to, and where every API call stands. Each API function (`encap`, and through it
`encrypt`; `decap`, and through it `decrypt`) starts with `await ensureWasmInit()` (zkenc.ts 85, 253).

Every segment below is one atomic step; the scheduler picks the next step freely.
-/

namespace Zkenc

/-- State of a promise. -/
inductive PromiseState where
  | pending
  | resolved
  | rejected
  deriving DecidableEq

/-- Where a call stands with respect to `await ensureWasmInit()`. -/
inductive CallPc where
  /-- The API function has not been called yet. -/
  | idle
  /-- `ensureWasmInit` is suspended at `await wasmInitPromise` (zkenc.ts 27). -/
  | waiting
  /-- `ensureWasmInit` returned; the caller is about to be resumed. -/
  | returned
  /-- `ensureWasmInit` threw; the caller is about to be resumed with the exception. -/
  | threw
  /-- The API function runs the code behind `await ensureWasmInit()`. -/
  | running
  /-- The API function's own promise is rejected because initialisation failed. -/
  | failed
  deriving DecidableEq

/-- The module variables `wasmInitialized`, `wasmInitPromise` (zkenc.ts 16-17), the number of calls of the initializer `wasmInit`
(zkenc.ts 23) so far, and all API calls. -/
structure InitState where
  initialized : Bool
  promise : Option PromiseState
  invocations : Nat
  pc : Nat → CallPc

/-- Module load (zkenc.ts 16-17). -/
def InitState.start : InitState := ⟨false, none, 0, fun _ => .idle⟩

/-- Move call `c`. -/
def InitState.move (s : InitState) (c : Nat) (p : CallPc) : InitState := { s with pc := fun d => if d = c then p else s.pc d }

/-- The first synchronous segment of `ensureWasmInit` (zkenc.ts 20-27), run when call `c` starts: up to its first `await` or its end.
The inner function starts immediately and calls `wasmInit` once (zkenc.ts 22-23); if `wasmInit` throws synchronously the promise is
rejected, which is a later `settle` step here. -/
def InitState.enter (s : InitState) (c : Nat) : InitState :=
  if !s.initialized then
    let s := match s.promise with
      | none => { s with promise := some .pending, invocations := s.invocations + 1 }
      | some _ => s
    s.move c .waiting
  else s.move c .returned

/-- The initializer finishes: the second segment of the inner function (zkenc.ts 23-24) on success, rejection otherwise. -/
def InitState.settle (s : InitState) (ok : Bool) : InitState :=
  if ok then { s with initialized := true, promise := some .resolved } else { s with promise := some .rejected }

/-- One step. -/
inductive InitStep : InitState → InitState → Prop
  /-- A new API call starts. -/
  | call {s c} (h : s.pc c = .idle) : InitStep s (s.enter c)
  /-- The pending initializer finishes, successfully or not. -/
  | settle {s} (ok : Bool) (h : s.promise = some .pending) : InitStep s (s.settle ok)
  /-- `await wasmInitPromise` of a waiting call resumes, `ensureWasmInit` returns or throws (zkenc.ts 27-29). -/
  | resume {s c} (h : s.pc c = .waiting) (hp : s.promise = some .resolved) : InitStep s (s.move c .returned)
  | reject {s c} (h : s.pc c = .waiting) (hp : s.promise = some .rejected) : InitStep s (s.move c .threw)
  /-- `await ensureWasmInit()` of the API function resumes (zkenc.ts 85, 253). -/
  | go {s c} (h : s.pc c = .returned) : InitStep s (s.move c .running)
  | stop {s c} (h : s.pc c = .threw) : InitStep s (s.move c .failed)

/-- Any schedule. -/
abbrev InitSteps := Relation.ReflTransGen InitStep

/-- States that some schedule reaches. -/
def InitReachable (s : InitState) : Prop := InitSteps InitState.start s

end Zkenc
