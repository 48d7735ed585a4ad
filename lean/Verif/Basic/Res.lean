/-!
# Outcomes

Rust `Result`, panics and non-terminating loops, TypeScript exceptions.
-/

namespace Zkenc

/-- How a call can fail to return a value.
* `err msg` — `Err(..)` / `bail!` / a thrown JS `Error`; `msg` is the message (context prefixes dropped);
* `panic`   — Rust panic (index out of bounds, `expect`, capacity overflow; a wasm trap seen from JS);
* `hang`    — the loop provably never terminates. -/
inductive Fault where
  | err (msg : String)
  | panic
  | hang
  deriving DecidableEq, Repr

/-- Outcome of a fallible call. -/
abbrev Res (α : Type) := Except Fault α

namespace Res

/-- An ordinary (reported) error. -/
def fail {α : Type} (msg : String) : Res α := .error (.err msg)

/-- A panic. -/
def panic {α : Type} : Res α := .error .panic

/-- `Option` to `Result` with message: `.ok_or` / `.context`. -/
def ofOption {α : Type} (o : Option α) (msg : String) : Res α :=
  match o with
  | some a => .ok a
  | none => fail msg

@[simp] theorem ok_bind {α β : Type} (a : α) (f : α → Res β) :
    (Except.ok a >>= f : Res β) = f a := rfl

@[simp] theorem error_bind {α β : Type} (e : Fault) (f : α → Res β) :
    (Except.error e >>= f : Res β) = .error e := rfl

@[simp] theorem fail_bind {α β : Type} (m : String) (f : α → Res β) :
    (fail m >>= f : Res β) = fail m := rfl

@[simp] theorem pure_eq {α : Type} (a : α) : (pure a : Res α) = .ok a := rfl

theorem bind_eq_ok {α β : Type} {r : Res α} {f : α → Res β} {b : β} :
    (r >>= f) = .ok b ↔ ∃ a, r = .ok a ∧ f a = .ok b := by
  cases r with
  | error e => simp
  | ok a => simp

end Res

/-- The outcome is a value or a reported error: no panic, no hang. -/
def Graceful {α : Type} (r : Res α) : Prop := r ≠ .error .panic ∧ r ≠ .error .hang

namespace Graceful

theorem ok {α : Type} (a : α) : Graceful (.ok a : Res α) := by
  constructor <;> simp

theorem fail {α : Type} (m : String) : Graceful (Res.fail m : Res α) := by
  constructor <;> simp [Res.fail]

theorem err {α : Type} (m : String) : Graceful (.error (.err m) : Res α) := by
  constructor <;> simp

theorem bind {α β : Type} {r : Res α} {f : α → Res β} (h : Graceful r)
    (hf : ∀ a, r = .ok a → Graceful (f a)) : Graceful (r >>= f) := by
  cases r with
  | ok a => simpa using hf a rfl
  | error e => simpa [Graceful] using h

theorem ofOption {α : Type} (o : Option α) (m : String) : Graceful (Res.ofOption o m) := by
  cases o with
  | none => exact Graceful.fail m
  | some a => exact Graceful.ok a

end Graceful

end Zkenc
