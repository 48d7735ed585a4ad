import Verif.Model.JsErrors
import Verif.Spec.Container
/-!
# Specification for the reported errors (C97)
-/

namespace Zkenc.ErrorSpec

open Zkenc ContainerSpec

/-- The file does not have the outer format of a combined ciphertext: header, two lengths and the parts. -/
def BrokenFile (b : Bytes) : Prop := ∀ p, ¬ Layout b p ∧ ¬ Overrun b p

/-- A text that contains neither of the words the documented handlers look for. -/
def Plain (s : Str) : Prop := ¬ "Invalid ciphertext".toList <:+: s ∧ ¬ "constraint".toList <:+: s

/-- No text that comes from outside — names of inputs, messages of the circuit program, messages of the JS engine — contains those words. -/
structure PlainTexts {σ : Type} (M : JsTexts) (wasm : Res (CircuitWasm σ)) (inputs : List (Str × JsVal)) : Prop where
  names : ∀ e ∈ inputs, Plain e.1
  engine : ∀ m, Plain (M.engine m)
  load : ∀ m, wasm = .error (.err m) → Plain m.toList
  init : ∀ x s m, wasm = .ok x → x.init false s = .error (.err m) → Plain m.toList
  circuit : ∀ x s l a b i m, wasm = .ok x → x.setInput s l a b i = .error (.err m) → Plain m.toList

end Zkenc.ErrorSpec
