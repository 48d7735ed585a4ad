import Verif.Spec.EndToEnd
/-!
# Specification: the circuits of the quick-start guides

`docs/docs/getting-started/zkenc-cli.md` 38-53, `docs/docs/getting-started/zkenc-js.md` 193-211, `docs/docs/guides/intro.md` 93-104: two inputs
`publicValue`, `privateValue` and one output `result <== publicValue + privateValue`. `docs/docs/guides/nodejs-integration.md` 75-89: the same with
`result === 100` and `component main {public [publicValue]}`.

circom numbers the wires of the main component: outputs first, then public inputs, then private inputs. Without `{public [...]}` every input is
private.
-/

namespace Zkenc.Spec

open Zkenc Zkenc.InputSpec

/-- `r` is a compiled quick-start circuit: one output on wire 1, the two inputs on wires 2 and 3, at most one of them declared public; the constraints say that
the output is the sum of the inputs and, in the guide for Node.js, that it is `total`. -/
structure QuickStart (r : R1csFile) (total : Option Fr) : Prop where
  nPubOut : r.nPubOut = 1
  nPubIn : r.nPubIn ≤ 1
  nWires : r.nWires = 4
  constraints : ∀ val : Nat → Fr, val 0 = 1 → (Satisfies r.constraints val ↔ val 1 = val 2 + val 3 ∧ ∀ t, total = some t → val 1 = t)

/-- Its symbol table. -/
def QuickStartSymbols (symtab : AMap Nat) : Prop :=
  ∀ name i, Resolves symtab none name i ↔ (name, i) ∈ [("result".toList, 1), ("publicValue".toList, 2), ("privateValue".toList, 3)]

/-- The two numbers solve the circuit. -/
def Solves (total : Option Fr) (publicValue privateValue : Fr) : Prop := ∀ t, total = some t → publicValue + privateValue = t

end Zkenc.Spec
