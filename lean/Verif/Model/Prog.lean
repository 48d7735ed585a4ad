import Verif.Model.CS
/-!
# Programs against the constraint-system API

`encap`/`decap` take any `ConstraintSynthesizer` (algorithm.rs 47-52, 226-229).  `Prog` is the type of such
synthesizers: they can allocate variables, enforce constraints, inspect the system and stop with a result.
-/

namespace Zkenc

/-- A synthesizer (algorithm.rs 47-52: `C: ConstraintSynthesizer<E::ScalarField>`), as a tree of API calls. -/
inductive Prog (F : Type) where
  | done (r : Except SynthErr Unit)
  | input (v : Option F) (k : Except SynthErr Var → Prog F)
  | witness (v : Option F) (k : Except SynthErr Var → Prog F)
  | enforce (c : Cstr F) (k : Prog F)
  | inspect (k : CS F → Prog F)

/-- `circuit.generate_constraints(cs)` for such a synthesizer (algorithm.rs 58, 236). -/
def Prog.run {F : Type} : Prog F → Circuit F
  | .done r, cs => (cs, r)
  | .input v k, cs => (k (cs.newInput v).2).run (cs.newInput v).1
  | .witness v k, cs => (k (cs.newWitness v).2).run (cs.newWitness v).1
  | .enforce c k, cs => k.run (cs.enforce c)
  | .inspect k, cs => (k cs).run cs

end Zkenc
