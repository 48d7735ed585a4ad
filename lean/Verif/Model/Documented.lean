import Verif.Model.Prog
import Verif.Model.Serialize
/-!
# What the API reference shows — `docs/docs/api/zkenc-core.md`, `zkenc-js.md`, `zkenc-cli.md`
-/

namespace Zkenc

/-- `SimpleCircuit::generate_constraints` (docs/docs/api/zkenc-core.md 253-286): a public and a private `u64`, whose sum is 165. The constants
`1` are those of `lc!() + var`. -/
def simpleCircuit (pubInput privInput : Option Nat) : Prog Fr :=
  .input (pubInput.map fun n => (n : Fr)) fun
    | .error e => .done (.error e)
    | .ok p => .witness (privInput.map fun n => (n : Fr)) fun
      | .error e => .done (.error e)
      | .ok w => .enforce ⟨[(1, p), (1, w)], [(1, .one)], [((165 : Nat), .one)]⟩ (.done (.ok ()))

/-- The combined ciphertext as documented (docs/docs/api/zkenc-js.md 66, 99-107; built by hand from two files in docs/docs/api/zkenc-cli.md 439-440):
length of the witness ciphertext, witness ciphertext, encrypted message. -/
def documentedCombine (witnessCt encrypted : Bytes) : Bytes := u32be witnessCt.length ++ (witnessCt ++ encrypted)

end Zkenc
