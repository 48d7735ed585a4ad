import Mathlib.Algebra.Module.LinearMap.Basic
import Mathlib.Algebra.Module.LinearMap.End
import Verif.Basic.Bytes
import Verif.Model.Qap
/-!
# The witness KEM — `packages/zkenc-core/src/algorithm.rs`, `data_structures.rs`
-/

namespace Zkenc

/-- `Key([u8; 32])` (data_structures.rs 53-65). -/
structure Key where
  bytes : Bytes
  len : bytes.length = 32

theorem Key.ext {a b : Key} (h : a.bytes = b.bytes) : a = b := by
  cases a; cases b; simp_all

instance : DecidableEq Key := fun a b =>
  if h : a.bytes = b.bytes then isTrue (Key.ext h) else isFalse (fun e => h (e ▸ rfl))

/-- A pairing-friendly setting `E: Pairing`.  Groups are written additively (as in arkworks); affine and
projective representations of a point are identified.  `kdf` is
`blake3::hash(s.serialize_compressed())` (algorithm.rs 200-210, 359-368), an arbitrary function here. -/
structure Pairing (F G1 G2 GT : Type) [Field F] [AddCommGroup G1] [Module F G1]
    [AddCommGroup G2] [Module F G2] [AddCommGroup GT] [Module F GT] where
  g1 : G1
  g2 : G2
  e : G1 →ₗ[F] G2 →ₗ[F] GT
  kdf : GT → Key

/-- `EncapKey<E>` (data_structures.rs 17-39). -/
structure EncapKey (G1 G2 : Type) where
  alphaG1 : G1
  betaG2 : G2
  deltaG2 : G2
  rU : List G1
  rV : List G2
  phiDelta : List G1
  hQuery : List G1

/-- `Ciphertext<E>` (data_structures.rs 43-49). -/
structure Ciphertext (F G1 G2 : Type) where
  encapKey : EncapKey G1 G2
  publicInputs : List F

/-- The five scalars sampled by `encap` (algorithm.rs 96-100). -/
structure Rand (F : Type) where
  alpha : F
  beta : F
  delta : F
  r : F
  x : F

section
variable {F G1 G2 GT : Type} [Field F] [AddCommGroup G1] [Module F G1]
  [AddCommGroup G2] [Module F G2] [AddCommGroup GT] [Module F GT]

/-- `VariableBaseMSM::msm(bases, scalars)`: error when the lengths differ (algorithm.rs 188, 298, 321, 344). -/
def msm {G : Type} [AddCommGroup G] [Module F G] (bases : List G) (scalars : List F) : Res G :=
  if bases.length = scalars.length then .ok ((List.zipWith (fun b s => s • b) bases scalars).sum)
  else Res.fail "SerializationError"

/-- The loop at algorithm.rs 290-295 (also 313-318, 336-341): keep the assignment entries that have a query element. -/
def selectQuery {G : Type} (assignment : List F) (query : List G) : List G × List F :=
  (query.take assignment.length, assignment.take query.length)

/-- `encap` (algorithm.rs 47-216).  Randomness is an explicit argument.  The Rust loop 124-133 evaluates
`delta.inverse().expect(..)` in every iteration, so it panics iff `delta = 0` and the loop body runs. -/
def encap [DecidableEq F] (P : Pairing F G1 G2 GT) (dom : Domains F) (circuit : Circuit F) (ρ : Rand F) :
    Res (Ciphertext F G1 G2 × Key) :=
  -- Step 1 (57-68): the synthesis result is ignored
  let cs := (circuit (CS.new F)).1
  -- Step 2 (79-90): skip the constant 1
  let publicInputs := cs.inst.drop 1
  -- Step 4 (106-133)
  let ev := evaluateQap dom cs ρ.x
  let m := cs.numVars
  if m ≠ 0 ∧ ρ.delta = 0 then .error .panic else
  let u := fun i => ev.1.getD i 0
  let v := fun i => ev.2.1.getD i 0
  let w := fun i => ev.2.2.getD i 0
  let rU := (List.range m).map fun i => (ρ.r * u i) • P.g1
  let rV := (List.range m).map fun i => (ρ.r * v i) • P.g2
  let phiDelta := (List.range m).map fun i =>
    ((ρ.r * ρ.beta * u i + ρ.r * ρ.alpha * v i + ρ.r * ρ.r * w i) * ρ.delta⁻¹) • P.g1
  let ct : Ciphertext F G1 G2 :=
    { encapKey :=
        { alphaG1 := ρ.alpha • P.g1, betaG2 := ρ.beta • P.g2, deltaG2 := ρ.delta • P.g2,
          rU := rU, rV := rV, phiDelta := phiDelta, hQuery := [] }
      publicInputs := publicInputs }
  -- Step 5 (168-197): constant 1 at index 0, then public inputs
  let sel := selectQuery (1 :: publicInputs) phiDelta
  (if sel.1.isEmpty then .ok (P.g1 - P.g1) else msm sel.1 sel.2) >>= fun phiSum =>
  let s := P.e ct.encapKey.alphaG1 ct.encapKey.betaG2 + P.e phiSum P.g2
  .ok (ct, P.kdf s)

/-- `decap` (algorithm.rs 226-374). -/
def decap [DecidableEq F] (P : Pairing F G1 G2 GT) (circuit : Circuit F) (ct : Ciphertext F G1 G2) : Res Key :=
  -- Step 1 (235-245)
  match circuit (CS.new F) with
  | (_, .error _) => Res.fail "SynthesisError"
  | (cs, .ok ()) =>
  if cs.isSatisfied = false then Res.fail "InvalidWitness" else
  -- Step 2 (251-262)
  let full := cs.inst ++ cs.wit
  -- 271-281
  if full.length < 1 + ct.publicInputs.length then Res.fail "InvalidPublicInputs" else
  if (full.drop 1).take ct.publicInputs.length ≠ ct.publicInputs then Res.fail "InvalidPublicInputs" else
  -- Step 3 (287-304)
  let selA := selectQuery full ct.encapKey.rU
  if selA.1.isEmpty then Res.fail "InvalidWitness" else
  msm selA.1 selA.2 >>= fun aSum =>
  let aPoint := ct.encapKey.alphaG1 + aSum
  -- Step 4 (310-327)
  let selB := selectQuery full ct.encapKey.rV
  if selB.1.isEmpty then Res.fail "InvalidWitness" else
  msm selB.1 selB.2 >>= fun bSum =>
  let bPoint := ct.encapKey.betaG2 + bSum
  -- Step 5 (333-347)
  let selC := selectQuery full ct.encapKey.phiDelta
  if selC.1.isEmpty then Res.fail "InvalidWitness" else
  msm selC.1 selC.2 >>= fun cPoint =>
  -- Step 6-7 (354-368)
  .ok (P.kdf (P.e aPoint bPoint - P.e cPoint ct.encapKey.deltaG2))

/-- `verify_ciphertext` (algorithm.rs 384-415): length check, then element-wise comparison. -/
def verifyCiphertext [DecidableEq F] (ct : Ciphertext F G1 G2) (expected : List F) : Bool :=
  if ct.publicInputs.length ≠ expected.length then false
  else (ct.publicInputs.zip expected).all fun t => decide (t.1 = t.2)

end

end Zkenc
