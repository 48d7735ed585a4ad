import Mathlib.AlgebraicGeometry.EllipticCurve.Affine.Point
import Mathlib.Algebra.QuadraticAlgebra.Basic
import Mathlib.Algebra.Module.ZMod
import Mathlib.NumberTheory.LegendreSymbol.Basic
import Verif.Basic.FqPrime
import Verif.Model.Serialize
/-!
# The points of a ciphertext and their compressed encoding (BN254)

The fields of `EncapKey<E>` (packages/zkenc-core/src/data_structures.rs 17-39) are points `E::G1Affine`, `E::G2Affine`; both tools use
`E = Bn254` (packages/zkenc-cli/src/commands.rs 80, 128, 215, 378; packages/zkenc-js/src/lib.rs 425, 479) and
`serialize_compressed`/`deserialize_compressed`. `Model/Serialize` takes the codecs of the two groups as parameters; here they are written
out after `ark-ec` (`SWCurveConfig::serialize_with_mode`, `deserialize_with_mode`), `ark-serialize` (`SWFlags`), `ark-ff`
(`Fp::serialize_with_flags`, `QuadExtField`) and `ark-bn254`. The group law is Mathlib's.
-/

namespace Zkenc

/-- `ark_bn254::Fq`. -/
abbrev Fq := ZMod fqModulus

instance : Fact fqModulus.Prime := ⟨fqModulus_prime⟩

/-- `-1` is not a square in `Fq` (the modulus is 3 modulo 4), so `Fq[u]/(u² + 1)` is a field. -/
instance fq2_irreducible : Fact (∀ r : Fq, r ^ 2 ≠ (-1 : Fq) + 0 * r) := ⟨by
  intro r h
  have h4 : fqModulus % 4 = 3 := by decide
  have := ZMod.exists_sq_eq_neg_one_iff (p := fqModulus)
  exact absurd (this.1 ⟨r, by rw [← pow_two, h]; ring⟩) (by omega)⟩

/-- `ark_bn254::Fq2` = `Fq[u]/(u² + 1)`; `re`, `im` are `c0`, `c1`. -/
abbrev Fq2 := QuadraticAlgebra Fq (-1) 0

/-- The curve `y² = x³ + b` (`SWCurveConfig` with `COEFF_A = 0`). -/
def swCurve {K : Type} [Field K] (b : K) : WeierstrassCurve.Affine K := ⟨0, 0, 0, 0, b⟩

/-- `ark_serialize::SWFlags`. -/
inductive SWFlag where
  | yPos
  | yNeg
  | inf
deriving DecidableEq

/-- `SWFlags::u8_bitmask`: bit 7 for a negative `y`, bit 6 for the point at infinity. -/
def SWFlag.byte : SWFlag → UInt8
  | .yPos => 0
  | .yNeg => 128
  | .inf => 64

/-- `SWFlags::from_u8`. -/
def SWFlag.ofByte (v : UInt8) : Option SWFlag :=
  match v &&& 128 != 0, v &&& 64 != 0 with
  | true, true => none
  | false, true => some .inf
  | false, false => some .yPos
  | true, false => some .yNeg

/-- The last byte is combined with the flag (`Fp::serialize_with_flags`). -/
def addFlag (b : Bytes) (f : SWFlag) : Bytes := b.dropLast ++ b.getLast?.toList.map (· ||| f.byte)

/-- `SWFlags::from_u8_remove_flags` on the last byte (`Fp::deserialize_with_flags`). -/
def takeFlag (b : Bytes) : Option (Bytes × SWFlag) :=
  b.getLast?.bind fun v => (SWFlag.ofByte v).map fun f => (b.dropLast ++ [v &&& ~~~f.byte], f)

/-- What the point codec needs of the coordinate field. -/
structure CoordField (K : Type) where
  /-- bytes per element -/
  size : Nat
  enc : K → Bytes
  dec : Bytes → Option K
  /-- `Ord` -/
  lt : K → K → Bool

/-- `Fq`: 32 bytes little-endian, values below the modulus, ordered as integers. -/
def fqCoord : CoordField Fq where
  size := 32
  enc x := leBytes 32 x.val
  dec b := if b.length = 32 ∧ leNat b < fqModulus then some ((leNat b : Nat) : Fq) else none
  lt x y := x.val < y.val

/-- `Fq2` (`QuadExtField`): `c0` then `c1`; ordered by `c1`, then `c0`. -/
def fq2Coord : CoordField Fq2 where
  size := 64
  enc x := fqCoord.enc x.re ++ fqCoord.enc x.im
  dec b := (fqCoord.dec (b.take 32)).bind fun re => (fqCoord.dec (b.drop 32)).map fun im => ⟨re, im⟩
  lt x y := if x.im = y.im then fqCoord.lt x.re y.re else fqCoord.lt x.im y.im

section
variable {K : Type} [Field K] [DecidableEq K]

/-- `Affine::to_flags`: `YIsPositive` if `y ≤ -y`. -/
def yFlag (c : CoordField K) (y : K) : SWFlag := if c.lt (-y) y then .yNeg else .yPos

/-- `SWCurveConfig::serialize_with_mode`, compressed: `x` with the flags; the identity has `x = 0` and the infinity flag. -/
def swEnc (c : CoordField K) (b : K) : (swCurve b).Point → Bytes
  | .zero => addFlag (c.enc 0) .inf
  | .some x y _ => addFlag (c.enc x) (yFlag c y)

open Classical in
/-- `Field::sqrt`: some square root. Which of the two does not matter, both are sorted afterwards. -/
noncomputable def fieldSqrt (a : K) : Option K := if h : ∃ y, y ^ 2 = a then some h.choose else none

/-- `Affine::get_ys_from_x_unchecked`: the two roots, the smaller first. -/
noncomputable def swRoots (c : CoordField K) (b x : K) : Option (K × K) :=
  (fieldSqrt (x ^ 3 + b)).map fun y => if c.lt y (-y) then (y, -y) else (-y, y)

open Classical in
/-- The point `(x, y)` if it is on the curve (`Affine::check`, first part). -/
noncomputable def swPoint (b x y : K) : Option (swCurve b).Point :=
  if h : (swCurve b).Nonsingular x y then some (.some x y h) else none

/-- `SWCurveConfig::deserialize_with_mode`, compressed, validated, without the subgroup check. With the infinity flag the coordinate
must still be a valid field element but is otherwise ignored. -/
noncomputable def swDec (c : CoordField K) (b : K) (bytes : Bytes) : Option (swCurve b).Point :=
  (takeFlag bytes).bind fun p =>
  (c.dec p.1).bind fun x =>
  match p.2 with
  | .inf => some .zero
  | .yPos => (swRoots c b x).bind fun ys => swPoint b x ys.1
  | .yNeg => (swRoots c b x).bind fun ys => swPoint b x ys.2
end

/-! ## The two groups -/

/-- `ark_bn254::G1Affine`: `y² = x³ + 3` over `Fq`. The cofactor is 1: all points of the curve. -/
abbrev G1Point := (swCurve (3 : Fq)).Point

/-- `COEFF_B` of `ark_bn254::g2`: `3/(u + 9)`. -/
def g2CoeffB : Fq2 :=
  ⟨19485874751759354771024239261021720505790618469301721065564631296452457478373,
   266929791119991161246907387137283842545076965332900288569378510910307636690⟩

/-- The points of the twist `y² = x³ + 3/(u + 9)` over `Fq2`. -/
abbrev TwistPoint := (swCurve g2CoeffB).Point

/-- The subgroup of the points `P` of the twist with `r · P = 0`. -/
def g2Subgroup : AddSubgroup TwistPoint := (nsmulAddMonoidHom frModulus).ker

theorem mem_g2Subgroup (P : TwistPoint) : P ∈ g2Subgroup ↔ frModulus • P = 0 := Iff.rfl

/-- `ark_bn254::G2Affine`: the points of the twist whose order divides the group order. The library tests this with an endomorphism
(`is_in_correct_subgroup_assuming_on_curve`); the model multiplies by the group order. -/
abbrev G2Point : Type := g2Subgroup

/-- Compressed `G1Affine`. -/
noncomputable def g1Dec (b : Bytes) : Option G1Point := if b.length = 32 then swDec fqCoord 3 b else none

/-- Compressed `G1Affine`. -/
def g1Enc (P : G1Point) : Bytes := swEnc fqCoord 3 P

open Classical in
/-- Compressed `G2Affine`, with the subgroup check. -/
noncomputable def g2Dec (b : Bytes) : Option G2Point :=
  if b.length = 64 then (swDec fq2Coord g2CoeffB b).bind fun P => if h : frModulus • P = 0 then some ⟨P, (mem_g2Subgroup P).2 h⟩ else none else none

/-- Compressed `G2Affine`. -/
def g2Enc (P : G2Point) : Bytes := swEnc fq2Coord g2CoeffB P.1

end Zkenc
