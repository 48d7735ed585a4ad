import Verif.Model.Curve
/-!
# Specification: encodings of BN254 points and of ciphertexts

Numbers are read little-endian. A finite point of the first group is the number `x + s · 2^255`, where `s` says which of the two points
with this `x` is meant (0: the one with the smaller `y`). The identity is any `n + 2^254`, `n < q`. For the second group a coordinate
`a + b u` is the number `a + b · 2^256`, and the marks are `2^511` and `2^510`.
-/

namespace Zkenc.Spec

open Zkenc

/-- `y` is the smaller of `y` and `-y` (`y ≠ 0`), as integers in `0 .. q - 1`. -/
def Low (y : Fq) : Prop := 2 * y.val < fqModulus

/-- The same for pairs, compared by the `u`-part first. -/
def Low2 (y : Fq2) : Prop := if y.im = 0 then Low y.re else Low y.im

/-- The bytes `b` are an encoding of the point of the first group. -/
def IsG1Encoding (b : Bytes) : G1Point → Prop
  | .zero => b.length = 32 ∧ ∃ n < fqModulus, leNat b = n + 2 ^ 254
  | .some x y _ => b.length = 32 ∧ ((Low y ∧ leNat b = x.val) ∨ (¬ Low y ∧ leNat b = x.val + 2 ^ 255))

/-- The bytes `b` are an encoding of the point of the twist. -/
def IsTwistEncoding (b : Bytes) : TwistPoint → Prop
  | .zero => b.length = 64 ∧ ∃ m < fqModulus, ∃ n < fqModulus, leNat b = m + n * 2 ^ 256 + 2 ^ 510
  | .some x y _ => b.length = 64 ∧ ((Low2 y ∧ leNat b = x.re.val + x.im.val * 2 ^ 256) ∨
      (¬ Low2 y ∧ leNat b = x.re.val + x.im.val * 2 ^ 256 + 2 ^ 511))

/-- The bytes `b` are an encoding of the point of the second group. -/
def IsG2Encoding (b : Bytes) (P : G2Point) : Prop := IsTwistEncoding b P.1

/-- The 32 bytes of a public input. -/
def IsFrEncoding (b : Bytes) (x : Fr) : Prop := b.length = 32 ∧ leNat b = x.val

/-- A vector: its length as 8 bytes, then its elements. -/
def IsVecEncoding {α : Type} (elem : Bytes → α → Prop) (b : Bytes) (l : List α) : Prop :=
  ∃ n : Bytes, ∃ es : List Bytes, n.length = 8 ∧ leNat n = l.length ∧ List.Forall₂ elem es l ∧ b = n ++ es.flatten

/-- The bytes of a ciphertext: three points, four vectors of points, the vector of public inputs. -/
def IsCtEncoding (b : Bytes) (ct : Ciphertext Fr G1Point G2Point) : Prop :=
  ∃ a e d u v p h w : Bytes, IsG1Encoding a ct.encapKey.alphaG1 ∧ IsG2Encoding e ct.encapKey.betaG2 ∧
    IsG2Encoding d ct.encapKey.deltaG2 ∧ IsVecEncoding IsG1Encoding u ct.encapKey.rU ∧ IsVecEncoding IsG2Encoding v ct.encapKey.rV ∧
    IsVecEncoding IsG1Encoding p ct.encapKey.phiDelta ∧ IsVecEncoding IsG1Encoding h ct.encapKey.hQuery ∧
    IsVecEncoding IsFrEncoding w ct.publicInputs ∧ b = a ++ e ++ d ++ u ++ v ++ p ++ h ++ w

end Zkenc.Spec
