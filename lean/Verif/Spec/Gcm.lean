import Mathlib.RingTheory.AdjoinRoot
import Mathlib.Algebra.Field.ZMod
import Verif.Basic.Bytes
/-!
# Specification: the field and the hash of GCM (NIST SP 800-38D)
-/

namespace Zkenc.GcmSpec

open Polynomial

/-- The polynomial of GCM over the field with two elements. -/
@[irreducible] noncomputable def gcmPoly : (ZMod 2)[X] := X ^ 128 + X ^ 7 + X ^ 2 + X + 1

/-- GF(2^128). -/
noncomputable abbrev GF128 : Type := AdjoinRoot gcmPoly

/-- The element of a block of at most 16 bytes, missing bytes being zero: the coefficient of `x^(8i+j)` is bit `j` of byte `i`, counted from the most
significant bit. -/
noncomputable def elem (b : Bytes) : GF128 :=
  ∑ n ∈ Finset.range 128, if (b.getD (n / 8) 0).toNat.testBit (7 - n % 8) then (AdjoinRoot.root gcmPoly) ^ n else 0

/-- Number of blocks of a byte string, the last one possibly incomplete. -/
def nBlocks (b : Bytes) : Nat := (b.length + 15) / 16

/-- Block `i`. -/
def block (b : Bytes) (i : Nat) : Bytes := (b.drop (16 * i)).take 16

/-- The last block: the lengths in bits of the associated data (none) and of the ciphertext. -/
def lengthBlock (ct : Bytes) : Bytes := List.replicate 8 0 ++ beBytes 8 (8 * ct.length)

/-- The hash of a ciphertext, as a polynomial in the hash key `h`. -/
noncomputable def ghash (h : GF128) (ct : Bytes) : GF128 :=
  ∑ i ∈ Finset.range (nBlocks ct), elem (block ct i) * h ^ (nBlocks ct + 1 - i) + elem (lengthBlock ct) * h

end Zkenc.GcmSpec
