import Mathlib.Data.ZMod.Basic
import Mathlib.Algebra.Field.ZMod
import Verif.Basic.FrPrime
import Verif.Basic.Reader
import Verif.Model.Wkem
/-!
# Canonical serialization (`ark_serialize`, compressed) of ciphertexts and field elements

`#[derive(CanonicalSerialize, CanonicalDeserialize)]` on `EncapKey`, `Ciphertext`, `Key`
(packages/zkenc-core/src/data_structures.rs 16-54): fields in declaration order, `Vec` as a `u64` little-endian
length followed by the elements, arrays as their elements.
-/

namespace Zkenc

/-- The BN254 scalar field `ark_bn254::Fr`. -/
abbrev Fr := ZMod frModulus

instance : Fact frModulus.Prime := ⟨frModulus_prime⟩

/-- A fixed-size codec (compressed points; field elements).  For curve points the functions are parameters of the
model with these two laws; `dec` includes the curve and subgroup checks.  No canonicity is assumed. -/
structure Codec (α : Type) where
  size : Nat
  enc : α → Bytes
  dec : Bytes → Option α
  enc_len : ∀ a, (enc a).length = size
  dec_enc : ∀ a, dec (enc a) = some a

/-- `Fr::serialize_compressed` = `serialize_uncompressed`: 32 bytes little-endian
(packages/zkenc-cli/src/commands.rs 80; zkenc-js lib.rs 425). -/
def frEnc (x : Fr) : Bytes := leBytes 32 x.val

/-- `Fr::deserialize_(un)compressed` on exactly 32 bytes: rejected unless below the modulus
(packages/zkenc-cli/src/witness.rs 128). -/
def frDec (b : Bytes) : Option Fr :=
  if b.length = 32 ∧ leNat b < frModulus then some ((leNat b : Nat) : Fr) else none

theorem frModulus_lt : frModulus < 256 ^ 32 := by decide

theorem frDec_frEnc (x : Fr) : frDec (frEnc x) = some x := by
  have h : x.val < frModulus := ZMod.val_lt x
  have h2 : leNat (frEnc x) = x.val := leNat_leBytes_of_lt (Nat.lt_trans h frModulus_lt)
  unfold frDec
  rw [if_pos ⟨by simp [frEnc], by rw [h2]; exact h⟩, h2, ZMod.natCast_zmod_val]

/-- The field-element codec. -/
def frCodec : Codec Fr :=
  { size := 32, enc := frEnc, dec := frDec, enc_len := fun x => by simp [frEnc], dec_enc := frDec_frEnc }

/-- Read one element. -/
def readElem {α : Type} (c : Codec α) : Reader α :=
  Reader.bind (Reader.take c.size) fun b => Reader.lift (c.dec b)

/-- `Vec<T>::serialize`. -/
def encVec {α : Type} (c : Codec α) (l : List α) : Bytes := u64le l.length ++ (l.map c.enc).flatten

/-- `Vec<T>::deserialize`: `u64` length, then that many elements. -/
def readVec {α : Type} (c : Codec α) : Reader (List α) :=
  Reader.bind (Reader.take 8) fun n => Reader.many (readElem c) (leNat n)

variable {G1 G2 : Type}

/-- `EncapKey::serialize_compressed` (data_structures.rs 16-39). -/
def encEncapKey (c1 : Codec G1) (c2 : Codec G2) (k : EncapKey G1 G2) : Bytes :=
  c1.enc k.alphaG1 ++ (c2.enc k.betaG2 ++ (c2.enc k.deltaG2 ++
    (encVec c1 k.rU ++ (encVec c2 k.rV ++ (encVec c1 k.phiDelta ++ encVec c1 k.hQuery)))))

/-- `Ciphertext::serialize_compressed` (data_structures.rs 42-49; commands.rs 80, 215; lib.rs 425). -/
def encCiphertext (c1 : Codec G1) (c2 : Codec G2) (ct : Ciphertext Fr G1 G2) : Bytes :=
  encEncapKey c1 c2 ct.encapKey ++ encVec frCodec ct.publicInputs

/-- `EncapKey::deserialize_compressed`. -/
def readEncapKey (c1 : Codec G1) (c2 : Codec G2) : Reader (EncapKey G1 G2) :=
  Reader.bind (readElem c1) fun alphaG1 =>
  Reader.bind (readElem c2) fun betaG2 =>
  Reader.bind (readElem c2) fun deltaG2 =>
  Reader.bind (readVec c1) fun rU =>
  Reader.bind (readVec c2) fun rV =>
  Reader.bind (readVec c1) fun phiDelta =>
  Reader.bind (readVec c1) fun hQuery =>
  Reader.pure ⟨alphaG1, betaG2, deltaG2, rU, rV, phiDelta, hQuery⟩

/-- Sequential part of `Ciphertext::deserialize_compressed`. -/
def readCiphertext (c1 : Codec G1) (c2 : Codec G2) : Reader (Ciphertext Fr G1 G2) :=
  Reader.bind (readEncapKey c1 c2) fun k =>
  Reader.bind (readVec frCodec) fun pub =>
  Reader.pure ⟨k, pub⟩

/-- `Ciphertext::<Bn254>::deserialize_compressed(&bytes[..])` (commands.rs 128, 378; lib.rs 479): the slice is not
required to be exhausted. -/
def decCiphertext (c1 : Codec G1) (c2 : Codec G2) (b : Bytes) : Option (Ciphertext Fr G1 G2) :=
  (readCiphertext c1 c2 b).map (·.1)

end Zkenc
