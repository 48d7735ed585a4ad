import Mathlib.Algebra.Module.LinearMap.Basic
import Mathlib.LinearAlgebra.BilinearMap
import Verif.Model.Api
import Verif.Model.Bn254
/-!
# A small instance of the library parameters

Used only in examples that show that the hypotheses of theorems about `Sys` can be met: all groups are the scalar field, the pairing is
multiplication.
-/

namespace Zkenc

/-- The pairing `a, b ↦ a * b`; the key is the 32-byte encoding. -/
def toyPairing : Pairing Fr Fr Fr Fr where
  g1 := 1
  g2 := 1
  e := LinearMap.mul Fr Fr
  kdf x := ⟨frEnc x, leBytes_length _ _⟩

theorem frEnc_length (x : Fr) : (frEnc x).length = 32 := leBytes_length _ _

theorem toyEnc2_len (x : Fr) : (frEnc x ++ List.replicate 32 (0 : UInt8)).length = 64 := by
  rw [List.length_append, frEnc_length, List.length_replicate]

theorem toyEnc2_take (x : Fr) : (frEnc x ++ List.replicate 32 (0 : UInt8)).take 32 = frEnc x := by
  have h := frEnc_length x
  rw [List.take_append_of_le_length (by omega), List.take_of_length_le (by omega)]

theorem toyEnc2_dec (x : Fr) : frDec ((frEnc x ++ List.replicate 32 (0 : UInt8)).take 32) = some x := by
  rw [toyEnc2_take, frDec_frEnc]

/-- 64-byte encoding. -/
def toyCodec2 : Codec Fr where
  size := 64
  enc x := frEnc x ++ List.replicate 32 0
  dec b := frDec (b.take 32)
  enc_len := toyEnc2_len
  dec_enc := toyEnc2_dec

/-- A block function. -/
def toyBlock : Cipher where
  E k b := (List.range 16).map fun i => k.getD i 0 + 3 * b.getD i 0 + 7
  E_len := by simp
  maxEnc _ := 2 ^ 36
  maxDec _ := 2 ^ 36
  max_le _ := Nat.le_refl _

/-- JSON text functions that know one document each. -/
def toySys (json : Json) (val : JsVal) : Sys Fr Fr Fr where
  P := toyPairing
  dom := bn254Domains
  c1 := frCodec
  c2 := toyCodec2
  c1_size := rfl
  c2_size := rfl
  cipher := toyBlock
  lim := 2 ^ 62
  hash := ⟨fun m => m, fun m => List.Perm.refl m⟩
  serdeParse _ := some json
  stringify _ := .ok ['{', '}']
  jsonParse _ := some val
  lossyDecode _ := []

end Zkenc
