import Verif.Proofs.G1Order
/-!
# The BN254 groups as modules over the scalar field, and their codecs

With these the parameters `G1`, `G2`, `c1`, `c2` of the other models are the concrete groups and encodings of `ark_bn254`
(packages/zkenc-core/src/data_structures.rs 17-49 with `E = Bn254`).
-/

namespace Zkenc

/-- Scalars act on `G1` because the group has `r` elements. -/
noncomputable instance : Module Fr G1Point := AddCommGroup.zmodModule g1_torsion

/-- Scalars act on `G2` by definition of the subgroup. -/
noncomputable instance : Module Fr G2Point := AddCommGroup.zmodModule fun P => Subtype.ext P.2

theorem g1Dec_g1Enc (P : G1Point) : g1Dec (g1Enc P) = some P := by
  have h : (g1Enc P).length = 32 := swEnc_len fqCoord_lawful _ P
  unfold g1Dec
  rw [if_pos h]
  exact swDec_swEnc fqCoord_lawful _ P

theorem g2Dec_g2Enc (P : G2Point) : g2Dec (g2Enc P) = some P := by
  have h : (g2Enc P).length = 64 := swEnc_len fq2Coord_lawful _ P.1
  have h2 : frModulus • P.1 = 0 := (mem_g2Subgroup P.1).1 P.2
  unfold g2Dec
  rw [if_pos h, g2Enc, swDec_swEnc fq2Coord_lawful _ P.1, Option.bind_some, dif_pos h2]

/-- The codec of `G1Affine`: 32 bytes. -/
noncomputable def g1Codec : Codec G1Point where
  size := 32
  enc := g1Enc
  dec := g1Dec
  enc_len P := swEnc_len fqCoord_lawful _ P
  dec_enc := g1Dec_g1Enc

/-- The codec of `G2Affine`: 64 bytes. -/
noncomputable def g2Codec : Codec G2Point where
  size := 64
  enc := g2Enc
  dec := g2Dec
  enc_len P := swEnc_len fq2Coord_lawful _ P.1
  dec_enc := g2Dec_g2Enc

end Zkenc
