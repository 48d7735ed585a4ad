import Verif.Model.Sudoku
/-!
# Part of the compiled multi-signature circuit — `packages/zkenc-cli/tests/r1cs/signature.r1cs`, from `tests/circuits/signature.circom`

GENERATED by `tools/gen_signature.py` (data only): the constraints that concern the choice of the signers (signature.circom 57-84) and the
doubling of the chosen keys in the two verifiers (90-108). The other constraints (hashing, scalar multiplication) are not in the model.
-/

namespace Zkenc

/-- The checks of `MultiSig2of3` and `SelectPublicKey` themselves (signature.circom 57-84): (position in section 2 of `signature.r1cs`, constraint). Wire 1 is
`message`; 2-7 are `publicKeys`; 14 and 15 `signerIndices`; 19, 20 and 31, 32 the keys that the verifiers get (`selectKey0`, `selectKey1`). -/
def signatureOwnRules : List (Nat × IntCstr) := [
  (0, ⟨[(14, 1), (15, -1)], [(16, 1)], [(0, 1)]⟩),
  (1, ⟨[(0, -1), (17, 1)], [(17, 1)], []⟩),
  (2, ⟨[(0, 10944121435919637611123202872628637544274182200208017171849102093287904247808), (14, -10944121435919637611123202872628637544274182200208017171849102093287904247808), (17, 10944121435919637611123202872628637544274182200208017171849102093287904247808)], [(0, -10944121435919637611123202872628637544274182200208017171849102093287904247808), (14, -10944121435919637611123202872628637544274182200208017171849102093287904247808), (17, 10944121435919637611123202872628637544274182200208017171849102093287904247808)], []⟩),
  (3, ⟨[(0, -1), (18, 1)], [(18, 1)], []⟩),
  (4, ⟨[(0, 10944121435919637611123202872628637544274182200208017171849102093287904247808), (15, -10944121435919637611123202872628637544274182200208017171849102093287904247808), (18, 10944121435919637611123202872628637544274182200208017171849102093287904247808)], [(0, -10944121435919637611123202872628637544274182200208017171849102093287904247808), (15, -10944121435919637611123202872628637544274182200208017171849102093287904247808), (18, 10944121435919637611123202872628637544274182200208017171849102093287904247808)], []⟩),
  (5, ⟨[(25, -1)], [(2, 1)], [(21, -1)]⟩),
  (6, ⟨[(27, -1)], [(4, 1)], [(22, -1)]⟩),
  (7, ⟨[(29, -1)], [(6, 1)], [(19, -1), (21, 1), (22, 1)]⟩),
  (8, ⟨[(25, -1)], [(3, 1)], [(23, -1)]⟩),
  (9, ⟨[(27, -1)], [(5, 1)], [(24, -1)]⟩),
  (10, ⟨[(29, -1)], [(7, 1)], [(20, -1), (23, 1), (24, 1)]⟩),
  (11, ⟨[(14, -1)], [(26, 1)], [(0, 1), (25, -1)]⟩),
  (12, ⟨[(14, -1)], [(25, 1)], []⟩),
  (13, ⟨[(0, 1), (14, -1)], [(28, 1)], [(0, 1), (27, -1)]⟩),
  (14, ⟨[(0, 1), (14, -1)], [(27, 1)], []⟩),
  (15, ⟨[(0, 2), (14, -1)], [(30, 1)], [(0, 1), (29, -1)]⟩),
  (16, ⟨[(0, 2), (14, -1)], [(29, 1)], []⟩),
  (17, ⟨[(37, -1)], [(2, 1)], [(33, -1)]⟩),
  (18, ⟨[(39, -1)], [(4, 1)], [(34, -1)]⟩),
  (19, ⟨[(41, -1)], [(6, 1)], [(31, -1), (33, 1), (34, 1)]⟩),
  (20, ⟨[(37, -1)], [(3, 1)], [(35, -1)]⟩),
  (21, ⟨[(39, -1)], [(5, 1)], [(36, -1)]⟩),
  (22, ⟨[(41, -1)], [(7, 1)], [(32, -1), (35, 1), (36, 1)]⟩),
  (23, ⟨[(15, -1)], [(38, 1)], [(0, 1), (37, -1)]⟩),
  (24, ⟨[(15, -1)], [(37, 1)], []⟩),
  (25, ⟨[(0, 1), (15, -1)], [(40, 1)], [(0, 1), (39, -1)]⟩),
  (26, ⟨[(0, 1), (15, -1)], [(39, 1)], []⟩),
  (27, ⟨[(0, 2), (15, -1)], [(42, 1)], [(0, 1), (41, -1)]⟩),
  (28, ⟨[(0, 2), (15, -1)], [(41, 1)], []⟩)]

/-- In the two verifiers (`EdDSAPoseidonVerifier`, signature.circom 87-107): the key is doubled twice and the result must not be zero. -/
def signatureVerifierRules : List (Nat × IntCstr) := [
  (295, ⟨[(19, -1)], [(20, 1)], [(564, -1)]⟩),
  (296, ⟨[(20, -1)], [(19, 1)], [(565, -1)]⟩),
  (297, ⟨[(19, 168700), (20, -1)], [(19, 1), (20, 1)], [(566, -1)]⟩),
  (298, ⟨[(564, -1)], [(565, 1)], [(567, -1)]⟩),
  (299, ⟨[(0, 1), (567, 168696)], [(562, 1)], [(564, 1), (565, 1)]⟩),
  (300, ⟨[(0, 1), (567, -168696)], [(563, 1)], [(564, 168700), (565, -1), (566, 1)]⟩),
  (301, ⟨[(562, -1)], [(563, 1)], [(570, -1)]⟩),
  (302, ⟨[(563, -1)], [(562, 1)], [(571, -1)]⟩),
  (303, ⟨[(562, 168700), (563, -1)], [(562, 1), (563, 1)], [(572, -1)]⟩),
  (304, ⟨[(570, -1)], [(571, 1)], [(573, -1)]⟩),
  (305, ⟨[(0, 1), (573, 168696)], [(568, 1)], [(570, 1), (571, 1)]⟩),
  (306, ⟨[(0, 1), (573, -168696)], [(569, 1)], [(570, 168700), (571, -1), (572, 1)]⟩),
  (1149, ⟨[(568, 1)], [(1416, 1)], [(0, 1)]⟩),
  (4502, ⟨[(31, -1)], [(32, 1)], [(4767, -1)]⟩),
  (4503, ⟨[(32, -1)], [(31, 1)], [(4768, -1)]⟩),
  (4504, ⟨[(31, 168700), (32, -1)], [(31, 1), (32, 1)], [(4769, -1)]⟩),
  (4505, ⟨[(4767, -1)], [(4768, 1)], [(4770, -1)]⟩),
  (4506, ⟨[(0, 1), (4770, 168696)], [(4765, 1)], [(4767, 1), (4768, 1)]⟩),
  (4507, ⟨[(0, 1), (4770, -168696)], [(4766, 1)], [(4767, 168700), (4768, -1), (4769, 1)]⟩),
  (4508, ⟨[(4765, -1)], [(4766, 1)], [(4773, -1)]⟩),
  (4509, ⟨[(4766, -1)], [(4765, 1)], [(4774, -1)]⟩),
  (4510, ⟨[(4765, 168700), (4766, -1)], [(4765, 1), (4766, 1)], [(4775, -1)]⟩),
  (4511, ⟨[(4773, -1)], [(4774, 1)], [(4776, -1)]⟩),
  (4512, ⟨[(0, 1), (4776, 168696)], [(4771, 1)], [(4773, 1), (4774, 1)]⟩),
  (4513, ⟨[(0, 1), (4776, -168696)], [(4772, 1)], [(4773, 168700), (4774, -1), (4775, 1)]⟩),
  (5356, ⟨[(4771, 1)], [(5619, 1)], [(0, 1)]⟩)]

/-- The constraints of the model. -/
def signatureRules : List (Nat × IntCstr) := signatureOwnRules ++ signatureVerifierRules

end Zkenc
