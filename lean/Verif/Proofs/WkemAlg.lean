import Verif.Proofs.Wkem
import Mathlib.Tactic.LinearCombination
/-! The group elements computed by `encap` and `decap`, as scalars over `e(g₁,g₂)`. -/

namespace Zkenc

section
variable {F G1 G2 GT : Type} [Field F] [AddCommGroup G1] [Module F G1]
  [AddCommGroup G2] [Module F G2] [AddCommGroup GT] [Module F GT]

theorem pair_smul (P : Pairing F G1 G2 GT) (a b : F) :
    P.e (a • P.g1) (b • P.g2) = (a * b) • P.e P.g1 P.g2 := by
  simp [mul_smul, smul_comm b a]

theorem pair_smul_g2 (P : Pairing F G1 G2 GT) (a : F) :
    P.e (a • P.g1) P.g2 = a • P.e P.g1 P.g2 := by
  simp

/-- `φᵢ(x) = r·β·uᵢ + r·α·vᵢ + r²·wᵢ` over the evaluation triple. -/
def phiList (ρ : Rand F) (ev : List F × List F × List F) (m : Nat) : List F :=
  (List.range m).map fun i =>
    ρ.r * ρ.beta * ev.1.getD i 0 + ρ.r * ρ.alpha * ev.2.1.getD i 0 + ρ.r * ρ.r * ev.2.2.getD i 0

theorem dotF_phiList (ρ : Rand F) (dom : Domains F) (cs : CS F) (a : List F) :
    dotF a (phiList ρ (evaluateQap dom cs ρ.x) cs.numVars) =
      ρ.r * ρ.beta * dotF a (evaluateQap dom cs ρ.x).1
      + ρ.r * ρ.alpha * dotF a (evaluateQap dom cs ρ.x).2.1
      + ρ.r * ρ.r * dotF a (evaluateQap dom cs ρ.x).2.2 := by
  obtain ⟨h1, h2, h3⟩ := evaluateQap_length dom cs ρ.x
  unfold phiList
  rw [dotF_map_add, dotF_map_add, dotF_map_mul, dotF_map_mul, dotF_map_mul,
    map_getD_range _ h1, map_getD_range _ h2, map_getD_range _ h3]

theorem dotG_phiDelta (P : Pairing F G1 G2 GT) (dom : Domains F) (cs : CS F) (ρ : Rand F) (a : List F) :
    dotG a (encapCt P dom cs ρ).encapKey.phiDelta =
      (ρ.delta⁻¹ * dotF a (phiList ρ (evaluateQap dom cs ρ.x) cs.numVars)) • P.g1 := by
  simp only [encapCt]
  rw [dotG_map_smul]
  congr 1
  unfold phiList
  rw [← dotF_map_mul]
  congr 1
  apply List.map_congr_left
  intro i _
  ring

theorem dotG_rU (P : Pairing F G1 G2 GT) (dom : Domains F) (cs : CS F) (ρ : Rand F) (a : List F) :
    dotG a (encapCt P dom cs ρ).encapKey.rU =
      (ρ.r * dotF a (evaluateQap dom cs ρ.x).1) • P.g1 := by
  simp only [encapCt]
  rw [dotG_map_smul, dotF_map_mul, map_getD_range _ (evaluateQap_length dom cs ρ.x).1]

theorem dotG_rV (P : Pairing F G1 G2 GT) (dom : Domains F) (cs : CS F) (ρ : Rand F) (a : List F) :
    dotG a (encapCt P dom cs ρ).encapKey.rV =
      (ρ.r * dotF a (evaluateQap dom cs ρ.x).2.1) • P.g2 := by
  simp only [encapCt]
  rw [dotG_map_smul, dotF_map_mul, map_getD_range _ (evaluateQap_length dom cs ρ.x).2.1]

/-- The target-group element behind the encapsulated key. -/
theorem encap_scalar (P : Pairing F G1 G2 GT) (dom : Domains F) (cs : CS F) (ρ : Rand F) (pub : List F) :
    P.e (ρ.alpha • P.g1) (ρ.beta • P.g2) + P.e (dotG pub (encapCt P dom cs ρ).encapKey.phiDelta) P.g2 =
      (ρ.alpha * ρ.beta + ρ.delta⁻¹ * dotF pub (phiList ρ (evaluateQap dom cs ρ.x) cs.numVars)) •
        P.e P.g1 P.g2 := by
  rw [dotG_phiDelta, pair_smul, pair_smul_g2, add_smul]

/-- The target-group element behind the decapsulated key. -/
theorem decap_scalar (P : Pairing F G1 G2 GT) (dom : Domains F) (cs : CS F) (ρ : Rand F) (hδ : ρ.delta ≠ 0)
    (a : List F) :
    P.e ((encapCt P dom cs ρ).encapKey.alphaG1 + dotG a (encapCt P dom cs ρ).encapKey.rU)
        ((encapCt P dom cs ρ).encapKey.betaG2 + dotG a (encapCt P dom cs ρ).encapKey.rV)
      - P.e (dotG a (encapCt P dom cs ρ).encapKey.phiDelta) (encapCt P dom cs ρ).encapKey.deltaG2 =
      (ρ.alpha * ρ.beta + ρ.r * ρ.r *
        (dotF a (evaluateQap dom cs ρ.x).1 * dotF a (evaluateQap dom cs ρ.x).2.1
          - dotF a (evaluateQap dom cs ρ.x).2.2)) • P.e P.g1 P.g2 := by
  rw [dotG_rU, dotG_rV, dotG_phiDelta, dotF_phiList]
  have hA : (encapCt P dom cs ρ).encapKey.alphaG1 = ρ.alpha • P.g1 := rfl
  have hB : (encapCt P dom cs ρ).encapKey.betaG2 = ρ.beta • P.g2 := rfl
  have hD : (encapCt P dom cs ρ).encapKey.deltaG2 = ρ.delta • P.g2 := rfl
  rw [hA, hB, hD, ← add_smul, ← add_smul, pair_smul, pair_smul, ← sub_smul]
  congr 1
  field_simp
  ring

end

end Zkenc
