import Verif.Basic.FrPrime
/-!
# The BN254 base field is a prime field (Pratt certificate, checked by the kernel; generated by tools/pratt_fq.py)

`ark_bn254::Fq`: coordinates of the points in a ciphertext (packages/zkenc-core/src/data_structures.rs 17-39 with `E = Bn254`).
-/

namespace Zkenc

/-- Modulus of `ark_bn254::Fq`. -/
def fqModulus : Nat :=
  21888242871839275222246405745257275088696311157297823662689037894645226208583

namespace Pratt

theorem prime_37 : Nat.Prime 37 := by norm_num
theorem prime_67 : Nat.Prime 67 := by norm_num
theorem prime_73 : Nat.Prime 73 := by norm_num
theorem prime_89 : Nat.Prime 89 := by norm_num
theorem prime_109 : Nat.Prime 109 := by norm_num
theorem prime_127 : Nat.Prime 127 := by norm_num
theorem prime_233 : Nat.Prime 233 := by norm_num
theorem prime_271 : Nat.Prime 271 := by norm_num
theorem prime_311 : Nat.Prime 311 := by norm_num
theorem prime_911 : Nat.Prime 911 := by norm_num

theorem prime_1231 : Nat.Prime 1231 := by
  refine cert 1231 3 11 [2, 3, 5, 41] ?_ (by decide +kernel) (by decide +kernel) (by decide +kernel) (by decide +kernel)
    (by decide +kernel)
  intro q hq
  simp only [List.mem_cons, List.not_mem_nil, or_false] at hq
  rcases hq with rfl | rfl | rfl | rfl
  · exact prime_2
  · exact prime_3
  · exact prime_5
  · exact prime_41

theorem prime_4562087 : Nat.Prime 4562087 := by
  refine cert 4562087 5 23 [2, 17, 109, 1231] ?_ (by decide +kernel) (by decide +kernel) (by decide +kernel) (by decide +kernel)
    (by decide +kernel)
  intro q hq
  simp only [List.mem_cons, List.not_mem_nil, or_false] at hq
  rcases hq with rfl | rfl | rfl | rfl
  · exact prime_2
  · exact prime_17
  · exact prime_109
  · exact prime_1231

theorem prime_1853641 : Nat.Prime 1853641 := by
  refine cert 1853641 17 21 [2, 2, 2, 3, 3, 5, 19, 271] ?_ (by decide +kernel) (by decide +kernel) (by decide +kernel) (by decide +kernel)
    (by decide +kernel)
  intro q hq
  simp only [List.mem_cons, List.not_mem_nil, or_false] at hq
  rcases hq with rfl | rfl | rfl | rfl | rfl | rfl | rfl | rfl
  · exact prime_2
  · exact prime_2
  · exact prime_2
  · exact prime_3
  · exact prime_3
  · exact prime_5
  · exact prime_19
  · exact prime_271

theorem prime_3557 : Nat.Prime 3557 := by
  refine cert 3557 2 12 [2, 2, 7, 127] ?_ (by decide +kernel) (by decide +kernel) (by decide +kernel) (by decide +kernel)
    (by decide +kernel)
  intro q hq
  simp only [List.mem_cons, List.not_mem_nil, or_false] at hq
  rcases hq with rfl | rfl | rfl | rfl
  · exact prime_2
  · exact prime_2
  · exact prime_7
  · exact prime_127

theorem prime_1263766531 : Nat.Prime 1263766531 := by
  refine cert 1263766531 10 31 [2, 3, 5, 13, 911, 3557] ?_ (by decide +kernel) (by decide +kernel) (by decide +kernel) (by decide +kernel)
    (by decide +kernel)
  intro q hq
  simp only [List.mem_cons, List.not_mem_nil, or_false] at hq
  rcases hq with rfl | rfl | rfl | rfl | rfl | rfl
  · exact prime_2
  · exact prime_3
  · exact prime_5
  · exact prime_13
  · exact prime_911
  · exact prime_3557

theorem prime_35385462869 : Nat.Prime 35385462869 := by
  refine cert 35385462869 2 36 [2, 2, 7, 1263766531] ?_ (by decide +kernel) (by decide +kernel) (by decide +kernel) (by decide +kernel)
    (by decide +kernel)
  intro q hq
  simp only [List.mem_cons, List.not_mem_nil, or_false] at hq
  rcases hq with rfl | rfl | rfl | rfl
  · exact prime_2
  · exact prime_2
  · exact prime_7
  · exact prime_1263766531

theorem prime_2480874801745591 : Nat.Prime 2480874801745591 := by
  refine cert 2480874801745591 6 52 [2, 3, 3, 5, 19, 41, 35385462869] ?_ (by decide +kernel) (by decide +kernel) (by decide +kernel) (by decide +kernel)
    (by decide +kernel)
  intro q hq
  simp only [List.mem_cons, List.not_mem_nil, or_false] at hq
  rcases hq with rfl | rfl | rfl | rfl | rfl | rfl | rfl
  · exact prime_2
  · exact prime_3
  · exact prime_3
  · exact prime_5
  · exact prime_19
  · exact prime_41
  · exact prime_35385462869

theorem prime_2221 : Nat.Prime 2221 := by
  refine cert 2221 2 12 [2, 2, 3, 5, 37] ?_ (by decide +kernel) (by decide +kernel) (by decide +kernel) (by decide +kernel)
    (by decide +kernel)
  intro q hq
  simp only [List.mem_cons, List.not_mem_nil, or_false] at hq
  rcases hq with rfl | rfl | rfl | rfl | rfl
  · exact prime_2
  · exact prime_2
  · exact prime_3
  · exact prime_5
  · exact prime_37

theorem prime_13327 : Nat.Prime 13327 := by
  refine cert 13327 3 14 [2, 3, 2221] ?_ (by decide +kernel) (by decide +kernel) (by decide +kernel) (by decide +kernel)
    (by decide +kernel)
  intro q hq
  simp only [List.mem_cons, List.not_mem_nil, or_false] at hq
  rcases hq with rfl | rfl | rfl
  · exact prime_2
  · exact prime_3
  · exact prime_2221

theorem prime_173171039 : Nat.Prime 173171039 := by
  refine cert 173171039 13 28 [2, 73, 89, 13327] ?_ (by decide +kernel) (by decide +kernel) (by decide +kernel) (by decide +kernel)
    (by decide +kernel)
  intro q hq
  simp only [List.mem_cons, List.not_mem_nil, or_false] at hq
  rcases hq with rfl | rfl | rfl | rfl
  · exact prime_2
  · exact prime_73
  · exact prime_89
  · exact prime_13327

theorem prime_13427688667394608761327070753331941386769 : Nat.Prime 13427688667394608761327070753331941386769 := by
  refine cert 13427688667394608761327070753331941386769 17 134 [2, 2, 2, 2, 3, 7, 11, 1853641, 4562087, 173171039, 2480874801745591] ?_ (by decide +kernel) (by decide +kernel) (by decide +kernel) (by decide +kernel)
    (by decide +kernel)
  intro q hq
  simp only [List.mem_cons, List.not_mem_nil, or_false] at hq
  rcases hq with rfl | rfl | rfl | rfl | rfl | rfl | rfl | rfl | rfl | rfl | rfl
  · exact prime_2
  · exact prime_2
  · exact prime_2
  · exact prime_2
  · exact prime_3
  · exact prime_7
  · exact prime_11
  · exact prime_1853641
  · exact prime_4562087
  · exact prime_173171039
  · exact prime_2480874801745591

theorem prime_327599 : Nat.Prime 327599 := by
  refine cert 327599 19 19 [2, 19, 37, 233] ?_ (by decide +kernel) (by decide +kernel) (by decide +kernel) (by decide +kernel)
    (by decide +kernel)
  intro q hq
  simp only [List.mem_cons, List.not_mem_nil, or_false] at hq
  rcases hq with rfl | rfl | rfl | rfl
  · exact prime_2
  · exact prime_19
  · exact prime_37
  · exact prime_233

theorem prime_11465965001 : Nat.Prime 11465965001 := by
  refine cert 11465965001 3 34 [2, 2, 2, 5, 5, 5, 5, 7, 327599] ?_ (by decide +kernel) (by decide +kernel) (by decide +kernel) (by decide +kernel)
    (by decide +kernel)
  intro q hq
  simp only [List.mem_cons, List.not_mem_nil, or_false] at hq
  rcases hq with rfl | rfl | rfl | rfl | rfl | rfl | rfl | rfl | rfl
  · exact prime_2
  · exact prime_2
  · exact prime_2
  · exact prime_5
  · exact prime_5
  · exact prime_5
  · exact prime_5
  · exact prime_7
  · exact prime_327599

theorem prime_fq : Nat.Prime fqModulus := by
  refine cert fqModulus 3 254 [2, 3, 3, 13, 29, 67, 229, 311, 983, 11003, 405928799, 11465965001, 13427688667394608761327070753331941386769] ?_ (by decide +kernel) (by decide +kernel) (by decide +kernel) (by decide +kernel)
    (by decide +kernel)
  intro q hq
  simp only [List.mem_cons, List.not_mem_nil, or_false] at hq
  rcases hq with rfl | rfl | rfl | rfl | rfl | rfl | rfl | rfl | rfl | rfl | rfl | rfl | rfl
  · exact prime_2
  · exact prime_3
  · exact prime_3
  · exact prime_13
  · exact prime_29
  · exact prime_67
  · exact prime_229
  · exact prime_311
  · exact prime_983
  · exact prime_11003
  · exact prime_405928799
  · exact prime_11465965001
  · exact prime_13427688667394608761327070753331941386769

end Pratt

theorem fqModulus_prime : fqModulus.Prime := Pratt.prime_fq

end Zkenc
