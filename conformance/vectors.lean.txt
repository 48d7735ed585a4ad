import Verif
open Zkenc
def hexB (s : String) : Bytes :=
  let rec go : List Char → Bytes
    | a :: b :: r => (UInt8.ofNat (((hexVal a).getD 0) * 16 + (hexVal b).getD 0)) :: go r
    | _ => []
  go s.toList
def E0 (_k b : Bytes) : Bytes :=
  if b = List.replicate 16 0 then hexB "dc95c078a2408989ad48a21492842087"
  else if b = List.replicate 15 0 ++ [1] then hexB "530f8afbc74536b9a963b4f1c4cb738b"
  else if b = List.replicate 15 0 ++ [2] then hexB "cea7403d4d606b6e074ec5d3baf39d18" else List.replicate 16 0
theorem E0len : ∀ k b, (E0 k b).length = 16 := by intro k b; unfold E0; split <;> [decide; split <;> [decide; split <;> [decide; simp]]]
def C0 : Cipher := ⟨E0, E0len, fun _ => 1000, fun _ => 1000, fun _ => le_refl _⟩
#eval decide (gcmSeal C0 [] (List.replicate 12 0) [] = hexB "530f8afbc74536b9a963b4f1c4cb738b")
#eval decide (gcmSeal C0 [] (List.replicate 12 0) (List.replicate 16 0) = hexB "cea7403d4d606b6e074ec5d3baf39d18d0d1c8a799996bf0265b98b5d48ab919")
#eval (fnvHash "puzzle".toList).toOption.map String.ofList
#eval (fnvHash "solution".toList).toOption.map String.ofList
#eval (fnvHash "main".toList).toOption.map String.ofList
