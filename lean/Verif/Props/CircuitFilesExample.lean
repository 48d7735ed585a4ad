import Verif.Props.CircuitFiles
import Verif.Props.ComposeExactlyExample
/-!
# C95: a concrete case
-/

namespace Zkenc.Props

open Zkenc

namespace Ex

/-- What `encrypt` needs, and what `decrypt` needs, of the circuit `y = x²`: the message goes through; with the objects exchanged both fail. -/
example (wasm : Bytes) (incl : Bool) :
    let forEncrypt := CircuitObj.mk [("r1csBuffer".toList, .bytes sqData), ("symContent".toList, .text sym)]
    let forDecrypt := CircuitObj.mk [("r1csBuffer".toList, .bytes sqData), ("wasmBuffer".toList, .bytes wasm)]
    ∃ b k, objEncrypt S forEncrypt inputs [1, 2, 3] incl ρ nonce = .ok (b, k) ∧
      objDecrypt smallNums S (fun _ => .ok sqWasm) forDecrypt b (other 9 ['3']) = .ok [1, 2, 3] ∧
      (∀ ck, objEncrypt S forDecrypt inputs [1, 2, 3] incl ρ nonce ≠ .ok ck) ∧
      ∀ m, objDecrypt smallNums S (fun _ => .ok sqWasm) forEncrypt b (other 9 ['3']) ≠ .ok m := by
  obtain ⟨b, k, h1, h2, -⟩ := exactly incl
  refine ⟨b, k, (C95_encrypt ..).mpr ⟨sqData, sym, ?_, ?_, h1⟩, (C95_decrypt ..).mpr ⟨sqData, wasm, ?_, ?_, h2⟩, ?_, ?_⟩
  · simp [CircuitObj.mk, AMap.get]
  · simp [CircuitObj.mk, AMap.get]
  · simp [CircuitObj.mk, AMap.get]
  · simp [CircuitObj.mk, AMap.get]
  · intro ck h
    obtain ⟨_, _, _, h, _⟩ := (C95_encrypt ..).mp h
    simp [CircuitObj.mk, AMap.get] at h
  · intro m h
    obtain ⟨_, _, _, h, _⟩ := (C95_decrypt ..).mp h
    simp [CircuitObj.mk, AMap.get] at h

end Ex

end Zkenc.Props
