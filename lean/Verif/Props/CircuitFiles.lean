import Verif.Model.CircuitFiles
import Verif.Props.WitnessLength
/-!
# C95: which files the functions of the library need
-/

namespace Zkenc.Props

open Zkenc

section
variable {σ : Type} (N : JsNums) {G1 G2 GT : Type} [AddCommGroup G1] [Module Fr G1] [AddCommGroup G2] [Module Fr G2] [AddCommGroup GT] [Module Fr GT]
  (S : Sys G1 G2 GT) (inst : Bytes → Res (CircuitWasm σ))

theorem objSym_eq_ok {v : FileVal} {s : Str} : objSym v = .ok s ↔ v = .text s := by
  cases v <;> simp [objSym, Res.fail]

theorem objR1cs_eq_ok {v : FileVal} {b : Bytes} : objR1cs v = .ok b ↔ v = .bytes b := by
  cases v <;> simp [objR1cs, Res.fail]

theorem objWasm_eq_ok {v : FileVal} {x : CircuitWasm σ} : objWasm inst v = .ok x ↔ ∃ b, v = .bytes b ∧ inst b = .ok x := by
  cases v <;> simp [objWasm, Res.fail]

/-- **C95** (`encap`) — `encap` returns a result exactly if the object has the circuit's `.r1cs` file as `r1csBuffer` and its symbol file, as text, as
`symContent`, and then it is the result of `encap` for these two; no other property matters. -/
theorem C95_encap (files : CircuitObj) (inputs : List (Str × JsVal)) (ρ : Rand Fr) (ck : Bytes × Bytes) :
    objEncap S files inputs ρ = .ok ck ↔
      ∃ r1cs sym, files "r1csBuffer".toList = .bytes r1cs ∧ files "symContent".toList = .text sym ∧ jsEncap S r1cs sym inputs ρ = .ok ck := by
  unfold objEncap jsEncap
  simp only [Res.bind_eq_ok, objSym_eq_ok, objR1cs_eq_ok]
  constructor
  · rintro ⟨sym, h1, w, h2, r, h3, h4⟩
    exact ⟨r, sym, h3, h1, w, h2, h4⟩
  · rintro ⟨r, sym, h3, h1, w, h2, h4⟩
    exact ⟨sym, h1, w, h2, r, h3, h4⟩

/-- **C95** (`encrypt`) — the same for `encrypt`. -/
theorem C95_encrypt (files : CircuitObj) (inputs : List (Str × JsVal)) (message : Bytes) (incl : Bool) (ρ : Rand Fr) (nonce : Bytes)
    (ck : Bytes × Bytes) :
    objEncrypt S files inputs message incl ρ nonce = .ok ck ↔
      ∃ r1cs sym, files "r1csBuffer".toList = .bytes r1cs ∧ files "symContent".toList = .text sym ∧
        jsEncrypt S r1cs sym inputs message incl ρ nonce = .ok ck := by
  unfold objEncrypt jsEncrypt
  rw [Res.bind_eq_ok]
  simp only [C95_encap]
  constructor
  · rintro ⟨x, ⟨r, sym, h3, h1, h2⟩, h4⟩
    exact ⟨r, sym, h3, h1, Res.bind_eq_ok.mpr ⟨x, h2, h4⟩⟩
  · rintro ⟨r, sym, h3, h1, h⟩
    obtain ⟨x, h2, h4⟩ := Res.bind_eq_ok.mp h
    exact ⟨x, ⟨r, sym, h3, h1, h2⟩, h4⟩

/-- **C95** (`decap`) — `decap` returns a key exactly if the object has the `.r1cs` file as `r1csBuffer` and the compiled circuit as `wasmBuffer`, and then it is
the result of `decap` for these two; in particular no symbol file is needed. -/
theorem C95_decap (files : CircuitObj) (ciphertext : Bytes) (inputs : List (Str × JsVal)) (key : Bytes) :
    objDecap N S inst files ciphertext inputs = .ok key ↔
      ∃ r1cs wasm, files "r1csBuffer".toList = .bytes r1cs ∧ files "wasmBuffer".toList = .bytes wasm ∧
        jsDecapApi N S r1cs (inst wasm) ciphertext inputs = .ok key := by
  unfold objDecap jsDecapApi jsDecap calculateWitness
  simp only [Res.bind_eq_ok, objWasm_eq_ok, objR1cs_eq_ok]
  constructor
  · rintro ⟨w, ⟨x, ⟨b, hb, hx⟩, h2⟩, r, h3, h4⟩
    exact ⟨r, b, h3, hb, w, ⟨x, hx, h2⟩, h4⟩
  · rintro ⟨r, b, h3, hb, w, ⟨x, hx, h2⟩, h4⟩
    exact ⟨w, ⟨x, ⟨b, hb, hx⟩, h2⟩, r, h3, h4⟩

/-- **C95** (`decrypt`) — the same for `decrypt`. -/
theorem C95_decrypt (files : CircuitObj) (ciphertext : Bytes) (inputs : List (Str × JsVal)) (m : Bytes) :
    objDecrypt N S inst files ciphertext inputs = .ok m ↔
      ∃ r1cs wasm, files "r1csBuffer".toList = .bytes r1cs ∧ files "wasmBuffer".toList = .bytes wasm ∧
        jsDecryptApi N S r1cs (inst wasm) ciphertext inputs = .ok m := by
  unfold objDecrypt
  simp only [Res.bind_eq_ok, C95_decap]
  unfold jsDecryptApi jsDecapApi jsDecrypt
  constructor
  · rintro ⟨p, hp, k, ⟨r, b, h3, hb, h2⟩, h4⟩
    exact ⟨r, b, h3, hb, Res.bind_eq_ok.mpr ⟨p, hp, Res.bind_eq_ok.mpr ⟨k, h2, h4⟩⟩⟩
  · rintro ⟨r, b, h3, hb, h⟩
    obtain ⟨p, hp, h⟩ := Res.bind_eq_ok.mp h
    obtain ⟨k, h2, h4⟩ := Res.bind_eq_ok.mp h
    exact ⟨p, hp, k, ⟨r, b, h3, hb, h2⟩, h4⟩

/-- **C95** (the objects of the documentation) — `{ r1csBuffer, wasmBuffer }` (API reference and integration guides) and `{ r1csBuffer, wasmBuffer, symBuffer }` (README) never
encrypt: whatever the files, inputs, message and options, `encap` and `encrypt` fail. -/
theorem C95_documented (r1cs wasm symv : FileVal) (files : CircuitObj)
    (hf : files = CircuitObj.mk [("r1csBuffer".toList, r1cs), ("wasmBuffer".toList, wasm)] ∨
      files = CircuitObj.mk [("r1csBuffer".toList, r1cs), ("wasmBuffer".toList, wasm), ("symBuffer".toList, symv)])
    (inputs : List (Str × JsVal)) (ρ : Rand Fr) :
    (∃ e, objEncap S files inputs ρ = .error e) ∧ ∀ message incl nonce, ∃ e, objEncrypt S files inputs message incl ρ nonce = .error e := by
  have hu : files "symContent".toList = .undefined := by
    rcases hf with rfl | rfl <;> simp [CircuitObj.mk, AMap.get]
  have h1 : ∃ e, objEncap S files inputs ρ = .error e := by
    cases h : objEncap S files inputs ρ with
    | error e => exact ⟨e, rfl⟩
    | ok ck =>
      obtain ⟨_, _, _, h2, _⟩ := (C95_encap S files inputs ρ ck).mp h
      rw [hu] at h2
      cases h2
  refine ⟨h1, fun message incl nonce => ?_⟩
  obtain ⟨e, h1⟩ := h1
  exact ⟨e, by unfold objEncrypt; rw [h1]; rfl⟩

end

/-! The hypotheses are met: the object of the getting-started guide has what `encrypt` needs, and not what `decrypt` needs. -/

example (r1cs : Bytes) (sym : Str) :
    let files := CircuitObj.mk [("r1csBuffer".toList, .bytes r1cs), ("symContent".toList, .text sym)]
    files "r1csBuffer".toList = .bytes r1cs ∧ files "symContent".toList = .text sym ∧ files "wasmBuffer".toList = .undefined := by
  refine ⟨?_, ?_, ?_⟩ <;> simp [CircuitObj.mk, AMap.get]

end Zkenc.Props
