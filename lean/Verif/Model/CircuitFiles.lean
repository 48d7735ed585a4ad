import Verif.Model.Witness
/-!
# The first argument of the library's functions — `packages/zkenc-js/src/zkenc.ts` 35-58, 81-122, 248-265, 309-380, 405-456

`circuitFiles` is a JS object; TypeScript's declarations are not checked when the program runs, so that any property can be missing or of the
wrong kind.
-/

namespace Zkenc

/-- What a property of the object can be: missing, a `Uint8Array` or `Buffer`, or a string. Other values are not modelled. -/
inductive FileVal where
  | undefined
  | bytes (b : Bytes)
  | text (s : Str)

/-- A `circuitFiles` object: its properties by name. -/
abbrev CircuitObj := Str → FileVal

/-- The object `{ k₁: v₁, k₂: v₂, … }`. -/
def CircuitObj.mk (l : List (Str × FileVal)) : CircuitObj := fun k => (AMap.get l k).getD .undefined

section
variable {σ : Type} (N : JsNums) {G1 G2 GT : Type} [AddCommGroup G1] [Module Fr G1] [AddCommGroup G2] [Module Fr G2] [AddCommGroup GT] [Module Fr GT]
  (S : Sys G1 G2 GT) (inst : Bytes → Res (CircuitWasm σ))

/-- `parseSymFile(circuitFiles.symContent)` (zkenc.ts 88, sym_parser.ts 27): `symContent.trim` must be a function, which it is for strings. -/
def objSym : FileVal → Res Str
  | .undefined => Res.fail "TypeError: Cannot read properties of undefined (reading 'trim')"
  | .bytes _ => Res.fail "TypeError: symContent.trim is not a function"
  | .text s => .ok s

/-- `circuitFiles.r1csBuffer` on its way into wasm memory (`passArray8ToWasm0`, zkenc.ts 116, 262): the `length` of `undefined` cannot be read; of a string
the digits are stored as numbers and all other characters as 0, so that the file does not begin with `r1cs`. -/
def objR1cs : FileVal → Res Bytes
  | .undefined => Res.fail "TypeError: Cannot read properties of undefined (reading 'length')"
  | .bytes b => .ok b
  | .text _ => Res.fail "Invalid R1CS file: wrong magic"

/-- `WebAssembly.compile(circuitFiles.wasmBuffer)` (zkenc.ts 256-258, witness_calculator.ts 232): a buffer is required. -/
def objWasm : FileVal → Res (CircuitWasm σ)
  | .undefined => Res.fail "TypeError: WebAssembly.compile(): Argument 0 must be a buffer source"
  | .bytes b => inst b
  | .text _ => Res.fail "TypeError: WebAssembly.compile(): Argument 0 must be a buffer source"

/-- `encap(circuitFiles, publicInputs)` (zkenc.ts 81-122), after initialisation. -/
def objEncap (files : CircuitObj) (inputs : List (Str × JsVal)) (ρ : Rand Fr) : Res (Bytes × Bytes) :=
  objSym (files "symContent".toList) >>= fun sym =>
  jsEncapWitness sym inputs >>= fun wtns =>
  objR1cs (files "r1csBuffer".toList) >>= fun r1cs =>
  wasmEncap S r1cs wtns ρ

/-- `encrypt(circuitFiles, publicInputs, message, options)` (zkenc.ts 309-380). -/
def objEncrypt (files : CircuitObj) (inputs : List (Str × JsVal)) (message : Bytes) (includePublicInput : Bool) (ρ : Rand Fr) (nonce : Bytes) :
    Res (Bytes × Bytes) :=
  objEncap S files inputs ρ >>= fun ck =>
  encryptGcm S.cipher .js ck.2 nonce message >>= fun enc =>
  (if includePublicInput then S.stringify inputs >>= fun s => .ok (utf8Enc s) else .ok []) >>= fun pub =>
  .ok (combine includePublicInput ck.1 pub enc, ck.2)

/-- `decap(circuitFiles, ciphertext, inputs)` (zkenc.ts 248-265), after initialisation. -/
def objDecap (files : CircuitObj) (ciphertext : Bytes) (inputs : List (Str × JsVal)) : Res Bytes :=
  calculateWitness N (objWasm inst (files "wasmBuffer".toList)) inputs >>= fun wtns =>
  objR1cs (files "r1csBuffer".toList) >>= fun r1cs =>
  wasmDecap S r1cs wtns ciphertext

/-- `decrypt(circuitFiles, ciphertext, inputs)` (zkenc.ts 405-456). -/
def objDecrypt (files : CircuitObj) (ciphertext : Bytes) (inputs : List (Str × JsVal)) : Res Bytes :=
  splitJs ciphertext >>= fun p =>
  objDecap N S inst files p.witnessCt inputs >>= fun key =>
  decryptGcm S.cipher .js key p.encrypted

end

end Zkenc
