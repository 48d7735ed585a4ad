import Verif.Model.JsErrors
/-!
# What failing calls of `encap`, `encrypt` and `getPublicInput` throw, and the handlers written for them

`packages/zkenc-js/src/zkenc.ts` 81-122, 309-380, 474-529, `lib.rs` 384-432, `crypto.ts` 12-49; the handlers of `docs/docs/guides/react-integration.md` 118-119 and
473-477, `docs/docs/api/zkenc-js.md` 474-476 and `docs/src/components/PlaygroundClient.tsx` 174-176, 258-271, 352-354, 420-429.
-/

namespace Zkenc

section
variable {G1 G2 GT : Type} [AddCommGroup G1] [Module Fr G1] [AddCommGroup G2] [Module Fr G2] [AddCommGroup GT] [Module Fr GT]
  (M : JsTexts) (S : Sys G1 G2 GT)

/-- `map_err(|e| JsValue::from_str(&format!("<what>: {}", e)))` (lib.rs 386-387, 390-391, 420-421): an `Err` is thrown as a string, a panic is a trap. -/
def stringThrows (what : Str) : Fault → Thrown
  | .err m => .text (what ++ M.rust m)
  | .panic => .error (M.engine "unreachable")
  | .hang => .never

/-- `wasm_encap` (lib.rs 384-432), seen from JS. Serialization into a vector does not fail (lib.rs 424-427). -/
def wasmEncapT (r1cs wtns : Bytes) (ρ : Rand Fr) : Except Thrown (Bytes × Bytes) :=
  match jsParseR1cs r1cs with
  | .error e => .error (stringThrows M "R1CS parse error: ".toList e)
  | .ok r =>
  match jsParseWtns wtns with
  | .error e => .error (stringThrows M "Witness parse error: ".toList e)
  | .ok vals =>
  match encap S.P S.dom (jsCircuit r (wasmEncapWires r.nPublicInputs vals)) ρ with
  | .error e => .error (stringThrows M "Encapsulation failed: ".toList e)
  | .ok res => .ok (encCiphertext S.c1 S.c2 res.1, res.2.bytes)

/-- `encap` (zkenc.ts 81-122); `initOk` says whether the wasm module of the library could be loaded. -/
def encapT (initOk : Bool) (r1cs : Bytes) (sym : Str) (inputs : List (Str × JsVal)) (ρ : Rand Fr) : Except Thrown (Bytes × Bytes) :=
  if initOk = false then .error (.error (M.engine "initialization")) else
  match mapInputsToWires inputs (inputSignals (jsParseSymFile sym) none) with
  | .error e => .error (engineThrows M e)
  | .ok m =>
  match fillWitness m 1 (maxKey m) with
  | .error e => .error (engineThrows M e)
  | .ok zs => wasmEncapT M S r1cs (serializeWitnessSimple (1 :: zs)) ρ

/-- `aesGcmEncrypt` (crypto.ts 12-49); WebCrypto refuses messages beyond its limit with an `OperationError`. -/
def aesGcmEncryptT (key nonce message : Bytes) : Except Thrown Bytes :=
  if key.length ≠ 32 then .error (.error "Key must be 32 bytes".toList) else
  if S.cipher.maxEnc .js < message.length then .error (.error (M.engine "OperationError")) else
  .ok (nonce ++ gcmSeal S.cipher key nonce message)

/-- `encrypt` (zkenc.ts 309-380). -/
def encryptT (initOk : Bool) (r1cs : Bytes) (sym : Str) (inputs : List (Str × JsVal)) (message : Bytes) (includePublicInput : Bool) (ρ : Rand Fr)
    (nonce : Bytes) : Except Thrown (Bytes × Bytes) :=
  match encapT M S initOk r1cs sym inputs ρ with
  | .error e => .error e
  | .ok ck =>
  match aesGcmEncryptT M S ck.2 nonce message with
  | .error e => .error e
  | .ok enc =>
  if includePublicInput then
    match S.stringify inputs with
    | .error e => .error (engineThrows M e)
    | .ok s => .ok (combine true ck.1 (utf8Enc s) enc, ck.2)
  else .ok (combine false ck.1 [] enc, ck.2)

/-- `getPublicInput` (zkenc.ts 474-529). -/
def getPublicInputT (b : Bytes) : Except Thrown JsVal :=
  if b.length < 5 then .error (.error "Invalid ciphertext: too short".toList) else
  match viewU8 b 0 with
  | .error e => .error (engineThrows M e)
  | .ok flag =>
  if flag ≠ 1 then .error (.error
    "Public inputs are not included in this ciphertext. Use encrypt() with includePublicInput: true to embed public inputs.".toList) else
  match viewU32 b 1 with
  | .error e => .error (engineThrows M e)
  | .ok wLen =>
  if b.length < 5 + wLen then .error (.error "Invalid ciphertext: length mismatch".toList) else
  if b.length < 5 + wLen + 4 then .error (.error "Invalid ciphertext: missing public input length".toList) else
  match viewU32 b (5 + wLen) with
  | .error e => .error (engineThrows M e)
  | .ok pLen =>
  if b.length < 5 + wLen + 4 + pLen then .error (.error "Invalid ciphertext: public input length mismatch".toList) else
  match S.jsonParse (textDecode S (jsSlice b (5 + wLen + 4) (5 + wLen + 4 + pLen))) with
  | some v => .ok v
  | none => .error (.error ("Failed to parse public inputs: ".toList ++ M.engine "JSON.parse"))

end

/-! ## Handlers -/

/-- What a page shows for a failed encryption: docs/docs/guides/react-integration.md 118-119, PlaygroundClient.tsx 174-176, 352-354. -/
def pageText : Thrown → Option Str
  | .error m => some m
  | .text _ => some "Encryption failed".toList
  | .never => none

/-- What the worker of docs/docs/guides/react-integration.md 473-477 posts for a failed call; `none` is no answer. -/
def guideWorkerText : Thrown → Option Str
  | .error m => some m
  | .text _ => some "Unknown error".toList
  | .never => none

/-- What the worker of docs/docs/api/zkenc-js.md 474-476 posts as `error` for a failed call: `none` is no answer, `some none` is `undefined`. -/
def apiWorkerText : Thrown → Option (Option Str)
  | .error m => some (some m)
  | .text _ => some none
  | .never => none

end Zkenc
