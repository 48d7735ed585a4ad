import Verif.Model.Circom
import Verif.Model.Container
import Verif.Model.Crypto
import Verif.Model.Inputs
import Verif.Model.R1csParse
import Verif.Model.Serializable
import Verif.Model.Wkem
/-!
# The wasm entry points and the JS API — `packages/zkenc-js/src/lib.rs` 384-487, `packages/zkenc-js/src/zkenc.ts`
-/

namespace Zkenc

/-- Everything the tools take from libraries and the platform: the pairing with its hash, evaluation domains, point encodings
(compressed BN254 points: 32 and 64 bytes), the block
cipher, the largest file offset, `HashMap` iteration orders, and the JSON text functions (`serde_json::from_str`, `JSON.stringify`,
`JSON.parse`) and the handling of invalid UTF-8 by `TextDecoder`. -/
structure Sys (G1 G2 GT : Type) [AddCommGroup G1] [Module Fr G1] [AddCommGroup G2] [Module Fr G2] [AddCommGroup GT] [Module Fr GT] where
  P : Pairing Fr G1 G2 GT
  dom : Domains Fr
  c1 : Codec G1
  c2 : Codec G2
  c1_size : c1.size = 32
  c2_size : c2.size = 64
  cipher : Cipher
  lim : Nat
  hash : HashOrder
  serdeParse : Str → Option Json
  stringify : List (Str × JsVal) → Res Str
  jsonParse : Str → Option JsVal
  lossyDecode : Bytes → Str

section
variable {G1 G2 GT : Type} [AddCommGroup G1] [Module Fr G1] [AddCommGroup G2] [Module Fr G2] [AddCommGroup GT] [Module Fr GT]
  (S : Sys G1 G2 GT)

/-- `wasm_encap` (lib.rs 384-432): ciphertext bytes and key bytes. The randomness is an argument; failure of the system's random
source (lib.rs 416) is not modelled. -/
def wasmEncap (r1cs wtns : Bytes) (ρ : Rand Fr) : Res (Bytes × Bytes) :=
  jsParseR1cs r1cs >>= fun r =>
  jsParseWtns wtns >>= fun vals =>
  encap S.P S.dom (jsCircuit r (wasmEncapWires r.nPublicInputs vals)) ρ >>= fun res =>
  .ok (encCiphertext S.c1 S.c2 res.1, res.2.bytes)

/-- `wasm_decap` (lib.rs 444-487). -/
def wasmDecap (r1cs wtns ct : Bytes) : Res Bytes :=
  jsParseR1cs r1cs >>= fun r =>
  jsParseWtns wtns >>= fun vals =>
  if vals.length ≠ r.nWires then Res.fail "Witness size mismatch" else
  Res.ofOption (decCiphertext S.c1 S.c2 ct) "Ciphertext deserialization failed" >>= fun c =>
  decap S.P (jsCircuit r (fullWires vals)) c >>= fun k =>
  .ok k.bytes

/-- JS `encap` (zkenc.ts 81-122), after initialisation of the wasm module. -/
def jsEncap (r1cs : Bytes) (sym : Str) (inputs : List (Str × JsVal)) (ρ : Rand Fr) : Res (Bytes × Bytes) :=
  jsEncapWitness sym inputs >>= fun wtns => wasmEncap S r1cs wtns ρ

/-- JS `decap` (zkenc.ts 248-265), after initialisation. `wit` is the outcome of running the circuit's own wasm on the inputs
(`calculateWitness`, an external program): witness bytes or an exception. -/
def jsDecap (r1cs : Bytes) (wit : Res Bytes) (ct : Bytes) : Res Bytes :=
  wit >>= fun wtns => wasmDecap S r1cs wtns ct

/-- UTF-8 encoding: `TextEncoder.encode` (zkenc.ts 328), the bytes of a Rust string. -/
def utf8Enc (s : Str) : Bytes := (String.ofList s).toByteArray.data.toList

/-- `TextDecoder.decode` (zkenc.ts 518): a leading byte order mark is dropped, invalid bytes are replaced (arbitrary here). -/
def textDecode (b : Bytes) : Str :=
  let b := if b.take 3 = [0xEF, 0xBB, 0xBF] then b.drop 3 else b
  match utf8Dec b with
  | some s => s.toList
  | none => S.lossyDecode b

/-- JS `encrypt` (zkenc.ts 309-380): combined ciphertext and key. -/
def jsEncrypt (r1cs : Bytes) (sym : Str) (inputs : List (Str × JsVal)) (message : Bytes) (includePublicInput : Bool) (ρ : Rand Fr)
    (nonce : Bytes) : Res (Bytes × Bytes) :=
  jsEncap S r1cs sym inputs ρ >>= fun ck =>
  encryptGcm S.cipher .js ck.2 nonce message >>= fun enc =>
  (if includePublicInput then S.stringify inputs >>= fun s => .ok (utf8Enc s) else .ok []) >>= fun pub =>
  .ok (combine includePublicInput ck.1 pub enc, ck.2)

/-- JS `decrypt` (zkenc.ts 405-456). -/
def jsDecrypt (r1cs : Bytes) (wit : Res Bytes) (ciphertext : Bytes) : Res Bytes :=
  splitJs ciphertext >>= fun p =>
  jsDecap S r1cs wit p.witnessCt >>= fun key =>
  decryptGcm S.cipher .js key p.encrypted

/-- JS `getPublicInput` (zkenc.ts 474-529). -/
def jsGetPublicInput (ciphertext : Bytes) : Res JsVal := getPublicInput (textDecode S) S.jsonParse ciphertext

end

end Zkenc
