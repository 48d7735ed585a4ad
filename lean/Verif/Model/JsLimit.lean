import Verif.Model.Api
/-!
# JS `encap` and `encrypt` with the engine's limit on call arguments

`Math.max(...Array.from(wireValues.keys()))` (zkenc.ts 95) passes one argument for each wire that got a value. Engines throw a `RangeError` when
a call has more arguments than fit on the stack (about 120 000 in V8). Everywhere else this limit is left out; here it is a parameter.
-/

namespace Zkenc

/-- `jsEncapWitness` (zkenc.ts 86-116) in an engine that allows `lim` arguments in a call; the call is the one of zkenc.ts 95. -/
def jsEncapWitnessLim (lim : Nat) (sym : Str) (inputs : List (Str × JsVal)) : Res Bytes :=
  let sig := inputSignals (jsParseSymFile sym) none
  mapInputsToWires inputs sig >>= fun m =>
  if lim < m.length then Res.fail "RangeError" else
  fillWitness m 1 (maxKey m) >>= fun zs =>
  .ok (serializeWitnessSimple (1 :: zs))

variable {G1 G2 GT : Type} [AddCommGroup G1] [Module Fr G1] [AddCommGroup G2] [Module Fr G2] [AddCommGroup GT] [Module Fr GT]
  (S : Sys G1 G2 GT)

/-- `encap` (zkenc.ts 81-122) in such an engine. -/
def jsEncapLim (lim : Nat) (r1cs : Bytes) (sym : Str) (inputs : List (Str × JsVal)) (ρ : Rand Fr) : Res (Bytes × Bytes) :=
  jsEncapWitnessLim lim sym inputs >>= fun wtns => wasmEncap S r1cs wtns ρ

/-- `encrypt` (zkenc.ts 309-380) in such an engine. -/
def jsEncryptLim (lim : Nat) (r1cs : Bytes) (sym : Str) (inputs : List (Str × JsVal)) (message : Bytes) (includePublicInput : Bool) (ρ : Rand Fr)
    (nonce : Bytes) : Res (Bytes × Bytes) :=
  jsEncapLim S lim r1cs sym inputs ρ >>= fun ck =>
  encryptGcm S.cipher .js ck.2 nonce message >>= fun enc =>
  (if includePublicInput then S.stringify inputs >>= fun s => .ok (utf8Enc s) else .ok []) >>= fun pub =>
  .ok (combine includePublicInput ck.1 pub enc, ck.2)

end Zkenc
