import Verif.Model.Witness
/-!
# What a failing JS call throws, and the documented way of telling failures apart

The other modules only say whether a call fails. Here the thrown values are modelled: `packages/zkenc-js/src/zkenc.ts` 248-265, 405-456, `witness_calculator.ts` 59-106,
226-239, `crypto.ts` 58-99, `lib.rs` 444-487, and the handlers of `docs/docs/api/zkenc-js.md` 413-426, `docs/docs/guides/nodejs-integration.md` 511-525 and
`docs/src/components/PlaygroundClient.tsx` 226-232, 398-404.
-/

namespace Zkenc

/-- What the caller of an asynchronous function gets instead of a value: an `Error` object with its message, a string that is not an `Error` (what wasm-bindgen throws
for `Err(JsValue::from_str(..))`, lib.rs 451-484), or no answer at all. -/
inductive Thrown where
  | error (message : Str)
  | text (s : Str)
  | never
  deriving DecidableEq

/-- Messages that are not written in the repository: of the errors the JS engine makes itself (`TypeError`, `RangeError`, the `RuntimeError` of a trap, …), and the
rest of the strings thrown by the wasm module (Rust `Display`/`Debug` texts). -/
structure JsTexts where
  engine : String → Str
  rust : String → Str

section
variable {σ : Type} (M : JsTexts) (N : JsNums) (x : CalcInst σ)

/-- A failure inside the JS engine. -/
def engineThrows : Fault → Thrown
  | .err m => .error (M.engine m)
  | .panic => .error (M.engine "unreachable")
  | .hang => .never

/-- A failure of a JS function that throws the given message. -/
def messageThrows : Fault → Thrown
  | .err m => .error m.toList
  | .panic => .error (M.engine "unreachable")
  | .hang => .never

/-- `catch (err) { throw new Error(`Error setting signal ${k}[${i}]: ${err}`) }` (witness_calculator.ts 94-96). The text of an error object is its name, a colon and its
message; a circuit reports by `new Error(..)` (witness_calculator.ts 286), a trap is a `RuntimeError`. -/
def settingThrows (k : Str) (i : Nat) : Fault → Thrown
  | .err m => .error ("Error setting signal ".toList ++ k ++ '[' :: (natDec i ++ ']' :: ':' :: (" Error".toList ++ ':' :: ' ' :: m.toList)))
  | .panic => .error ("Error setting signal ".toList ++ k ++ '[' :: (natDec i ++ ']' :: ':' :: (" RuntimeError".toList ++ ':' :: ' ' :: M.engine "unreachable")))
  | .hang => .never

/-- The loop over the values of one signal (witness_calculator.ts 86-97). -/
def setValuesT (k : Str) (hMSB hLSB : Nat) : List Int → Nat → σ → Nat → Except Thrown (σ × Nat)
  | [], _, s, counter => .ok (s, counter)
  | z :: zs, i, s, counter =>
    if x.prime = 0 then .error (.error (M.engine "RangeError")) else
    match x.setInput s (sharedMemory x.n32 (toArray32 (normalizeBig z x.prime).toNat x.n32)) hMSB hLSB i with
    | .error e => .error (settingThrows M k i e)
    | .ok s' => setValuesT k hMSB hLSB zs (i + 1) s' (counter + 1)

/-- The loop over the keys (witness_calculator.ts 69-98). -/
def setKeysT : List (Str × JsVal) → σ → Nat → Except Thrown (σ × Nat)
  | [], s, counter => .ok (s, counter)
  | (k, v) :: rest, s, counter =>
    match hashHalves k with
    | .error e => .error (engineThrows M e)
    | .ok h =>
    match flatArray N v with
    | .error e => .error (engineThrows M e)
    | .ok fArr =>
    if x.signalSize h.1 h.2 < 0 then .error (.error ("Signal ".toList ++ k ++ " not found\n".toList)) else
    if (fArr.length : Int) < x.signalSize h.1 h.2 then .error (.error ("Not enough values for input signal ".toList ++ k ++ "\n".toList)) else
    if (fArr.length : Int) > x.signalSize h.1 h.2 then .error (.error ("Too many values for input signal ".toList ++ k ++ "\n".toList)) else
    match setValuesT M x k h.1 h.2 fArr 0 s counter with
    | .error e => .error e
    | .ok r => setKeysT rest r.1 r.2

/-- `_doCalculateWitness` (witness_calculator.ts 59-106). -/
def doCalculateWitnessT (input : List (Str × JsVal)) (s : σ) : Except Thrown σ :=
  match x.init false s with
  | .error e => .error (messageThrows M e)
  | .ok s =>
  match setKeysT M N x input s 0 with
  | .error e => .error e
  | .ok r =>
  if (r.2 : Int) < x.inputSize then
    .error (.error ("Not all inputs have been set. Only ".toList ++ (natDec r.2 ++ (" out of ".toList ++ intDec x.inputSize))))
  else .ok r.1

/-- `calculateWitness` (witness.ts 23-35). The messages of `wasm` are those of `WebAssembly.compile` and `instantiate`, with what witness_calculator.ts 236-239 puts in
front of them. -/
def calculateWitnessT (wasm : Res (CircuitWasm σ)) (inputs : List (Str × JsVal)) : Except Thrown Bytes :=
  match wasm with
  | .error e => .error (messageThrows M e)
  | .ok x =>
  match doCalculateWitnessT M N x.toCalcInst inputs x.start with
  | .error e => .error e
  | .ok t => .ok (calcWtnsBin (x.exports t))

/-- A failure of `wasm_decap` as it is seen from JS: an `Err` is thrown as a string (lib.rs 451-484), a panic is a trap. -/
def wasmThrows : Fault → Thrown
  | .err m => .text (M.rust m)
  | .panic => .error (M.engine "unreachable")
  | .hang => .never

variable {G1 G2 GT : Type} [AddCommGroup G1] [Module Fr G1] [AddCommGroup G2] [Module Fr G2] [AddCommGroup GT] [Module Fr GT]
  (S : Sys G1 G2 GT)

/-- `decap` (zkenc.ts 248-265); `initOk` says whether the wasm module of the library could be loaded. -/
def decapT (initOk : Bool) (r1cs : Bytes) (wasm : Res (CircuitWasm σ)) (ct : Bytes) (inputs : List (Str × JsVal)) : Except Thrown Bytes :=
  if initOk = false then .error (.error (M.engine "initialization")) else
  match calculateWitnessT M N wasm inputs with
  | .error e => .error e
  | .ok wtns =>
  match wasmDecap S r1cs wtns ct with
  | .error e => .error (wasmThrows M e)
  | .ok key => .ok key

/-- `aesGcmDecrypt` (crypto.ts 58-99). -/
def aesGcmDecryptT (key data : Bytes) : Except Thrown Bytes :=
  if key.length ≠ 32 then .error (.error "Key must be 32 bytes".toList) else
  if data.length < 28 then .error (.error "Invalid encrypted data: too short".toList) else
  if S.cipher.maxDec .js < data.length - 28 then .error (.error "Decryption failed: invalid key or corrupted data".toList) else
  match gcmOpen S.cipher key (data.take 12) (data.drop 12) with
  | some m => .ok m
  | none => .error (.error "Decryption failed: invalid key or corrupted data".toList)

/-- `decrypt` (zkenc.ts 405-456). -/
def decryptT (initOk : Bool) (r1cs : Bytes) (wasm : Res (CircuitWasm σ)) (ciphertext : Bytes) (inputs : List (Str × JsVal)) : Except Thrown Bytes :=
  match splitJs ciphertext with
  | .error e => .error (messageThrows M e)
  | .ok p =>
  match decapT M N S initOk r1cs wasm p.witnessCt inputs with
  | .error e => .error e
  | .ok key => aesGcmDecryptT S key p.encrypted

end

/-! ## Handlers -/

/-- What a documented handler does. -/
inductive Report where
  /-- "Success:" and the message. -/
  | success (m : Bytes)
  /-- "Ciphertext is corrupted or invalid". -/
  | corrupted
  /-- "Witness does not satisfy circuit constraints". -/
  | unsatisfied
  /-- "Decryption failed:" and the error's message. -/
  | failed (message : Str)
  /-- The handler itself throws a `TypeError`. -/
  | typeError
  /-- Nothing is printed. -/
  | silent
  deriving DecidableEq

/-- `s.includes(w)`. -/
def jsIncludes (s w : Str) : Bool := decide (w <:+: s)

/-- The `try`/`catch` of docs/docs/api/zkenc-js.md 413-426. The `message` of a string is `undefined`, and `undefined.includes` is a `TypeError`. -/
def documentedReport : Except Thrown Bytes → Report
  | .ok m => .success m
  | .error (.error m) =>
    if jsIncludes m "Invalid ciphertext".toList then .corrupted
    else if jsIncludes m "constraint".toList then .unsatisfied
    else .failed m
  | .error (.text _) => .typeError
  | .error .never => .silent

/-- The `try`/`catch` of docs/docs/guides/nodejs-integration.md 511-525: the same inside `if (error instanceof Error)`. -/
def guideReport : Except Thrown Bytes → Report
  | .error (.text _) => .silent
  | r => documentedReport r

/-- The text the playground shows for a failed decryption (PlaygroundClient.tsx 226-232, 398-404). -/
def playgroundText : Thrown → Option Str
  | .error m => some ("❌ Decryption failed: ".toList ++ m)
  | .text _ => some ("❌ Decryption failed: ".toList ++ "Invalid witness or corrupted ciphertext".toList)
  | .never => none

end Zkenc
