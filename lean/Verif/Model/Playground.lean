import Verif.Model.Witness
/-!
# The playground of the documentation site — `docs/src/components/PlaygroundClient.tsx`

A React component: its state, its event handlers, and the calls of `encrypt` and `decrypt` that are in flight. The site is linked to the
repository's own zkenc-js (docs/package.json 34).

A handler sees the state as it was last rendered, and its `set…` calls are rendered before the next event (React renders synchronously after
a click). An asynchronous handler runs up to its `await`; the rest runs when the promise is settled, with the values it had captured.
Simplifications: error texts (only whether one is set) and translations are left out; the generator and the solver (`@forfuns/sudoku`) are
external, so is `JSON.stringify(x, null, 2)`.
-/

namespace Zkenc

/-- `activeTab` (PlaygroundClient.tsx 37). -/
inductive PlayTab where
  | sudoku
  | custom
  deriving DecidableEq

/-- `mode` (PlaygroundClient.tsx 40). -/
inductive PlayMode where
  | encrypt
  | decrypt
  deriving DecidableEq

/-- The `circuitFiles` objects of the playground (PlaygroundClient.tsx 54-63, 94, 287-290, 304-307). -/
structure PlayFiles where
  r1csBuffer : Bytes
  wasmBuffer : Bytes
  deriving DecidableEq

/-- `circuitFiles.symContent` (zkenc.ts 88) of such an object: there is no such property. -/
def PlayFiles.symContent (_ : PlayFiles) : Option Str := none

/-- A call in flight with the values the handler captured (PlaygroundClient.tsx 162-170, 211-220, 337-347, 375-392). -/
inductive PlayJob where
  | encrypt (tab : PlayTab) (files : PlayFiles) (inputs : JsVal) (message : Bytes) (includePublicInput : Bool)
  | decrypt (tab : PlayTab) (files : PlayFiles) (ciphertext : Bytes) (inputs : JsVal)

/-- The state of the component (PlaygroundClient.tsx 37-71) and the call in flight. `error` is whether an error text is set. -/
structure Play where
  activeTab : PlayTab := .sudoku
  mode : PlayMode := .encrypt
  message : Str := []
  puzzle : List JsVal := []
  solution : List JsVal := []
  ciphertext : Option Bytes := none
  decrypted : Str := []
  loading : Bool := false
  error : Bool := false
  uploadedCiphertext : Option Bytes := none
  circuitFiles : Option PlayFiles := none
  customCircuitFiles : Option PlayFiles := none
  customPublicInput : Str := []
  customPrivateInput : Str := []
  customMessage : Str := []
  customCiphertext : Option Bytes := none
  customDecrypted : Str := []
  includePublicInput : Bool := true
  jobs : List PlayJob := []

/-- What happens to the page. -/
inductive PlayEvent where
  /-- the two `fetch`es have ended (76-101) -/
  | circuitsLoaded (ok : Bool)
  | selectTab (t : PlayTab)
  | selectMode (m : PlayMode)
  /-- the page is opened or "Generate Random Puzzle" is clicked; the array is what the generator returned (10-14, 103-113) -/
  | generate (raw : List Int)
  | typeMessage (s : Str)
  /-- a character (or nothing) is typed into a cell of the puzzle or the solution (509-523) -/
  | typePuzzle (i : Nat) (c : Option Char)
  | typeSolution (i : Nat) (c : Option Char)
  | clickSolve
  | clickEncrypt
  | clickDecrypt
  /-- a file has been read (255-273, 284-292, 301-309, 417-431, 457-485) -/
  | ciphertextFile (b : Bytes)
  | customR1csFile (b : Bytes)
  | customWasmFile (b : Bytes)
  | customCiphertextFile (b : Bytes)
  | publicInputFile (s : Str)
  | privateInputFile (s : Str)
  | typeCustomPublic (s : Str)
  | typeCustomPrivate (s : Str)
  | typeCustomMessage (s : Str)
  | tickInclude (b : Bool)
  | clickCustomEncrypt
  | clickCustomDecrypt
  /-- the `i`th call in flight ends; `initOk` is whether `ensureWasmInit` returned, the rest is the randomness of the call -/
  | finish (i : Nat) (initOk : Bool) (ρ : Rand Fr) (nonce : Bytes)

/-- What is outside the component: the two files of the site (73-74), the solver with its exceptions (16-33) and
`JSON.stringify(x, null, 2)` (425, 461, 481). -/
structure PlayEnv where
  site : PlayFiles
  getSolution : List JsVal → Option (List JsVal)
  pretty : JsVal → Str

/-- `Object.keys` with the values: what `encrypt` and `decrypt` see of a value that `JSON.parse` returned. Simplification: the characters of a
string are scalar values. -/
def jsEntries : JsVal → Res (List (Str × JsVal))
  | .null => Res.fail "TypeError"
  | .undef => Res.fail "TypeError"
  | .obj l => .ok l
  | .arr l => .ok ((List.range l.length).map natDec |>.zip l)
  | .str s => .ok ((List.range s.length).map natDec |>.zip (s.map fun c => .str [c]))
  | _ => .ok []

/-- Reading a property of a value; `none` is an exception. -/
def jsProp (k : Str) : JsVal → Option JsVal
  | .null => none
  | .undef => none
  | .obj l => some ((l.find? fun e => e.1 = k).map (·.2) |>.getD .undef)
  | _ => some .undef

/-- `parseInt(e.target.value) || 0` for a field of at most one character (511, `maxLength` 522). -/
def cellValue : Option Char → Nat
  | some c => if isDig c then digVal c else 0
  | none => 0

/-- `(n === -1 ? 0 : n)` (12). -/
def ofGenerator (raw : List Int) : List JsVal := raw.map fun n => .num (if n = -1 then 0 else n)

/-- `v === 0` (195, 501). -/
def isZero : JsVal → Bool
  | .num 0 => true
  | _ => false

/-- `n === -1` (25). -/
def isMinusOne : JsVal → Bool
  | .num (-1) => true
  | _ => false

/-- `solveSudoku` (16-33): the solution, or `none` with `solvable` false. `(n === 0 ? -1 : n)` is 21. -/
def PlayEnv.solve (E : PlayEnv) (puzzle : List JsVal) : Option (List JsVal) :=
  match E.getSolution (puzzle.map fun v => if isZero v then .num (-1) else v) with
  | none => none
  | some l => if l.any isMinusOne then none else some l

/-- `decryptedMessage || "Decryption successful!"` (225, 397). -/
def shownText (s : Str) : Str := if s = [] then "Decryption successful!".toList else s

section
variable {σ : Type} (N : JsNums) {G1 G2 GT : Type} [AddCommGroup G1] [Module Fr G1] [AddCommGroup G2] [Module Fr G2] [AddCommGroup GT]
  [Module Fr GT] (S : Sys G1 G2 GT) (inst : Bytes → Res (CircuitWasm σ)) (E : PlayEnv)

/-- What `encrypt(circuitFiles, publicInputs, message, options)` returns for the objects of the playground (zkenc.ts 309-320, 81-88): `encap`
first reads `circuitFiles.symContent` and calls its `trim` (sym_parser.ts 27). -/
def playEncrypt (files : PlayFiles) (inputs : JsVal) (message : Bytes) (incl initOk : Bool) (ρ : Rand Fr) (nonce : Bytes) : Res (Bytes × Bytes) :=
  if initOk = false then Res.fail "WASM initialization failed" else
  match files.symContent with
  | none => Res.fail "TypeError: Cannot read properties of undefined (reading 'trim')"
  | some sym => jsEntries inputs >>= fun l => jsEncrypt S files.r1csBuffer sym l message incl ρ nonce

/-- What `decrypt(circuitFiles, ciphertext, inputs)` returns (zkenc.ts 405-456). Simplification: of several reasons to fail any may be the one
reported. -/
def playDecrypt (files : PlayFiles) (ciphertext : Bytes) (inputs : JsVal) (initOk : Bool) : Res Bytes :=
  if initOk = false then Res.fail "WASM initialization failed" else
  jsEntries inputs >>= fun l => jsDecryptApi N S files.r1csBuffer (inst files.wasmBuffer) ciphertext l

/-- The rest of the handlers of the encryption and decryption buttons when the call has ended: the ciphertext or the text, or an error; then
`setLoading(false)` (172-179, 222-235, 349-357, 394-407). -/
def Play.settle (s : Play) (initOk : Bool) (ρ : Rand Fr) (nonce : Bytes) : PlayJob → Play
  | .encrypt tab files inputs message incl =>
    match playEncrypt S files inputs message incl initOk ρ nonce with
    | .error _ => { s with error := true, loading := false }
    | .ok (b, _) =>
      match tab with
      | .sudoku => { s with ciphertext := some b, error := false, loading := false }
      | .custom => { s with customCiphertext := some b, error := false, loading := false }
  | .decrypt tab files ct inputs =>
    match playDecrypt N S inst files ct inputs initOk with
    | .error _ => { s with error := true, loading := false }
    | .ok b =>
      match tab with
      | .sudoku => { s with decrypted := shownText (textDecode S b), loading := false }
      | .custom => { s with customDecrypted := shownText (textDecode S b), loading := false }

/-- `handleGenerateRandom` (108-113); the button is on the encryption page of the Sudoku tab (589-596). -/
def Play.generate (s : Play) (raw : List Int) : Play :=
  if s.activeTab = .sudoku ∧ s.mode = .encrypt then { s with puzzle := ofGenerator raw, solution := [], error := false } else s

/-- The grid shown for the solution (748-752). -/
def Play.solutionGrid (s : Play) : List JsVal := if s.solution.length = 0 then s.puzzle else s.solution

/-- `onChange` of a cell of the puzzle (509-521); the grid is on both pages of the Sudoku tab (598, 714) and always editable. -/
def Play.typePuzzle (s : Play) (i : Nat) (c : Option Char) : Play :=
  if s.activeTab = .sudoku ∧ i < s.puzzle.length then { s with puzzle := s.puzzle.set i (.num (cellValue c)) } else s

/-- `onChange` of a cell of the solution (509-521): not for a cell that is given (501, 523), on the decryption page only (748-752). -/
def Play.typeSolution (s : Play) (i : Nat) (c : Option Char) : Play :=
  if s.activeTab = .sudoku ∧ s.mode = .decrypt ∧ i < s.solutionGrid.length ∧ isZero (s.puzzle[i]?.getD .undef) = true then
    { s with solution := s.solutionGrid.set i (.num (cellValue c)) } else s

/-- `handleAutoSolve` (115-137); the button: 731-735. -/
def Play.clickSolve (s : Play) : Play :=
  if s.activeTab = .sudoku ∧ s.mode = .decrypt ∧ s.loading = false ∧ s.puzzle.length ≠ 0 then
    match E.solve s.puzzle with
    | none => { s with solution := [], error := true }
    | some l => { s with solution := l, error := false }
  else s

/-- `handleEncrypt` (139-170) up to the `await`; the button: 618-621. -/
def Play.clickEncrypt (s : Play) : Play :=
  if s.activeTab = .sudoku ∧ s.mode = .encrypt ∧ s.loading = false ∧ s.message ≠ [] then
    match s.circuitFiles with
    | none => { s with error := true }
    | some files =>
      if s.puzzle.length ≠ 81 then { s with error := true } else
      { s with loading := true, error := false,
               jobs := s.jobs ++ [.encrypt .sudoku files (.obj [("puzzle".toList, .arr s.puzzle)]) (utf8Enc s.message) true] }
  else s

/-- The ciphertext that is decrypted (183). -/
def Play.ciphertextToUse (s : Play) : Option Bytes := s.uploadedCiphertext <|> s.ciphertext

/-- `handleDecrypt` (182-220) up to the `await`; the button: 757-760. -/
def Play.clickDecrypt (s : Play) : Play :=
  if s.activeTab = .sudoku ∧ s.mode = .decrypt ∧ s.loading = false then
    match s.ciphertextToUse with
    | none => s
    | some ct =>
      match s.circuitFiles with
      | none => { s with error := true }
      | some files =>
        if s.solution.any isZero then { s with error := true } else
        if s.solution.length ≠ 81 then { s with error := true } else
        { s with loading := true, error := false, decrypted := [],
                 jobs := s.jobs ++ [.decrypt .sudoku files ct (.obj [("puzzle".toList, .arr s.puzzle), ("solution".toList, .arr s.solution)])] }
  else s

/-- `reader.onload` of `handleUploadCiphertext` (255-274). -/
def Play.ciphertextFile (s : Play) (b : Bytes) : Play :=
  let s := { s with uploadedCiphertext := some b, mode := .decrypt }
  match jsGetPublicInput S b with
  | .error _ => s
  | .ok v =>
    match jsProp "puzzle".toList v with
    | some (.arr l) => { s with puzzle := l, solution := l, error := false }
    | _ => s

/-- `handleCustomR1CSUpload` (279-294). -/
def Play.customR1csFile (s : Play) (b : Bytes) : Play :=
  { s with customCircuitFiles := some ⟨b, (s.customCircuitFiles.map (·.wasmBuffer)).getD []⟩, error := false }

/-- `handleCustomWasmUpload` (296-311). -/
def Play.customWasmFile (s : Play) (b : Bytes) : Play :=
  { s with customCircuitFiles := some ⟨(s.customCircuitFiles.map (·.r1csBuffer)).getD [], b⟩, error := false }

/-- `reader.onload` of `handleCustomCiphertextUpload` (417-432). -/
def Play.customCiphertextFile (s : Play) (b : Bytes) : Play :=
  let s := { s with customCiphertext := some b, mode := .decrypt }
  match jsGetPublicInput S b with
  | .error _ => s
  | .ok v => { s with customPublicInput := E.pretty v, error := false }

/-- `handleCustomEncrypt` (313-347) up to the `await`; the button: 978-981. -/
def Play.clickCustomEncrypt (s : Play) : Play :=
  if s.activeTab = .custom ∧ s.mode = .encrypt ∧ s.loading = false ∧ s.customMessage ≠ [] then
    match s.customCircuitFiles with
    | none => s
    | some files =>
      if files.r1csBuffer.length = 0 ∨ files.wasmBuffer.length = 0 then { s with error := true } else
      if s.customPublicInput = [] then { s with error := true } else
      match S.jsonParse s.customPublicInput with
      | none => { s with error := true }
      | some v => { s with loading := true, error := false,
                           jobs := s.jobs ++ [.encrypt .custom files v (utf8Enc s.customMessage) s.includePublicInput] }
  else s

/-- `handleCustomDecrypt` (360-392) up to the `await`; the button: 1190-1193. -/
def Play.clickCustomDecrypt (s : Play) : Play :=
  if s.activeTab = .custom ∧ s.mode = .decrypt ∧ s.loading = false then
    match s.customCiphertext, s.customCircuitFiles with
    | some ct, some files =>
      if files.r1csBuffer.length = 0 ∨ files.wasmBuffer.length = 0 then { s with error := true } else
      match S.jsonParse (if s.customPrivateInput = [] then s.customPublicInput else s.customPrivateInput) with
      | none => { s with error := true }
      | some v => { s with loading := true, error := false, customDecrypted := [], jobs := s.jobs ++ [.decrypt .custom files ct v] }
    | _, _ => s
  else s

/-- One event. A control that is not shown or disabled does nothing. -/
def Play.step (s : Play) : PlayEvent → Play
  | .circuitsLoaded ok => if ok then { s with circuitFiles := some E.site } else { s with error := true }
  | .selectTab t => { s with activeTab := t }
  | .selectMode m => { s with mode := m }
  | .generate raw => s.generate raw
  | .typeMessage t => { s with message := t }
  | .typePuzzle i c => s.typePuzzle i c
  | .typeSolution i c => s.typeSolution i c
  | .clickSolve => s.clickSolve E
  | .clickEncrypt => s.clickEncrypt
  | .clickDecrypt => s.clickDecrypt
  | .ciphertextFile b => s.ciphertextFile S b
  | .customR1csFile b => s.customR1csFile b
  | .customWasmFile b => s.customWasmFile b
  | .customCiphertextFile b => s.customCiphertextFile S E b
  -- `handlePublicInputFileUpload`, `handlePrivateInputFileUpload` (450-488)
  | .publicInputFile t =>
    match S.jsonParse t with
    | none => { s with error := true }
    | some v => { s with customPublicInput := E.pretty v, error := false }
  | .privateInputFile t =>
    match S.jsonParse t with
    | none => { s with error := true }
    | some v => { s with customPrivateInput := E.pretty v, error := false }
  | .typeCustomPublic t => { s with customPublicInput := t }
  | .typeCustomPrivate t => { s with customPrivateInput := t }
  | .typeCustomMessage t => { s with customMessage := t }
  | .tickInclude b => { s with includePublicInput := b }
  | .clickCustomEncrypt => s.clickCustomEncrypt S
  | .clickCustomDecrypt => s.clickCustomDecrypt S
  | .finish i initOk ρ nonce =>
    match s.jobs[i]? with
    | none => s
    | some job => ({ s with jobs := s.jobs.eraseIdx i } : Play).settle N S inst initOk ρ nonce job

/-- The page after a history of events. -/
def Play.after (h : List PlayEvent) : Play := h.foldl (fun s e => s.step N S inst E e) {}

end

/-- The Sudoku tab says "Encryption successful!" and offers this file for download (634-657, 238-248). -/
def Play.offered (s : Play) : Option Bytes := if s.activeTab = .sudoku ∧ s.mode = .encrypt then s.ciphertext else none

/-- The custom tab says "Encryption successful!" and offers this file for download (994-1017, 436-448). -/
def Play.customOffered (s : Play) : Option Bytes := if s.activeTab = .custom ∧ s.mode = .encrypt then s.customCiphertext else none

/-- The text under "Decrypted Message:" of the Sudoku tab (777-786), if there is one. -/
def Play.shown (s : Play) : Option Str := if s.activeTab = .sudoku ∧ s.mode = .decrypt ∧ s.decrypted ≠ [] then some s.decrypted else none

/-- The text under "Decrypted Message:" of the custom tab (1210-1221), if there is one. -/
def Play.customShown (s : Play) : Option Str :=
  if s.activeTab = .custom ∧ s.mode = .decrypt ∧ s.customDecrypted ≠ [] then some s.customDecrypted else none

end Zkenc
