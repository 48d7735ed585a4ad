# Formal model of zkenc in Lean 4 — design

`/repo` is read as text only.  The model lives in `lean/Verif/`:

* `Verif/Basic/*`  — bytes, integer codecs, outcome type (`ok / err / panic / hang`).
* `Verif/Model/*`  — one definition per Rust/TypeScript function, each with a comment citing file and lines.
* `Verif/Spec/*`   — small independent specifications (R1CS satisfaction as plain sums, file grammars
  given by *encoders*, container grammar, FNV-1a, …).  They do not use the model's helpers.
* `Verif/Proofs/*` — helper lemmas.
* `Verif/Props/*`  — property theorems `C01_…`, `C02_…`, … with, beside each, an `example`/theorem showing
  that a concrete non-trivial case meets the hypotheses.

## Conventions

* `Bytes = List UInt8`.  `usize` on the CLI is 64-bit and unbounded in the model where no overflow is reachable;
  `u32` sums (`n_pub_out + n_pub_in`) wrap mod 2^32 (release build); wasm32 `usize` wraps mod 2^32.
* Outcome of fallible code: `Res α = Except Fault α`, `Fault = err msg | panic | hang`.  `hang` = provable
  non-termination of the loop (its state repeats).
* Field: generic `[Field F]` in the core; concrete BN254 scalar field `ZMod p` for codecs and Circom circuits.
* Pairing: `G1 G2 GT` are `F`-modules, `e` an `F`-bilinear map, `g1 g2` fixed elements, `kdf : GT → Key`
  (blake3 ∘ serialize_compressed) arbitrary.  Injectivity of `kdf` / `e g1 g2 ≠ 0` are hypotheses only where stated.
* Constraint synthesizer: an arbitrary function on constraint-system states (core), the two Circom
  implementations modelled concretely.
* Hash maps: association lists; iteration order is an explicit permutation argument.
* Randomness: explicit arguments.

## Properties → model → proof

| id | model | proof |
|----|-------|-------|
| C01 | `Model.encap`, `Model.decap`, Circom synthesis | aborted synthesis leaves no constraints ⇒ all query elements are 0 ⇒ both sides compute e(α,β) |
| C02 | same, full synthesis | bilinearity: exact equation; refuting instance over a small field |
| C03 | same | explicit `recoverKey` from ciphertext only; equality by computation of the two MSM sums |
| C04–C06 | `decap` | case analysis of decap; Circom satisfaction lemma (C32) |
| C07 | `encap` | case split on δ = 0 |
| C08–C11 | `encap`/`decap` on Circom circuits | induction over allocation loops |
| C12 | `verifyCiphertext` | list induction; CRS-swap |
| C13, C14 | `evaluateQap` vs Mathlib `Lagrange.interpolate`, `nodal` | sums over constraints; polynomial divisibility |
| C15–C18 | serialization of ciphertexts with abstract point codecs (law: fixed length, decode∘encode = some), concrete Fr codec | list induction |
| C19, C20 | bincode of `SerializableCircuit`; `to_serializable` | codec combinators |
| C21–C25 | CLI file cursor parser, JS wrapping-offset parser vs the grammar encoder | induction over sections/constraints/factors |
| C26–C31 | .wtns parsers, JS serializers | induction |
| C32–C34 | Circom synthesis | induction over factors, LC merging preserves value |
| C35–C40 | .sym parsers, JSON flattening, input mapping | list induction, permutations |
| C41–C46 | AEAD as structure with correctness/length laws (+ concrete instance), container pack/unpack | list computation |
| C47–C49 | commands composed from all of the above | composition |
| C50 | file-system state machine with crash points | case analysis |
| C51 | interleaving state machine of `ensureWasmInit` | invariant by induction over steps |
| C52, C53 | `fnvHash`, `flatArray`, `_doCalculateWitness` (`Model/WitnessCalc`) | UTF-16 fold against byte-wise FNV-1a; induction over input lists |
| C54 | `Model/Inputs`, `Model/Commands`, `Model/Api` | wire numbering of circom (outputs first) + C08 |
| C55 | files and byte arrays of `encap`/`decap` of both tools | composition of C01, C16, C21, C22, C26, C30 |
| C56, C57 | `JSON.stringify`, `JSON.parse`, `serde_json::from_str` on text (`Model/JsonText`), grammar in `Spec/JsonText` | printer/parser inverse by structural induction; order of BigInt error |
| C58 | `Model/Witness` (calculateWitness), compiled circuit as hypothesis (`Spec/Compiled`) | composition of C31, C48, C53 |
| C59, C60 | `Model/Witness`, `Model/WitnessCalcJs` | both calculators in one state machine; byte equality |
| C61 | `Model/Bn254` (radix-2 and mixed-radix domains, root of unity by repeated squaring, `evaluate_all_lagrange_coefficients`) | primitive roots in `ZMod p`; loop invariants; `Lagrange.basis` |
| C62 | `Model/SerializableJson`, `Model/SerializableFiles` | serde derive as functions on JSON trees; text printer/parser of C45; crash points of one write; the documents written and read are those of `Spec/SerializableLayout` |
| C63 | `Model/Legacy` | structural induction over JSON values |
| C64–C66 | `Model/Parallel` (small steps of several processes, reads answered by an adversary) | footprint invariant (`Uses`), simulation of one process by itself |
| C67 | `Model/JsCalls` (segments between `await`s, shared objects, user code) | invariant: code in flight depends only on the call's arguments; history of views |
| C68 | `Model/Inputs` | induction over nested values: each name has at most one bracket more than its key |
| C69 | `Model/Curve`, `Model/CurveCodec` (Mathlib's elliptic curves over `Fq`, `Fq2`) | characterisation of decoding for any coordinate field with a lawful codec; group orders from kernel-checked addition chains (`Proofs/G1Cert`, `Proofs/G2Cert`), counting of points, a point of order 10069 on the twist |
| C70 | `Model/CurveCodec`, `Model/Serialize`, `Model/Commands`, `Model/Api` | exact language of each reader; shape of documented ciphertexts (first query element is the identity) |
| C71 | `Model/CommandLine` | grammar of argument lists (`Spec/CommandLine`) equals the parser's language, by induction on the arguments |
| C72 | `Model/Crypto` | `Spec/Gcm` defines GF(2^128) as a quotient of polynomials; the bitwise multiplication is proved to be its product, the polynomial is proved irreducible (Rabin test, checked by the kernel), then root counting |
| C73 | `Model/CommandLine`, `Model/Commands` | composition of C71 with C47, C50, C55 and the container format |
| C74 | `Model/Api`, `Model/Commands`, `Model/Circom` | synthesis reads only the wires 1 … n−1 (induction over the allocation loops); case analysis of the commands |
| C75 | `Model/Sudoku` (the circom template), `Model/SudokuR1cs` (the committed compiled circuit, generated by `tools/gen_sudoku.py`) | reflection: a checked elimination certificate (`Model/SudokuCert`) shows that the compiled constraints have the same solutions as the template; then algebra. Counterexample checked by the kernel |
| C76 | the committed `sudoku.r1cs`, `sudoku.sym` as bytes and text; `Model/Commands`, `Model/Api` | C21, C23, C35 applied to the files; C77 with C75 |
| C77 | `Model/Commands`, `Model/Api`, `Model/Wkem` | C04/C05 (decap sound), C08 (what is bound), C01 and the input theorems C38, for all four tool pairs |
| C78 | `Model/Playground`: the component's state, handlers and calls in flight as a transition system | invariant over all histories: no `symContent`, so no call of `encrypt` returns |
| C79 | `Model/Playground` | invariant: number of calls in flight = 1 exactly if `loading` |
| C80 | `Model/Playground`, `Model/Witness` (`jsDecryptApi`) | every call in flight captured the page at a click; every shown text comes from a call that ended |
| C81 | `Model/JsonText`; the grammar and the meaning of a text as relations in `Spec/JsonGrammar` | parser sound (recursion on the step bound) and complete (recursion on derivations); invariant for the order of properties |
| C82 | `Model/Playground`, `Model/Sudoku*`, `Model/Witness`; `Spec/SudokuProgram` says what is assumed of `sudoku.wasm` (met by a concrete program in `Props/PlaySudokuExample`) | induction over the typed digits; C53, C58, C76, C45/C57 composed |
| C83 | `Model/SignatureR1cs` (the 55 constraints of the committed `signature.r1cs` on the choice of the signers and on the keys in the verifiers, with their positions; generated and checked by `tools/gen_signature.py`). The 8388 constraints of the signature equation (EdDSA-Poseidon) are not modelled: the theorems range over every circuit file that has these 55 at their places | case analysis on the two-bit comparison, over the field; explicit witnesses for the converse |
| C84 | the models of both tools (C77), `Spec/Signature` (what is used of `signature.r1cs` and `signature.sym`, checked by `tools/gen_signature.py`) | C77 (exactly), C68 and C83 composed; both sides met by concrete files in `Props/SignatureExample` |
| C85 | `Model/Playground`, `Model/Witness`; `Props/PlayCustom` starts with the specification (what an event puts into which field) | induction over the history for the fields; C77 (exactly) for the message; a concrete visit in `Props/PlayCustomExample` |
| C86 | `Model/Playground` (the solver of the library `@forfuns/sudoku` is a parameter) | case analysis; C82 composed; concrete visits in `Props/PlaySudokuExample` |
| C87 | `Model/Api`, `Commands`, `Container`, `Serialize`, `Circom` | where allocation of the public wires stops, by induction; C15, C41, C43 composed; the Sudoku circuit of `Model/SudokuR1cs` |
| C88 | `Model/WitnessCalc`, `Witness`, `Inputs`, `Api`, `Commands` | the calculator depends only on the leaves, by mutual induction; counting brackets in signal names; C77 composed |
| C89 | `Model/Prog`, `Wkem`, `Mimc` (the MiMC circuit of the tests, with the gadgets of *ark-r1cs-std* it uses) | the shape "allocate, then go on" in `Spec/Native`; induction over the allocations; induction over the rounds with the invariant "all constraints hold and the two combinations have the values of the hash" |
| C90 | `Model/TestFixture` (the exporter, the test case type and the circuit of the core tests) | reader laws as for C19; synthesis equal as functions; C01, C08, C75 composed |
| C91 | `Model/Wkem` | counting the pairs with a given product in a finite field |
| C92 | `Model/Documented` (the example synthesizer and the layout of the references), `Model/CommandLine` | a required option shows in every accepted argument list (C71); arithmetic on the misread length field; C89 for the example |
| C93 | `Spec/QuickStart` (any compiled file with the wires and the meaning of the documented circuit) | C77 with the first public wire, the output, never supplied |
| C94 | as C58 and C77 | C77 with the witness that the program computes: its values on named wires are those of the input object |
| C95 | `Model/CircuitFiles` (the first argument as an object whose properties may be missing or of the wrong kind) | case analysis of the four functions |
| C96 | `Model/Serializable`, `Model/TestFixture` | each reader accepts exactly the encodings of the specification (`Spec/Bincode`), by induction over lists and maps |
| C97 | `Model/JsErrors` (the calls of `Model/WitnessCalc`, `Witness`, `Api`, `Container`, `Crypto` again, with the thrown values; the documented handlers) | refinement to the calls of the other properties; no message of the code contains the words looked for, by where their letters occur; C44, C06, C94 composed |
| C98 | `Model/Printing` (the commands of `Model/Commands` again, with every `println!`; a print that fails is a crash point) | refinement: without printing they are the commands of the other properties, run by run; texts by computation along the successful path; pairs of runs by a lock-step comparison; the mark by an invariant "not before the write" |
| C99 | `Model/History` (a machine: processes by number, files; events: a process is started, reads, writes, with or without an error; another program writes or deletes a file) | induction over the history; simulation of one process by itself (`Uses`), then C50, C71, C77 |
| C100 | `Model/JsStrings` (the JS side again, strings as UTF-16 code units: `JSON.stringify`, `JSON.parse`, `mapInputsToWires`, `encap`, `encrypt`, `getPublicInput`) | as C45 and C81, with the grammar of `Spec/JsStrings`; refinement: on lists of characters it is the model of the other properties; a simulation between an input object and the one without its lone surrogates, then C48 |
| C101 | `Model/Inputs`, `Model/Api`, `Model/Commands` (as C37, C48, C77) | the list of values in visiting order (`Spec/InputOrder`), induction on it: the last value for a wire counts; each object has the witness of one without two values for a wire, to which C48 and C77 apply; CLI: the reachable assignments are exactly the choices, with a hash order built for each choice |
| C102 | `Model/JsLimit` (JS `encap` and `encrypt` with the engine's limit on call arguments as a parameter) | the map of wire values has one key for each wire given a value (induction over the assignments); otherwise the calls of the other properties |
| C103 | `Model/JsErrorsEncrypt` (JS `encap`, `encrypt`, `getPublicInput` with what they throw; the handlers around them in the playground, the React guide and the workers; texts of the engine and of the module as parameters) | first shown equal, on success, to the calls of the other properties; case analysis over inputs (C101), circuit file and container format (C44), with C97 for `decrypt` |
| C104 | `Model/CliErrors` (the commands of `Model/Commands` again, with the text anyhow reports for each failing step, and the exit status; the texts of the causes that anyhow prints after the first line are not modelled) | first shown to do the same file operations as the commands of the other properties; then each command against a list of checks (`Spec/CliErrors`), check by check; receivers by C08, C10, C54, C77 |

Properties are listed in `properties.jsonl`, theorem names per property in `MANIFEST.json`. No property is left partial. Several
"properties" are findings: claims of the documentation that the code does not have are stated as the *exact* behaviour, with a theorem
refuting the naive claim (see *Findings*).

## Specifications

The statements of the property theorems use, besides the model's entry points (the functions whose behaviour is claimed), only
`Verif/Spec/*`:

| file | what it says |
|---|---|
| `Spec/R1cs` | an R1CS file is satisfied by a list of wire values: plain sums of products |
| `Spec/Qap` | the interpolating polynomials of a constraint system and its vanishing polynomial, by Mathlib's `Lagrange.interpolate`, `nodal` |
| `Spec/R1csFormat`, `Spec/WtnsFormat` | the file formats, by writers that may put sections in any order and add unknown sections |
| `Spec/R1csPanic`, `Spec/WtnsPanic`, `Spec/WtnsAccept` | the files on which the readers of the JS library panic or do not end, and what they take from the others; the witness files which the CLI accepts |
| `Spec/R1csAccept` | the circuit files which the CLI accepts, and what it takes from them |
| `Spec/Sym` | the lines of a symbol file and the table they define |
| `Spec/SymLines` | the table which the lines of any text define, well-formed or not |
| `Spec/Inputs` | leaves of a JSON value with their circom names (`a[1][2]`), and the integers they denote |
| `Spec/Container` | layout of a combined ciphertext |
| `Spec/JsonText` | JSON grammar as a relation between texts and values |
| `Spec/WitnessCalc`, `Spec/Compiled` | what it means that a wasm calculates witnesses of an R1CS file (circom's compiler correctness) |
| `Spec/Bn254` | domain sizes and roots of unity |
| `Spec/Curve` | the BN254 curves and the compressed point format |
| `Spec/CommandLine` | which argument lists ask for which command |
| `Spec/Gcm` | AES-GCM as in NIST SP 800-38D |
| `Spec/Sudoku` | the rules of Sudoku, and the weaker condition on sums |
| `Spec/Native` | synthesizers that allocate their variables first; the MiMC hash |
| `Spec/SerializableLayout` | the JSON documents of circuits, witnesses and test cases, field by field |
| `Spec/QuickStart` | the circuits and symbol tables of the quick-start guides |
| `Spec/Bincode` | the bytes of a circuit and of a test case in bincode |
| `Spec/JsErrors` | a file without the outer format of a ciphertext; texts that do not contain the words the handlers look for |
| `Spec/History` | which event is whose and which file it may change |
| `Spec/JsStrings` | UTF-16, the JSON grammar with arbitrary JS strings, what JSON keeps of such values, input objects without their lone surrogates |
| `Spec/InputOrder` | the values of an input object in order, which one counts for a wire (JS) or a name (CLI), the choices of the CLI |
| `Spec/Printing` | the texts the commands print |
| `Spec/CliErrors` | for every command the list of what must be in order, and the report if it is not |
| `Spec/Tool`, `Spec/EndToEnd` | which files and inputs the end-to-end theorems are about |
| `Spec/Toy` | a small group system used only to show that hypotheses can be met |

## Hypotheses are met

Every property theorem that has hypotheses is applied to a concrete, non-trivial case: beside the theorem, in `Props/*Example`, or in `Props/Applied*` (the circuit
`y = x²` with its files, encrypted and decrypted by both tools; the Sudoku and the multisignature circuit; visits of the playground; command lines, crashes and
interleavings). This pass found one vacuous use, a constraint system whose hypothesis could not be met by the domain in the old example (`Props/Qap`, now fixed).

## Trusted base

* **Lean 4.33.0's kernel.** `vcheck` replays all modules. Every theorem depends on at most `propext`, `Classical.choice`, `Quot.sound`
  (check: `#print axioms`). No axiom is declared, nothing is proved by compiled evaluation. The primality of the two BN254 moduli is
  proved by Pratt certificates (`Basic/FrPrime`, `Basic/FqPrime`, generated by `tools/pratt*.py`, checked by the kernel).
* **The transcription** of the Rust/TypeScript code into `Verif/Model`, definition by definition, with file and lines cited. It was checked
  against the committed fixtures and published vectors by running the model (`conformance/`, tests, not proofs).
* **Libraries.** The code calls libraries whose source is not in /repo. Their behaviour is part of the model, written from knowledge of
  the versions pinned in the lock files:
  * *ark-relations* (`Model/CS`, `Model/Prog`): `new_input_variable`/`new_witness_variable` increase the counter before the closure is
    evaluated, so an `AssignmentMissing` leaves a variable without value; `to_matrices`, `is_satisfied`, linear-combination simplification;
    R1CS is the only predicate.
  * *ark-poly* (`Model/Qap` with arbitrary domains; `Model/Bn254` concretely): `GeneralEvaluationDomain::new`, `get_root_of_unity`,
    `evaluate_all_lagrange_coefficients`; *ark-bn254* constants (modulus, generator 5, two-adicity 28, small subgroup 3^2).
  * *ark-ec / pairing*: the groups are arbitrary `Fr`-modules with an `Fr`-bilinear `e`; this is what prime order groups with a pairing
    are. Nothing about hardness is assumed or claimed. C69 proves that the BN254 groups are such (the pairing itself is not constructed).
  * *ark-serialize*: `Vec` as u64 length followed by elements; points by a codec that is only assumed to have fixed length and
    decode∘encode = id (that an encoding is rejected or accepted otherwise is arbitrary), except in C69/C70, where the compressed codec of
    *ark-ec* for BN254 is written out (`Model/Curve`): curve constants, `SWFlags`, order of `Fq2`; `sqrt` is an arbitrary choice of a root; the
    subgroup test is multiplication by `r` (the library uses an endomorphism); with the infinity flag the coordinate is read and ignored; `Fr` as 32 little-endian bytes, rejected if ≥ p.
  * *blake3*: an arbitrary function `kdf`. Where a theorem needs distinct keys it has `kdf` injective on the values as a hypothesis.
  * *aes-gcm, aes, ctr / WebCrypto, crypto*: the block function is arbitrary; GHASH, GCM and CTR modes are written out
    (`Model/Crypto`) and proved equal to the standard's definition in C72; library size limits are parameters (`maxEnc`, `maxDec`).
  * *serde_json, bincode, JSON.parse/stringify* (`Model/JsonText`, `Model/SerializableJson`, `Model/Serializable`): one JSON grammar for both parsers;
    serde's number classes (u64, i64, f64), `-0` as a float, recursion limit 128, derived `Deserialize` (arrays for structs, unknown fields
    ignored, duplicate fields rejected), pretty printer. Lone surrogates: `serde_json` rejects them; JS strings with lone surrogates are in
    `Model/JsStrings` (C100) only, elsewhere JS strings are lists of characters and `JSON.parse` rejects an escape that makes a lone surrogate. Reading and printing of doubles is a parameter (`Doubles`) with the law print∘parse.
  * *num-bigint, BigInt, parseInt*: `Fr::from_str`, `BigInt(x)` on integers and decimal/0x strings; `BigInt(number)` beyond 2^53 is a parameter
    (`JsNums`). `parseInt` is exact above 2^53 (simplification; wire numbers that large do not exist).
  * *clap 4.5* (`Model/CommandLine`): the parser for options with one value and switches, without positional arguments, from knowledge of the library;
    requests for help and usage errors are both `exit`; arguments that are not UTF-8 are not represented (clap rejects them).
  * *ark-r1cs-std* `FpVar` (`Model/Mimc`): a sum is a linear combination, a product a new witness with one constraint, `enforce_equal` the
    constraint `(x − y)·1 = 0`; a missing value gives `AssignmentMissing`, on which `?` stops.
  * *HashMap*: iteration order is an arbitrary permutation, fixed per map content (`S.hash`).
* **Machine model.** Release builds (wrapping arithmetic); 64-bit `usize` for the CLI, 32-bit for wasm; memory allocation never fails, except
  that a capacity ≥ 2^63 panics; `hang` means that the loop's state repeats (the JS witness parser with field size 0 really ends in a
  wasm memory trap because its result grows). OS seeks beyond `lim` fail.
* **File system** `Path → Option Bytes`: no directories, links, permissions; any read or write may fail; `fs::write` truncates and may stop after
  any prefix; a crash may happen at any step. In the model of
  independent commands side by side (C64, C65) a read sees one content; in C66 it may see any bytes, also a mixture of two versions of a file.
* **JavaScript.** Values are plain data (no getters, proxies, prototypes); code between two `await`s is atomic. Functions of the wasm module are
  called synchronously. `Math.max(...xs)` never exceeds the argument limit (except in C102, where it may). The compiled circuit's wasm is an arbitrary state machine
  (`CalcInst`, `CircuitWasm`) with constant size tables; theorems that need it to be right have the hypothesis `Compiled`.
* **React**: a handler sees the state as last rendered and is not interrupted before its first `await`; its updates are rendered before the
  next event; a control that is not rendered or disabled gets no event; the page is not unmounted.
* **Randomness** is an explicit argument of every function; failure of the random source is not modelled beyond being a
  crash point (C50, C64 allow a crash at every step), and nothing probabilistic is claimed.

## Not modelled

* Error texts beyond the messages the code itself produces; what is printed by argument parsing (`--help`, usage errors).
* `wasm.rs` of zkenc-core (not compiled into the crate), the documentation site except `PlaygroundClient.tsx` (C78-C80, C82, C85, C86), tests (except the committed circuits, symbol
  file and test puzzle: C75, C76, C83, the MiMC circuit: C89, and the fixture export and import: C90; the circom compiler itself is not modelled, the compiled file is compared with the template), benches, build scripts and the npm packaging.
* the placeholder struct `CircomCircuitWrapper` of `circom.rs` (unused).
* Timing, side channels, memory zeroisation, cryptographic hardness.

## Findings

What the proofs show about the code that its documentation does not say:

1. *No witness is needed to open a message.* In the documented workflow (private wires missing at encapsulation) synthesis stops before any constraint;
   all query elements are the identity and the key is KDF(e([α],[β])) of two points in the ciphertext (C03, C09, C11, C49).
2. *With a fully assigned circuit decapsulation generally fails*: over BN254 for given other randomness all but at most one δ fail (C02).
3. Public inputs are recorded up to the first missing one only (C08); circuits with public outputs bind nothing (C54); the CLI drops public wires
   above `n_pub_in` (C40).
4. Nothing binds a ciphertext to the circuit (C09); the header and the embedded public input of a message are not authenticated (C46).
5. `verify_ciphertext` accepts broken ciphertexts (C12).
6. Negative inputs: −k is 2^64−k in the CLI, 2^256−k in JS encap, p−k in the witness calculator, so such JS messages cannot be opened by decap with the
   calculator's witness (C39).
7. JS `parse_witness` panics on truncated files and does not terminate for field size 0 (C28); JS `parse_r1cs` panics on a 24-byte file (C25); the CLI's
   witness parser panics on a section size ≥ 2^63 (C24).
8. Two JSON keys naming the same wire: the result depends on the hash map's order (C37).
9. BigInt inputs make the default JS `encrypt` throw (C56); embedded lengths ≥ 2^32 are truncated silently (C43).
10. `encap` writes the ciphertext before the key (C50); saving is never atomic (C50, C62, C64); equal output paths lose data silently (C50, C65); the circuit file
    is read twice and the two contents can be mixed (C66).
11. Beyond 2415919104 constraints + public wires no evaluation domain exists and the QAP evaluations are silently zero (C61).
12. A failed wasm initialisation is never retried (C51).
13. The test-suite runs `witness_calculator.js`, the package ships `witness_calculator.ts` (C60); the original writes a wrong length at 4 GiB.
14. `load_circom_circuit` returns counts that do not depend on the circuit (C63).
15. The short option `-c` is declared twice in `encap` and `decap` (circuit and ciphertext): it always means the circuit, and debug builds panic; the
    README's `encrypt` examples without `--sym` are rejected (C71).
16. JS ignores public inputs that are arrays of arrays: such a ciphertext binds only what comes before them, possibly nothing (C68); the CLI is right.
17. In a circuit without private wires, where encapsulation evaluates the constraints, the CLI round trip fails for all but one δ (C02).
18. The identity point has q (q²) accepted encodings, so stored ciphertexts of the documented workflow can be altered unnoticed (C69, C70).
19. The CLI accepts witness files with more values than the circuit has wires (JS refuses them); neither tool checks that wire 0 is 1 (C74).
20. The Sudoku circuit checks sums and sums of squares only (no range or distinctness check): for the puzzle of the repository's own tests it accepts a grid of digits that repeats digits in a column, so that messages for that puzzle can be decrypted without solving it (C75, C76).
21. The playground of the documentation site passes `{r1csBuffer, wasmBuffer}` without `symContent`, so with the repository's own zkenc-js (docs/package.json links it) it can never encrypt; its custom tab says "Encryption successful!" beside any uploaded ciphertext; a decrypted text stays on the page when another ciphertext is uploaded (C78, C80).
22. zkenc-js does not enforce the public keys of the multi-signature circuit (an array of arrays, finding on C68): a message encrypted for three keys is decrypted by a witness for any other keys, for example a list with one key three times. The CLI enforces them. The circuit compares the signer numbers, not the keys, and its range check `LessEqThan(2)` admits -1, which only the small-order check of the verifier stops (C83, C84).
23. The documentation (`docs/docs/api/zkenc-js.md`, `zkenc-cli.md`) gives 1576 bytes as the size of every witness ciphertext; the size depends on the number of public wires supplied, and for the documentation's own Sudoku example it is 13416 (C87). The documented container also lacks the flag byte.
24. The documentation advises to flatten two-dimensional arrays with `.flat()`. Neither tool then enforces the values of a public signal with two indices, nor any public value after it; only the CLI with nested arrays does (C88).
25. The use that README and tests of zkenc-core show, `MyCircuit::new(None, None, Some(output))`, binds nothing for a circuit that allocates its private inputs first, as the MiMC circuit of the tests does: everybody can recover the key with numbers of his choice and their hash (C89). encap hides the synthesis error that would tell.
26. The encrypt commands of both READMEs and of the reference's scripts never run: `--sym` is required, `--key` does not exist for encrypt and decrypt (C92). A combined ciphertext assembled as documented, without the flag byte, is refused (C92).
27. The quick-start circuit has an output and no `{public [...]}`; its `publicValue` is never part of the condition, and also not in the guide for Node.js, which declares it public: anyone decrypts with numbers of his choice (C93).
28. The library's reference, README and integration guides encrypt with `{ r1csBuffer, wasmBuffer }` or `{ …, symBuffer }`; `encrypt` needs `symContent`, so that none of these calls can succeed (C95).
29. The documented error handling looks at `error.message`, but an error reported by the wasm module is a thrown string: for a damaged witness ciphertext, and for a witness of another statement, the documented handler ends in a `TypeError` and the guide's handler prints nothing. The branch "Witness does not satisfy circuit constraints" is never taken (C97).
30. `zkenc decrypt` prints the public input of the ciphertext file as it stands in the file, before any check; it is not authenticated (C46) and control characters are not escaped, so a file can make a failing run show the text of a successful one, or clear the screen (C98). `Parsed n field elements` counts all values in the input file, also those that are not bound (C40), and `Public inputs` counts the inputs declared public without the public outputs.
31. JS and CLI read different JSON texts: a lone surrogate in a name or value is written by `JSON.stringify` as an escape and read back by `JSON.parse`, but `serde_json` refuses the whole text, so such an input object cannot be given to the CLI (C100). Decryption is not affected.
32. JS `encap` passes one call argument per wire that is given a value to `Math.max`; engines throw a `RangeError` beyond some 10^5 arguments, so large inputs (also of private signals, which are not used) fail in JS only (C102).
33. The library throws strings for circuit files it cannot read; pages and workers that look for `Error` objects show "Encryption failed", "Unknown error" or `undefined` then. `getPublicInput` says "not included" for any file of five bytes or more whose first byte is not 1, also for damaged ones (C103).
34. The documented troubleshooting does not fit the texts: "Message decryption failed" is explained with the witness, the circuit or the public inputs, but for an unchanged file it never occurs, whatever the witness (C104_intact_cli, C104_intact_js); "Invalid ciphertext" has nothing to do with the circuit file; "Failed to parse input JSON" does not come from signal names, since missing and unknown signals are not reported at all (C104_encrypt, C40); the texts "Circuit file not found" and "Invalid inputs" do not exist.
35. A witness file with two data sections is accepted by both tools with different wire values: the CLI keeps the last section, the JS library appends them (C29_two_data_sections); the JS reader reports an error only for a wrong magic or version, all other malformed files panic, hang or give values (C28_outcome).

## Seeded bugs

`seeded/LOG.jsonl` records edits of the model that imitate realistic bugs, each in a scratch copy, with the property theorems that stopped being
provable. A theorem counts as failed if its proof, or a lemma it uses, no longer compiles. Where an edit was not noticed the theorem was
tightened or the entry says why no claim is false of the edited program.
