#!/usr/bin/env python3
"""Regenerates /verif/properties.jsonl (one JSON object per line)."""
import json, os
P = []
def p(title, statement, quantifier, why, anchors):
    P.append(dict(id="C%02d" % (len(P)+1), title=title, statement=statement,
                  quantifier=quantifier, why_tests_cant=why, anchors=anchors))
CORE="packages/zkenc-core/src/"; CLI="packages/zkenc-cli/src/"; JS="packages/zkenc-js/src/"

# ---------------------------------------------------------------- KEM core
p("Decapsulation recovers the encapsulated key (circom workflow)",
  "Let a Circom circuit have at least one wire that the encapsulator does not assign (the documented workflow: only public inputs are supplied). If encap on that circuit returns (ct, k), then decap on the same circuit with any full assignment that satisfies every constraint and agrees with the public inputs recorded in ct returns exactly k.",
  "all circuits, all public assignments, all satisfying witnesses, all randomness (alpha,beta,delta,r,x) with delta != 0, all pairings and KDFs",
  "needs every circuit, witness and random choice; tests sample a few fixed circuits",
  [CORE+"algorithm.rs: encap, decap", CLI+"circuit.rs: generate_constraints", JS+"lib.rs: generate_constraints"])
p("Round trip when encap synthesises the whole circuit (exact condition)",
  "When synthesis succeeds completely during encap (no unassigned wire: e.g. a circuit without private wires, or a synthesizer that does not need the witness), decap returns the encapsulated key iff r^2*(U*V-W)(x) = delta^-1 * sum over instance variables of a_i*phi_i(x) (injective KDF, non-degenerate pairing). The unconditional round trip a user expects is therefore FALSE: on a concrete satisfiable circuit over BN254 encap and decap both succeed with the same complete satisfying assignment and the keys agree only when the randomness satisfies one polynomial equation (for fixed other randomness, for at most one value of delta).",
  "all circuits, satisfying assignments and randomness; plus one concrete refuting instance",
  "whether the two group elements coincide depends on all of the randomness and the circuit",
  [CORE+"algorithm.rs: encap, decap", CORE+"r1cs_to_qap.rs: evaluate_qap_polynomials_at_x"])
p("The key is not protected by a witness (secrecy claim refuted)",
  "A user relies on 'only someone with a valid witness can derive the key'. This is false of the code: there is one fixed witness-free procedure, using only the ciphertext and public group operations, that outputs exactly the encapsulated key for every circuit (even unsatisfiable ones), every public input and every randomness.",
  "all circuits, public inputs and randomness",
  "a test can at best exhibit one break; the claim is that every ciphertext is broken by the same procedure",
  [CORE+"algorithm.rs: encap (steps 4-5)", CORE+"data_structures.rs: EncapKey"])
p("Decap never returns a key for an unsatisfying assignment",
  "For every parsed circuit, every (possibly partial) wire assignment and every ciphertext (honest or not): if decap returns a key then every wire of the circuit is assigned and every constraint A*B=C holds for that assignment, where A,B,C are the plain weighted sums read from the R1CS file.",
  "all circuits, assignments, ciphertexts",
  "requires every invalid witness to be rejected",
  [CORE+"algorithm.rs: decap 234-245", CLI+"circuit.rs: generate_constraints", JS+"lib.rs: build_lc"])
p("Decap enforces the public inputs recorded in the ciphertext",
  "If decap returns a key, then for every index i of the ciphertext's public-input vector the assignment's wire i+1 equals the recorded value (and the assignment is long enough).",
  "all circuits, assignments, ciphertexts",
  "all positions and lengths",
  [CORE+"algorithm.rs: decap 270-281"])
p("Exact outcome of decap (error precedence)",
  "decap's result is completely determined: SynthesisError iff synthesis fails; else InvalidWitness if some constraint is violated; else InvalidPublicInputs if the recorded public inputs do not match; else InvalidWitness if one of the three query vectors is empty; else Ok of the KDF of e(A,B)-e(C,delta). It never panics and has no other result.",
  "all circuits and ciphertexts",
  "every combination of failure causes",
  [CORE+"algorithm.rs: decap", CORE+"algorithm.rs: Error"])
p("Encap succeeds on every circuit; it panics exactly when delta = 0",
  "encap returns Ok for every circuit (satisfiable or not, synthesis failing or not) and every randomness with delta != 0, and panics for every circuit when the sampled delta is 0. It never returns Err.",
  "all circuits and randomness",
  "the delta = 0 branch has probability 2^-254, so no test hits it",
  [CORE+"algorithm.rs: encap 124-133, 187-192"])
p("Which public inputs a ciphertext is bound to",
  "The public-input vector stored by encap for a Circom circuit is the longest prefix of wires 1..n_public that the encapsulator assigned: everything from the first missing wire on is silently dropped and is not checked by decap. In particular if a declared public output (wire 1) is not supplied, nothing is bound and decap accepts every satisfying assignment.",
  "all circuits and partial public assignments",
  "every pattern of missing wires",
  [CORE+"algorithm.rs: encap 77-90", CLI+"circuit.rs: 77-83", JS+"zkenc.ts: encap 100-110"])
p("Ciphertexts are not bound to the circuit",
  "For ciphertexts of the documented workflow, decap with a different circuit (any circuit with any satisfying assignment whose first wires match the recorded public inputs) also returns the encapsulated key; removing the recorded public inputs from the ciphertext removes that last check. The expected binding of a ciphertext to its circuit is false.",
  "all pairs of circuits, all assignments",
  "ranges over all foreign circuits",
  [CORE+"algorithm.rs: decap"])
p("All valid witnesses give the same key",
  "For a fixed ciphertext produced by the documented workflow, any two successful decaps (different witnesses, even different circuits) return the same key.",
  "all pairs of successful decapsulations",
  "pairs of executions",
  [CORE+"algorithm.rs: decap"])
p("Key depends only on alpha*beta in the documented workflow",
  "For the documented workflow the encapsulated key is the KDF of alpha*beta*e(g1,g2): it is independent of circuit, public inputs, delta, r and x; two encapsulations share a key iff their alpha*beta coincide (injective KDF, non-degenerate pairing).",
  "all pairs of encapsulations",
  "relational property over all randomness",
  [CORE+"algorithm.rs: encap 194-210"])
p("verify_ciphertext decides equality of public inputs and nothing else",
  "verify_ciphertext(ct, expected) is true iff ct.public_inputs = expected; it is unaffected by any change to the CRS part, so it accepts ciphertexts that cannot be decapsulated to the encapsulated key (its documentation says it verifies well-formedness: refuted).",
  "all ciphertexts and expected vectors",
  "all vectors and all malformed CRSs",
  [CORE+"algorithm.rs: verify_ciphertext"])
p("QAP evaluations are the interpolating polynomials",
  "Each of the three evaluation vectors returned for a circuit has one entry per variable, and entry i is the value at x of the unique polynomial of degree < domain size that takes the matrix coefficient of variable i at the j-th domain point for each constraint j and 0 at the remaining domain points; if the domain does not exist all entries are 0.",
  "all constraint systems, all x (including x in the domain), all domains of distinct points",
  "polynomial identity over all circuits and points",
  [CORE+"r1cs_to_qap.rs: evaluate_qap_polynomials_at_x"])
p("R1CS satisfaction equals QAP divisibility",
  "A full assignment satisfies all constraints iff the vanishing polynomial of the evaluation domain divides U*V-W, where U,V,W are the assignment-weighted sums of the QAP polynomials; consequently for satisfying assignments and x in the domain decap's pairing value is alpha*beta.",
  "all constraint systems, assignments, domains",
  "algebraic equivalence over all circuits",
  [CORE+"r1cs_to_qap.rs", CORE+"algorithm.rs"])
p("Ciphertext shape and size",
  "Every ciphertext from encap has three query vectors of length m (instance + witness variables seen by synthesis) and an empty h-query; its serialized size is exactly 200 + 128 m + 32 l bytes for BN254, where l is the number of recorded public inputs; for a Circom circuit with all l = n_public public wires assigned and a missing private wire m = l+2, so the size is 456+160 l bytes regardless of the number of constraints.",
  "all circuits and randomness",
  "size law for all circuits",
  [CORE+"algorithm.rs: encap", CORE+"data_structures.rs"])

# ---------------------------------------------------------------- serialization
p("Ciphertext serialization round trip",
  "Deserializing the serialization of any ciphertext returns the same ciphertext; the encoding is injective; bytes following a serialized ciphertext are ignored.",
  "all ciphertexts of all sizes, all trailing bytes",
  "all sizes",
  [CORE+"data_structures.rs: Ciphertext, EncapKey", CLI+"commands.rs: 76-83, 126-129", JS+"lib.rs: 422-426, 479"])
p("Truncated ciphertexts are rejected",
  "No strict prefix of a serialized ciphertext deserializes: deserialization of every strict prefix fails.",
  "all ciphertexts, all cut points",
  "all cut points of all ciphertexts",
  [CLI+"commands.rs: decap_command 128", JS+"lib.rs: wasm_decap 479"])
p("Field elements have one accepted 32-byte encoding",
  "A 32-byte string is accepted as a canonical field element (public inputs of a ciphertext, CLI witness values) iff its little-endian value is below the BN254 scalar modulus, and then it is the only encoding of that element.",
  "all byte strings",
  "2^256 strings",
  [CLI+"witness.rs: to_field_elements", CORE+"data_structures.rs: Ciphertext"])
p("Circuit bincode round trip",
  "from_bincode(to_bincode(c)) = c for every serializable circuit, including label maps, and every strict prefix of an encoding is rejected.",
  "all circuits",
  "all sizes and nesting",
  [CORE+"serializable.rs: to_bincode, from_bincode", CLI+"serializable.rs"])
p("R1CS export keeps the circuit",
  "Converting a parsed R1CS file to the serializable form keeps header numbers, prime and every constraint (same wires, same coefficients, same order), so the serializable form has the same satisfying assignments.",
  "all parsed files",
  "all constraint lists",
  [CLI+"r1cs.rs: to_serializable"])

# ---------------------------------------------------------------- file formats
p("CLI R1CS parser inverts the file format",
  "For every well-formed .r1cs file (sections in any order, unknown sections anywhere, optional wire-to-label section, any field size, any constraint list) the CLI parser returns exactly the header, constraints and label table that were encoded.",
  "all files in the grammar",
  "infinite grammar",
  [CLI+"r1cs.rs: from_file, parse_header, parse_constraints, parse_lc, parse_wire2label"])
p("JS R1CS parser inverts the file format",
  "For every well-formed .r1cs file smaller than 2 GiB (the largest byte string of 32-bit wasm) the WASM parser returns exactly the encoded header and constraints.",
  "all files in the grammar below the 32-bit size limit",
  "infinite grammar",
  [JS+"lib.rs: parse_r1cs, parse_linear_combination"])
p("CLI and JS parse the same circuit",
  "On every byte string below 2 GiB, well-formed or not, that the CLI accepts, JS succeeds too and returns the same header and constraints; so the two parsers never return different circuits.",
  "all files",
  "differential property over all inputs",
  [CLI+"r1cs.rs: from_file", JS+"lib.rs: parse_r1cs"])
p("CLI file parsers are total and reject bad magic, version and truncation",
  "The CLI .r1cs and .wtns parsers return a value or an error on every byte string; inputs with a wrong magic, an unsupported version, a missing header/constraint/data section, or cut short inside needed data are errors. The only panic is a .wtns section size of 2^63 or more. A .wtns file is accepted exactly if all sections announced are complete and the last header and the last data section fit each other (field size not 0, data not empty, exactly the announced number of values); these values are the result. A .r1cs file is accepted with result r exactly if its preamble is right, the heads of all sections announced can be reached (sizes are signed offsets), and behind the head of the first section of type 1, of type 2 and, if there is one, of type 3 stand the bytes which the format prescribes for r.",
  "all byte strings",
  "all byte strings",
  [CLI+"r1cs.rs", CLI+"witness.rs: from_file"])
p("JS R1CS parser robustness",
  "The WASM .r1cs parser ends on every byte string, and on every byte string that fits into its memory it returns a value or an error, except that it panics (refuting total robustness) exactly if the file begins with magic, version and section count and either a section of those announced is looked for in the last four bytes of the 32-bit address space (declared sizes are cut to 32 bits and added with wrap-around), or all sections announced begin within the file, the first header section can be read, and the first coefficient of the first constraints section is in the file and is declared to reach the end of that address space.",
  "all byte strings; byte strings below 2 GiB (the limit of a wasm32 slice) for the panics; concrete refuting files",
  "all byte strings",
  [JS+"lib.rs: parse_r1cs 74-129"])
p("Witness file round trip (CLI)",
  "For every well-formed .wtns file (any section order, unknown sections) with canonical values the CLI parser maps wire i to the i-th value for exactly the wires 0..n-1; a value >= p makes the conversion fail.",
  "all witness vectors",
  "all lengths and values",
  [CLI+"witness.rs: from_file, to_field_elements"])
p("Witness file round trip (JS)",
  "For every well-formed .wtns file (header section before data) the WASM parser returns the encoded values reduced mod p, in order.",
  "all witness vectors",
  "all lengths and values",
  [JS+"lib.rs: parse_witness"])
p("JS witness parser can hang or panic on malformed files",
  "A user expects an error for malformed witness bytes. Refuted: the JS parser reports an error exactly for a wrong magic or version. A file cut inside its 12-byte preamble after the magic panics. Otherwise the first bad section, in the order in which the parser finds them (announced sizes cut to 32 bits, wrap-around), decides: if its head, the field size of a header or a value of a data section is cut off, the parser panics; if it is a data section while values have size zero (no header before it, or one with field size zero) and it does not end before it begins, the parser never returns; without a bad section it returns, one section after the other, the values that end within the announced size of a data section (the first 32 bytes of each at most), with the field size of the last header before it; bytes left over are ignored.",
  "all byte strings below 2 GiB (the limit of a wasm32 slice); families of refuting files",
  "non-termination cannot be established by running",
  [JS+"lib.rs: parse_witness 234-297"])
p("CLI and JS accept different witness values",
  "For a 32-byte value v >= p in a well-formed .wtns file the JS parser uses v mod p while the CLI fails; for canonical values they agree. On malformed files they can both succeed with different values: from a file with two data sections, holding any xs and then any ys, the CLI takes ys and JS takes xs followed by ys.",
  "all witness files",
  "all values",
  [CLI+"witness.rs: 123-135", JS+"lib.rs: 283-290"])
p("JS witness serialization matches the parser",
  "The bytes produced from a list of integers by the JS encap path parse back (WASM parser) to the same integers mod 2^256 mod p; for integers in [0,p) to the integers themselves.",
  "all integer lists of at most 2^26-3 entries",
  "all lists",
  [JS+"zkenc.ts: serializeWitnessSimple, bigIntToLeBytes32", JS+"lib.rs: parse_witness"])
p("Witness calculator output matches the parser",
  "The .wtns bytes produced by the witness calculator from field-element limbs parse (both parsers) to exactly those witness values; the limb conversions toArray32/fromArray32 are mutually inverse for values that fit.",
  "all witness vectors, all limb counts",
  "all values",
  [JS+"witness_calculator.ts: calculateWTNSBin, toArray32, fromArray32, normalize"])

# ---------------------------------------------------------------- synthesis
p("Circom synthesis is faithful to the R1CS file",
  "With every wire assigned, the synthesized constraint system is satisfied iff the assignment satisfies every constraint of the R1CS file as plain sums (wire 0 = 1), including repeated wires in one linear combination; coefficients are read as little-endian integers mod p (only the first 32 bytes count).",
  "all circuits and assignments",
  "all circuits",
  [CLI+"circuit.rs: generate_constraints, bytes_to_fr", JS+"lib.rs: generate_constraints, build_lc"])
p("CLI and JS circuits are interchangeable",
  "For the same R1CS data and assignment both implementations produce the same constraint system and the same synthesis result.",
  "all circuits and assignments",
  "differential property",
  [CLI+"circuit.rs", JS+"lib.rs"])
p("Out-of-range wires are silently dropped",
  "A constraint term whose wire id is not among the allocated wires contributes nothing (no error): a circuit that mentions such a wire behaves exactly like the circuit with these terms removed.",
  "all circuits",
  "all malformed circuits",
  [CLI+"circuit.rs: 103-113", JS+"lib.rs: 357-369"])

# ---------------------------------------------------------------- inputs
p("Symbol file parsing",
  "For every .sym content made of well-formed lines with distinct signal names, both parsers return exactly the wire id of every signal with a non-negative wire id; lines that do not have four fields are skipped; they agree with each other.",
  "all symbol files",
  "all line lists",
  [CLI+"sym_parser.rs: parse_sym_file, get_input_signals", JS+"sym_parser.ts: parseSymFile, getInputSignals"])
p("Symbol parser disagreement on bad wire ids",
  "A wire-id field that is not a 32-bit integer makes the CLI parser fail the whole file, and nothing else does; the JS parser never fails: it reads the field exactly if it is white space, perhaps a sign, and digits, whatever follows them, and skips the line if there are no digits or the number is negative. On any text, well-formed or not, each tool's table (if it returns one) holds a name exactly if some line of four fields gives it a wire that is not negative, and then the wire of the last such line.",
  "all contents; concrete refuting content",
  "all strings",
  [CLI+"sym_parser.rs: 35-42", JS+"sym_parser.ts: 37-45"])
p("JSON key order does not matter",
  "Permuting the entries of the input object does not change the wire assignment used by encap, provided no two input entries resolve to the same wire; this holds for the CLI (any HashMap iteration order) and for JS. With the same random choices, the ciphertext and key bytes of encap, and the output of encrypt without embedded public input, are then the same too, in both tools. Without the proviso the CLI result depends on HashMap iteration order (concrete refutation).",
  "all input objects, all permutations, all iteration orders",
  "hash-map iteration orders cannot be enumerated by tests",
  [CLI+"commands.rs: 52-62, 456-504", JS+"sym_parser.ts: mapInputsToWires", JS+"zkenc.ts: encap"])
p("Input flattening",
  "A value at indices i1..ik of a (nested) array input x is assigned to the wire of signal x[i1]..[ik] by the CLI; JS assigns only one array level (nested arrays are not assigned) while nested objects are joined with '.'; CLI rejects nested objects, booleans and null.",
  "all JSON values",
  "all nestings",
  [CLI+"commands.rs: parse_circuit_inputs_with_keys", JS+"sym_parser.ts: flattenInput"])
p("Numeric input conversion",
  "CLI: JSON integers 0..2^64-1 and decimal strings map to the value mod p. A negative JSON integer -k maps to 2^64-k (not -k): refutes the expectation that it denotes p-k. JS encap maps a negative integer to 2^256-k mod p whereas the witness calculator maps it to p-k, so an encryption under a negative public input cannot be opened by the matching witness.",
  "all integers",
  "all integers",
  [CLI+"commands.rs: 470-486", JS+"zkenc.ts: bigIntToLeBytes32", JS+"witness_calculator.ts: normalize"])
p("CLI drops public wires above n_pub_in",
  "The CLI assigns only signals whose wire id is <= n_pub_in, so for circuits with public outputs the last n_pub_out public wires are never assigned at encap and are never bound; JS (no limit) does assign them.",
  "all circuits with public outputs",
  "all circuits",
  [CLI+"commands.rs: 42, 179", CLI+"sym_parser.rs: 76-80", JS+"zkenc.ts: 89"])

# ---------------------------------------------------------------- container / AEAD
p("AES-GCM wrapper contract",
  "decrypt(key, encrypt(key, m)) = m for both tools and across tools; output length is 28+|m|; keys that are not 32 bytes and data shorter than 28 bytes are rejected with an error before any cipher operation.",
  "all keys, messages and nonces",
  "all messages",
  [CLI+"crypto.rs: encrypt_gcm, decrypt_gcm", JS+"crypto.ts"])
p("AES-CTR wrapper contract",
  "decrypt_ctr(key, encrypt_ctr(key, m)) = m, length is 16+|m|, and every data of at least 16 bytes decrypts to something of length |data|-16 (no authentication): flipping a ciphertext bit flips exactly that plaintext bit.",
  "all keys, messages, IVs",
  "all messages",
  [CLI+"crypto.rs: encrypt_ctr, decrypt_ctr"])
p("Combined ciphertext format is unambiguous",
  "Parsing a combined ciphertext produced by either tool returns exactly the witness ciphertext, optional public-input bytes and encrypted message that were packed, provided the two lengths fit in 32 bits; both tools pack and unpack the same format.",
  "all component byte strings, both flags",
  "all sizes",
  [CLI+"commands.rs: 235-270, 293-355", JS+"zkenc.ts: 335-374, 410-446"])
p("Malformed combined ciphertexts are rejected",
  "The CLI rejects exactly the byte strings that are not header + complete witness part + (flag = 1: complete public part) + rest; the JS unpacker accepts in addition a public-input length that overruns the buffer, but then the remaining message is empty and decryption still fails. Flags other than 1 are treated as 'no public input'.",
  "all byte strings",
  "all byte strings",
  [CLI+"commands.rs: decrypt_command", JS+"zkenc.ts: decrypt"])
p("getPublicInput returns the embedded inputs",
  "On every combined ciphertext made with public inputs included, getPublicInput returns the encrypted-under object (for a ciphertext of the CLI: what JSON.parse makes of the input file, always); on every one made without it, it throws; on arbitrary bytes it never reads out of bounds.",
  "all ciphertexts and byte strings",
  "all byte strings",
  [JS+"zkenc.ts: getPublicInput"])
p("Header and public input are not authenticated",
  "Replacing the embedded public input of a combined ciphertext by any other bytes (or removing it) does not change the decryption result: the embedded public input is not authenticated (refutes tamper evidence of the container).",
  "all ciphertexts, all replacement bytes",
  "all replacements",
  [CLI+"commands.rs: encrypt_command, decrypt_command", JS+"zkenc.ts: encrypt, decrypt"])
p("End-to-end: CLI encrypt then decrypt",
  "If encrypt_command succeeds on a circuit, symbol file, inputs and message, then decrypt_command with any witness file for the same circuit holding a satisfying assignment that agrees with the bound public inputs writes exactly the message.",
  "all circuits with a wire beyond the public ones (without one the round trip fails: C02), all files, messages, randomness",
  "all inputs",
  [CLI+"commands.rs: encrypt_command, decrypt_command"])
p("End-to-end: JS encrypt then decrypt, and across tools",
  "The same for JS encrypt/decrypt, and for every combination of encrypting with one tool and decrypting with the other.",
  "all circuits with a wire beyond the public ones (without one: C02), all inputs, messages, randomness",
  "all inputs",
  [JS+"zkenc.ts: encrypt, decrypt", CLI+"commands.rs"])
p("End-to-end: anyone can decrypt",
  "There is a fixed procedure that, given only a combined ciphertext produced by either tool (no circuit, no witness), outputs the message.",
  "all inputs, messages, randomness",
  "universal break",
  [CLI+"commands.rs: encrypt_command", JS+"zkenc.ts: encrypt", CORE+"algorithm.rs: encap"])
p("Failed commands leave the file system unchanged; crash points",
  "A CLI command that returns an error before its first write changes no file; decap/encrypt/decrypt write exactly one file, as their last action and only on success; encap writes the ciphertext and then the key, so a crash (or write error) between the two leaves a ciphertext without key, and the key is otherwise lost. No command touches any other path.",
  "all file systems, all inputs, all crash points",
  "crash points",
  [CLI+"commands.rs"])
p("WASM initialisation runs at most once",
  "Under every interleaving of concurrent API calls the WASM initializer is invoked at most once, and no call proceeds past initialisation before it completed; if it fails, every later call fails too (never retried).",
  "all interleavings of any number of calls",
  "schedules",
  [JS+"zkenc.ts: ensureWasmInit"])
p("Signal hash of the witness calculator",
  "The hash used to address input signals is exactly 64-bit FNV-1a of the UTF-16 code units as a 16-digit lower-case hexadecimal string; splitting it in two 32-bit halves loses nothing.",
  "all strings",
  "all strings",
  [JS+"witness_calculator.ts: fnvHash, _doCalculateWitness"])
p("Witness calculator input checks",
  "The calculator accepts an input object only if every key names an input signal whose declared size equals the number of flattened values and all inputs of the circuit are set; nested arrays are flattened in row-major order; otherwise it throws.",
  "all input objects",
  "all shapes",
  [JS+"witness_calculator.ts: _doCalculateWitness, flatArray"])
p("Circuits with public outputs bind nothing",
  "Circom numbers public outputs before public inputs. If the input object supplies no value for the first public wire (the usual case for any circuit with a public output), the ciphertext binds no public input at all and every satisfying assignment of the circuit opens it, in both tools.",
  "all circuits, symbol files, input objects, randomness and satisfying assignments",
  "needs all assignments",
  [CLI+"commands.rs: encap_command, encrypt_command", JS+"zkenc.ts: encap", CORE+"algorithm.rs: encap"])
p("End-to-end: encap then decap through files and byte arrays",
  "If encap succeeds with either tool, decap with either tool, given the written ciphertext bytes, the same circuit file and a witness holding a satisfying assignment that agrees with the bound public inputs, outputs the same 32-byte key. Conversely decap_command only ever writes a key if the witness file holds a satisfying assignment of the circuit.",
  "all circuits with a wire beyond the public ones (without one: C02), inputs, witnesses, randomness, both tools on both sides",
  "all inputs",
  [CLI+"commands.rs: encap_command, decap_command", JS+"zkenc.ts: encap, decap", JS+"lib.rs: wasm_encap, wasm_decap"])
p("BigInt inputs and the JavaScript encrypt",
  "JSON text of the inputs exists exactly if no BigInt occurs anywhere in them. If one does, encrypt in its default mode (public input included) never returns a ciphertext: the call throws, although encapsulation and encryption would have succeeded; with includePublicInput=false the same call can succeed.",
  "all input objects of any depth, all circuits, messages and randomness",
  "arbitrary nesting of inputs",
  [JS+"zkenc.ts: encrypt"])
p("Public input written by the CLI and read by JavaScript",
  "If the CLI accepts an input file and embeds it, getPublicInput on the resulting file yields an object with the same keys and the same values at every depth; integers are rounded to doubles only outside the exactly representable range, later duplicates of a key win in both tools.",
  "all JSON texts accepted by the CLI, all double-rounding functions",
  "all texts",
  [CLI+"commands.rs: encrypt_command", JS+"zkenc.ts: getPublicInput"])
p("The whole JavaScript flow from input objects",
  "The sender encrypts for an object of public inputs; the receiver calls decrypt with an object that has the same public entries and the private ones. If the circuit's witness program (belonging to the same circuit and symbol file) accepts the receiver's inputs, decrypt returns the message (decap the key); if it throws, decrypt throws the same error. The same holds when the sender used the CLI and the receiver gives the same integers in the declared array shapes, and when the receiver writes the computed witness to a file and uses the CLI.",
  "all circuits with a wire beyond the public ones, all correctly compiled witness programs, all input objects, messages and randomness",
  "all circuits and inputs",
  [JS+"zkenc.ts: encrypt, decrypt, encap, decap", JS+"witness.ts: calculateWitness", JS+"witness_calculator.ts"])
p("Witness functions agree with each other",
  "calculateWitness and calculateWitnessArray fail together with the same error; otherwise the file returned by one contains exactly the integers returned by the other and declares the field size, prime and number of values reported by getCircuitInfo.",
  "all witness programs over any field, all input objects",
  "all circuits and fields",
  [JS+"witness.ts: calculateWitness, calculateWitnessArray, getCircuitInfo"])
p("The TypeScript witness calculator is a faithful rewrite",
  "With the sanity check on, the TypeScript witness calculator accepts the same inputs as the original JavaScript one, drives the witness program into the same state and writes the same .wtns bytes as long as the witness data is below 4 GiB (at 4 GiB the original writes a wrong section length).",
  "all witness programs, all input objects",
  "the test-suite runs one implementation and the package ships the other",
  [JS+"witness_calculator.ts", JS+"witness_calculator.js", JS+"witness.ts"])
p("The evaluation domain of BN254",
  "For the field actually used, a domain for n points exists exactly for n <= 2415919104 = 9*2^28; its size is the least power of two >= n up to 2^28 and the least 2^a*3^b (a <= 28, b <= 2) beyond; its points are exactly the N-th roots of unity, in geometric progression from 1; the library's Lagrange coefficients are the values of the Lagrange basis polynomials, also when the evaluation point lies on the domain. Hence the QAP evaluations are right for every system up to that size; above it they are silently all zero (and create_domain panics).",
  "all sizes, all constraint systems, all evaluation points",
  "all sizes up to 2^31 and all field elements",
  [CORE+"r1cs_to_qap.rs: evaluate_qap_polynomials_at_x, create_domain"])
p("JSON and bincode files of circuits, witnesses and test cases",
  "to_json followed by from_json returns the same circuit, witness or test case, and agrees with the bincode form; the text has one field per Rust field under its Rust name, and every text with this document, in any layout, is read as the value; whatever text from_json accepts has all numbers within their types and distinct map keys, and can be written and read again unchanged; field order and unknown fields of a document do not matter, missing and repeated fields are rejected, except that the wire labels of a circuit and the description of a test case may be missing and then are read as absent; no proper prefix of a written text is accepted. However a save ends (I/O error or crash at any byte), loading the path yields the saved value, an error, or - only if nothing was written - the old content, and no other file changes; success means the new value loads. The save is not atomic: a crash can lose the old value.",
  "all circuits, witnesses, test cases, label texts and map orders; all texts; all crash points of a save",
  "all values, texts and crash points",
  [CORE+"serializable.rs: SerializableCircuit, SerializableWitness, SerializableTestCase", CLI+"serializable.rs"])
p("Legacy input helpers of the CLI library",
  "The order-based input parser accepts exactly the JSON texts the key-based one accepts and returns the values of all leaves in document order, so the two give the same values; the text-based parser (circom::parse_inputs) never fails on an object, yields one text per leaf that is not an object, in order, and for inputs the key-based parser accepts without negative numbers these texts denote the same field elements; load_circom_circuit depends only on the existence of its files and the length of the first, so its counts say nothing about the circuit.",
  "all JSON values of any nesting, all files",
  "arbitrary nesting and all file contents",
  [CLI+"commands.rs: parse_circuit_inputs", CLI+"circom.rs: parse_inputs, flatten_value, load_circom_circuit"])
p("Repeating a command after a failure or crash",
  "However a run of a CLI command ended (error, partial write, crash at any point), repeating it with the same arguments, if no output path is also an input path, gives the same result as if the first run had not happened, and on success exactly the same files. The condition is needed: a decrypt of a file onto itself that is stopped while writing loses both the ciphertext and the message.",
  "all commands, arguments, file systems, randomness of both runs, crash points and I/O errors of the first run",
  "all crash points of all commands",
  [CLI+"commands.rs: encap_command, decap_command, encrypt_command, decrypt_command", CLI+"main.rs: main"])
p("Independent commands running at the same time",
  "Any number of CLI commands of which none writes a file that another one reads or writes can run concurrently: in every interleaving of their file operations, with any of them failing or killed, each has the outcome and output files of a run on its own, and no other file changes; if all succeed the final files do not depend on the interleaving. Two commands with the same output path can both report success while one result is lost.",
  "all families of commands, all interleavings, failures and crash points",
  "all schedules",
  [CLI+"commands.rs: encap_command, decap_command, encrypt_command, decrypt_command", CLI+"main.rs: main"])
p("Files that change while a command reads them",
  "A command reads its files in a fixed order, each once except the circuit, which it reads twice. If both readings of the circuit agree, the command behaves as on a snapshot made of the contents it found. If they differ, decap and decrypt behave as with the second content (the first only has to be well-formed), whereas encap and encrypt take the number of public inputs from the first content and the constraints from the second.",
  "all commands and all histories of file contents changing between reads",
  "all schedules of other processes' writes",
  [CLI+"commands.rs: encap_command, decap_command, encrypt_command, decrypt_command", CLI+"circuit.rs: CircomCircuit"])
p("Concurrent calls of the JavaScript API",
  "Any number of encap, decap, encrypt and decrypt calls may be in progress at the same time, in any interleaving: as long as the user's code does not change a call's own arguments while it runs, its result is that of the function on those arguments (or the wasm initialisation failed), and once initialisation has settled every call can finish. If arguments are changed while a call runs: decrypt has read the ciphertext completely at the call (the buffer may be reused at once) whereas decap reads it last; encrypt reads the inputs twice, so the embedded public input can differ from the inputs the key is bound to.",
  "all programs, all interleavings of calls and user code, all histories of the argument objects",
  "all schedules",
  [JS+"zkenc.ts: encap, decap, encrypt, decrypt, ensureWasmInit", JS+"witness.ts: calculateWitness", JS+"crypto.ts: aesGcmEncrypt, aesGcmDecrypt"])
p("Public inputs that are arrays of arrays",
  "The CLI binds every public signal a[i][j]... to which the input object gives a value, at any nesting depth. JS encap and encrypt enter an array one level only: with plain keys nothing is given to a[i][j], so a JS ciphertext binds only the public wires before the first such signal; if that is the first public wire, nothing is bound and every satisfying assignment of the circuit opens the ciphertext, whatever inputs were given.",
  "all input objects (any nesting of arrays and objects), symbol files, circuits, randomness and witnesses",
  "unbounded nesting, all circuits and all later decaps",
  [JS+"sym_parser.ts: mapInputsToWires", JS+"zkenc.ts: encap, encrypt", CLI+"commands.rs: parse_circuit_inputs_with_keys"])
p("Encodings of curve points",
  "32 (64) bytes are accepted as a point of the first (second) group exactly if they encode a point of the curve (twist) of order dividing r: the x-coordinate as a little-endian number below the field modulus, with the top bit choosing the larger y, or the second highest bit for the identity. Points off the curve and points of the twist outside the subgroup are rejected. A point other than the identity has exactly one accepted encoding; the identity has q (first group) and q^2 (second group), because its x-coordinate is ignored. Both groups have exactly r elements, all multiples of the standard generators.",
  "all byte strings and all points of both groups",
  "2^256 and 2^512 byte strings",
  [CORE+"data_structures.rs: EncapKey, Ciphertext", CLI+"commands.rs: decap_command, decrypt_command", JS+"lib.rs: wasm_decap"])
p("Bytes of a ciphertext: what is accepted, and that they are not unique",
  "A byte string is accepted as a ciphertext exactly if it begins with an encoding: three points, four length-prefixed vectors of points, the vector of public inputs, all canonical except for the identity point. A ciphertext without identity points has one encoding. Ciphertexts of the documented workflow contain identity points, so each has at least q different encodings of the same length; decap and decrypt, in both tools, depend on the witness ciphertext only through the decoded value, so that anybody can change these bytes of a stored message without any recipient noticing.",
  "all byte strings, all ciphertexts, all circuits, witnesses, messages and randomness",
  "all byte strings and ciphertexts",
  [CORE+"data_structures.rs: EncapKey, Ciphertext", CLI+"commands.rs: decap_command, decrypt_command", JS+"lib.rs: wasm_decap", JS+"zkenc.ts: decrypt"])
p("Command lines",
  "A release build of zkenc runs a command exactly if its arguments are the name of the command followed by its options in any order, each required option once, written --name v, --name=v, -x v, -x=v or -xv (a separate value may not start with - unless it is - itself), with an optional final --; then it does what the command does with those values, and the values are determined by the arguments. With any other arguments no file is changed. encap and decap only run if --ciphertext is written out, because -c always means the circuit; encap and encrypt only run if the symbol file is given. In builds with debug assertions encap and decap panic whatever the arguments.",
  "all argument lists",
  "unboundedly many argument lists, orders and values",
  [CLI+"main.rs: Cli, Commands, main"])
p("Encrypted messages are standard AES-GCM, and what the tag protects",
  "An encrypted message is the 12-byte nonce, the message xored byte by byte with the blocks AES(nonce,2), AES(nonce,3), ... (all different, and different from the blocks used for the tag, up to 2^36-32 bytes), and the tag AES(nonce,1) + GHASH, where GHASH is the polynomial of NIST SP 800-38D in the hash key AES(0) over GF(2^128), which is a field. For an intercepted message and any different byte string with the same nonce, at most one of the 2^128 hash keys per 16 bytes of the longer one lets both be accepted; this includes truncated and extended messages. If one key and nonce are used for two messages the hash key is confined to such a small set computable from the two outputs, and whoever knows the hash key can replace the body of any message. The legacy CTR functions produce the IV and the message xored with AES(IV), AES(IV+1), ...",
  "all keys, nonces, messages, forgeries and block functions",
  "all byte strings, and a count over 2^128 hash keys",
  [CLI+"crypto.rs: encrypt_gcm, decrypt_gcm, encrypt_ctr, decrypt_ctr", JS+"crypto.ts: aesGcmEncrypt, aesGcmDecrypt"])
p("The program from its command line to its files",
  "If zkenc run with arguments that ask for encrypt reports success, then zkenc run with arguments that ask for decrypt with the same circuit, the written ciphertext and a witness file holding a satisfying assignment with the bound public values writes exactly the message; likewise encap and decap. Without --no-public-input the written container has flag 1 and embeds the input file byte for byte; with it the container has flag 0 and embeds nothing. However a run ends (success, failure, I/O error, crash) only the files named as outputs change, and success is only reported if an undisturbed run would have written the same files.",
  "all argument lists, file systems, messages, randomness, I/O errors and crash points; for the round trips all circuits with a wire beyond the public ones",
  "all argument lists, files and crash points",
  [CLI+"main.rs: Cli, Commands, main", CLI+"commands.rs: encap_command, decap_command, encrypt_command, decrypt_command"])
p("Which witness values matter",
  "JS decap and decrypt fail if the number of witness values is not the number of wires of the circuit. zkenc decap and decrypt do not check it: surplus values make no difference. Neither tool looks at the value of wire 0: two witnesses that differ only there have the same outcome.",
  "all circuits, witness files and ciphertexts",
  "all witnesses and ciphertexts",
  [CLI+"commands.rs: decap_command, decrypt_command", CLI+"circuit.rs: generate_constraints", JS+"lib.rs: wasm_decap"])
p("What the Sudoku circuit of the repository checks",
  "A list of wire values satisfies the compiled Sudoku circuit exactly if it belongs to a puzzle and a grid of field elements such that the grid carries the non-zero puzzle values and every row, column and box has the sum 45 and the sum of squares 285 in the field. So the solution of every puzzle is accepted, but grids that are no solutions are accepted too: for the puzzle of the repository's own tests there is an accepted grid of digits from 1 to 9 that fits the puzzle and repeats digits in a column, and the entries need not be digits at all.",
  "all puzzles, all grids and all lists of wire values",
  "p^202 wire assignments; tests try solutions and a few wrong grids, and the accepted wrong grids are not among them",
  ["packages/zkenc-cli/tests/circuits/sudoku.circom: Sudoku", "packages/zkenc-cli/tests/r1cs/sudoku.r1cs"])
p("Messages for the solvers of a Sudoku puzzle",
  "Both parsers read the committed sudoku.r1cs and sudoku.sym as the same circuit and symbol table, in which puzzle[i] is wire i + 1. With these files encrypt succeeds for every puzzle; the message is decrypted, with either tool, by exactly those witnesses that belong to the puzzle and to a grid with the right sums, and with all other witnesses decryption fails and changes nothing. So every solver can decrypt, and for the puzzle of the repository's own tests so can somebody with a grid of digits that is no solution.",
  "all puzzles, messages, witnesses, randomness and nonces, for the committed circuit and symbol files",
  "all puzzles and all witnesses",
  ["packages/zkenc-cli/tests/r1cs/sudoku.r1cs", "packages/zkenc-cli/tests/r1cs/sudoku.sym", CLI+"commands.rs: encrypt_command, decrypt_command", JS+"zkenc.ts: encrypt, decrypt"])
p("Exactly which witnesses open a ciphertext",
  "Whoever opens a ciphertext made by encrypt or encap of either tool, with either tool and with whatever circuit file, has a witness that satisfies that circuit and carries the public values the ciphertext was made for, on every wire of the unbroken run 1, 2, 3, ... of public wires that were given values. With the circuit it was made for (if it has a wire beyond the public ones) these witnesses are exactly the ones that decrypt to the message; with any other the commands fail and change no file.",
  "all circuits on both sides, inputs, witnesses, messages, randomness and file systems, all four pairs of tools",
  "all circuits and witnesses; a test can only show that one wrong witness is refused",
  [CLI+"commands.rs: encap_command, decap_command, encrypt_command, decrypt_command", JS+"zkenc.ts: encap, decap, encrypt, decrypt", JS+"lib.rs: wasm_encap, wasm_decap", CORE+"algorithm.rs: encap, decap"])
p("The playground cannot encrypt",
  "Whatever happens on the playground page of the documentation site, no ciphertext is ever produced: every call of encrypt it makes ends with an exception (it passes no symbol file), which shows an error and changes nothing else. The Sudoku tab never offers a file for download. What the custom tab offers after 'Encryption successful!' is always the ciphertext file uploaded last, whatever it contains; this can be shown right after an encryption failed.",
  "all histories of clicks, typing, uploads and settled promises",
  "unboundedly many interleavings of user events and asynchronous completions",
  ["docs/src/components/PlaygroundClient.tsx: handleEncrypt, handleCustomEncrypt, handleDownloadCiphertext, handleCustomDownloadCiphertext", JS+"zkenc.ts: encap, encrypt", JS+"sym_parser.ts: parseSymFile"])
p("The playground makes one call at a time",
  "At most one call of encrypt or decrypt is in flight at any time, and the page says so exactly as long as it is; while it is, the buttons for encryption, decryption and solving do nothing; when the call ends, well or not, the page is free again.",
  "all histories of clicks, typing, uploads and settled promises",
  "unboundedly many interleavings of user events and asynchronous completions",
  ["docs/src/components/PlaygroundClient.tsx: loading, handleEncrypt, handleDecrypt, handleCustomEncrypt, handleCustomDecrypt"])
p("What the playground shows as decrypted message",
  "A text shown as decrypted message is what decrypt returned, at a moment when the button was clicked, for the circuit files of that tab, the ciphertext file uploaded last and the inputs on the page (in the Sudoku tab the puzzle and a solution of 81 non-zero entries); an empty message is shown as 'Decryption successful!'. When decrypt fails an error and no text is shown. But uploading another ciphertext or changing the grids afterwards leaves the old text on the page.",
  "all histories of clicks, typing, uploads and settled promises",
  "unboundedly many interleavings of user events and asynchronous completions",
  ["docs/src/components/PlaygroundClient.tsx: handleDecrypt, handleCustomDecrypt, handleUploadCiphertext, handleCustomCiphertextUpload", JS+"zkenc.ts: decrypt"])
p("Both tools read exactly the JSON texts",
  "JSON.parse, used by getPublicInput, returns a value exactly for the texts of the JSON grammar (RFC 8259), and the value is the one the text denotes: escapes and surrogate pairs decoded, of a repeated name the last value, properties in the order of a JS object (array indices ascending, then the others in the order of the text). serde_json, used by the command line tool, accepts exactly those texts whose nesting is at most 127 and whose numbers are in the floating point range, and the value is again the one the text denotes: a literal that is the decimal text of an integer is that integer, all other numbers are floats. No text has two meanings. (Lone surrogate escapes are left out.)",
  "all texts",
  "unboundedly many texts, nestings and escapes",
  [JS+"zkenc.ts: getPublicInput", CLI+"commands.rs: parse_circuit_inputs_with_keys, encrypt_command, encap_command"])
p("A Sudoku message in the playground, from upload to text",
  "When a ciphertext that the command line tool or zkenc-js made for a Sudoku puzzle (default mode, committed circuit) is uploaded in the Sudoku tab, the page shows that puzzle; digits typed afterwards fill its empty cells, the last digit per cell counts, given cells cannot be changed. After a click on 'Decrypt', when the call has ended, the message is shown exactly if the puzzle on the page is the one encrypted for and the grid is complete with the sums 45 and 285 of the circuit; otherwise an error is shown. With an empty cell decrypt is not called. So every solver reads the message; but for the puzzle of the repository's own tests someone who types digits that are no solution reads it too.",
  "all puzzles, messages, ciphertexts, sequences of typed digits and histories before; the witness program sudoku.wasm is assumed to be what circom compiles from sudoku.circom",
  "all puzzles and typing sequences, through the calculator, the tools, the cipher and the page",
  ["docs/src/components/PlaygroundClient.tsx: handleUploadCiphertext, handleDecrypt, SudokuGrid", JS+"zkenc.ts: decrypt, getPublicInput", "packages/zkenc-cli/tests/circuits/sudoku.circom", "docs/static/circuits/sudoku.r1cs"])
p("The multi-signature circuit: two different signers",
  "Every witness that satisfies the compiled circuit signature.r1cs has two different signer numbers from 0 to 2, and the two signature verifiers inside it get exactly the public keys at these two places of the key list; neither key is of small order. Conversely no such choice of signers is shut out by these checks. The circuit's own range check alone would also let -1 through, with (0,0) as key; only the verifier's key check stops that. Two different places, not two different keys: a list that has the same key twice lets one holder sign for both.",
  "all key lists, signer numbers and witnesses (the constraints of the signature equation itself are not modelled)",
  "unboundedly many key lists and witnesses over a field of 2^254 elements",
  ["packages/zkenc-cli/tests/circuits/signature.circom: MultiSig2of3, SelectPublicKey", "packages/zkenc-cli/tests/r1cs/signature.r1cs", "packages/zkenc-cli/tests/inputs/signature_basic.json"])
p("Messages for two of three signers",
  "A message that the command line tool has encrypted with signature.r1cs for a message to be signed and a list of three public keys is decrypted, by either tool, exactly with the witnesses that satisfy the circuit for this message and these keys, hence with two different signers of the list; every other witness fails and changes nothing. A message that zkenc-js has encrypted with the same inputs is decrypted exactly with the witnesses for this message to be signed, whatever three public keys they carry: the list of keys (an array of arrays) is not enforced, so anyone can decrypt with keys of their own.",
  "all messages, key lists, witnesses, randomness and file systems",
  "all keys and witnesses; a test can only try some other keys",
  [CLI+"commands.rs: encrypt_command, decrypt_command", JS+"zkenc.ts: encrypt, decrypt", JS+"sym_parser.ts: mapInputsToWires", "packages/zkenc-cli/tests/circuits/signature.circom", "packages/zkenc-cli/tests/r1cs/signature.sym"])
p("The custom tab of the playground",
  "After any history the custom tab holds, in each field, what was put there last: the public inputs (typed, from a JSON file, or from the ciphertext read), the full inputs, the ciphertext, the circuit and the witness program, where reading one of the two files keeps the other. A click on 'Decrypt' calls decrypt only if circuit, program, ciphertext and a JSON text are there; the full inputs are used, and the public ones only if the field for the full inputs is empty. When the call has ended the page shows the message and no error if decrypt returned it, otherwise an error and no text, in particular not the text of an earlier decryption. For a ciphertext that either tool made for this circuit the message appears exactly if the witness the program computes satisfies the circuit and has the enforced public values.",
  "all histories of clicks, typing, uploads and settled promises; all circuits, witness programs, ciphertexts and inputs",
  "unboundedly many histories and circuits",
  ["docs/src/components/PlaygroundClient.tsx: handleCustomR1CSUpload, handleCustomWasmUpload, handleCustomCiphertextUpload, handleCustomDecrypt, handlePublicInputFileUpload, handlePrivateInputFileUpload", JS+"zkenc.ts: decrypt, getPublicInput"])
p("The auto-solve button of the playground",
  "'Auto Solve Puzzle' puts into the solution grid what the solver answers for the puzzle on the page, asked with -1 for empty cells, provided the answer is complete (has no -1); otherwise it empties the solution grid and shows an error. Nothing else changes. So after uploading a ciphertext for a puzzle and clicking 'Auto Solve Puzzle' and 'Decrypt' the message appears if the solver's answer is a solution of the puzzle; without a complete answer an error appears and decrypt is never called.",
  "all histories before the click, puzzles, solvers and ciphertexts",
  "all puzzles, solver answers and histories",
  ["docs/src/components/PlaygroundClient.tsx: solveSudoku, handleAutoSolve, handleDecrypt"])
p("Sizes of what the tools write",
  "For a circuit with at least one private wire, a witness ciphertext has 456 + 160*l bytes, where l is the length of the unbroken run of public wires 1, 2, 3, ... that the caller's inputs supply; the key has 32 bytes; an encrypted message has 489 + 160*l bytes plus the message's length, plus 4 and the length of the public input text if that is included. Nothing else about the inputs or the randomness shows in the sizes. The documented 1576 bytes are right exactly if l is 7; for every Sudoku puzzle of the documentation's example it is 13416.",
  "all circuits with a private wire, inputs that do not give two values to one wire, messages, randomness and file systems",
  "unboundedly many circuits, inputs and messages",
  ["docs/docs/api/zkenc-js.md", "docs/docs/api/zkenc-cli.md", CLI+"commands.rs: encap_command, encrypt_command", JS+"zkenc.ts: encap, encrypt", JS+"lib.rs: wasm_encap"])
p("Arrays flattened as the documentation advises",
  "How the numbers of an input are grouped in arrays, nested or flattened with .flat(), makes no difference to decrypt, decap and calculateWitness. For encrypt it does: if public wire j belongs to a signal with two or more indices and the arrays are flat (in zkenc-js also if they are nested, unless keys spell out the signal), every witness that satisfies the circuit and has the given values on the wires before j decrypts the message, whatever its values on wire j and later.",
  "all circuits, inputs, witnesses, messages, randomness and file systems",
  "all circuits and witnesses; a test with the right witness passes either way",
  ["docs/docs/api/zkenc-js.md: Array Signals", JS+"sym_parser.ts: mapInputsToWires", JS+"witness_calculator.ts: flatArray", CLI+"commands.rs: parse_circuit_inputs_with_keys"])
p("What a synthesizer written in Rust binds",
  "A circuit written in Rust that allocates its variables in some order, one of which has no value at encap, is bound exactly to the public values allocated before the first variable without value, public or private; every satisfied circuit that begins with those public values recovers the key. The MiMC circuit of the tests and the README checks the hash exactly, but allocates its private inputs first: encap with the output alone records no public value, and any two numbers, with their own hash as output, recover the key.",
  "all synthesizers of this shape, values, round constants and randomness",
  "all allocation orders and values; the tests only try the right preimage, and a circuit unsatisfied in itself",
  [CORE+"algorithm.rs: encap, decap", "packages/zkenc-core/tests/mimc_circuit.rs", "packages/zkenc-core/tests/encap_decap.rs", "packages/zkenc-core/README.md"])
p("Test fixtures exported from the CLI",
  "A test case survives bincode, whatever the order in which the witness map is iterated; no strict prefix is accepted. The library synthesizes an exported circuit exactly as the CLI synthesizes the file, and decap with the fixture gives what decap with the original circuit and witness gives. encap with the public values of a fixture whose values satisfy the circuit and decap with all values recovers the key. For the Sudoku circuit, decap with zeros for the solution reports an invalid witness for every puzzle and ciphertext. The fixture exported with numbered public wires only (signature) is read back with i mod 256 on public wire i and nothing else: encap with it binds these numbers, decap with it always fails in synthesis.",
  "all circuits and witnesses in the file formats' range, iteration orders, names, ciphertexts and randomness",
  "all circuits, witnesses and iteration orders of a hash map",
  ["packages/zkenc-cli/tests/export_test_data.rs", "packages/zkenc-core/tests/circom_circuit.rs", "packages/zkenc-core/tests/test_sudoku_encap_decap.rs", CORE+"serializable.rs: SerializableTestCase"])
p("Distribution of the key",
  "With the public inputs only, of the q*q choices of the two secret numbers that encap draws for the key (q the group order) exactly 2q-1 lead to the key of the identity, exactly q-1 to the key of each other group element, and no other key is possible: no key is the result of more than 2q-1 choices, whatever the circuit, the inputs and the other randomness.",
  "all circuits with a missing wire, inputs, randomness and keys; for a KDF without collisions on the group and a non-degenerate pairing",
  "counting over all choices of two elements of a field of 2^254 elements",
  [CORE+"algorithm.rs: encap"])
p("What the API reference and the READMEs show",
  "The commands that the references show - encrypt and decrypt with a key file, encap and encrypt without a symbol file - never run: whatever the file names and the order and spelling of the options, no file changes and no run reports success. Bytes in the documented layout of a combined ciphertext (length, witness ciphertext, encrypted message, without flag byte) are refused by both tools unless the message is at least 255 times as long as the witness ciphertext. The complete example of the library reference behaves as described: encap with the public number alone, then decap recovers the key exactly if the public number is the same and both add up to 165, and otherwise reports which of the two is wrong.",
  "all file names, option orders and spellings, file systems, witness ciphertexts below 16 MiB, messages, numbers, randomness",
  "unboundedly many argument lists and ciphertexts",
  ["docs/docs/api/zkenc-cli.md", "docs/docs/api/zkenc-js.md", "docs/docs/api/zkenc-core.md", "README.md", "packages/zkenc-cli/README.md", CLI+"main.rs: Commands", CLI+"commands.rs: decrypt_command", JS+"zkenc.ts: decrypt", CORE+"algorithm.rs: encap, decap"])
p("The quick-start circuits",
  "After encrypting with the circuit of the quick-start guides (inputs publicValue and privateValue, output result) for { publicValue: v }, with the CLI or the library, decryption with either tool returns the message for every witness whose output is the sum of its inputs (and 100, in the guide for Node.js), whatever its public value, and fails for every other witness: v is not part of the condition, also where publicValue is declared public.",
  "all values v, witnesses, messages, randomness, file systems, and all compiled forms of the circuit with these wires and this meaning",
  "all pairs of field elements; a test with the intended witness passes either way",
  ["docs/docs/getting-started/zkenc-cli.md", "docs/docs/getting-started/zkenc-js.md", "docs/docs/guides/nodejs-integration.md", CLI+"commands.rs: encrypt_command, decrypt_command", JS+"zkenc.ts: encrypt, decrypt", CORE+"algorithm.rs: encap"])
p("Which inputs decrypt a message",
  "With the circuit's correctly compiled witness program: after encrypt (or encap) for some public inputs, decrypt (or decap) with any input object that gives values to the signals the sender bound returns the message (the key) exactly if the program accepts the object and these values are the sender's, as field elements; otherwise the call throws. The same holds when the sender used the CLI, and when the computed witness is written to a file and zkenc decrypt is used, which then writes the message or fails and changes no file. Bound are the signals on the unbroken run of public wires 1, 2, 3, ... that the sender gave values.",
  "all circuits with a wire beyond the public ones and correctly compiled witness programs, all input objects of sender and receiver, messages, randomness and file systems",
  "all pairs of input objects and circuits",
  [JS+"zkenc.ts: encrypt, decrypt, encap, decap", JS+"witness.ts: calculateWitness", JS+"witness_calculator.ts", CLI+"commands.rs: encrypt_command, decrypt_command"])
p("Which files the functions of the library need",
  "encap and encrypt return a result exactly if the circuitFiles object has the .r1cs file as r1csBuffer and the text of the symbol file as symContent, and decap and decrypt exactly if it has the .r1cs file and the compiled circuit as wasmBuffer; the result is the one for these two files and no other property matters. The objects { r1csBuffer, wasmBuffer } of the API reference and the integration guides and { r1csBuffer, wasmBuffer, symBuffer } of the README therefore never encrypt, whatever the inputs, message and options.",
  "all circuitFiles objects whose properties are missing, buffers or strings, all inputs, messages, options and randomness",
  "all objects and inputs; the tests only pass complete objects",
  [JS+"zkenc.ts: encap, decap, encrypt, decrypt, CircuitFiles, CircuitFilesForEncap", JS+"sym_parser.ts: parseSymFile", JS+"witness.ts: calculateWitness", "docs/docs/api/zkenc-js.md", "docs/docs/guides/nodejs-integration.md", "docs/docs/guides/react-integration.md", "packages/zkenc-js/README.md"])
p("Byte layout of serialized circuits and test cases",
  "A circuit is written in bincode as its fields in the order of the type: 32-bit little-endian numbers, 64-bit lengths before byte strings, lists and maps, texts in UTF-8, one byte 0 or 1 before the optional label map; a test case is the circuit, the assignment, the name and the description. The readers accept exactly the byte strings that begin with such an encoding, in any order of map entries, give back the encoded value (for a key written twice the last entry) and ignore what follows.",
  "all circuits, witnesses, test cases and byte strings",
  "all byte strings; a round trip test passes for any layout that reader and writer agree on, while fixtures are exchanged between the CLI and the library",
  [CORE+"serializable.rs: SerializableCircuit, SerializableTestCase, to_bincode, from_bincode, load", CLI+"serializable.rs"])
p("Errors of decrypt and the documented error handling",
  "The error handler of the API reference around decrypt reports a corrupted ciphertext exactly if the outer format of the file is broken, never takes its branch for an unsatisfied circuit, and itself ends in a TypeError exactly if the file can be split, a witness was computed and the wasm module reports an error, because the module throws a string and not an Error: so it does for an unreadable witness ciphertext and for inputs the circuit accepts whose public values are not the sender's. The handler of the Node.js guide prints nothing in these cases and the playground shows its fallback text. Inputs that the circuit's own checks refuse are reported as 'Error setting signal k[i]: Error: ...'; a key that does not open the message as 'Decryption failed: invalid key or corrupted data'.",
  "all circuit files and programs, byte strings as ciphertext, input objects, and texts of the engine that do not contain the words the handlers look for",
  "all files, programs and inputs",
  [JS+"zkenc.ts: decrypt, decap", JS+"witness_calculator.ts: _doCalculateWitness", JS+"crypto.ts: aesGcmDecrypt", "packages/zkenc-js/src/lib.rs: wasm_decap", "docs/docs/api/zkenc-js.md: Error Handling", "docs/docs/guides/nodejs-integration.md: Error Handling", "docs/src/components/PlaygroundClient.tsx"])
p("What the CLI prints",
  "What a run of the CLI prints is an initial part of a text that is fixed except for numbers: the constraints, public inputs and wires in the header of the circuit, the number of values in the input file, the number of witness values, and sizes in bytes. A run that reports success has printed all of it. Two runs of encap with different random choices, or of encrypt with different messages of the same length, or of decap and decrypt with different witnesses of the same length, show the same text, except that one may end sooner: key, message and witness are not shown, also by runs that fail or are interrupted. decrypt also shows the public input in the file, unchanged, character by character and before anything is checked: so a failing run can show the text of a success. Where the public input has no such character, a shown completion mark means that the output file is complete, even if the program is then stopped. A run stopped before it printed anything has changed no file.",
  "all commands, files, randomness, I/O errors and crash points, including a reader of the output that goes away",
  "all files and crash points; that secrets do not show is a statement about pairs of runs",
  [CLI+"commands.rs: encap_command, decap_command, encrypt_command, decrypt_command"])
p("Messages and keys survive what happens on the machine",
  "On a machine where zkenc processes are started at any time with any arguments, run at the same time, meet I/O errors and are killed, while other programs write and delete files: a process reads only files its arguments name as inputs and writes only files they name as outputs; a file that nobody has as an output keeps its content; a process to which its files are left while it runs does what it could do alone with the files as they were when it was started; and no process ever has to wait for another. So after an encryption that reported success, anything may happen as long as nobody writes or deletes the ciphertext file (message, input, symbol and circuit file may be gone): a later zkenc decrypt with the same circuit reports success only for a witness that satisfies the circuit with the bound public values and has then written exactly the message, writes nothing for any other witness, never leaves anything but an initial part of the message, and with such a witness and no I/O error cannot fail. The same for encap and decap, also when the key file is gone.",
  "all histories: any number of processes with any arguments, any order of their file operations, I/O errors, kills, and writes and deletions by other programs; all circuits with a wire beyond the public ones, files, messages, randomness and witnesses",
  "unboundedly many interleavings and histories",
  [CLI+"main.rs: main", CLI+"commands.rs: encap_command, decap_command, encrypt_command, decrypt_command"])
p("Input objects with arbitrary JS strings",
  "A JS string is a sequence of UTF-16 code units and may contain surrogates without a partner. JS encrypt accepts input objects with such strings in names and values; getPublicInput gives the included input object back code unit by code unit, up to what JSON cannot express, and JSON.parse reads exactly the JSON texts whose strings may contain such surrogates as escapes. Key and ciphertext are those of the object without the entries whose names contain a lone surrogate; a value with a lone surrogate is no number. So messages are decrypted by JS and by the CLI with every witness that fits the remaining inputs. The CLI reads exactly those of these texts whose strings and names are all well-formed: an input file with the JSON text of any other object makes zkenc encrypt and zkenc encap fail without changing a file.",
  "all input objects with arbitrary strings as names and values at any depth, circuits, symbol files, messages, randomness and witnesses, and all texts",
  "all strings and texts; the tests only use plain ASCII names",
  [JS+"zkenc.ts: encap, encrypt, getPublicInput", JS+"sym_parser.ts: mapInputsToWires", CLI+"commands.rs: parse_circuit_inputs, encrypt_command, encap_command"])
p("Several values for one wire",
  "An input object may have several values for one wire: nested and dotted names that coincide, or several names of the symbol file on one wire. In JS the last of them in the order of the object counts; the earlier ones have no effect, except that encap and encrypt fail if one of them is null or undefined. encap and encrypt succeed exactly if no value with a wire is null or undefined and the values that count, up to the first wire without a value, are integers; decryption by JS and by the CLI then succeeds exactly for the satisfying witnesses that carry the values that count. In the CLI, of several values for one name the last counts, and of several names for one wire any one may: the wire assignments that can be used, over all iteration orders of the hash maps, are exactly those that choose one name for each wire, and decryption succeeds exactly for the satisfying witnesses that carry the values chosen at encryption.",
  "all input objects of any shape with any number of values for a wire, symbol files, circuits, iteration orders of the hash maps, messages, randomness and witnesses",
  "all objects and, in the CLI, all iteration orders of randomly seeded hash maps",
  [JS+"zkenc.ts: encap, encrypt", JS+"sym_parser.ts: mapInputsToWires", CLI+"commands.rs: parse_circuit_inputs_with_keys, encap_command, encrypt_command"])
p("Input objects with very many values in JS",
  "In a JS engine that allows a limited number of arguments in a call, encap and encrypt fail exactly if they would fail without that limit or the input object gives values to more wires than the limit, counting all named wires, public or private, also those whose values are not used; otherwise the results are those without a limit. So an array with more elements than the limit cannot be an input in JS; the CLI accepts any number of values. With a limit below 2^25 a call that succeeds has left one of the wires 1 to 2^25 without a value, which is the size condition of the other properties about JS.",
  "all engines' limits, input objects, symbol files, circuits, messages and randomness",
  "all sizes; no test reaches the engine's limit",
  [JS+"zkenc.ts: encap (Math.max over the wire ids), encrypt", CLI+"commands.rs: encap_command"])
p("What encap, encrypt and getPublicInput throw in JS",
  "A failing encap throws the engine's TypeError if a value with a wire is null or undefined, otherwise its SyntaxError if a value that counts is no integer, otherwise, if the circuit file cannot be read, a string and not an Error (a RuntimeError where the reader panics; it always ends), and on readable files only fails for a random choice that has negligible probability. encrypt throws what encap throws, otherwise an OperationError for a message beyond the limit of WebCrypto, otherwise a TypeError if an input object with a BigInt is to be embedded, and nothing else. So the pages of the playground and of the React guide, and the documented workers, show the library's message for every failure of encrypt except for circuit files that cannot be read: there they show 'Encryption failed', 'Unknown error' or undefined; the worker of the API reference posts no message for a failing decrypt exactly where a witness was computed and the wasm module reports an error. getPublicInput always throws an Error: 'not included' exactly for files of at least five bytes whose first byte is not 1, also for files that decrypt calls invalid, and each of its other messages exactly for the part of the format it names.",
  "all circuit files, symbol files, input objects, messages, randomness, circuit programs and byte strings as ciphertexts",
  "all files and inputs",
  [JS+"zkenc.ts: encap, encrypt, getPublicInput", JS+"crypto.ts: aesGcmEncrypt", "packages/zkenc-js/src/lib.rs: wasm_encap", "docs/docs/guides/react-integration.md", "docs/docs/api/zkenc-js.md: Browser Optimization", "docs/src/components/PlaygroundClient.tsx"])
p("Exit status and error report of the CLI",
  "Every command ends, whatever the files contain: with exit status 0, with status 1 and one of a fixed set of texts after 'Error: ', or with status 101 (a .wtns file that announces a section of 2^63 bytes or more, or a random choice of negligible probability). Which of them is decided by the first thing that is not in order in a fixed list: the circuit file, the symbol file, the input file and the message for encrypt and encap; the outer format of the ciphertext (decrypt), the circuit file, the witness file, the inner ciphertext, the witness and the message's authentication for decap and decrypt. With I/O errors a command ends as the undisturbed run does, or with a text that names a reading step and no file changed, or with a text that names a writing step. With the circuit the message was encrypted for, decrypt reports a witness that is too short as SynthesisError, one that does not satisfy the circuit as InvalidWitness, one with other public values than the sender's as InvalidPublicInputs, and succeeds with any other. For an unchanged ciphertext it never reports 'Invalid ciphertext', 'Failed to deserialize' or 'Message decryption failed', with whatever circuit and witness.",
  "all file systems, arguments, file contents, randomness, I/O errors, circuits, witnesses, messages and senders (CLI and JS)",
  "all files and fault points; the tests look at a few failures and not at their texts",
  [CLI+"commands.rs: encap_command, decap_command, encrypt_command, decrypt_command", CLI+"main.rs: main", "docs/docs/api/zkenc-cli.md: Troubleshooting", "docs/docs/getting-started/zkenc-cli.md: Troubleshooting"])
# Circuit files may declare up to 2^33 public wires; n_pub_out + n_pub_in + 1 overflows a u32 beyond 2^32.
for x in P:
    if x["id"] in ("C01", "C04", "C05", "C08", "C09", "C10", "C11", "C15", "C32", "C34", "C40", "C49", "C54", "C55", "C68", "C70", "C73", "C74", "C77", "C87", "C90", "C91", "C104"):
        x["quantifier"] += "; circuits that declare fewer than 2^32 - 1 public wires"
# Side conditions of size that the theorems carry.
JS_SMALL = "inputs that do not give values to all of the first 2^25 wires in JS encap and encrypt (automatic with the argument limits of engines, C102)"
ALIAS = "inputs that do not give one wire two different values (the general case is C101)"
FITS = "witness ciphertexts and embedded public inputs below 4 GiB"
LIMIT = "messages within the limit of the AES library of the decrypting tool"
SIDE = {
    "C02": [JS_SMALL], "C37": [], "C38": [ALIAS], "C39": [JS_SMALL, ALIAS], "C40": [JS_SMALL, ALIAS], "C43": [FITS], "C45": [FITS], "C46": [FITS],
    "C47": [FITS], "C48": [JS_SMALL, ALIAS, FITS, LIMIT], "C49": [FITS, LIMIT], "C54": [ALIAS], "C55": [JS_SMALL, ALIAS], "C57": [FITS],
    "C58": [JS_SMALL, ALIAS, FITS, LIMIT, "public inputs that are non-negative integers below 2^256 or arrays of them", "fewer than 2^26 - 8 wires"],
    "C68": [JS_SMALL, ALIAS], "C70": [FITS], "C73": [FITS], "C76": [FITS, LIMIT, "file sizes of at least 51696 bytes can be allocated"],
    "C77": [JS_SMALL, ALIAS, FITS, LIMIT], "C82": [LIMIT], "C84": [FITS, LIMIT], "C85": [FITS, LIMIT], "C86": [LIMIT], "C87": [JS_SMALL],
    "C88": [JS_SMALL, ALIAS, FITS], "C93": [FITS, LIMIT], "C94": [JS_SMALL, ALIAS, FITS, LIMIT, "fewer than 2^26 - 8 wires"],
    "C97": [JS_SMALL, ALIAS, FITS], "C99": [ALIAS, FITS], "C100": [JS_SMALL, ALIAS, FITS, LIMIT], "C101": [JS_SMALL, FITS, LIMIT], "C103": [JS_SMALL], "C104": [JS_SMALL, ALIAS, FITS, LIMIT],
}
for x in P:
    if SIDE.get(x["id"]):
        x["quantifier"] += "; size and shape conditions: " + "; ".join(SIDE[x["id"]])
open(os.path.join(os.path.dirname(__file__),"..","properties.jsonl"),"w").write(
    "".join(json.dumps(x,ensure_ascii=False)+"\n" for x in P))
print(len(P))
