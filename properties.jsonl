{"id": "C01", "title": "Decapsulation recovers the encapsulated key (circom workflow)", "statement": "Let a Circom circuit have at least one wire that the encapsulator does not assign (the documented workflow: only public inputs are supplied). If encap on that circuit returns (ct, k), then decap on the same circuit with any full assignment that satisfies every constraint and agrees with the public inputs recorded in ct returns exactly k.", "quantifier": "all circuits, all public assignments, all satisfying witnesses, all randomness (alpha,beta,delta,r,x) with delta != 0, all pairings and KDFs; circuits that declare fewer than 2^32 - 1 public wires", "why_tests_cant": "needs every circuit, witness and random choice; tests sample a few fixed circuits", "anchors": ["packages/zkenc-core/src/algorithm.rs: encap, decap", "packages/zkenc-cli/src/circuit.rs: generate_constraints", "packages/zkenc-js/src/lib.rs: generate_constraints"]}
{"id": "C02", "title": "Round trip when encap synthesises the whole circuit (exact condition)", "statement": "When synthesis succeeds completely during encap (no unassigned wire: e.g. a circuit without private wires, or a synthesizer that does not need the witness), decap returns the encapsulated key iff r^2*(U*V-W)(x) = delta^-1 * sum over instance variables of a_i*phi_i(x) (injective KDF, non-degenerate pairing). The unconditional round trip a user expects is therefore FALSE: on a concrete satisfiable circuit over BN254 encap and decap both succeed with the same complete satisfying assignment and the keys agree only when the randomness satisfies one polynomial equation (for fixed other randomness, for at most one value of delta).", "quantifier": "all circuits, satisfying assignments and randomness; plus one concrete refuting instance; size and shape conditions: inputs that do not give values to all of the first 2^25 wires in JS encap and encrypt (automatic with the argument limits of engines, C102)", "why_tests_cant": "whether the two group elements coincide depends on all of the randomness and the circuit", "anchors": ["packages/zkenc-core/src/algorithm.rs: encap, decap", "packages/zkenc-core/src/r1cs_to_qap.rs: evaluate_qap_polynomials_at_x"]}
{"id": "C03", "title": "The key is not protected by a witness (secrecy claim refuted)", "statement": "A user relies on 'only someone with a valid witness can derive the key'. This is false of the code: there is one fixed witness-free procedure, using only the ciphertext and public group operations, that outputs exactly the encapsulated key for every circuit (even unsatisfiable ones), every public input and every randomness.", "quantifier": "all circuits, public inputs and randomness", "why_tests_cant": "a test can at best exhibit one break; the claim is that every ciphertext is broken by the same procedure", "anchors": ["packages/zkenc-core/src/algorithm.rs: encap (steps 4-5)", "packages/zkenc-core/src/data_structures.rs: EncapKey"]}
{"id": "C04", "title": "Decap never returns a key for an unsatisfying assignment", "statement": "For every parsed circuit, every (possibly partial) wire assignment and every ciphertext (honest or not): if decap returns a key then every wire of the circuit is assigned and every constraint A*B=C holds for that assignment, where A,B,C are the plain weighted sums read from the R1CS file.", "quantifier": "all circuits, assignments, ciphertexts; circuits that declare fewer than 2^32 - 1 public wires", "why_tests_cant": "requires every invalid witness to be rejected", "anchors": ["packages/zkenc-core/src/algorithm.rs: decap 234-245", "packages/zkenc-cli/src/circuit.rs: generate_constraints", "packages/zkenc-js/src/lib.rs: build_lc"]}
{"id": "C05", "title": "Decap enforces the public inputs recorded in the ciphertext", "statement": "If decap returns a key, then for every index i of the ciphertext's public-input vector the assignment's wire i+1 equals the recorded value (and the assignment is long enough).", "quantifier": "all circuits, assignments, ciphertexts; circuits that declare fewer than 2^32 - 1 public wires", "why_tests_cant": "all positions and lengths", "anchors": ["packages/zkenc-core/src/algorithm.rs: decap 270-281"]}
{"id": "C06", "title": "Exact outcome of decap (error precedence)", "statement": "decap's result is completely determined: SynthesisError iff synthesis fails; else InvalidWitness if some constraint is violated; else InvalidPublicInputs if the recorded public inputs do not match; else InvalidWitness if one of the three query vectors is empty; else Ok of the KDF of e(A,B)-e(C,delta). It never panics and has no other result.", "quantifier": "all circuits and ciphertexts", "why_tests_cant": "every combination of failure causes", "anchors": ["packages/zkenc-core/src/algorithm.rs: decap", "packages/zkenc-core/src/algorithm.rs: Error"]}
{"id": "C07", "title": "Encap succeeds on every circuit; it panics exactly when delta = 0", "statement": "encap returns Ok for every circuit (satisfiable or not, synthesis failing or not) and every randomness with delta != 0, and panics for every circuit when the sampled delta is 0. It never returns Err.", "quantifier": "all circuits and randomness", "why_tests_cant": "the delta = 0 branch has probability 2^-254, so no test hits it", "anchors": ["packages/zkenc-core/src/algorithm.rs: encap 124-133, 187-192"]}
{"id": "C08", "title": "Which public inputs a ciphertext is bound to", "statement": "The public-input vector stored by encap for a Circom circuit is the longest prefix of wires 1..n_public that the encapsulator assigned: everything from the first missing wire on is silently dropped and is not checked by decap. In particular if a declared public output (wire 1) is not supplied, nothing is bound and decap accepts every satisfying assignment.", "quantifier": "all circuits and partial public assignments; circuits that declare fewer than 2^32 - 1 public wires", "why_tests_cant": "every pattern of missing wires", "anchors": ["packages/zkenc-core/src/algorithm.rs: encap 77-90", "packages/zkenc-cli/src/circuit.rs: 77-83", "packages/zkenc-js/src/zkenc.ts: encap 100-110"]}
{"id": "C09", "title": "Ciphertexts are not bound to the circuit", "statement": "For ciphertexts of the documented workflow, decap with a different circuit (any circuit with any satisfying assignment whose first wires match the recorded public inputs) also returns the encapsulated key; removing the recorded public inputs from the ciphertext removes that last check. The expected binding of a ciphertext to its circuit is false.", "quantifier": "all pairs of circuits, all assignments; circuits that declare fewer than 2^32 - 1 public wires", "why_tests_cant": "ranges over all foreign circuits", "anchors": ["packages/zkenc-core/src/algorithm.rs: decap"]}
{"id": "C10", "title": "All valid witnesses give the same key", "statement": "For a fixed ciphertext produced by the documented workflow, any two successful decaps (different witnesses, even different circuits) return the same key.", "quantifier": "all pairs of successful decapsulations; circuits that declare fewer than 2^32 - 1 public wires", "why_tests_cant": "pairs of executions", "anchors": ["packages/zkenc-core/src/algorithm.rs: decap"]}
{"id": "C11", "title": "Key depends only on alpha*beta in the documented workflow", "statement": "For the documented workflow the encapsulated key is the KDF of alpha*beta*e(g1,g2): it is independent of circuit, public inputs, delta, r and x; two encapsulations share a key iff their alpha*beta coincide (injective KDF, non-degenerate pairing).", "quantifier": "all pairs of encapsulations; circuits that declare fewer than 2^32 - 1 public wires", "why_tests_cant": "relational property over all randomness", "anchors": ["packages/zkenc-core/src/algorithm.rs: encap 194-210"]}
{"id": "C12", "title": "verify_ciphertext decides equality of public inputs and nothing else", "statement": "verify_ciphertext(ct, expected) is true iff ct.public_inputs = expected; it is unaffected by any change to the CRS part, so it accepts ciphertexts that cannot be decapsulated to the encapsulated key (its documentation says it verifies well-formedness: refuted).", "quantifier": "all ciphertexts and expected vectors", "why_tests_cant": "all vectors and all malformed CRSs", "anchors": ["packages/zkenc-core/src/algorithm.rs: verify_ciphertext"]}
{"id": "C13", "title": "QAP evaluations are the interpolating polynomials", "statement": "Each of the three evaluation vectors returned for a circuit has one entry per variable, and entry i is the value at x of the unique polynomial of degree < domain size that takes the matrix coefficient of variable i at the j-th domain point for each constraint j and 0 at the remaining domain points; if the domain does not exist all entries are 0.", "quantifier": "all constraint systems, all x (including x in the domain), all domains of distinct points", "why_tests_cant": "polynomial identity over all circuits and points", "anchors": ["packages/zkenc-core/src/r1cs_to_qap.rs: evaluate_qap_polynomials_at_x"]}
{"id": "C14", "title": "R1CS satisfaction equals QAP divisibility", "statement": "A full assignment satisfies all constraints iff the vanishing polynomial of the evaluation domain divides U*V-W, where U,V,W are the assignment-weighted sums of the QAP polynomials; consequently for satisfying assignments and x in the domain decap's pairing value is alpha*beta.", "quantifier": "all constraint systems, assignments, domains", "why_tests_cant": "algebraic equivalence over all circuits", "anchors": ["packages/zkenc-core/src/r1cs_to_qap.rs", "packages/zkenc-core/src/algorithm.rs"]}
{"id": "C15", "title": "Ciphertext shape and size", "statement": "Every ciphertext from encap has three query vectors of length m (instance + witness variables seen by synthesis) and an empty h-query; its serialized size is exactly 200 + 128 m + 32 l bytes for BN254, where l is the number of recorded public inputs; for a Circom circuit with all l = n_public public wires assigned and a missing private wire m = l+2, so the size is 456+160 l bytes regardless of the number of constraints.", "quantifier": "all circuits and randomness; circuits that declare fewer than 2^32 - 1 public wires", "why_tests_cant": "size law for all circuits", "anchors": ["packages/zkenc-core/src/algorithm.rs: encap", "packages/zkenc-core/src/data_structures.rs"]}
{"id": "C16", "title": "Ciphertext serialization round trip", "statement": "Deserializing the serialization of any ciphertext returns the same ciphertext; the encoding is injective; bytes following a serialized ciphertext are ignored.", "quantifier": "all ciphertexts of all sizes, all trailing bytes", "why_tests_cant": "all sizes", "anchors": ["packages/zkenc-core/src/data_structures.rs: Ciphertext, EncapKey", "packages/zkenc-cli/src/commands.rs: 76-83, 126-129", "packages/zkenc-js/src/lib.rs: 422-426, 479"]}
{"id": "C17", "title": "Truncated ciphertexts are rejected", "statement": "No strict prefix of a serialized ciphertext deserializes: deserialization of every strict prefix fails.", "quantifier": "all ciphertexts, all cut points", "why_tests_cant": "all cut points of all ciphertexts", "anchors": ["packages/zkenc-cli/src/commands.rs: decap_command 128", "packages/zkenc-js/src/lib.rs: wasm_decap 479"]}
{"id": "C18", "title": "Field elements have one accepted 32-byte encoding", "statement": "A 32-byte string is accepted as a canonical field element (public inputs of a ciphertext, CLI witness values) iff its little-endian value is below the BN254 scalar modulus, and then it is the only encoding of that element.", "quantifier": "all byte strings", "why_tests_cant": "2^256 strings", "anchors": ["packages/zkenc-cli/src/witness.rs: to_field_elements", "packages/zkenc-core/src/data_structures.rs: Ciphertext"]}
{"id": "C19", "title": "Circuit bincode round trip", "statement": "from_bincode(to_bincode(c)) = c for every serializable circuit, including label maps, and every strict prefix of an encoding is rejected.", "quantifier": "all circuits", "why_tests_cant": "all sizes and nesting", "anchors": ["packages/zkenc-core/src/serializable.rs: to_bincode, from_bincode", "packages/zkenc-cli/src/serializable.rs"]}
{"id": "C20", "title": "R1CS export keeps the circuit", "statement": "Converting a parsed R1CS file to the serializable form keeps header numbers, prime and every constraint (same wires, same coefficients, same order), so the serializable form has the same satisfying assignments.", "quantifier": "all parsed files", "why_tests_cant": "all constraint lists", "anchors": ["packages/zkenc-cli/src/r1cs.rs: to_serializable"]}
{"id": "C21", "title": "CLI R1CS parser inverts the file format", "statement": "For every well-formed .r1cs file (sections in any order, unknown sections anywhere, optional wire-to-label section, any field size, any constraint list) the CLI parser returns exactly the header, constraints and label table that were encoded.", "quantifier": "all files in the grammar", "why_tests_cant": "infinite grammar", "anchors": ["packages/zkenc-cli/src/r1cs.rs: from_file, parse_header, parse_constraints, parse_lc, parse_wire2label"]}
{"id": "C22", "title": "JS R1CS parser inverts the file format", "statement": "For every well-formed .r1cs file smaller than 2 GiB (the largest byte string of 32-bit wasm) the WASM parser returns exactly the encoded header and constraints.", "quantifier": "all files in the grammar below the 32-bit size limit", "why_tests_cant": "infinite grammar", "anchors": ["packages/zkenc-js/src/lib.rs: parse_r1cs, parse_linear_combination"]}
{"id": "C23", "title": "CLI and JS parse the same circuit", "statement": "On every byte string below 2 GiB, well-formed or not, that the CLI accepts, JS succeeds too and returns the same header and constraints; so the two parsers never return different circuits.", "quantifier": "all files", "why_tests_cant": "differential property over all inputs", "anchors": ["packages/zkenc-cli/src/r1cs.rs: from_file", "packages/zkenc-js/src/lib.rs: parse_r1cs"]}
{"id": "C24", "title": "CLI file parsers are total and reject bad magic, version and truncation", "statement": "The CLI .r1cs and .wtns parsers return a value or an error on every byte string; inputs with a wrong magic, an unsupported version, a missing header/constraint/data section, or cut short inside needed data are errors. The only panic is a .wtns section size of 2^63 or more. A .wtns file is accepted exactly if all sections announced are complete and the last header and the last data section fit each other (field size not 0, data not empty, exactly the announced number of values); these values are the result. A .r1cs file is accepted with result r exactly if its preamble is right, the heads of all sections announced can be reached (sizes are signed offsets), and behind the head of the first section of type 1, of type 2 and, if there is one, of type 3 stand the bytes which the format prescribes for r.", "quantifier": "all byte strings", "why_tests_cant": "all byte strings", "anchors": ["packages/zkenc-cli/src/r1cs.rs", "packages/zkenc-cli/src/witness.rs: from_file"]}
{"id": "C25", "title": "JS R1CS parser robustness", "statement": "The WASM .r1cs parser ends on every byte string, and on every byte string that fits into its memory it returns a value or an error, except that it panics (refuting total robustness) exactly if the file begins with magic, version and section count and either a section of those announced is looked for in the last four bytes of the 32-bit address space (declared sizes are cut to 32 bits and added with wrap-around), or all sections announced begin within the file, the first header section can be read, and the first coefficient of the first constraints section is in the file and is declared to reach the end of that address space.", "quantifier": "all byte strings; byte strings below 2 GiB (the limit of a wasm32 slice) for the panics; concrete refuting files", "why_tests_cant": "all byte strings", "anchors": ["packages/zkenc-js/src/lib.rs: parse_r1cs 74-129"]}
{"id": "C26", "title": "Witness file round trip (CLI)", "statement": "For every well-formed .wtns file (any section order, unknown sections) with canonical values the CLI parser maps wire i to the i-th value for exactly the wires 0..n-1; a value >= p makes the conversion fail.", "quantifier": "all witness vectors", "why_tests_cant": "all lengths and values", "anchors": ["packages/zkenc-cli/src/witness.rs: from_file, to_field_elements"]}
{"id": "C27", "title": "Witness file round trip (JS)", "statement": "For every well-formed .wtns file (header section before data) the WASM parser returns the encoded values reduced mod p, in order.", "quantifier": "all witness vectors", "why_tests_cant": "all lengths and values", "anchors": ["packages/zkenc-js/src/lib.rs: parse_witness"]}
{"id": "C28", "title": "JS witness parser can hang or panic on malformed files", "statement": "A user expects an error for malformed witness bytes. Refuted: the JS parser reports an error exactly for a wrong magic or version. A file cut inside its 12-byte preamble after the magic panics. Otherwise the first bad section, in the order in which the parser finds them (announced sizes cut to 32 bits, wrap-around), decides: if its head, the field size of a header or a value of a data section is cut off, the parser panics; if it is a data section while values have size zero (no header before it, or one with field size zero) and it does not end before it begins, the parser never returns; without a bad section it returns, one section after the other, the values that end within the announced size of a data section (the first 32 bytes of each at most), with the field size of the last header before it; bytes left over are ignored.", "quantifier": "all byte strings below 2 GiB (the limit of a wasm32 slice); families of refuting files", "why_tests_cant": "non-termination cannot be established by running", "anchors": ["packages/zkenc-js/src/lib.rs: parse_witness 234-297"]}
{"id": "C29", "title": "CLI and JS accept different witness values", "statement": "For a 32-byte value v >= p in a well-formed .wtns file the JS parser uses v mod p while the CLI fails; for canonical values they agree. On malformed files they can both succeed with different values: from a file with two data sections, holding any xs and then any ys, the CLI takes ys and JS takes xs followed by ys.", "quantifier": "all witness files", "why_tests_cant": "all values", "anchors": ["packages/zkenc-cli/src/witness.rs: 123-135", "packages/zkenc-js/src/lib.rs: 283-290"]}
{"id": "C30", "title": "JS witness serialization matches the parser", "statement": "The bytes produced from a list of integers by the JS encap path parse back (WASM parser) to the same integers mod 2^256 mod p; for integers in [0,p) to the integers themselves.", "quantifier": "all integer lists of at most 2^26-3 entries", "why_tests_cant": "all lists", "anchors": ["packages/zkenc-js/src/zkenc.ts: serializeWitnessSimple, bigIntToLeBytes32", "packages/zkenc-js/src/lib.rs: parse_witness"]}
{"id": "C31", "title": "Witness calculator output matches the parser", "statement": "The .wtns bytes produced by the witness calculator from field-element limbs parse (both parsers) to exactly those witness values; the limb conversions toArray32/fromArray32 are mutually inverse for values that fit.", "quantifier": "all witness vectors, all limb counts", "why_tests_cant": "all values", "anchors": ["packages/zkenc-js/src/witness_calculator.ts: calculateWTNSBin, toArray32, fromArray32, normalize"]}
{"id": "C32", "title": "Circom synthesis is faithful to the R1CS file", "statement": "With every wire assigned, the synthesized constraint system is satisfied iff the assignment satisfies every constraint of the R1CS file as plain sums (wire 0 = 1), including repeated wires in one linear combination; coefficients are read as little-endian integers mod p (only the first 32 bytes count).", "quantifier": "all circuits and assignments; circuits that declare fewer than 2^32 - 1 public wires", "why_tests_cant": "all circuits", "anchors": ["packages/zkenc-cli/src/circuit.rs: generate_constraints, bytes_to_fr", "packages/zkenc-js/src/lib.rs: generate_constraints, build_lc"]}
{"id": "C33", "title": "CLI and JS circuits are interchangeable", "statement": "For the same R1CS data and assignment both implementations produce the same constraint system and the same synthesis result.", "quantifier": "all circuits and assignments", "why_tests_cant": "differential property", "anchors": ["packages/zkenc-cli/src/circuit.rs", "packages/zkenc-js/src/lib.rs"]}
{"id": "C34", "title": "Out-of-range wires are silently dropped", "statement": "A constraint term whose wire id is not among the allocated wires contributes nothing (no error): a circuit that mentions such a wire behaves exactly like the circuit with these terms removed.", "quantifier": "all circuits; circuits that declare fewer than 2^32 - 1 public wires", "why_tests_cant": "all malformed circuits", "anchors": ["packages/zkenc-cli/src/circuit.rs: 103-113", "packages/zkenc-js/src/lib.rs: 357-369"]}
{"id": "C35", "title": "Symbol file parsing", "statement": "For every .sym content made of well-formed lines with distinct signal names, both parsers return exactly the wire id of every signal with a non-negative wire id; lines that do not have four fields are skipped; they agree with each other.", "quantifier": "all symbol files", "why_tests_cant": "all line lists", "anchors": ["packages/zkenc-cli/src/sym_parser.rs: parse_sym_file, get_input_signals", "packages/zkenc-js/src/sym_parser.ts: parseSymFile, getInputSignals"]}
{"id": "C36", "title": "Symbol parser disagreement on bad wire ids", "statement": "A wire-id field that is not a 32-bit integer makes the CLI parser fail the whole file, and nothing else does; the JS parser never fails: it reads the field exactly if it is white space, perhaps a sign, and digits, whatever follows them, and skips the line if there are no digits or the number is negative. On any text, well-formed or not, each tool's table (if it returns one) holds a name exactly if some line of four fields gives it a wire that is not negative, and then the wire of the last such line.", "quantifier": "all contents; concrete refuting content", "why_tests_cant": "all strings", "anchors": ["packages/zkenc-cli/src/sym_parser.rs: 35-42", "packages/zkenc-js/src/sym_parser.ts: 37-45"]}
{"id": "C37", "title": "JSON key order does not matter", "statement": "Permuting the entries of the input object does not change the wire assignment used by encap, provided no two input entries resolve to the same wire; this holds for the CLI (any HashMap iteration order) and for JS. With the same random choices, the ciphertext and key bytes of encap, and the output of encrypt without embedded public input, are then the same too, in both tools. Without the proviso the CLI result depends on HashMap iteration order (concrete refutation).", "quantifier": "all input objects, all permutations, all iteration orders", "why_tests_cant": "hash-map iteration orders cannot be enumerated by tests", "anchors": ["packages/zkenc-cli/src/commands.rs: 52-62, 456-504", "packages/zkenc-js/src/sym_parser.ts: mapInputsToWires", "packages/zkenc-js/src/zkenc.ts: encap"]}
{"id": "C38", "title": "Input flattening", "statement": "A value at indices i1..ik of a (nested) array input x is assigned to the wire of signal x[i1]..[ik] by the CLI; JS assigns only one array level (nested arrays are not assigned) while nested objects are joined with '.'; CLI rejects nested objects, booleans and null.", "quantifier": "all JSON values; size and shape conditions: inputs that do not give one wire two different values (the general case is C101)", "why_tests_cant": "all nestings", "anchors": ["packages/zkenc-cli/src/commands.rs: parse_circuit_inputs_with_keys", "packages/zkenc-js/src/sym_parser.ts: flattenInput"]}
{"id": "C39", "title": "Numeric input conversion", "statement": "CLI: JSON integers 0..2^64-1 and decimal strings map to the value mod p. A negative JSON integer -k maps to 2^64-k (not -k): refutes the expectation that it denotes p-k. JS encap maps a negative integer to 2^256-k mod p whereas the witness calculator maps it to p-k, so an encryption under a negative public input cannot be opened by the matching witness.", "quantifier": "all integers; size and shape conditions: inputs that do not give values to all of the first 2^25 wires in JS encap and encrypt (automatic with the argument limits of engines, C102); inputs that do not give one wire two different values (the general case is C101)", "why_tests_cant": "all integers", "anchors": ["packages/zkenc-cli/src/commands.rs: 470-486", "packages/zkenc-js/src/zkenc.ts: bigIntToLeBytes32", "packages/zkenc-js/src/witness_calculator.ts: normalize"]}
{"id": "C40", "title": "CLI drops public wires above n_pub_in", "statement": "The CLI assigns only signals whose wire id is <= n_pub_in, so for circuits with public outputs the last n_pub_out public wires are never assigned at encap and are never bound; JS (no limit) does assign them.", "quantifier": "all circuits with public outputs; circuits that declare fewer than 2^32 - 1 public wires; size and shape conditions: inputs that do not give values to all of the first 2^25 wires in JS encap and encrypt (automatic with the argument limits of engines, C102); inputs that do not give one wire two different values (the general case is C101)", "why_tests_cant": "all circuits", "anchors": ["packages/zkenc-cli/src/commands.rs: 42, 179", "packages/zkenc-cli/src/sym_parser.rs: 76-80", "packages/zkenc-js/src/zkenc.ts: 89"]}
{"id": "C41", "title": "AES-GCM wrapper contract", "statement": "decrypt(key, encrypt(key, m)) = m for both tools and across tools; output length is 28+|m|; keys that are not 32 bytes and data shorter than 28 bytes are rejected with an error before any cipher operation.", "quantifier": "all keys, messages and nonces", "why_tests_cant": "all messages", "anchors": ["packages/zkenc-cli/src/crypto.rs: encrypt_gcm, decrypt_gcm", "packages/zkenc-js/src/crypto.ts"]}
{"id": "C42", "title": "AES-CTR wrapper contract", "statement": "decrypt_ctr(key, encrypt_ctr(key, m)) = m, length is 16+|m|, and every data of at least 16 bytes decrypts to something of length |data|-16 (no authentication): flipping a ciphertext bit flips exactly that plaintext bit.", "quantifier": "all keys, messages, IVs", "why_tests_cant": "all messages", "anchors": ["packages/zkenc-cli/src/crypto.rs: encrypt_ctr, decrypt_ctr"]}
{"id": "C43", "title": "Combined ciphertext format is unambiguous", "statement": "Parsing a combined ciphertext produced by either tool returns exactly the witness ciphertext, optional public-input bytes and encrypted message that were packed, provided the two lengths fit in 32 bits; both tools pack and unpack the same format.", "quantifier": "all component byte strings, both flags; size and shape conditions: witness ciphertexts and embedded public inputs below 4 GiB", "why_tests_cant": "all sizes", "anchors": ["packages/zkenc-cli/src/commands.rs: 235-270, 293-355", "packages/zkenc-js/src/zkenc.ts: 335-374, 410-446"]}
{"id": "C44", "title": "Malformed combined ciphertexts are rejected", "statement": "The CLI rejects exactly the byte strings that are not header + complete witness part + (flag = 1: complete public part) + rest; the JS unpacker accepts in addition a public-input length that overruns the buffer, but then the remaining message is empty and decryption still fails. Flags other than 1 are treated as 'no public input'.", "quantifier": "all byte strings", "why_tests_cant": "all byte strings", "anchors": ["packages/zkenc-cli/src/commands.rs: decrypt_command", "packages/zkenc-js/src/zkenc.ts: decrypt"]}
{"id": "C45", "title": "getPublicInput returns the embedded inputs", "statement": "On every combined ciphertext made with public inputs included, getPublicInput returns the encrypted-under object (for a ciphertext of the CLI: what JSON.parse makes of the input file, always); on every one made without it, it throws; on arbitrary bytes it never reads out of bounds.", "quantifier": "all ciphertexts and byte strings; size and shape conditions: witness ciphertexts and embedded public inputs below 4 GiB", "why_tests_cant": "all byte strings", "anchors": ["packages/zkenc-js/src/zkenc.ts: getPublicInput"]}
{"id": "C46", "title": "Header and public input are not authenticated", "statement": "Replacing the embedded public input of a combined ciphertext by any other bytes (or removing it) does not change the decryption result: the embedded public input is not authenticated (refutes tamper evidence of the container).", "quantifier": "all ciphertexts, all replacement bytes; size and shape conditions: witness ciphertexts and embedded public inputs below 4 GiB", "why_tests_cant": "all replacements", "anchors": ["packages/zkenc-cli/src/commands.rs: encrypt_command, decrypt_command", "packages/zkenc-js/src/zkenc.ts: encrypt, decrypt"]}
{"id": "C47", "title": "End-to-end: CLI encrypt then decrypt", "statement": "If encrypt_command succeeds on a circuit, symbol file, inputs and message, then decrypt_command with any witness file for the same circuit holding a satisfying assignment that agrees with the bound public inputs writes exactly the message.", "quantifier": "all circuits with a wire beyond the public ones (without one the round trip fails: C02), all files, messages, randomness; size and shape conditions: witness ciphertexts and embedded public inputs below 4 GiB", "why_tests_cant": "all inputs", "anchors": ["packages/zkenc-cli/src/commands.rs: encrypt_command, decrypt_command"]}
{"id": "C48", "title": "End-to-end: JS encrypt then decrypt, and across tools", "statement": "The same for JS encrypt/decrypt, and for every combination of encrypting with one tool and decrypting with the other.", "quantifier": "all circuits with a wire beyond the public ones (without one: C02), all inputs, messages, randomness; size and shape conditions: inputs that do not give values to all of the first 2^25 wires in JS encap and encrypt (automatic with the argument limits of engines, C102); inputs that do not give one wire two different values (the general case is C101); witness ciphertexts and embedded public inputs below 4 GiB; messages within the limit of the AES library of the decrypting tool", "why_tests_cant": "all inputs", "anchors": ["packages/zkenc-js/src/zkenc.ts: encrypt, decrypt", "packages/zkenc-cli/src/commands.rs"]}
{"id": "C49", "title": "End-to-end: anyone can decrypt", "statement": "There is a fixed procedure that, given only a combined ciphertext produced by either tool (no circuit, no witness), outputs the message.", "quantifier": "all inputs, messages, randomness; circuits that declare fewer than 2^32 - 1 public wires; size and shape conditions: witness ciphertexts and embedded public inputs below 4 GiB; messages within the limit of the AES library of the decrypting tool", "why_tests_cant": "universal break", "anchors": ["packages/zkenc-cli/src/commands.rs: encrypt_command", "packages/zkenc-js/src/zkenc.ts: encrypt", "packages/zkenc-core/src/algorithm.rs: encap"]}
{"id": "C50", "title": "Failed commands leave the file system unchanged; crash points", "statement": "A CLI command that returns an error before its first write changes no file; decap/encrypt/decrypt write exactly one file, as their last action and only on success; encap writes the ciphertext and then the key, so a crash (or write error) between the two leaves a ciphertext without key, and the key is otherwise lost. No command touches any other path.", "quantifier": "all file systems, all inputs, all crash points", "why_tests_cant": "crash points", "anchors": ["packages/zkenc-cli/src/commands.rs"]}
{"id": "C51", "title": "WASM initialisation runs at most once", "statement": "Under every interleaving of concurrent API calls the WASM initializer is invoked at most once, and no call proceeds past initialisation before it completed; if it fails, every later call fails too (never retried).", "quantifier": "all interleavings of any number of calls", "why_tests_cant": "schedules", "anchors": ["packages/zkenc-js/src/zkenc.ts: ensureWasmInit"]}
{"id": "C52", "title": "Signal hash of the witness calculator", "statement": "The hash used to address input signals is exactly 64-bit FNV-1a of the UTF-16 code units as a 16-digit lower-case hexadecimal string; splitting it in two 32-bit halves loses nothing.", "quantifier": "all strings", "why_tests_cant": "all strings", "anchors": ["packages/zkenc-js/src/witness_calculator.ts: fnvHash, _doCalculateWitness"]}
{"id": "C53", "title": "Witness calculator input checks", "statement": "The calculator accepts an input object only if every key names an input signal whose declared size equals the number of flattened values and all inputs of the circuit are set; nested arrays are flattened in row-major order; otherwise it throws.", "quantifier": "all input objects", "why_tests_cant": "all shapes", "anchors": ["packages/zkenc-js/src/witness_calculator.ts: _doCalculateWitness, flatArray"]}
{"id": "C54", "title": "Circuits with public outputs bind nothing", "statement": "Circom numbers public outputs before public inputs. If the input object supplies no value for the first public wire (the usual case for any circuit with a public output), the ciphertext binds no public input at all and every satisfying assignment of the circuit opens it, in both tools.", "quantifier": "all circuits, symbol files, input objects, randomness and satisfying assignments; circuits that declare fewer than 2^32 - 1 public wires; size and shape conditions: inputs that do not give one wire two different values (the general case is C101)", "why_tests_cant": "needs all assignments", "anchors": ["packages/zkenc-cli/src/commands.rs: encap_command, encrypt_command", "packages/zkenc-js/src/zkenc.ts: encap", "packages/zkenc-core/src/algorithm.rs: encap"]}
{"id": "C55", "title": "End-to-end: encap then decap through files and byte arrays", "statement": "If encap succeeds with either tool, decap with either tool, given the written ciphertext bytes, the same circuit file and a witness holding a satisfying assignment that agrees with the bound public inputs, outputs the same 32-byte key. Conversely decap_command only ever writes a key if the witness file holds a satisfying assignment of the circuit.", "quantifier": "all circuits with a wire beyond the public ones (without one: C02), inputs, witnesses, randomness, both tools on both sides; circuits that declare fewer than 2^32 - 1 public wires; size and shape conditions: inputs that do not give values to all of the first 2^25 wires in JS encap and encrypt (automatic with the argument limits of engines, C102); inputs that do not give one wire two different values (the general case is C101)", "why_tests_cant": "all inputs", "anchors": ["packages/zkenc-cli/src/commands.rs: encap_command, decap_command", "packages/zkenc-js/src/zkenc.ts: encap, decap", "packages/zkenc-js/src/lib.rs: wasm_encap, wasm_decap"]}
{"id": "C56", "title": "BigInt inputs and the JavaScript encrypt", "statement": "JSON text of the inputs exists exactly if no BigInt occurs anywhere in them. If one does, encrypt in its default mode (public input included) never returns a ciphertext: the call throws, although encapsulation and encryption would have succeeded; with includePublicInput=false the same call can succeed.", "quantifier": "all input objects of any depth, all circuits, messages and randomness", "why_tests_cant": "arbitrary nesting of inputs", "anchors": ["packages/zkenc-js/src/zkenc.ts: encrypt"]}
{"id": "C57", "title": "Public input written by the CLI and read by JavaScript", "statement": "If the CLI accepts an input file and embeds it, getPublicInput on the resulting file yields an object with the same keys and the same values at every depth; integers are rounded to doubles only outside the exactly representable range, later duplicates of a key win in both tools.", "quantifier": "all JSON texts accepted by the CLI, all double-rounding functions; size and shape conditions: witness ciphertexts and embedded public inputs below 4 GiB", "why_tests_cant": "all texts", "anchors": ["packages/zkenc-cli/src/commands.rs: encrypt_command", "packages/zkenc-js/src/zkenc.ts: getPublicInput"]}
{"id": "C58", "title": "The whole JavaScript flow from input objects", "statement": "The sender encrypts for an object of public inputs; the receiver calls decrypt with an object that has the same public entries and the private ones. If the circuit's witness program (belonging to the same circuit and symbol file) accepts the receiver's inputs, decrypt returns the message (decap the key); if it throws, decrypt throws the same error. The same holds when the sender used the CLI and the receiver gives the same integers in the declared array shapes, and when the receiver writes the computed witness to a file and uses the CLI.", "quantifier": "all circuits with a wire beyond the public ones, all correctly compiled witness programs, all input objects, messages and randomness; size and shape conditions: inputs that do not give values to all of the first 2^25 wires in JS encap and encrypt (automatic with the argument limits of engines, C102); inputs that do not give one wire two different values (the general case is C101); witness ciphertexts and embedded public inputs below 4 GiB; messages within the limit of the AES library of the decrypting tool; public inputs that are non-negative integers below 2^256 or arrays of them; fewer than 2^26 - 8 wires", "why_tests_cant": "all circuits and inputs", "anchors": ["packages/zkenc-js/src/zkenc.ts: encrypt, decrypt, encap, decap", "packages/zkenc-js/src/witness.ts: calculateWitness", "packages/zkenc-js/src/witness_calculator.ts"]}
{"id": "C59", "title": "Witness functions agree with each other", "statement": "calculateWitness and calculateWitnessArray fail together with the same error; otherwise the file returned by one contains exactly the integers returned by the other and declares the field size, prime and number of values reported by getCircuitInfo.", "quantifier": "all witness programs over any field, all input objects", "why_tests_cant": "all circuits and fields", "anchors": ["packages/zkenc-js/src/witness.ts: calculateWitness, calculateWitnessArray, getCircuitInfo"]}
{"id": "C60", "title": "The TypeScript witness calculator is a faithful rewrite", "statement": "With the sanity check on, the TypeScript witness calculator accepts the same inputs as the original JavaScript one, drives the witness program into the same state and writes the same .wtns bytes as long as the witness data is below 4 GiB (at 4 GiB the original writes a wrong section length).", "quantifier": "all witness programs, all input objects", "why_tests_cant": "the test-suite runs one implementation and the package ships the other", "anchors": ["packages/zkenc-js/src/witness_calculator.ts", "packages/zkenc-js/src/witness_calculator.js", "packages/zkenc-js/src/witness.ts"]}
{"id": "C61", "title": "The evaluation domain of BN254", "statement": "For the field actually used, a domain for n points exists exactly for n <= 2415919104 = 9*2^28; its size is the least power of two >= n up to 2^28 and the least 2^a*3^b (a <= 28, b <= 2) beyond; its points are exactly the N-th roots of unity, in geometric progression from 1; the library's Lagrange coefficients are the values of the Lagrange basis polynomials, also when the evaluation point lies on the domain. Hence the QAP evaluations are right for every system up to that size; above it they are silently all zero (and create_domain panics).", "quantifier": "all sizes, all constraint systems, all evaluation points", "why_tests_cant": "all sizes up to 2^31 and all field elements", "anchors": ["packages/zkenc-core/src/r1cs_to_qap.rs: evaluate_qap_polynomials_at_x, create_domain"]}
{"id": "C62", "title": "JSON and bincode files of circuits, witnesses and test cases", "statement": "to_json followed by from_json returns the same circuit, witness or test case, and agrees with the bincode form; the text has one field per Rust field under its Rust name, and every text with this document, in any layout, is read as the value; whatever text from_json accepts has all numbers within their types and distinct map keys, and can be written and read again unchanged; field order and unknown fields of a document do not matter, missing and repeated fields are rejected, except that the wire labels of a circuit and the description of a test case may be missing and then are read as absent; no proper prefix of a written text is accepted. However a save ends (I/O error or crash at any byte), loading the path yields the saved value, an error, or - only if nothing was written - the old content, and no other file changes; success means the new value loads. The save is not atomic: a crash can lose the old value.", "quantifier": "all circuits, witnesses, test cases, label texts and map orders; all texts; all crash points of a save", "why_tests_cant": "all values, texts and crash points", "anchors": ["packages/zkenc-core/src/serializable.rs: SerializableCircuit, SerializableWitness, SerializableTestCase", "packages/zkenc-cli/src/serializable.rs"]}
{"id": "C63", "title": "Legacy input helpers of the CLI library", "statement": "The order-based input parser accepts exactly the JSON texts the key-based one accepts and returns the values of all leaves in document order, so the two give the same values; the text-based parser (circom::parse_inputs) never fails on an object, yields one text per leaf that is not an object, in order, and for inputs the key-based parser accepts without negative numbers these texts denote the same field elements; load_circom_circuit depends only on the existence of its files and the length of the first, so its counts say nothing about the circuit.", "quantifier": "all JSON values of any nesting, all files", "why_tests_cant": "arbitrary nesting and all file contents", "anchors": ["packages/zkenc-cli/src/commands.rs: parse_circuit_inputs", "packages/zkenc-cli/src/circom.rs: parse_inputs, flatten_value, load_circom_circuit"]}
{"id": "C64", "title": "Repeating a command after a failure or crash", "statement": "However a run of a CLI command ended (error, partial write, crash at any point), repeating it with the same arguments, if no output path is also an input path, gives the same result as if the first run had not happened, and on success exactly the same files. The condition is needed: a decrypt of a file onto itself that is stopped while writing loses both the ciphertext and the message.", "quantifier": "all commands, arguments, file systems, randomness of both runs, crash points and I/O errors of the first run", "why_tests_cant": "all crash points of all commands", "anchors": ["packages/zkenc-cli/src/commands.rs: encap_command, decap_command, encrypt_command, decrypt_command", "packages/zkenc-cli/src/main.rs: main"]}
{"id": "C65", "title": "Independent commands running at the same time", "statement": "Any number of CLI commands of which none writes a file that another one reads or writes can run concurrently: in every interleaving of their file operations, with any of them failing or killed, each has the outcome and output files of a run on its own, and no other file changes; if all succeed the final files do not depend on the interleaving. Two commands with the same output path can both report success while one result is lost.", "quantifier": "all families of commands, all interleavings, failures and crash points", "why_tests_cant": "all schedules", "anchors": ["packages/zkenc-cli/src/commands.rs: encap_command, decap_command, encrypt_command, decrypt_command", "packages/zkenc-cli/src/main.rs: main"]}
{"id": "C66", "title": "Files that change while a command reads them", "statement": "A command reads its files in a fixed order, each once except the circuit, which it reads twice. If both readings of the circuit agree, the command behaves as on a snapshot made of the contents it found. If they differ, decap and decrypt behave as with the second content (the first only has to be well-formed), whereas encap and encrypt take the number of public inputs from the first content and the constraints from the second.", "quantifier": "all commands and all histories of file contents changing between reads", "why_tests_cant": "all schedules of other processes' writes", "anchors": ["packages/zkenc-cli/src/commands.rs: encap_command, decap_command, encrypt_command, decrypt_command", "packages/zkenc-cli/src/circuit.rs: CircomCircuit"]}
{"id": "C67", "title": "Concurrent calls of the JavaScript API", "statement": "Any number of encap, decap, encrypt and decrypt calls may be in progress at the same time, in any interleaving: as long as the user's code does not change a call's own arguments while it runs, its result is that of the function on those arguments (or the wasm initialisation failed), and once initialisation has settled every call can finish. If arguments are changed while a call runs: decrypt has read the ciphertext completely at the call (the buffer may be reused at once) whereas decap reads it last; encrypt reads the inputs twice, so the embedded public input can differ from the inputs the key is bound to.", "quantifier": "all programs, all interleavings of calls and user code, all histories of the argument objects", "why_tests_cant": "all schedules", "anchors": ["packages/zkenc-js/src/zkenc.ts: encap, decap, encrypt, decrypt, ensureWasmInit", "packages/zkenc-js/src/witness.ts: calculateWitness", "packages/zkenc-js/src/crypto.ts: aesGcmEncrypt, aesGcmDecrypt"]}
{"id": "C68", "title": "Public inputs that are arrays of arrays", "statement": "The CLI binds every public signal a[i][j]... to which the input object gives a value, at any nesting depth. JS encap and encrypt enter an array one level only: with plain keys nothing is given to a[i][j], so a JS ciphertext binds only the public wires before the first such signal; if that is the first public wire, nothing is bound and every satisfying assignment of the circuit opens the ciphertext, whatever inputs were given.", "quantifier": "all input objects (any nesting of arrays and objects), symbol files, circuits, randomness and witnesses; circuits that declare fewer than 2^32 - 1 public wires; size and shape conditions: inputs that do not give values to all of the first 2^25 wires in JS encap and encrypt (automatic with the argument limits of engines, C102); inputs that do not give one wire two different values (the general case is C101)", "why_tests_cant": "unbounded nesting, all circuits and all later decaps", "anchors": ["packages/zkenc-js/src/sym_parser.ts: mapInputsToWires", "packages/zkenc-js/src/zkenc.ts: encap, encrypt", "packages/zkenc-cli/src/commands.rs: parse_circuit_inputs_with_keys"]}
{"id": "C69", "title": "Encodings of curve points", "statement": "32 (64) bytes are accepted as a point of the first (second) group exactly if they encode a point of the curve (twist) of order dividing r: the x-coordinate as a little-endian number below the field modulus, with the top bit choosing the larger y, or the second highest bit for the identity. Points off the curve and points of the twist outside the subgroup are rejected. A point other than the identity has exactly one accepted encoding; the identity has q (first group) and q^2 (second group), because its x-coordinate is ignored. Both groups have exactly r elements, all multiples of the standard generators.", "quantifier": "all byte strings and all points of both groups", "why_tests_cant": "2^256 and 2^512 byte strings", "anchors": ["packages/zkenc-core/src/data_structures.rs: EncapKey, Ciphertext", "packages/zkenc-cli/src/commands.rs: decap_command, decrypt_command", "packages/zkenc-js/src/lib.rs: wasm_decap"]}
{"id": "C70", "title": "Bytes of a ciphertext: what is accepted, and that they are not unique", "statement": "A byte string is accepted as a ciphertext exactly if it begins with an encoding: three points, four length-prefixed vectors of points, the vector of public inputs, all canonical except for the identity point. A ciphertext without identity points has one encoding. Ciphertexts of the documented workflow contain identity points, so each has at least q different encodings of the same length; decap and decrypt, in both tools, depend on the witness ciphertext only through the decoded value, so that anybody can change these bytes of a stored message without any recipient noticing.", "quantifier": "all byte strings, all ciphertexts, all circuits, witnesses, messages and randomness; circuits that declare fewer than 2^32 - 1 public wires; size and shape conditions: witness ciphertexts and embedded public inputs below 4 GiB", "why_tests_cant": "all byte strings and ciphertexts", "anchors": ["packages/zkenc-core/src/data_structures.rs: EncapKey, Ciphertext", "packages/zkenc-cli/src/commands.rs: decap_command, decrypt_command", "packages/zkenc-js/src/lib.rs: wasm_decap", "packages/zkenc-js/src/zkenc.ts: decrypt"]}
{"id": "C71", "title": "Command lines", "statement": "A release build of zkenc runs a command exactly if its arguments are the name of the command followed by its options in any order, each required option once, written --name v, --name=v, -x v, -x=v or -xv (a separate value may not start with - unless it is - itself), with an optional final --; then it does what the command does with those values, and the values are determined by the arguments. With any other arguments no file is changed. encap and decap only run if --ciphertext is written out, because -c always means the circuit; encap and encrypt only run if the symbol file is given. In builds with debug assertions encap and decap panic whatever the arguments.", "quantifier": "all argument lists", "why_tests_cant": "unboundedly many argument lists, orders and values", "anchors": ["packages/zkenc-cli/src/main.rs: Cli, Commands, main"]}
{"id": "C72", "title": "Encrypted messages are standard AES-GCM, and what the tag protects", "statement": "An encrypted message is the 12-byte nonce, the message xored byte by byte with the blocks AES(nonce,2), AES(nonce,3), ... (all different, and different from the blocks used for the tag, up to 2^36-32 bytes), and the tag AES(nonce,1) + GHASH, where GHASH is the polynomial of NIST SP 800-38D in the hash key AES(0) over GF(2^128), which is a field. For an intercepted message and any different byte string with the same nonce, at most one of the 2^128 hash keys per 16 bytes of the longer one lets both be accepted; this includes truncated and extended messages. If one key and nonce are used for two messages the hash key is confined to such a small set computable from the two outputs, and whoever knows the hash key can replace the body of any message. The legacy CTR functions produce the IV and the message xored with AES(IV), AES(IV+1), ...", "quantifier": "all keys, nonces, messages, forgeries and block functions", "why_tests_cant": "all byte strings, and a count over 2^128 hash keys", "anchors": ["packages/zkenc-cli/src/crypto.rs: encrypt_gcm, decrypt_gcm, encrypt_ctr, decrypt_ctr", "packages/zkenc-js/src/crypto.ts: aesGcmEncrypt, aesGcmDecrypt"]}
{"id": "C73", "title": "The program from its command line to its files", "statement": "If zkenc run with arguments that ask for encrypt reports success, then zkenc run with arguments that ask for decrypt with the same circuit, the written ciphertext and a witness file holding a satisfying assignment with the bound public values writes exactly the message; likewise encap and decap. Without --no-public-input the written container has flag 1 and embeds the input file byte for byte; with it the container has flag 0 and embeds nothing. However a run ends (success, failure, I/O error, crash) only the files named as outputs change, and success is only reported if an undisturbed run would have written the same files.", "quantifier": "all argument lists, file systems, messages, randomness, I/O errors and crash points; for the round trips all circuits with a wire beyond the public ones; circuits that declare fewer than 2^32 - 1 public wires; size and shape conditions: witness ciphertexts and embedded public inputs below 4 GiB", "why_tests_cant": "all argument lists, files and crash points", "anchors": ["packages/zkenc-cli/src/main.rs: Cli, Commands, main", "packages/zkenc-cli/src/commands.rs: encap_command, decap_command, encrypt_command, decrypt_command"]}
{"id": "C74", "title": "Which witness values matter", "statement": "JS decap and decrypt fail if the number of witness values is not the number of wires of the circuit. zkenc decap and decrypt do not check it: surplus values make no difference. Neither tool looks at the value of wire 0: two witnesses that differ only there have the same outcome.", "quantifier": "all circuits, witness files and ciphertexts; circuits that declare fewer than 2^32 - 1 public wires", "why_tests_cant": "all witnesses and ciphertexts", "anchors": ["packages/zkenc-cli/src/commands.rs: decap_command, decrypt_command", "packages/zkenc-cli/src/circuit.rs: generate_constraints", "packages/zkenc-js/src/lib.rs: wasm_decap"]}
{"id": "C75", "title": "What the Sudoku circuit of the repository checks", "statement": "A list of wire values satisfies the compiled Sudoku circuit exactly if it belongs to a puzzle and a grid of field elements such that the grid carries the non-zero puzzle values and every row, column and box has the sum 45 and the sum of squares 285 in the field. So the solution of every puzzle is accepted, but grids that are no solutions are accepted too: for the puzzle of the repository's own tests there is an accepted grid of digits from 1 to 9 that fits the puzzle and repeats digits in a column, and the entries need not be digits at all.", "quantifier": "all puzzles, all grids and all lists of wire values", "why_tests_cant": "p^202 wire assignments; tests try solutions and a few wrong grids, and the accepted wrong grids are not among them", "anchors": ["packages/zkenc-cli/tests/circuits/sudoku.circom: Sudoku", "packages/zkenc-cli/tests/r1cs/sudoku.r1cs"]}
{"id": "C76", "title": "Messages for the solvers of a Sudoku puzzle", "statement": "Both parsers read the committed sudoku.r1cs and sudoku.sym as the same circuit and symbol table, in which puzzle[i] is wire i + 1. With these files encrypt succeeds for every puzzle; the message is decrypted, with either tool, by exactly those witnesses that belong to the puzzle and to a grid with the right sums, and with all other witnesses decryption fails and changes nothing. So every solver can decrypt, and for the puzzle of the repository's own tests so can somebody with a grid of digits that is no solution.", "quantifier": "all puzzles, messages, witnesses, randomness and nonces, for the committed circuit and symbol files; size and shape conditions: witness ciphertexts and embedded public inputs below 4 GiB; messages within the limit of the AES library of the decrypting tool; file sizes of at least 51696 bytes can be allocated", "why_tests_cant": "all puzzles and all witnesses", "anchors": ["packages/zkenc-cli/tests/r1cs/sudoku.r1cs", "packages/zkenc-cli/tests/r1cs/sudoku.sym", "packages/zkenc-cli/src/commands.rs: encrypt_command, decrypt_command", "packages/zkenc-js/src/zkenc.ts: encrypt, decrypt"]}
{"id": "C77", "title": "Exactly which witnesses open a ciphertext", "statement": "Whoever opens a ciphertext made by encrypt or encap of either tool, with either tool and with whatever circuit file, has a witness that satisfies that circuit and carries the public values the ciphertext was made for, on every wire of the unbroken run 1, 2, 3, ... of public wires that were given values. With the circuit it was made for (if it has a wire beyond the public ones) these witnesses are exactly the ones that decrypt to the message; with any other the commands fail and change no file.", "quantifier": "all circuits on both sides, inputs, witnesses, messages, randomness and file systems, all four pairs of tools; circuits that declare fewer than 2^32 - 1 public wires; size and shape conditions: inputs that do not give values to all of the first 2^25 wires in JS encap and encrypt (automatic with the argument limits of engines, C102); inputs that do not give one wire two different values (the general case is C101); witness ciphertexts and embedded public inputs below 4 GiB; messages within the limit of the AES library of the decrypting tool", "why_tests_cant": "all circuits and witnesses; a test can only show that one wrong witness is refused", "anchors": ["packages/zkenc-cli/src/commands.rs: encap_command, decap_command, encrypt_command, decrypt_command", "packages/zkenc-js/src/zkenc.ts: encap, decap, encrypt, decrypt", "packages/zkenc-js/src/lib.rs: wasm_encap, wasm_decap", "packages/zkenc-core/src/algorithm.rs: encap, decap"]}
{"id": "C78", "title": "The playground cannot encrypt", "statement": "Whatever happens on the playground page of the documentation site, no ciphertext is ever produced: every call of encrypt it makes ends with an exception (it passes no symbol file), which shows an error and changes nothing else. The Sudoku tab never offers a file for download. What the custom tab offers after 'Encryption successful!' is always the ciphertext file uploaded last, whatever it contains; this can be shown right after an encryption failed.", "quantifier": "all histories of clicks, typing, uploads and settled promises", "why_tests_cant": "unboundedly many interleavings of user events and asynchronous completions", "anchors": ["docs/src/components/PlaygroundClient.tsx: handleEncrypt, handleCustomEncrypt, handleDownloadCiphertext, handleCustomDownloadCiphertext", "packages/zkenc-js/src/zkenc.ts: encap, encrypt", "packages/zkenc-js/src/sym_parser.ts: parseSymFile"]}
{"id": "C79", "title": "The playground makes one call at a time", "statement": "At most one call of encrypt or decrypt is in flight at any time, and the page says so exactly as long as it is; while it is, the buttons for encryption, decryption and solving do nothing; when the call ends, well or not, the page is free again.", "quantifier": "all histories of clicks, typing, uploads and settled promises", "why_tests_cant": "unboundedly many interleavings of user events and asynchronous completions", "anchors": ["docs/src/components/PlaygroundClient.tsx: loading, handleEncrypt, handleDecrypt, handleCustomEncrypt, handleCustomDecrypt"]}
{"id": "C80", "title": "What the playground shows as decrypted message", "statement": "A text shown as decrypted message is what decrypt returned, at a moment when the button was clicked, for the circuit files of that tab, the ciphertext file uploaded last and the inputs on the page (in the Sudoku tab the puzzle and a solution of 81 non-zero entries); an empty message is shown as 'Decryption successful!'. When decrypt fails an error and no text is shown. But uploading another ciphertext or changing the grids afterwards leaves the old text on the page.", "quantifier": "all histories of clicks, typing, uploads and settled promises", "why_tests_cant": "unboundedly many interleavings of user events and asynchronous completions", "anchors": ["docs/src/components/PlaygroundClient.tsx: handleDecrypt, handleCustomDecrypt, handleUploadCiphertext, handleCustomCiphertextUpload", "packages/zkenc-js/src/zkenc.ts: decrypt"]}
{"id": "C81", "title": "Both tools read exactly the JSON texts", "statement": "JSON.parse, used by getPublicInput, returns a value exactly for the texts of the JSON grammar (RFC 8259), and the value is the one the text denotes: escapes and surrogate pairs decoded, of a repeated name the last value, properties in the order of a JS object (array indices ascending, then the others in the order of the text). serde_json, used by the command line tool, accepts exactly those texts whose nesting is at most 127 and whose numbers are in the floating point range, and the value is again the one the text denotes: a literal that is the decimal text of an integer is that integer, all other numbers are floats. No text has two meanings. (Lone surrogate escapes are left out.)", "quantifier": "all texts", "why_tests_cant": "unboundedly many texts, nestings and escapes", "anchors": ["packages/zkenc-js/src/zkenc.ts: getPublicInput", "packages/zkenc-cli/src/commands.rs: parse_circuit_inputs_with_keys, encrypt_command, encap_command"]}
{"id": "C82", "title": "A Sudoku message in the playground, from upload to text", "statement": "When a ciphertext that the command line tool or zkenc-js made for a Sudoku puzzle (default mode, committed circuit) is uploaded in the Sudoku tab, the page shows that puzzle; digits typed afterwards fill its empty cells, the last digit per cell counts, given cells cannot be changed. After a click on 'Decrypt', when the call has ended, the message is shown exactly if the puzzle on the page is the one encrypted for and the grid is complete with the sums 45 and 285 of the circuit; otherwise an error is shown. With an empty cell decrypt is not called. So every solver reads the message; but for the puzzle of the repository's own tests someone who types digits that are no solution reads it too.", "quantifier": "all puzzles, messages, ciphertexts, sequences of typed digits and histories before; the witness program sudoku.wasm is assumed to be what circom compiles from sudoku.circom; size and shape conditions: messages within the limit of the AES library of the decrypting tool", "why_tests_cant": "all puzzles and typing sequences, through the calculator, the tools, the cipher and the page", "anchors": ["docs/src/components/PlaygroundClient.tsx: handleUploadCiphertext, handleDecrypt, SudokuGrid", "packages/zkenc-js/src/zkenc.ts: decrypt, getPublicInput", "packages/zkenc-cli/tests/circuits/sudoku.circom", "docs/static/circuits/sudoku.r1cs"]}
{"id": "C83", "title": "The multi-signature circuit: two different signers", "statement": "Every witness that satisfies the compiled circuit signature.r1cs has two different signer numbers from 0 to 2, and the two signature verifiers inside it get exactly the public keys at these two places of the key list; neither key is of small order. Conversely no such choice of signers is shut out by these checks. The circuit's own range check alone would also let -1 through, with (0,0) as key; only the verifier's key check stops that. Two different places, not two different keys: a list that has the same key twice lets one holder sign for both.", "quantifier": "all key lists, signer numbers and witnesses (the constraints of the signature equation itself are not modelled)", "why_tests_cant": "unboundedly many key lists and witnesses over a field of 2^254 elements", "anchors": ["packages/zkenc-cli/tests/circuits/signature.circom: MultiSig2of3, SelectPublicKey", "packages/zkenc-cli/tests/r1cs/signature.r1cs", "packages/zkenc-cli/tests/inputs/signature_basic.json"]}
{"id": "C84", "title": "Messages for two of three signers", "statement": "A message that the command line tool has encrypted with signature.r1cs for a message to be signed and a list of three public keys is decrypted, by either tool, exactly with the witnesses that satisfy the circuit for this message and these keys, hence with two different signers of the list; every other witness fails and changes nothing. A message that zkenc-js has encrypted with the same inputs is decrypted exactly with the witnesses for this message to be signed, whatever three public keys they carry: the list of keys (an array of arrays) is not enforced, so anyone can decrypt with keys of their own.", "quantifier": "all messages, key lists, witnesses, randomness and file systems; size and shape conditions: witness ciphertexts and embedded public inputs below 4 GiB; messages within the limit of the AES library of the decrypting tool", "why_tests_cant": "all keys and witnesses; a test can only try some other keys", "anchors": ["packages/zkenc-cli/src/commands.rs: encrypt_command, decrypt_command", "packages/zkenc-js/src/zkenc.ts: encrypt, decrypt", "packages/zkenc-js/src/sym_parser.ts: mapInputsToWires", "packages/zkenc-cli/tests/circuits/signature.circom", "packages/zkenc-cli/tests/r1cs/signature.sym"]}
{"id": "C85", "title": "The custom tab of the playground", "statement": "After any history the custom tab holds, in each field, what was put there last: the public inputs (typed, from a JSON file, or from the ciphertext read), the full inputs, the ciphertext, the circuit and the witness program, where reading one of the two files keeps the other. A click on 'Decrypt' calls decrypt only if circuit, program, ciphertext and a JSON text are there; the full inputs are used, and the public ones only if the field for the full inputs is empty. When the call has ended the page shows the message and no error if decrypt returned it, otherwise an error and no text, in particular not the text of an earlier decryption. For a ciphertext that either tool made for this circuit the message appears exactly if the witness the program computes satisfies the circuit and has the enforced public values.", "quantifier": "all histories of clicks, typing, uploads and settled promises; all circuits, witness programs, ciphertexts and inputs; size and shape conditions: witness ciphertexts and embedded public inputs below 4 GiB; messages within the limit of the AES library of the decrypting tool", "why_tests_cant": "unboundedly many histories and circuits", "anchors": ["docs/src/components/PlaygroundClient.tsx: handleCustomR1CSUpload, handleCustomWasmUpload, handleCustomCiphertextUpload, handleCustomDecrypt, handlePublicInputFileUpload, handlePrivateInputFileUpload", "packages/zkenc-js/src/zkenc.ts: decrypt, getPublicInput"]}
{"id": "C86", "title": "The auto-solve button of the playground", "statement": "'Auto Solve Puzzle' puts into the solution grid what the solver answers for the puzzle on the page, asked with -1 for empty cells, provided the answer is complete (has no -1); otherwise it empties the solution grid and shows an error. Nothing else changes. So after uploading a ciphertext for a puzzle and clicking 'Auto Solve Puzzle' and 'Decrypt' the message appears if the solver's answer is a solution of the puzzle; without a complete answer an error appears and decrypt is never called.", "quantifier": "all histories before the click, puzzles, solvers and ciphertexts; size and shape conditions: messages within the limit of the AES library of the decrypting tool", "why_tests_cant": "all puzzles, solver answers and histories", "anchors": ["docs/src/components/PlaygroundClient.tsx: solveSudoku, handleAutoSolve, handleDecrypt"]}
{"id": "C87", "title": "Sizes of what the tools write", "statement": "For a circuit with at least one private wire, a witness ciphertext has 456 + 160*l bytes, where l is the length of the unbroken run of public wires 1, 2, 3, ... that the caller's inputs supply; the key has 32 bytes; an encrypted message has 489 + 160*l bytes plus the message's length, plus 4 and the length of the public input text if that is included. Nothing else about the inputs or the randomness shows in the sizes. The documented 1576 bytes are right exactly if l is 7; for every Sudoku puzzle of the documentation's example it is 13416.", "quantifier": "all circuits with a private wire, inputs that do not give two values to one wire, messages, randomness and file systems; circuits that declare fewer than 2^32 - 1 public wires; size and shape conditions: inputs that do not give values to all of the first 2^25 wires in JS encap and encrypt (automatic with the argument limits of engines, C102)", "why_tests_cant": "unboundedly many circuits, inputs and messages", "anchors": ["docs/docs/api/zkenc-js.md", "docs/docs/api/zkenc-cli.md", "packages/zkenc-cli/src/commands.rs: encap_command, encrypt_command", "packages/zkenc-js/src/zkenc.ts: encap, encrypt", "packages/zkenc-js/src/lib.rs: wasm_encap"]}
{"id": "C88", "title": "Arrays flattened as the documentation advises", "statement": "How the numbers of an input are grouped in arrays, nested or flattened with .flat(), makes no difference to decrypt, decap and calculateWitness. For encrypt it does: if public wire j belongs to a signal with two or more indices and the arrays are flat (in zkenc-js also if they are nested, unless keys spell out the signal), every witness that satisfies the circuit and has the given values on the wires before j decrypts the message, whatever its values on wire j and later.", "quantifier": "all circuits, inputs, witnesses, messages, randomness and file systems; size and shape conditions: inputs that do not give values to all of the first 2^25 wires in JS encap and encrypt (automatic with the argument limits of engines, C102); inputs that do not give one wire two different values (the general case is C101); witness ciphertexts and embedded public inputs below 4 GiB", "why_tests_cant": "all circuits and witnesses; a test with the right witness passes either way", "anchors": ["docs/docs/api/zkenc-js.md: Array Signals", "packages/zkenc-js/src/sym_parser.ts: mapInputsToWires", "packages/zkenc-js/src/witness_calculator.ts: flatArray", "packages/zkenc-cli/src/commands.rs: parse_circuit_inputs_with_keys"]}
{"id": "C89", "title": "What a synthesizer written in Rust binds", "statement": "A circuit written in Rust that allocates its variables in some order, one of which has no value at encap, is bound exactly to the public values allocated before the first variable without value, public or private; every satisfied circuit that begins with those public values recovers the key. The MiMC circuit of the tests and the README checks the hash exactly, but allocates its private inputs first: encap with the output alone records no public value, and any two numbers, with their own hash as output, recover the key.", "quantifier": "all synthesizers of this shape, values, round constants and randomness", "why_tests_cant": "all allocation orders and values; the tests only try the right preimage, and a circuit unsatisfied in itself", "anchors": ["packages/zkenc-core/src/algorithm.rs: encap, decap", "packages/zkenc-core/tests/mimc_circuit.rs", "packages/zkenc-core/tests/encap_decap.rs", "packages/zkenc-core/README.md"]}
{"id": "C90", "title": "Test fixtures exported from the CLI", "statement": "A test case survives bincode, whatever the order in which the witness map is iterated; no strict prefix is accepted. The library synthesizes an exported circuit exactly as the CLI synthesizes the file, and decap with the fixture gives what decap with the original circuit and witness gives. encap with the public values of a fixture whose values satisfy the circuit and decap with all values recovers the key. For the Sudoku circuit, decap with zeros for the solution reports an invalid witness for every puzzle and ciphertext. The fixture exported with numbered public wires only (signature) is read back with i mod 256 on public wire i and nothing else: encap with it binds these numbers, decap with it always fails in synthesis.", "quantifier": "all circuits and witnesses in the file formats' range, iteration orders, names, ciphertexts and randomness; circuits that declare fewer than 2^32 - 1 public wires", "why_tests_cant": "all circuits, witnesses and iteration orders of a hash map", "anchors": ["packages/zkenc-cli/tests/export_test_data.rs", "packages/zkenc-core/tests/circom_circuit.rs", "packages/zkenc-core/tests/test_sudoku_encap_decap.rs", "packages/zkenc-core/src/serializable.rs: SerializableTestCase"]}
{"id": "C91", "title": "Distribution of the key", "statement": "With the public inputs only, of the q*q choices of the two secret numbers that encap draws for the key (q the group order) exactly 2q-1 lead to the key of the identity, exactly q-1 to the key of each other group element, and no other key is possible: no key is the result of more than 2q-1 choices, whatever the circuit, the inputs and the other randomness.", "quantifier": "all circuits with a missing wire, inputs, randomness and keys; for a KDF without collisions on the group and a non-degenerate pairing; circuits that declare fewer than 2^32 - 1 public wires", "why_tests_cant": "counting over all choices of two elements of a field of 2^254 elements", "anchors": ["packages/zkenc-core/src/algorithm.rs: encap"]}
{"id": "C92", "title": "What the API reference and the READMEs show", "statement": "The commands that the references show - encrypt and decrypt with a key file, encap and encrypt without a symbol file - never run: whatever the file names and the order and spelling of the options, no file changes and no run reports success. Bytes in the documented layout of a combined ciphertext (length, witness ciphertext, encrypted message, without flag byte) are refused by both tools unless the message is at least 255 times as long as the witness ciphertext. The complete example of the library reference behaves as described: encap with the public number alone, then decap recovers the key exactly if the public number is the same and both add up to 165, and otherwise reports which of the two is wrong.", "quantifier": "all file names, option orders and spellings, file systems, witness ciphertexts below 16 MiB, messages, numbers, randomness", "why_tests_cant": "unboundedly many argument lists and ciphertexts", "anchors": ["docs/docs/api/zkenc-cli.md", "docs/docs/api/zkenc-js.md", "docs/docs/api/zkenc-core.md", "README.md", "packages/zkenc-cli/README.md", "packages/zkenc-cli/src/main.rs: Commands", "packages/zkenc-cli/src/commands.rs: decrypt_command", "packages/zkenc-js/src/zkenc.ts: decrypt", "packages/zkenc-core/src/algorithm.rs: encap, decap"]}
{"id": "C93", "title": "The quick-start circuits", "statement": "After encrypting with the circuit of the quick-start guides (inputs publicValue and privateValue, output result) for { publicValue: v }, with the CLI or the library, decryption with either tool returns the message for every witness whose output is the sum of its inputs (and 100, in the guide for Node.js), whatever its public value, and fails for every other witness: v is not part of the condition, also where publicValue is declared public.", "quantifier": "all values v, witnesses, messages, randomness, file systems, and all compiled forms of the circuit with these wires and this meaning; size and shape conditions: witness ciphertexts and embedded public inputs below 4 GiB; messages within the limit of the AES library of the decrypting tool", "why_tests_cant": "all pairs of field elements; a test with the intended witness passes either way", "anchors": ["docs/docs/getting-started/zkenc-cli.md", "docs/docs/getting-started/zkenc-js.md", "docs/docs/guides/nodejs-integration.md", "packages/zkenc-cli/src/commands.rs: encrypt_command, decrypt_command", "packages/zkenc-js/src/zkenc.ts: encrypt, decrypt", "packages/zkenc-core/src/algorithm.rs: encap"]}
{"id": "C94", "title": "Which inputs decrypt a message", "statement": "With the circuit's correctly compiled witness program: after encrypt (or encap) for some public inputs, decrypt (or decap) with any input object that gives values to the signals the sender bound returns the message (the key) exactly if the program accepts the object and these values are the sender's, as field elements; otherwise the call throws. The same holds when the sender used the CLI, and when the computed witness is written to a file and zkenc decrypt is used, which then writes the message or fails and changes no file. Bound are the signals on the unbroken run of public wires 1, 2, 3, ... that the sender gave values.", "quantifier": "all circuits with a wire beyond the public ones and correctly compiled witness programs, all input objects of sender and receiver, messages, randomness and file systems; size and shape conditions: inputs that do not give values to all of the first 2^25 wires in JS encap and encrypt (automatic with the argument limits of engines, C102); inputs that do not give one wire two different values (the general case is C101); witness ciphertexts and embedded public inputs below 4 GiB; messages within the limit of the AES library of the decrypting tool; fewer than 2^26 - 8 wires", "why_tests_cant": "all pairs of input objects and circuits", "anchors": ["packages/zkenc-js/src/zkenc.ts: encrypt, decrypt, encap, decap", "packages/zkenc-js/src/witness.ts: calculateWitness", "packages/zkenc-js/src/witness_calculator.ts", "packages/zkenc-cli/src/commands.rs: encrypt_command, decrypt_command"]}
{"id": "C95", "title": "Which files the functions of the library need", "statement": "encap and encrypt return a result exactly if the circuitFiles object has the .r1cs file as r1csBuffer and the text of the symbol file as symContent, and decap and decrypt exactly if it has the .r1cs file and the compiled circuit as wasmBuffer; the result is the one for these two files and no other property matters. The objects { r1csBuffer, wasmBuffer } of the API reference and the integration guides and { r1csBuffer, wasmBuffer, symBuffer } of the README therefore never encrypt, whatever the inputs, message and options.", "quantifier": "all circuitFiles objects whose properties are missing, buffers or strings, all inputs, messages, options and randomness", "why_tests_cant": "all objects and inputs; the tests only pass complete objects", "anchors": ["packages/zkenc-js/src/zkenc.ts: encap, decap, encrypt, decrypt, CircuitFiles, CircuitFilesForEncap", "packages/zkenc-js/src/sym_parser.ts: parseSymFile", "packages/zkenc-js/src/witness.ts: calculateWitness", "docs/docs/api/zkenc-js.md", "docs/docs/guides/nodejs-integration.md", "docs/docs/guides/react-integration.md", "packages/zkenc-js/README.md"]}
{"id": "C96", "title": "Byte layout of serialized circuits and test cases", "statement": "A circuit is written in bincode as its fields in the order of the type: 32-bit little-endian numbers, 64-bit lengths before byte strings, lists and maps, texts in UTF-8, one byte 0 or 1 before the optional label map; a test case is the circuit, the assignment, the name and the description. The readers accept exactly the byte strings that begin with such an encoding, in any order of map entries, give back the encoded value (for a key written twice the last entry) and ignore what follows.", "quantifier": "all circuits, witnesses, test cases and byte strings", "why_tests_cant": "all byte strings; a round trip test passes for any layout that reader and writer agree on, while fixtures are exchanged between the CLI and the library", "anchors": ["packages/zkenc-core/src/serializable.rs: SerializableCircuit, SerializableTestCase, to_bincode, from_bincode, load", "packages/zkenc-cli/src/serializable.rs"]}
{"id": "C97", "title": "Errors of decrypt and the documented error handling", "statement": "The error handler of the API reference around decrypt reports a corrupted ciphertext exactly if the outer format of the file is broken, never takes its branch for an unsatisfied circuit, and itself ends in a TypeError exactly if the file can be split, a witness was computed and the wasm module reports an error, because the module throws a string and not an Error: so it does for an unreadable witness ciphertext and for inputs the circuit accepts whose public values are not the sender's. The handler of the Node.js guide prints nothing in these cases and the playground shows its fallback text. Inputs that the circuit's own checks refuse are reported as 'Error setting signal k[i]: Error: ...'; a key that does not open the message as 'Decryption failed: invalid key or corrupted data'.", "quantifier": "all circuit files and programs, byte strings as ciphertext, input objects, and texts of the engine that do not contain the words the handlers look for; size and shape conditions: inputs that do not give values to all of the first 2^25 wires in JS encap and encrypt (automatic with the argument limits of engines, C102); inputs that do not give one wire two different values (the general case is C101); witness ciphertexts and embedded public inputs below 4 GiB", "why_tests_cant": "all files, programs and inputs", "anchors": ["packages/zkenc-js/src/zkenc.ts: decrypt, decap", "packages/zkenc-js/src/witness_calculator.ts: _doCalculateWitness", "packages/zkenc-js/src/crypto.ts: aesGcmDecrypt", "packages/zkenc-js/src/lib.rs: wasm_decap", "docs/docs/api/zkenc-js.md: Error Handling", "docs/docs/guides/nodejs-integration.md: Error Handling", "docs/src/components/PlaygroundClient.tsx"]}
{"id": "C98", "title": "What the CLI prints", "statement": "What a run of the CLI prints is an initial part of a text that is fixed except for numbers: the constraints, public inputs and wires in the header of the circuit, the number of values in the input file, the number of witness values, and sizes in bytes. A run that reports success has printed all of it. Two runs of encap with different random choices, or of encrypt with different messages of the same length, or of decap and decrypt with different witnesses of the same length, show the same text, except that one may end sooner: key, message and witness are not shown, also by runs that fail or are interrupted. decrypt also shows the public input in the file, unchanged, character by character and before anything is checked: so a failing run can show the text of a success. Where the public input has no such character, a shown completion mark means that the output file is complete, even if the program is then stopped. A run stopped before it printed anything has changed no file.", "quantifier": "all commands, files, randomness, I/O errors and crash points, including a reader of the output that goes away", "why_tests_cant": "all files and crash points; that secrets do not show is a statement about pairs of runs", "anchors": ["packages/zkenc-cli/src/commands.rs: encap_command, decap_command, encrypt_command, decrypt_command"]}
{"id": "C99", "title": "Messages and keys survive what happens on the machine", "statement": "On a machine where zkenc processes are started at any time with any arguments, run at the same time, meet I/O errors and are killed, while other programs write and delete files: a process reads only files its arguments name as inputs and writes only files they name as outputs; a file that nobody has as an output keeps its content; a process to which its files are left while it runs does what it could do alone with the files as they were when it was started; and no process ever has to wait for another. So after an encryption that reported success, anything may happen as long as nobody writes or deletes the ciphertext file (message, input, symbol and circuit file may be gone): a later zkenc decrypt with the same circuit reports success only for a witness that satisfies the circuit with the bound public values and has then written exactly the message, writes nothing for any other witness, never leaves anything but an initial part of the message, and with such a witness and no I/O error cannot fail. The same for encap and decap, also when the key file is gone.", "quantifier": "all histories: any number of processes with any arguments, any order of their file operations, I/O errors, kills, and writes and deletions by other programs; all circuits with a wire beyond the public ones, files, messages, randomness and witnesses; size and shape conditions: inputs that do not give one wire two different values (the general case is C101); witness ciphertexts and embedded public inputs below 4 GiB", "why_tests_cant": "unboundedly many interleavings and histories", "anchors": ["packages/zkenc-cli/src/main.rs: main", "packages/zkenc-cli/src/commands.rs: encap_command, decap_command, encrypt_command, decrypt_command"]}
{"id": "C100", "title": "Input objects with arbitrary JS strings", "statement": "A JS string is a sequence of UTF-16 code units and may contain surrogates without a partner. JS encrypt accepts input objects with such strings in names and values; getPublicInput gives the included input object back code unit by code unit, up to what JSON cannot express, and JSON.parse reads exactly the JSON texts whose strings may contain such surrogates as escapes. Key and ciphertext are those of the object without the entries whose names contain a lone surrogate; a value with a lone surrogate is no number. So messages are decrypted by JS and by the CLI with every witness that fits the remaining inputs. The CLI reads exactly those of these texts whose strings and names are all well-formed: an input file with the JSON text of any other object makes zkenc encrypt and zkenc encap fail without changing a file.", "quantifier": "all input objects with arbitrary strings as names and values at any depth, circuits, symbol files, messages, randomness and witnesses, and all texts; size and shape conditions: inputs that do not give values to all of the first 2^25 wires in JS encap and encrypt (automatic with the argument limits of engines, C102); inputs that do not give one wire two different values (the general case is C101); witness ciphertexts and embedded public inputs below 4 GiB; messages within the limit of the AES library of the decrypting tool", "why_tests_cant": "all strings and texts; the tests only use plain ASCII names", "anchors": ["packages/zkenc-js/src/zkenc.ts: encap, encrypt, getPublicInput", "packages/zkenc-js/src/sym_parser.ts: mapInputsToWires", "packages/zkenc-cli/src/commands.rs: parse_circuit_inputs, encrypt_command, encap_command"]}
{"id": "C101", "title": "Several values for one wire", "statement": "An input object may have several values for one wire: nested and dotted names that coincide, or several names of the symbol file on one wire. In JS the last of them in the order of the object counts; the earlier ones have no effect, except that encap and encrypt fail if one of them is null or undefined. encap and encrypt succeed exactly if no value with a wire is null or undefined and the values that count, up to the first wire without a value, are integers; decryption by JS and by the CLI then succeeds exactly for the satisfying witnesses that carry the values that count. In the CLI, of several values for one name the last counts, and of several names for one wire any one may: the wire assignments that can be used, over all iteration orders of the hash maps, are exactly those that choose one name for each wire, and decryption succeeds exactly for the satisfying witnesses that carry the values chosen at encryption.", "quantifier": "all input objects of any shape with any number of values for a wire, symbol files, circuits, iteration orders of the hash maps, messages, randomness and witnesses; size and shape conditions: inputs that do not give values to all of the first 2^25 wires in JS encap and encrypt (automatic with the argument limits of engines, C102); witness ciphertexts and embedded public inputs below 4 GiB; messages within the limit of the AES library of the decrypting tool", "why_tests_cant": "all objects and, in the CLI, all iteration orders of randomly seeded hash maps", "anchors": ["packages/zkenc-js/src/zkenc.ts: encap, encrypt", "packages/zkenc-js/src/sym_parser.ts: mapInputsToWires", "packages/zkenc-cli/src/commands.rs: parse_circuit_inputs_with_keys, encap_command, encrypt_command"]}
{"id": "C102", "title": "Input objects with very many values in JS", "statement": "In a JS engine that allows a limited number of arguments in a call, encap and encrypt fail exactly if they would fail without that limit or the input object gives values to more wires than the limit, counting all named wires, public or private, also those whose values are not used; otherwise the results are those without a limit. So an array with more elements than the limit cannot be an input in JS; the CLI accepts any number of values. With a limit below 2^25 a call that succeeds has left one of the wires 1 to 2^25 without a value, which is the size condition of the other properties about JS.", "quantifier": "all engines' limits, input objects, symbol files, circuits, messages and randomness", "why_tests_cant": "all sizes; no test reaches the engine's limit", "anchors": ["packages/zkenc-js/src/zkenc.ts: encap (Math.max over the wire ids), encrypt", "packages/zkenc-cli/src/commands.rs: encap_command"]}
{"id": "C103", "title": "What encap, encrypt and getPublicInput throw in JS", "statement": "A failing encap throws the engine's TypeError if a value with a wire is null or undefined, otherwise its SyntaxError if a value that counts is no integer, otherwise, if the circuit file cannot be read, a string and not an Error (a RuntimeError where the reader panics; it always ends), and on readable files only fails for a random choice that has negligible probability. encrypt throws what encap throws, otherwise an OperationError for a message beyond the limit of WebCrypto, otherwise a TypeError if an input object with a BigInt is to be embedded, and nothing else. So the pages of the playground and of the React guide, and the documented workers, show the library's message for every failure of encrypt except for circuit files that cannot be read: there they show 'Encryption failed', 'Unknown error' or undefined; the worker of the API reference posts no message for a failing decrypt exactly where a witness was computed and the wasm module reports an error. getPublicInput always throws an Error: 'not included' exactly for files of at least five bytes whose first byte is not 1, also for files that decrypt calls invalid, and each of its other messages exactly for the part of the format it names.", "quantifier": "all circuit files, symbol files, input objects, messages, randomness, circuit programs and byte strings as ciphertexts; size and shape conditions: inputs that do not give values to all of the first 2^25 wires in JS encap and encrypt (automatic with the argument limits of engines, C102)", "why_tests_cant": "all files and inputs", "anchors": ["packages/zkenc-js/src/zkenc.ts: encap, encrypt, getPublicInput", "packages/zkenc-js/src/crypto.ts: aesGcmEncrypt", "packages/zkenc-js/src/lib.rs: wasm_encap", "docs/docs/guides/react-integration.md", "docs/docs/api/zkenc-js.md: Browser Optimization", "docs/src/components/PlaygroundClient.tsx"]}
{"id": "C104", "title": "Exit status and error report of the CLI", "statement": "Every command ends, whatever the files contain: with exit status 0, with status 1 and one of a fixed set of texts after 'Error: ', or with status 101 (a .wtns file that announces a section of 2^63 bytes or more, or a random choice of negligible probability). Which of them is decided by the first thing that is not in order in a fixed list: the circuit file, the symbol file, the input file and the message for encrypt and encap; the outer format of the ciphertext (decrypt), the circuit file, the witness file, the inner ciphertext, the witness and the message's authentication for decap and decrypt. With I/O errors a command ends as the undisturbed run does, or with a text that names a reading step and no file changed, or with a text that names a writing step. With the circuit the message was encrypted for, decrypt reports a witness that is too short as SynthesisError, one that does not satisfy the circuit as InvalidWitness, one with other public values than the sender's as InvalidPublicInputs, and succeeds with any other. For an unchanged ciphertext it never reports 'Invalid ciphertext', 'Failed to deserialize' or 'Message decryption failed', with whatever circuit and witness.", "quantifier": "all file systems, arguments, file contents, randomness, I/O errors, circuits, witnesses, messages and senders (CLI and JS); circuits that declare fewer than 2^32 - 1 public wires; size and shape conditions: inputs that do not give values to all of the first 2^25 wires in JS encap and encrypt (automatic with the argument limits of engines, C102); inputs that do not give one wire two different values (the general case is C101); witness ciphertexts and embedded public inputs below 4 GiB; messages within the limit of the AES library of the decrypting tool", "why_tests_cant": "all files and fault points; the tests look at a few failures and not at their texts", "anchors": ["packages/zkenc-cli/src/commands.rs: encap_command, decap_command, encrypt_command, decrypt_command", "packages/zkenc-cli/src/main.rs: main", "docs/docs/api/zkenc-cli.md: Troubleshooting", "docs/docs/getting-started/zkenc-cli.md: Troubleshooting"]}
