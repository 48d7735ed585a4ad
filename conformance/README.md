# Conformance checks

These are *tests* of the model, not proofs: small Lean programs that run the model on the fixtures and published vectors, to catch
transcription errors in the model itself. They are outside the Lake project and are run by hand:

    cd /verif/lean && cp ../conformance/fixtures.lean.txt /tmp/f.lean && lake env lean /tmp/f.lean

* `fixtures.lean.txt` — parses the sudoku fixtures of /repo with both parsers, compares them, serializes the circuit and compares with
  the committed `sudoku_circuit.bin`, checks satisfaction by the committed witness and that a changed wire is noticed.
* `vectors.lean.txt` — NIST AES-256-GCM vectors 13 and 14 with the block values of the specification, FNV-1a hashes of signal names that
  occur in `sudoku.wasm`.
* `sudoku.lean.txt` — the byte string `sudokuBytes` and the text `sudokuSym` of C76 equal the committed `sudoku.r1cs` and `sudoku.sym`.
