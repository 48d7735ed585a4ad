import Verif.Props.EndToEndEnforced
import Verif.Props.SudokuEndToEnd
/-!
# C87: the sizes of the files and byte arrays that the tools write
-/

namespace Zkenc.Spec

/-- `l` is the length of the unbroken run 1, 2, 3, … of the first `n` wires that are given values. -/
structure GivenRun (given : Nat → Prop) (n l : Nat) : Prop where
  le : l ≤ n
  all : ∀ i, 1 ≤ i → i ≤ l → given i
  stops : l < n → ¬ given (l + 1)

end Zkenc.Spec

namespace Zkenc.Props

open Zkenc Zkenc.Spec Zkenc.InputSpec Zkenc.SudokuSpec

variable {G1 G2 GT : Type} [AddCommGroup G1] [Module Fr G1] [AddCommGroup G2] [Module Fr G2] [AddCommGroup GT] [Module Fr GT]
  (S : Sys G1 G2 GT)

/-- Allocation of the public wires stops at the first one without a value. -/
theorem allocInputs_stop (w : Nat → Option Fr) (a l k : Nat) (cs : CS Fr) (vm : VarMap) (h1 : ∀ i, i < l → w (a + i) ≠ none) (h2 : w (a + l) = none) :
    (allocInputs w (List.range' a (l + (k + 1))) cs vm).1.numInst = cs.numInst + l + 1 ∧
    (allocInputs w (List.range' a (l + (k + 1))) cs vm).1.numWit = cs.numWit ∧ ∃ e, (allocInputs w (List.range' a (l + (k + 1))) cs vm).2 = .error e := by
  induction l generalizing a cs vm with
  | zero =>
    rw [Nat.zero_add, List.range'_succ]
    simp only [allocInputs, CS.newInput, Nat.add_zero] at h2 ⊢
    rw [h2]
    simp
  | succ l ih =>
    have : List.range' a (l + 1 + (k + 1)) = a :: List.range' (a + 1) (l + (k + 1)) := by rw [show l + 1 + (k + 1) = (l + (k + 1)) + 1 by omega, List.range'_succ]
    rw [this]
    simp only [allocInputs, CS.newInput]
    cases hw : w a with
    | none => exact absurd hw (by simpa using h1 0 (by omega))
    | some x =>
      simp only
      obtain ⟨i1, i2, i3⟩ := ih (a + 1) { cs with numInst := cs.numInst + 1, inst := cs.inst ++ [x] } (vm.insert a (.inst cs.numInst))
        (fun i hi => by rw [show a + 1 + i = a + (i + 1) by omega]; exact h1 _ (by omega)) (by rw [show a + 1 + l = a + (l + 1) by omega]; exact h2)
      exact ⟨by rw [i1]; simp only; omega, i2, i3⟩

/-- The exact size of a ciphertext made for a circuit with a private wire, of which at most public wires are given values. -/
theorem ct_size_exact (S : Sys G1 G2 GT) (t : Tool) (r : R1csFile) (hf : PublicFits r) (hpriv : r.nPubOut + r.nPubIn + 1 < r.nWires) (w : Nat → Option Fr)
    (hw : ∀ i, r.nPubOut + r.nPubIn < i → w i = none) (ρ : Rand Fr) (ct : Ciphertext Fr G1 G2) (k : Key)
    (h : encap S.P S.dom (t.circuit r w) ρ = .ok (ct, k)) :
    (encCiphertext S.c1 S.c2 ct).length = 456 + 160 * ct.publicInputs.length ∧ GivenRun (fun i => w i ≠ none) (r.nPubOut + r.nPubIn) ct.publicInputs.length := by
  obtain ⟨b1, b2, b3⟩ := C08_bound_public_inputs S.P S.dom t r hf w ρ ct k h
  have hrun : ∀ i, 1 ≤ i → i ≤ ct.publicInputs.length → w i ≠ none := by
    intro i h1 h2
    obtain ⟨j, rfl⟩ : ∃ j, i = j + 1 := ⟨i - 1, by omega⟩
    rw [b1 j (by omega)]
    simp
  refine ⟨?_, b2, hrun, fun hlt hn => hn (b3 hlt)⟩
  by_cases hlt : ct.publicInputs.length < r.nPubOut + r.nPubIn
  · obtain ⟨-, -, -, -, hs⟩ := C15_shape S.P S.dom S.c1 S.c2 S.c1_size S.c2_size _ ρ ct k h _ rfl
    have hc : (t.circuit r w (CS.new Fr)).1.numInst + (t.circuit r w (CS.new Fr)).1.numWit = ct.publicInputs.length + 2 := by
      rw [Tool.circuit_eq]
      have hnp := nPublicInputs_eq hf
      obtain ⟨d, hd⟩ : ∃ d, r.nPubOut + r.nPubIn = ct.publicInputs.length + (d + 1) := ⟨r.nPubOut + r.nPubIn - ct.publicInputs.length - 1, by omega⟩
      obtain ⟨a1, a2, e, a3⟩ := allocInputs_stop w 1 ct.publicInputs.length d (CS.new Fr) VarMap.init (fun i hi => by rw [Nat.add_comm]; exact hrun _ (by omega) (by omega))
        (by rw [Nat.add_comm]; exact b3 hlt)
      simp only [cliCircuit, wiresIncl, hnp, hd]
      rcases hA : allocInputs w (List.range' 1 (ct.publicInputs.length + (d + 1))) (CS.new Fr) VarMap.init with ⟨cs1, x⟩
      rw [hA] at a1 a2 a3
      simp only at a1 a2 a3
      subst a3
      simp only [a1, a2, CS.new]
      omega
    rw [hs, hc]
    ring
  · have hl : ct.publicInputs.length = r.nPubOut + r.nPubIn := by omega
    obtain ⟨-, hs⟩ := C15_size_documented S.P S.dom S.c1 S.c2 S.c1_size S.c2_size t r hf hpriv w
      (fun i h1 h2 => Option.isSome_iff_ne_none.2 (hrun i h1 (by omega))) (hw _ (by omega)) ρ ct k h
    rw [hs, hl]

theorem GivenRun.unique {given given' : Nat → Prop} {n l l' : Nat} (hg : ∀ i, 1 ≤ i → (given i ↔ given' i)) (h : GivenRun given n l) (h' : GivenRun given' n l') : l = l' := by
  by_contra hne
  rcases Nat.lt_or_gt_of_ne hne with hlt | hlt
  · exact h.stops (by have := h'.le; omega) ((hg _ (by omega)).2 (h'.all _ (by omega) (by omega)))
  · exact h'.stops (by have := h.le; omega) ((hg _ (by omega)).1 (h.all _ (by omega) (by omega)))

theorem run_congr {given given' : Nat → Prop} {n l : Nat} (hg : ∀ i, 1 ≤ i → i ≤ n → (given i ↔ given' i)) (h : GivenRun given n l) : GivenRun given' n l := by
  have := h.le
  exact ⟨h.le, fun i h1 h2 => (hg i h1 (by omega)).1 (h.all i h1 h2), fun hlt hn => h.stops hlt ((hg _ (by omega) (by omega)).2 hn)⟩

theorem cli_run_iff {n : Nat} {h : HashOrder} {sym : Str} {symtab : AMap Nat} {entries : List (Str × Json)} {w : WireMap}
    (hsym : parseSymFile sym = .ok symtab) (hw : cliAssign h n sym (.obj entries) = .ok w) (hna : NoAlias symtab (some n) entries) (i : Nat) (hi : 1 ≤ i) :
    w i ≠ none ↔ CliSupplies symtab n entries i := by
  have hwires := ((C38_cli_wires h n sym entries w hsym hna).1 hw).2
  constructor
  · intro hn
    obtain ⟨x, hx⟩ := Option.ne_none_iff_exists'.1 hn
    rcases (hwires i x).1 hx with ⟨name, h1, h2⟩ | ⟨-, h0, -⟩
    · exact ⟨name, x, h1, h2⟩
    · omega
  · rintro ⟨name, x, h1, h2⟩ hn
    rw [(hwires i x).2 (.inl ⟨name, h1, h2⟩)] at hn
    cases hn

theorem js_run_iff {n : Nat} {sym : Str} {inputs : List (Str × JsVal)} {w : WireMap} (hna : JsNoAlias (jsParseSymFile sym) inputs)
    (hmax : JsSmall (jsParseSymFile sym) inputs) (hw : jsAssign n sym inputs = .ok w) (l : Nat) (h : GivenRun (fun i => w i ≠ none) n l) :
    GivenRun (JsSupplies (jsParseSymFile sym) inputs) n l := by
  obtain ⟨zs, hz, hend, h3⟩ := jsAssign_ok n sym inputs hna w hw
  have hl : zs.length < 2 ^ 25 := hmax.run_lt fun k hk => by
    obtain ⟨name, v, s, g1, g2, -⟩ := hz k hk
    exact ⟨name, v, g1, g2⟩
  have hwi := h3 (by omega)
  have hat : ∀ i, 1 ≤ i → i ≤ n → (w i ≠ none ↔ i ≤ zs.length) := by
    intro i h1 h2
    obtain ⟨j, rfl⟩ : ∃ j, i = j + 1 := ⟨i - 1, by omega⟩
    rw [hwi, if_pos h2]
    simp [Nat.succ_le_iff]
  have hle := h.le
  have hlz : l ≤ zs.length := by
    by_cases h0 : l = 0
    · omega
    · exact (hat l (by omega) hle).1 (h.all l (by omega) le_rfl)
  refine ⟨hle, fun i h1 h2 => ?_, fun hlt hs => ?_⟩
  · obtain ⟨j, rfl⟩ : ∃ j, i = j + 1 := ⟨i - 1, by omega⟩
    obtain ⟨name, v, s, g1, g2, -⟩ := hz j (by omega)
    exact ⟨name, v, g1, g2⟩
  · have : l = zs.length := by
      by_contra hne
      exact h.stops hlt ((hat _ (by omega) (by omega)).2 (by omega))
    subst this
    obtain ⟨name, v, g1, g2⟩ := hs
    exact hend name v g1 g2

theorem gcm_length {c : Cipher} {t : Tool} {key nonce m out : Bytes} (hn : nonce.length = 12) (h : encryptGcm c t key nonce m = .ok out) :
    out.length = m.length + 28 := by
  obtain ⟨h1, h2⟩ := C41_encrypt_outcome c t key nonce m hn
  by_cases hc : key.length = 32 ∧ m.length ≤ c.maxEnc t
  · obtain ⟨o, ho, hl⟩ := h1 hc
    rw [h] at ho
    cases ho
    exact hl
  · obtain ⟨e, he⟩ := h2 hc
    rw [h] at he
    cases he

/-- **C87** (CLI `encap`) — the ciphertext file has `456 + 160·l` bytes and the key file 32, where `l` is the length of the unbroken run 1, 2, 3, … of public
wires that are given values. Nothing else about the circuit, the values or the randomness shows in the sizes. -/
theorem C87_cli_encap (fs fs' : FS) (circuit sym input ciphertext key : Path) (hne : ciphertext ≠ key) (r : R1csFile) (symtab : AMap Nat)
    (entries : List (Str × Json)) (hfiles : CliFiles S fs circuit sym input r symtab entries) (hna : NoAlias symtab (some r.nPubIn) entries) (ρ : Rand Fr)
    (henc : (encapCommand S circuit sym input ciphertext key ρ).exec fs = (fs', .ok ())) (hf : PublicFits r)
    (hpriv : r.nPubOut + r.nPubIn + 1 < r.nWires) :
    ∃ ct k l, fs' ciphertext = some ct ∧ fs' key = some k ∧ k.length = 32 ∧ ct.length = 456 + 160 * l ∧
      GivenRun (CliSupplies symtab r.nPubIn entries) (r.nPubOut + r.nPubIn) l := by
  obtain ⟨w, symText, ctB, k, h1, h2, rfl, ρ', ct, ky, g1, rfl, rfl⟩ := cli_encapped hfiles henc
  obtain ⟨e1, e2⟩ := ct_size_exact S .cli r hf hpriv w (fun i hi => C40_cli_bound S.hash _ _ _ w h2 i (by omega)) ρ' ct ky g1
  exact ⟨_, _, _, by rw [FS.set_other _ hne, FS.set_same], FS.set_same _ _ _, ky.len, e1, run_congr (fun i hi _ => cli_run_iff h1 h2 hna i hi) e2⟩

/-- **C87** (CLI `encrypt`) — the file has `489 + 160·l` bytes plus the length of the message, plus four and the length of the input file if the public inputs
are included. -/
theorem C87_cli_encrypt (fs fs' : FS) (circuit sym input message output : Path) (r : R1csFile) (symtab : AMap Nat)
    (entries : List (Str × Json)) (hfiles : CliFiles S fs circuit sym input r symtab entries) (hna : NoAlias symtab (some r.nPubIn) entries)
    (m inp : Bytes) (hm : fs message = some m) (hinp : fs input = some inp) (incl : Bool) (ρ : Rand Fr) (nonce : Bytes) (hn : nonce.length = 12)
    (henc : (encryptCommand S circuit sym input message output incl ρ nonce).exec fs = (fs', .ok ())) (hf : PublicFits r)
    (hpriv : r.nPubOut + r.nPubIn + 1 < r.nWires) :
    ∃ b l, fs' output = some b ∧ b.length = 489 + 160 * l + m.length + (if incl then 4 + inp.length else 0) ∧
      GivenRun (CliSupplies symtab r.nPubIn entries) (r.nPubOut + r.nPubIn) l := by
  obtain ⟨w, symText, jsonB, ct, key, h1, h2, h3, h4, h5⟩ := CliFiles.assign hfiles henc
  rw [hinp] at h3; cases h3
  simp only [exec_readFile_ok, exec_lift_ok, exec_writeFile] at h5
  obtain ⟨m', hm', enc, he, h5⟩ := h5
  rw [hm] at hm'; cases hm'
  simp only [Cmd.exec, Prod.mk.injEq, and_true] at h5
  obtain ⟨e1, e2⟩ := ct_size_exact S .cli r hf hpriv w (fun i hi => C40_cli_bound S.hash _ _ _ w h2 i (by omega)) ρ ct key h4
  refine ⟨_, _, by rw [← h5, FS.set_same], ?_, run_congr (fun i hi _ => cli_run_iff h1 h2 hna i hi) e2⟩
  rw [C43_length, e1, gcm_length hn he]
  cases incl <;> simp <;> omega

/-- **C87** (JS `encap`). -/
theorem C87_js_encap (data : Bytes) (r : R1csFile) (hr : jsParseR1cs data = .ok r.toJs) (sym : Str) (inputs : List (Str × JsVal))
    (hna : JsNoAlias (jsParseSymFile sym) inputs) (hmax : JsSmall (jsParseSymFile sym) inputs) (ρ : Rand Fr)
    (ct k : Bytes) (henc : jsEncap S data sym inputs ρ = .ok (ct, k)) (hf : PublicFits r) (hpriv : r.nPubOut + r.nPubIn + 1 < r.nWires) :
    ∃ l, k.length = 32 ∧ ct.length = 456 + 160 * l ∧ GivenRun (JsSupplies (jsParseSymFile sym) inputs) (r.nPubOut + r.nPubIn) l := by
  obtain ⟨w, hw, ρ', c, ky, g1, rfl, rfl⟩ := js_encapped hr hf henc
  obtain ⟨e1, e2⟩ := ct_size_exact S .js r hf hpriv w (fun i hi => js_beyond hw i hi) ρ' c ky g1
  exact ⟨_, ky.len, e1, js_run_iff hna hmax hw _ e2⟩

/-- **C87** (JS `encrypt`) — the same with the length of the JSON text of the public inputs. -/
theorem C87_js_encrypt (data : Bytes) (r : R1csFile) (hr : jsParseR1cs data = .ok r.toJs) (sym : Str) (inputs : List (Str × JsVal))
    (hna : JsNoAlias (jsParseSymFile sym) inputs) (hmax : JsSmall (jsParseSymFile sym) inputs) (m : Bytes) (incl : Bool) (ρ : Rand Fr)
    (nonce : Bytes) (hn : nonce.length = 12) (combined key : Bytes) (henc : jsEncrypt S data sym inputs m incl ρ nonce = .ok (combined, key))
    (hf : PublicFits r) (hpriv : r.nPubOut + r.nPubIn + 1 < r.nWires) :
    ∃ l p, (incl = true → ∃ s, S.stringify inputs = .ok s ∧ p = (utf8Enc s).length) ∧
      key.length = 32 ∧ combined.length = 489 + 160 * l + m.length + (if incl then 4 + p else 0) ∧
      GivenRun (JsSupplies (jsParseSymFile sym) inputs) (r.nPubOut + r.nPubIn) l := by
  unfold jsEncrypt at henc
  obtain ⟨⟨ctB, kB⟩, h1, h⟩ := Res.bind_eq_ok.1 henc
  obtain ⟨enc, h2, h⟩ := Res.bind_eq_ok.1 h
  obtain ⟨pub, h3, h⟩ := Res.bind_eq_ok.1 h
  cases h
  obtain ⟨l, g1, g2, g3⟩ := C87_js_encap S data r hr sym inputs hna hmax ρ ctB kB h1 hf hpriv
  refine ⟨l, pub.length, fun hi => ?_, g1, ?_, g3⟩
  · rw [hi] at h3
    simp only [if_true] at h3
    obtain ⟨s, hs, h3⟩ := Res.bind_eq_ok.1 h3
    cases h3
    exact ⟨s, hs, rfl⟩
  · rw [C43_length, g2, gcm_length hn h2]
    cases incl <;> simp <;> omega

/-- **C87** (the documented size) — the documentation says a witness ciphertext has 1576 bytes. It has exactly if the unbroken run of public wires with values
has length seven. -/
theorem C87_documented_js (data : Bytes) (r : R1csFile) (hr : jsParseR1cs data = .ok r.toJs) (sym : Str) (inputs : List (Str × JsVal))
    (hna : JsNoAlias (jsParseSymFile sym) inputs) (hmax : JsSmall (jsParseSymFile sym) inputs) (ρ : Rand Fr)
    (ct k : Bytes) (henc : jsEncap S data sym inputs ρ = .ok (ct, k)) (hf : PublicFits r) (hpriv : r.nPubOut + r.nPubIn + 1 < r.nWires) :
    ct.length = 1576 ↔ GivenRun (JsSupplies (jsParseSymFile sym) inputs) (r.nPubOut + r.nPubIn) 7 := by
  obtain ⟨l, -, h2, h3⟩ := C87_js_encap S data r hr sym inputs hna hmax ρ ct k henc hf hpriv
  constructor
  · intro h
    rw [show (7 : Nat) = l by omega]
    exact h3
  · intro h
    rw [h2, GivenRun.unique (fun _ _ => Iff.rfl) h3 h]

theorem C87_documented_cli (fs fs' : FS) (circuit sym input ciphertext key : Path) (hne : ciphertext ≠ key) (r : R1csFile) (symtab : AMap Nat)
    (entries : List (Str × Json)) (hfiles : CliFiles S fs circuit sym input r symtab entries) (hna : NoAlias symtab (some r.nPubIn) entries) (ρ : Rand Fr)
    (henc : (encapCommand S circuit sym input ciphertext key ρ).exec fs = (fs', .ok ())) (hf : PublicFits r)
    (hpriv : r.nPubOut + r.nPubIn + 1 < r.nWires) :
    (∃ ct, fs' ciphertext = some ct ∧ ct.length = 1576) ↔ GivenRun (CliSupplies symtab r.nPubIn entries) (r.nPubOut + r.nPubIn) 7 := by
  obtain ⟨ct, k, l, h0, -, -, h2, h3⟩ := C87_cli_encap S fs fs' circuit sym input ciphertext key hne r symtab entries hfiles hna ρ henc hf hpriv
  constructor
  · rintro ⟨ct', h, h'⟩
    rw [h0] at h
    cases h
    rw [show (7 : Nat) = l by omega]
    exact h3
  · intro h
    exact ⟨ct, h0, by rw [h2, GivenRun.unique (fun _ _ => Iff.rfl) h3 h]⟩

/-- **C87** (the Sudoku circuit of the documentation) — for every puzzle, both tools write a witness ciphertext of 13416 bytes. -/
theorem C87_sudoku (hlim : 51696 ≤ S.lim) (p : Grid Nat) (hp : IsPuzzle p) (ρ : Rand Fr) :
    (∀ ct k, jsEncap S sudokuBytes sudokuSym (puzzleObject p) ρ = .ok (ct, k) → ct.length = 13416) ∧
    (∀ fs fs' circuit sym input ciphertext key, ciphertext ≠ key → PuzzleFiles S fs circuit sym input p →
      (encapCommand S circuit sym input ciphertext key ρ).exec fs = (fs', .ok ()) → ∃ ct, fs' ciphertext = some ct ∧ ct.length = 13416) ∧
    (∀ m nonce combined key, nonce.length = 12 → jsEncrypt S sudokuBytes sudokuSym (puzzleObject p) m false ρ nonce = .ok (combined, key) →
      combined.length = 13449 + m.length) := by
  obtain ⟨t, h1, h2, h3, -⟩ := C76_symbol_file
  have hjs : GivenRun (JsSupplies t (puzzleObject p)) (sudokuR1cs.nPubOut + sudokuR1cs.nPubIn) 81 := by
    refine ⟨by decide, fun i g1 g2 => ?_, fun h => absurd h (by decide)⟩
    obtain ⟨j, rfl⟩ : ∃ j, i = j + 1 := ⟨i - 1, by omega⟩
    exact ⟨_, _, ⟨h3 j (by omega), by simp⟩, (puzzle_gives_js _ _).2 ⟨j, by omega, rfl, rfl⟩⟩
  have hcli : GivenRun (CliSupplies t sudokuR1cs.nPubIn (puzzleJson p)) (sudokuR1cs.nPubOut + sudokuR1cs.nPubIn) 81 := by
    refine ⟨by decide, fun i g1 g2 => ?_, fun h => absurd h (by decide)⟩
    obtain ⟨j, rfl⟩ : ∃ j, i = j + 1 := ⟨i - 1, by omega⟩
    exact ⟨_, _, ⟨h3 j (by omega), by rintro k ⟨⟩; change j + 1 ≤ 81; omega⟩, (puzzle_gives_cli hp _ _).2 ⟨j, by omega, rfl, rfl⟩⟩
  have hna : JsNoAlias (jsParseSymFile sudokuSym) (puzzleObject p) := by rw [h2]; exact puzzle_noAlias_js h3 p
  have hmax : JsSmall (jsParseSymFile sudokuSym) (puzzleObject p) := by rw [h2]; exact puzzle_small h3 p
  refine ⟨fun ct k h => ?_, fun fs fs' circuit sym input ciphertext key hne hf h => ?_, fun m nonce combined key hn h => ?_⟩
  · obtain ⟨l, -, e, g⟩ := C87_js_encap S sudokuBytes sudokuR1cs (C76_circuit_file 51696 le_rfl).2.2 sudokuSym _ hna hmax ρ ct k h sudoku_wf.fits (by decide)
    rw [h2] at g
    rw [e, GivenRun.unique (fun _ _ => Iff.rfl) g hjs]
  · obtain ⟨ct, -, l, e0, -, -, e, g⟩ := C87_cli_encap S fs fs' circuit sym input ciphertext key hne sudokuR1cs t _ (PuzzleFiles.cli hlim hf h1)
      (puzzle_noAlias h3 hp _) ρ h sudoku_wf.fits (by decide)
    exact ⟨ct, e0, by rw [e, GivenRun.unique (fun _ _ => Iff.rfl) g hcli]⟩
  · obtain ⟨l, _, -, -, e, g⟩ := C87_js_encrypt S sudokuBytes sudokuR1cs (C76_circuit_file 51696 le_rfl).2.2 sudokuSym _ hna hmax m false ρ nonce hn combined key
      h sudoku_wf.fits (by decide)
    rw [h2] at g
    rw [e, GivenRun.unique (fun _ _ => Iff.rfl) g hjs]
    simp

/-- A concrete case: JS encrypts three bytes for the puzzle of the repository's tests, into 13452 bytes. -/
example : ∃ b k, jsEncrypt Ex.S sudokuBytes sudokuSym (puzzleObject repoPuzzle) [1, 2, 3] false Ex.ρ Ex.nonce = .ok (b, k) ∧ b.length = 13452 := by
  obtain ⟨-, hp, -⟩ := C76_who_decrypts
  have hlim : 51696 ≤ Ex.S.lim := by change 51696 ≤ 2 ^ 62; norm_num
  obtain ⟨b, k, hb⟩ := (C76_encrypts Ex.S hlim repoPuzzle hp [1, 2, 3] Ex.ρ Ex.delta_ne Ex.nonce rfl).2 false (by simp) (by change 3 ≤ 2 ^ 36; norm_num)
  exact ⟨b, k, hb, (C87_sudoku Ex.S hlim repoPuzzle hp Ex.ρ).2.2 _ _ _ _ rfl hb⟩

end Zkenc.Props
