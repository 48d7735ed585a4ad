import Verif.Props.QuickStartExample
import Verif.Props.SignatureExample
import Verif.Props.SudokuEndToEnd
/-!
# Concrete cases for C76, C83, C84 and C93
-/

namespace Zkenc.Props

open Zkenc Zkenc.Spec Zkenc.InputSpec

/-! ## C93: the quick-start circuit -/

namespace ExQuick

open Ex (ρ nonce delta_ne S)

theorem data_js : jsParseR1cs data = .ok quick.toJs := C23_js_agrees (by have := data_len; omega) data_cli

/-- `{ publicValue: 42 }`. -/
def jsValue : JsVal := .str ['4', '2']

theorem js_sym : QuickStartSymbols (jsParseSymFile sym) := by
  obtain ⟨m, -, h2, h3⟩ := sym_parse
  rw [h3]
  exact h2

theorem js_gives {name : Str} {v : JsVal} (h : JsGives [("publicValue".toList, jsValue)] name v) : name = "publicValue".toList ∧ v = jsValue := by
  obtain ⟨e, he, hf⟩ := h
  rw [List.mem_singleton] at he
  subst he
  cases hf with
  | scalar _ _ => exact ⟨rfl, rfl⟩

theorem js_encrypts : ∃ b k, jsEncrypt S data sym [("publicValue".toList, jsValue)] [1, 2, 3] false ρ nonce = .ok (b, k) := by
  have hstr : jsValue.toStr = .ok ['4', '2'] := rfl
  refine (C48_encrypt_outcome S data quick data_js sym _ ?_ ?_ [1, 2, 3] false ρ nonce rfl).2
    ⟨⟨?_, ?_⟩, delta_ne, by change 3 ≤ 2 ^ 36; norm_num, by simp⟩
  · intro n n' i v v' _ _ g1 g2
    rw [(js_gives g1).2, (js_gives g2).2]
  · refine .of_lt fun n v i r g => ?_
    rcases symbol_unique js_sym r with ⟨-, rfl⟩ | ⟨-, rfl⟩ | ⟨-, rfl⟩ <;> norm_num
  · intro n v i r g
    rw [(js_gives g).2]
    exact ⟨by simp [jsValue], by simp [jsValue]⟩
  · intro i _ _ n v s r g hs
    rw [(js_gives g).2, hstr] at hs
    cases hs
    exact ⟨42, by decide⟩

theorem sums (a b : Fr) : (a + b = a + b ∧ Spec.Solves none a b) := ⟨rfl, fun t ht => by cases ht⟩

/-- Encrypted by JS for 42: opened by JS with 3 and 5, not opened with a wrong sum. -/
example : ∃ b k w w' e, jsEncrypt S data sym [("publicValue".toList, jsValue)] [1, 2, 3] false ρ nonce = .ok (b, k) ∧
    jsDecrypt S data (.ok w) b = .ok [1, 2, 3] ∧ jsDecrypt S data (.ok w') b = .error e := by
  obtain ⟨b, k, hb⟩ := js_encrypts
  obtain ⟨w, hw⟩ := some_wtns [1, 3 + 5, 3, 5] (by simp)
  obtain ⟨w', hw'⟩ := some_wtns [1, 3 + 5 + 1, 3, 5] (by simp)
  have hv : (∀ l, jsValue ≠ .arr l) ∧ ∀ l, jsValue ≠ .obj l := ⟨by simp [jsValue], by simp [jsValue]⟩
  obtain ⟨e, he⟩ := (C93_js_to_js S data quick none quick_start data_js sym js_sym jsValue hv [1, 2, 3] false ρ nonce rfl (by simp) b k hb w' _ _ _ _ hw').2
    (fun h => by simpa using h.1)
  exact ⟨b, k, w, w', e, hb, (C93_js_to_js S data quick none quick_start data_js sym js_sym jsValue hv [1, 2, 3] false ρ nonce rfl (by simp) b k hb
    w _ _ _ _ hw).1 (sums 3 5), he⟩

/-- The same ciphertext opened with the CLI. -/
example (x y : Fr) : ∃ b k, jsEncrypt S data sym [("publicValue".toList, jsValue)] [1, 2, 3] false ρ nonce = .ok (b, k) ∧
    (decryptCommand S ['c'] ['w'] ['o'] ['d']).exec ((fs x y).set ['o'] b) = (((fs x y).set ['o'] b).set ['d'] [1, 2, 3], .ok ()) := by
  obtain ⟨b, k, hb⟩ := js_encrypts
  have hv : (∀ l, jsValue ≠ .arr l) ∧ ∀ l, jsValue ≠ .obj l := ⟨by simp [jsValue], by simp [jsValue]⟩
  exact ⟨b, k, hb, (C93_js_to_cli S data (by have := data_len; omega) quick none quick_start data_cli sym js_sym jsValue hv [1, 2, 3] false ρ nonce rfl (by simp) b k hb
    ((fs x y).set ['o'] b) ['c'] ['w'] ['o'] ['d'] (wtns x y) 1 (x + y) x y rfl rfl rfl (wtns_cli x y) (by change 3 ≤ 2 ^ 36; norm_num)).1 (sums x y)⟩

/-- Encrypted by the CLI for 42, opened by JS. -/
example : ∃ c w, (encryptCommand S ['c'] ['s'] ['i'] ['m'] ['o'] true ρ nonce).exec (fs 3 5) = ((fs 3 5).set ['o'] c, .ok ()) ∧
    jsDecrypt S data (.ok w) c = .ok [1, 2, 3] := by
  obtain ⟨c, hc, -⟩ := run 3 5
  obtain ⟨w, hw⟩ := some_wtns [1, 3 + 5, 3, 5] (by simp)
  obtain ⟨m, h1, h2, -⟩ := sym_parse
  have hf : CliFiles S (fs 3 5) ['c'] ['s'] ['i'] quick m entries :=
    ⟨⟨data, rfl, data_cli⟩, ⟨utf8Enc sym, String.ofList sym, rfl, utf8Dec_enc _, by rw [String.toList_ofList]; exact h1⟩,
      ⟨utf8Enc inputText, String.ofList inputText, rfl, utf8Dec_enc _, by rw [String.toList_ofList]; exact input_serde⟩⟩
  have hj : true = true → ∀ j, (fs 3 5) ['i'] = some j → j.length < 2 ^ 32 := by
    intro _ j hj
    have : utf8Enc inputText = j := by simpa [fs] using hj
    rw [← this, inputText_len]; norm_num
  exact ⟨c, w, hc, (C93_cli_to_js S (fs 3 5) _ ['c'] ['s'] ['i'] ['m'] ['o'] quick none quick_start m h2 entries not_result hf [1, 2, 3] rfl true ρ nonce rfl hj hc
    data rfl (by have := data_len; omega) c rfl w _ _ _ _ hw (by change 3 ≤ 2 ^ 36; norm_num)).1 (sums 3 5)⟩

end ExQuick

/-! ## C83 and C84: the multisignature circuit -/

namespace SigEx

open Zkenc.SignatureSpec

/-- The witness for the keys of the repository's test has two signers out of these keys. -/
example : ∃ vals, Accepted Ex.signatureR1cs vals ∧
    TwoSigners (fun i => (vals.getD (2 + 2 * (i : Nat)) 0, vals.getD (3 + 2 * (i : Nat)) 0)) (vals.getD 14 0) (vals.getD 15 0) (vals.getD 19 0, vals.getD 20 0)
      (vals.getD 31 0, vals.getD 32 0) ∧
    TwoSigners (Ex.frKeys Ex.repoKeys) (vals.getD 14 0) (vals.getD 15 0) (vals.getD 19 0, vals.getD 20 0) (vals.getD 31 0, vals.getD 32 0) := by
  obtain ⟨vals, g1, g2, g3, g4⟩ := Ex.signature_accepted Ex.repo_signers (12345 : Nat)
  exact ⟨vals, g1, C83_signers _ Ex.isSignature vals g1, C84_signers _ Ex.isSignature (12345 : Nat) _ vals ⟨⟨g1, g3⟩, g4⟩⟩

/-- Encrypted by the CLI for the keys of the repository's test, opened by JS. -/
example : ∃ b wtns vals, KeysWitness Ex.signatureR1cs (12345 : Nat) (Ex.frKeys Ex.repoKeys) vals ∧ jsParseWtns wtns = .ok vals ∧
    (encryptCommand S ['c'] ['s'] ['i'] ['m'] ['o'] false Ex.ρ Ex.nonce).exec (fs []) = ((fs []).set ['o'] b, .ok ()) ∧
    jsDecrypt S data (.ok wtns) b = .ok [1, 2, 3] := by
  obtain ⟨vals, g1, g2, g3, g4⟩ := Ex.signature_accepted Ex.repo_signers (12345 : Nat)
  obtain ⟨wtns, hw⟩ := js_wtns vals (by omega)
  have hfiles : CliFiles S (fs []) ['c'] ['s'] ['i'] Ex.signatureR1cs table (entries Ex.repoKeys) :=
    ⟨⟨data, rfl, data_cli⟩, ⟨utf8Enc sym, String.ofList sym, rfl, utf8Dec_enc _, by rw [String.toList_ofList]; exact sym_cli⟩,
      ⟨[], "", rfl, by decide +kernel, rfl⟩⟩
  obtain ⟨b, hb⟩ := (C47_encrypt_outcome S (fs []) ['c'] ['s'] ['i'] ['m'] ['o'] _ table _ hfiles [1, 2, 3] rfl false Ex.ρ Ex.nonce rfl).1
    ⟨all_denote _, Ex.delta_ne, by change 3 ≤ 2 ^ 36; norm_num⟩
  exact ⟨b, wtns, vals, ⟨⟨g1, g3⟩, g4⟩, hw, hb, (C84_cli_to_js S (fs []) _ ['c'] ['s'] ['i'] ['m'] ['o'] _ Ex.isSignature table isSym _ hfiles _ _ (givesKeys _)
    (noAlias _) [1, 2, 3] rfl false Ex.ρ Ex.nonce rfl (by simp) hb data rfl (by have := data_length; omega) b rfl wtns vals hw
    (by change 3 ≤ 2 ^ 36; norm_num)).1 ⟨g2, ⟨g1, g3⟩, g4⟩⟩

/-- Encrypted by JS for the keys of the repository's test, opened by the CLI with a witness for other keys. -/
example : ∃ b k w vals, jsEncrypt Ex.S data sym (inputs Ex.repoKeys) [1, 2, 3] false Ex.ρ Ex.nonce = .ok (b, k) ∧ CliWitness w vals ∧
    KeysWitness Ex.signatureR1cs (12345 : Nat) (Ex.frKeys otherKeys) vals ∧
    (decryptCommand Ex.S ['c'] ['w'] ['o'] ['d']).exec ((fs w).set ['o'] b) = (((fs w).set ['o'] b).set ['d'] [1, 2, 3], .ok ()) := by
  obtain ⟨h1, h2, h3, h4⟩ := js_facts Ex.repoKeys
  obtain ⟨-, -, t3, t4⟩ := C39_js_integers 12345
  obtain ⟨b, k, hb⟩ := (C48_encrypt_outcome Ex.S data _ data_js sym (inputs Ex.repoKeys) (by rw [sym_js]; exact h1) (by rw [sym_js]; exact h2) [1, 2, 3] false
    Ex.ρ Ex.nonce rfl).2 ⟨by rw [sym_js]; exact h3, Ex.delta_ne, by change 3 ≤ 2 ^ 36; norm_num, by simp⟩
  obtain ⟨vals, g1, g2, g3, g4⟩ := Ex.signature_accepted other_signers (12345 : Nat)
  obtain ⟨w, hw⟩ := cli_wtns vals (by rintro rfl; simp at g2) (by omega)
  refine ⟨b, k, w, vals, hb, hw, ⟨⟨g1, g3⟩, g4⟩, ?_⟩
  refine (C84_js_to_cli Ex.S data (by have := data_length; omega) _ Ex.isSignature data_cli sym (by rw [sym_js]; exact isSym) (inputs Ex.repoKeys) (by rw [sym_js]; exact h1)
    (by rw [sym_js]; exact h2) (plain _) _ _ _ h4 t3 t4 [1, 2, 3] false Ex.ρ Ex.nonce rfl (by simp) b k hb ((fs w).set ['o'] b) ['c'] ['w'] ['o'] ['d'] w vals rfl rfl rfl
    hw (by change 3 ≤ 2 ^ 36; norm_num)).1 ⟨g1, ?_⟩
  rw [g3]
  rfl

end SigEx

/-! ## C76: the Sudoku circuit -/

namespace SudokuEx

open Zkenc.SudokuSpec Zkenc.SudokuLc

/-- Library parameters; the JSON parser answers with the puzzle of the repository's tests. -/
def S : Sys Fr Fr Fr := toySys (.obj (puzzleJson repoPuzzle)) .null

theorem lim_ok : 51696 ≤ S.lim := by change 51696 ≤ 2 ^ 62; norm_num

/-- Circuit, symbols, inputs, message, and a witness file. -/
def fs (w : Bytes) : FS := fun p =>
  if p = ['c'] then some sudokuBytes else
  if p = ['s'] then some (utf8Enc sudokuSym) else
  if p = ['i'] then some [] else
  if p = ['m'] then some [1, 2, 3] else
  if p = ['w'] then some w else none

theorem files (w : Bytes) : PuzzleFiles S (fs w) ['c'] ['s'] ['i'] repoPuzzle := ⟨rfl, rfl, ⟨[], "", rfl, by decide +kernel, rfl⟩⟩

theorem repo_witness : PuzzleWitness repoPuzzle (sudokuWitness repoPuzzle.toFr wrongSolution.toFr) := C76_who_decrypts.2.2.1

theorem hp : IsPuzzle repoPuzzle := C76_who_decrypts.2.1

/-- A witness for another puzzle: the empty one. -/
theorem other_witness : ¬ PuzzleWitness repoPuzzle (List.replicate 202 0) := by
  rw [puzzleWitness_iff]
  rintro ⟨-, h⟩
  have := h 0 (by norm_num)
  rw [List.getElem?_replicate, if_pos (by norm_num)] at this
  have h2 : ((5 : Nat) : Fr) = ((0 : Nat) : Fr) := by
    have h5 : repoPuzzle.cell 0 = 5 := by decide +kernel
    rw [← h5, Nat.cast_zero]
    exact (Option.some.inj this).symm
  exact absurd (frCast_inj (by norm_num) (by norm_num) h2) (by norm_num)

/-- The committed file. -/
example : cliParseR1cs S.lim sudokuBytes = .ok sudokuR1cs := (C76_circuit_file S.lim lim_ok).2.1

/-- Encrypted by the CLI: opened by the CLI and by JS with a grid that is no solution; not opened by other values. -/
example : ∃ w w' x b e, CliWitness w (sudokuWitness repoPuzzle.toFr wrongSolution.toFr) ∧ CliWitness w' (List.replicate 202 0) ∧
    (encryptCommand S ['c'] ['s'] ['i'] ['m'] ['o'] false Ex.ρ Ex.nonce).exec (fs w) = ((fs w).set ['o'] b, .ok ()) ∧
    (decryptCommand S ['c'] ['w'] ['o'] ['d']).exec ((fs w).set ['o'] b) = (((fs w).set ['o'] b).set ['d'] [1, 2, 3], .ok ()) ∧
    (decryptCommand S ['c'] ['w'] ['o'] ['d']).exec ((fs w').set ['o'] b) = ((fs w').set ['o'] b, .error e) ∧
    jsDecrypt S sudokuBytes (.ok x) b = .ok [1, 2, 3] := by
  obtain ⟨w, hw⟩ := SigEx.cli_wtns (sudokuWitness repoPuzzle.toFr wrongSolution.toFr)
    (by intro h; have := sudokuWitness_length repoPuzzle.toFr wrongSolution.toFr; rw [h] at this; simp at this) (by rw [sudokuWitness_length]; norm_num)
  obtain ⟨w', hw'⟩ := SigEx.cli_wtns (List.replicate 202 0) (fun h => by have := congrArg List.length h; rw [List.length_replicate] at this; cases this)
    (by rw [List.length_replicate]; norm_num)
  obtain ⟨x, hx⟩ := some_wtns (sudokuWitness repoPuzzle.toFr wrongSolution.toFr) (by rw [sudokuWitness_length]; norm_num)
  obtain ⟨b, hb⟩ := (C76_encrypts S lim_ok repoPuzzle hp [1, 2, 3] Ex.ρ Ex.delta_ne Ex.nonce rfl).1 (fs w) ['c'] ['s'] ['i'] ['m'] ['o'] false (files w) rfl
    (by change 3 ≤ 2 ^ 36; norm_num)
  obtain ⟨e, he⟩ := (C76_cli_to_cli S lim_ok repoPuzzle hp (fs w) _ ['c'] ['s'] ['i'] ['m'] ['o'] (files w) [1, 2, 3] rfl false Ex.ρ Ex.nonce rfl (by simp) hb
    ((fs w').set ['o'] b) ['c'] ['w'] ['o'] ['d'] w' _ rfl rfl rfl hw').2 other_witness
  exact ⟨w, w', x, b, e, hw, hw', hb,
    (C76_cli_to_cli S lim_ok repoPuzzle hp (fs w) _ ['c'] ['s'] ['i'] ['m'] ['o'] (files w) [1, 2, 3] rfl false Ex.ρ Ex.nonce rfl (by simp) hb
      ((fs w).set ['o'] b) ['c'] ['w'] ['o'] ['d'] w _ rfl rfl rfl hw).1 repo_witness, he,
    (C76_cli_to_js S lim_ok repoPuzzle hp (fs w) _ ['c'] ['s'] ['i'] ['m'] ['o'] (files w) [1, 2, 3] rfl false Ex.ρ Ex.nonce rfl (by simp) hb
      b rfl x _ hx (by change 3 ≤ 2 ^ 36; norm_num)).1 ⟨sudokuWitness_length _ _, repo_witness⟩⟩

/-- Encrypted by JS, opened by the CLI. -/
example : ∃ w b k, jsEncrypt S sudokuBytes sudokuSym (puzzleObject repoPuzzle) [1, 2, 3] false Ex.ρ Ex.nonce = .ok (b, k) ∧
    (decryptCommand S ['c'] ['w'] ['o'] ['d']).exec ((fs w).set ['o'] b) = (((fs w).set ['o'] b).set ['d'] [1, 2, 3], .ok ()) := by
  obtain ⟨w, hw⟩ := SigEx.cli_wtns (sudokuWitness repoPuzzle.toFr wrongSolution.toFr)
    (by intro h; have := sudokuWitness_length repoPuzzle.toFr wrongSolution.toFr; rw [h] at this; simp at this) (by rw [sudokuWitness_length]; norm_num)
  obtain ⟨b, k, hb⟩ := (C76_encrypts S lim_ok repoPuzzle hp [1, 2, 3] Ex.ρ Ex.delta_ne Ex.nonce rfl).2 false (by simp) (by change 3 ≤ 2 ^ 36; norm_num)
  exact ⟨w, b, k, hb, (C76_js_to_cli S lim_ok repoPuzzle hp [1, 2, 3] false Ex.ρ Ex.nonce rfl (by simp) b k hb ((fs w).set ['o'] b) ['c'] ['w'] ['o'] ['d'] w _
    rfl rfl rfl hw (by change 3 ≤ 2 ^ 36; norm_num)).1 repo_witness⟩

end SudokuEx

end Zkenc.Props
