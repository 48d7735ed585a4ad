import Verif.Props.PlaySudokuExample
import Verif.Props.PlayCustomExample
/-!
# Concrete cases for C78–C80, C82, C85 and C86

Each theorem of the playground with hypotheses is applied to a visit of the page.
-/

namespace Zkenc.Props

open Zkenc Zkenc.Spec Zkenc.InputSpec Zkenc.SudokuSpec Zkenc.PlaySpec CalcSpec

namespace Ex

/-! ## An encryption in the Sudoku tab -/

/-- The site's files are there, a puzzle was generated, a message typed and the button clicked. -/
def encVisit : List PlayEvent := [.circuitsLoaded true, .generate (List.replicate 81 (-1)), .typeMessage ['h', 'i'], .clickEncrypt]

theorem enc_jobs : (Play.after smallNums S sudokuInst sudokuEnv encVisit).jobs =
    [.encrypt .sudoku sudokuEnv.site (.obj [("puzzle".toList, .arr (List.replicate 81 (.num 0)))]) (utf8Enc ['h', 'i']) true] := by
  simp [encVisit, Play.after, Play.step, Play.generate, Play.clickEncrypt, ofGenerator]

/-- C78: the attempt fails. -/
example (ok : Bool) : (Play.after smallNums S sudokuInst sudokuEnv (encVisit ++ [.finish 0 ok ρ nonce])).error = true ∧
    (Play.after smallNums S sudokuInst sudokuEnv (encVisit ++ [.finish 0 ok ρ nonce])).offered = none := by
  refine ⟨?_, (C78_no_ciphertext smallNums S sudokuInst sudokuEnv _).2⟩
  rw [C78_attempt_fails smallNums S sudokuInst sudokuEnv encVisit 0 _ _ _ _ _ (by rw [enc_jobs]; rfl) ok ρ nonce]

/-- C78: the file offered in the custom tab. -/
example : ∃ h, (Play.after smallNums S customInst customEnv h).customOffered = some [7] ∧ (customUploads h).getLast? = some [7] := by
  obtain ⟨h, -, -, h3⟩ := C78_false_success smallNums S customInst customEnv [7] fullText (.obj full) (by simp [fullText]) fullText_parse true ρ nonce
  exact ⟨_, h3, C78_custom_offers_upload smallNums S customInst customEnv _ _ h3⟩

/-- C79: a second click while it runs, and the end. -/
example (ok : Bool) : (Play.after smallNums S sudokuInst sudokuEnv encVisit).loading = true ∧
    Play.after smallNums S sudokuInst sudokuEnv (encVisit ++ [.clickEncrypt]) = Play.after smallNums S sudokuInst sudokuEnv encVisit ∧
    (Play.after smallNums S sudokuInst sudokuEnv (encVisit ++ [.finish 0 ok ρ nonce])).loading = false := by
  have hj : (Play.after smallNums S sudokuInst sudokuEnv encVisit).jobs ≠ [] := by rw [enc_jobs]; simp
  exact ⟨(C79_one_call smallNums S sudokuInst sudokuEnv encVisit).2.2 hj,
    C79_buttons smallNums S sudokuInst sudokuEnv encVisit hj _ (.inr (.inl rfl)),
    (C79_free_again smallNums S sudokuInst sudokuEnv encVisit hj ok ρ nonce).2⟩

/-! ## Decryption in the Sudoku tab -/

theorem lim_ok : 51696 ≤ S.lim := by change 51696 ≤ 2 ^ 62; norm_num

theorem hi_dec : ([104, 105] : Bytes).length ≤ S.cipher.maxDec .js := by change 2 ≤ 2 ^ 36; norm_num

theorem hi_enc : ([104, 105] : Bytes).length ≤ S.cipher.maxEnc .js := by change 2 ≤ 2 ^ 36; norm_num

theorem loaded (E : PlayEnv) : (Play.after smallNums S sudokuInst E [.circuitsLoaded true]).activeTab = .sudoku ∧
    (Play.after smallNums S sudokuInst E [.circuitsLoaded true]).loading = false ∧
    (Play.after smallNums S sudokuInst E [.circuitsLoaded true]).circuitFiles ≠ none :=
  ⟨rfl, rfl, by simp [Play.after, Play.step]⟩

/-- C80: the text shown comes from a call of `decrypt`, and it stays when another ciphertext is uploaded. -/
example : ∃ h t, (Play.after smallNums S sudokuInst sudokuEnv h).shown = some t ∧
    (∃ h₁ ct m, (uploads h₁).getLast? = some ct ∧ jsDecryptApi smallNums S sudokuEnv.site.r1csBuffer (sudokuInst sudokuEnv.site.wasmBuffer) ct
        [("puzzle".toList, .arr (Play.after smallNums S sudokuInst sudokuEnv h₁).puzzle),
          ("solution".toList, .arr (Play.after smallNums S sudokuInst sudokuEnv h₁).solution)] = .ok m ∧ TextFor S m t) ∧
    (Play.after smallNums S sudokuInst sudokuEnv (h ++ [.ciphertextFile [1]])).shown = some t ∧
    (Play.after smallNums S sudokuInst sudokuEnv (h ++ [.ciphertextFile [1]])).uploadedCiphertext = some [1] := by
  obtain ⟨combined, -, typed, -, t, ht, -⟩ := sudoku_visit
  obtain ⟨h₁, -, -, -, -, -, ct, m, -, e1, -, -, e2, e3⟩ := C80_shown_text smallNums S sudokuInst sudokuEnv _ t ht
  obtain ⟨s1, s2, -⟩ := C80_stale smallNums S sudokuInst sudokuEnv _ t ht [1] 0 none
  exact ⟨_, t, ht, ⟨h₁, ct, m, e1, e2, e3⟩, s1, s2⟩

/-- A ciphertext for the puzzle of the repository's tests. -/
theorem repo_ct : ∃ combined, PuzzleCiphertext S repoPuzzle [104, 105] combined :=
  puzzle_encrypts S_json C76_who_decrypts.2.1 [104, 105] ρ delta_ne nonce rfl hi_enc

/-- C82: after the upload the page shows the puzzle; the grid is incomplete, so a click shows an error and starts nothing. C86: the button fills the grid. -/
example : ∃ combined, PuzzleCiphertext S repoPuzzle [104, 105] combined ∧
    (let h : List PlayEvent := [.circuitsLoaded true, .ciphertextFile combined]
     (Play.after smallNums S sudokuInst solverEnv h).puzzle = repoPuzzle.array ∧
     Play.after smallNums S sudokuInst solverEnv (h ++ [.clickDecrypt]) = { Play.after smallNums S sudokuInst solverEnv h with error := true } ∧
     Play.after smallNums S sudokuInst solverEnv (h ++ [.clickSolve]) =
       { Play.after smallNums S sudokuInst solverEnv h with solution := repoSolution.array, error := false }) := by
  obtain ⟨combined, hc⟩ := repo_ct
  obtain ⟨l1, l2, l3⟩ := loaded solverEnv
  obtain ⟨u1, u2, u3, u4, u5, u6, u7⟩ := C82_upload_and_type smallNums S sudokuInst solverEnv S_json lim_ok repoPuzzle C76_who_decrypts.2.1 [104, 105]
    combined hc [.circuitsLoaded true] l1 []
  simp only [List.map_nil, List.singleton_append] at u1 u2 u3 u4 u5 u6 u7
  refine ⟨combined, hc, u3, ?_, ?_⟩
  · exact C82_incomplete smallNums S sudokuInst solverEnv combined repoPuzzle repoPuzzle _
      ⟨u1, u2, u6.trans l2, by rw [u7]; exact l3, u5, u3, u4⟩ ⟨0, 2, rfl⟩
  · exact (C86_button smallNums S sudokuInst solverEnv _ u1 u2 (u6.trans l2) (by rw [u3]; simp [Grid.array])).1 _ (by rw [u3]; exact solver_solves)

/-- C82: the grid of the repository's tests is typed; with the last digit changed, an error instead. -/
example : ∃ combined typed, PuzzleCiphertext S repoPuzzle [104, 105] combined ∧ typedGrid repoPuzzle typed = repoSolution ∧
    (∃ t, (Play.after smallNums S sudokuInst sudokuEnv (([.circuitsLoaded true] ++ .ciphertextFile combined :: typed.map fun e => .typeSolution e.1 e.2) ++
        [.clickDecrypt, .finish 0 true ρ nonce])).shown = some t ∧ TextFor S [104, 105] t) ∧
    (Play.after smallNums S sudokuInst sudokuEnv (([.circuitsLoaded true] ++ .ciphertextFile combined :: ([] : List (Nat × Option Char)).map
        fun e => .typeSolution e.1 e.2) ++ [.clickDecrypt, .finish 0 true ρ nonce])).error = true := by
  obtain ⟨combined, hc⟩ := repo_ct
  obtain ⟨l1, l2, l3⟩ := loaded sudokuEnv
  obtain ⟨⟨typed, ht⟩, -⟩ := C82_solution_shows smallNums S sudokuInst sudokuEnv S_json lim_ok repoPuzzle C76_who_decrypts.2.1 [104, 105]
    combined hc hi_dec sudokuWasm sudoku_site [.circuitsLoaded true] l1 l2 l3 repoSolution repoSolution_solved.1 repoSolution_solved.2 ρ nonce
  have hw : ∀ typed, _ := fun typed => C82_visit smallNums S sudokuInst sudokuEnv S_json lim_ok repoPuzzle C76_who_decrypts.2.1 [104, 105]
    combined hc hi_dec sudokuWasm sudoku_site [.circuitsLoaded true] l1 l2 l3 typed ρ nonce
  refine ⟨combined, typed, hc, ht, ((hw typed).1 ?_).1, ((hw []).2 ?_).1⟩
  · rw [ht]
    exact ⟨fun r c => by revert r c; decide +kernel, solved_sums repoSolution_solved.1 repoSolution_solved.2⟩
  · rintro ⟨h0, -⟩
    exact h0 0 2 rfl

/-- C82: another puzzle is on the page, for which the grid is right; an error. -/
example : ∃ combined, PuzzleCiphertext S repoPuzzle [104, 105] combined ∧
    ∀ h, Ready (Play.after smallNums S sudokuInst sudokuEnv h) combined repoSolution repoSolution →
      (Play.after smallNums S sudokuInst sudokuEnv (h ++ [.clickDecrypt, .finish 0 true ρ nonce])).error = true := by
  obtain ⟨combined, hc⟩ := repo_ct
  refine ⟨combined, hc, fun h hr => ?_⟩
  refine ((C82_decrypt smallNums S sudokuInst sudokuEnv S_json lim_ok repoPuzzle C76_who_decrypts.2.1 [104, 105] combined hc hi_dec sudokuWasm sudoku_site
    repoSolution repoSolution (fun r c => by revert r c; decide +kernel) (fun r c => by revert r c; decide +kernel) (fun r c => by revert r c; decide +kernel) h hr ρ
    nonce).2 fun hh => ?_).2.1
  have : repoSolution 0 2 = repoPuzzle 0 2 := by rw [hh.1]
  exact absurd this (by decide +kernel)

/-- C82: someone who has not solved the puzzle reads the message. -/
example : ∃ combined typed, PuzzleCiphertext S repoPuzzle [104, 105] combined ∧ ¬ Solved (typedGrid repoPuzzle typed) ∧
    ∃ t, (Play.after smallNums S sudokuInst sudokuEnv (([.circuitsLoaded true] ++ .ciphertextFile combined :: typed.map fun e => .typeSolution e.1 e.2) ++
        [.clickDecrypt, .finish 0 true ρ nonce])).shown = some t ∧ TextFor S [104, 105] t := by
  obtain ⟨combined, hc⟩ := repo_ct
  obtain ⟨l1, l2, l3⟩ := loaded sudokuEnv
  obtain ⟨typed, h1, h2⟩ := C82_wrong_solution_shows smallNums S sudokuInst sudokuEnv S_json lim_ok [104, 105] combined hc hi_dec sudokuWasm sudoku_site
    [.circuitsLoaded true] l1 l2 l3 ρ nonce
  exact ⟨combined, typed, hc, h1, h2⟩

/-! ## The custom tab -/

/-- C80: the text in the custom tab comes from a call of `decrypt`. -/
example : ∃ h t, (Play.after smallNums S customInst customEnv h).customShown = some t ∧
    ∃ (files : PlayFiles) (ct : Bytes) (l : List (Str × JsVal)) (m : Bytes), jsDecryptApi smallNums S files.r1csBuffer (customInst files.wasmBuffer) ct l = .ok m ∧ TextFor S m t := by
  obtain ⟨b, k, -, t, ht, -⟩ := custom_flow
  obtain ⟨-, -, -, -, -, -, files, ct, -, l, m, -, -, -, -, -, e1, e2⟩ := C80_custom_shown_text smallNums S customInst customEnv _ t ht
  exact ⟨_, t, ht, files, ct, l, m, e1, e2⟩

theorem custom_idle (b : Bytes) : (Play.after smallNums S customInst customEnv (customVisit b)).loading = false := by
  simp only [Play.after, customVisit, List.foldl_cons, List.foldl_nil, Play.step, Play.customR1csFile, Play.customWasmFile, Play.customCiphertextFile]
  cases jsGetPublicInput S b <;> rfl

/-- C80: the call of `decrypt` fails. -/
example (b : Bytes) :
    (Play.after smallNums S customInst customEnv ((customVisit b ++ [.clickCustomDecrypt]) ++ [.finish 0 false ρ nonce])).customShown = none := by
  have hj : (Play.after smallNums S customInst customEnv (customVisit b ++ [.clickCustomDecrypt])).jobs[0]? =
      some (.decrypt .custom ⟨sqData, [1]⟩ b (.obj full)) := by
    rw [custom_click smallNums S customInst customEnv _ (custom_idle b) (custom_ready b)]
    rfl
  exact (C80_failure smallNums S customInst customEnv _ 0 .custom _ _ _ hj false ρ nonce (.inl rfl)).2.2 rfl

/-- C85: the fields of the visit. -/
example (b : Bytes) : (Play.after smallNums S customInst customEnv (customVisit b)).activeTab = .custom ∧
    (Play.after smallNums S customInst customEnv (customVisit b)).customPrivateInput = fullText ∧
    (Play.after smallNums S customInst customEnv (customVisit b)).customCiphertext = some b ∧
    (Play.after smallNums S customInst customEnv (customVisit b)).customCircuitFiles = some ⟨sqData, [1]⟩ := by
  obtain ⟨f1, -, -, f4, f5, f6⟩ := C85_fields smallNums S customInst customEnv (customVisit b)
  refine ⟨f1, f4.trans ?_, f5, f6⟩
  simp [privateField, customVisit, putPrivate, List.findSome?]

/-- C85: without a ciphertext nothing is called. -/
example : (Play.after smallNums S customInst customEnv ([.selectTab .custom, .customR1csFile sqData] ++ [.clickCustomDecrypt])).jobs = [] := by
  rcases C85_not_ready smallNums S customInst customEnv [.selectTab .custom, .customR1csFile sqData]
    (by rintro ⟨_, _, _, _, h⟩; cases h.ct) with h | h <;> rw [h] <;> rfl

/-- C85: the message, for the numbers 9 and 3. -/
example : ∃ b k, jsEncrypt S sqData sym inputs [104, 105] true ρ nonce = .ok (b, k) ∧
    (∀ wtns v, calculateWitness smallNums (customInst [1]) full = .ok wtns → jsParseWtns wtns = .ok v →
      (v.length = sq.nWires ∧ Accepted sq v ∧ JsEnforced (jsParseSymFile sym) (sq.nPubOut + sq.nPubIn) inputs v →
        ∃ t, (Play.after smallNums S customInst customEnv (customVisit b ++ [.clickCustomDecrypt, .finish 0 true ρ nonce])).customShown = some t ∧
          TextFor S [104, 105] t) ∧
      (¬ (v.length = sq.nWires ∧ Accepted sq v ∧ JsEnforced (jsParseSymFile sym) (sq.nPubOut + sq.nPubIn) inputs v) →
        (Play.after smallNums S customInst customEnv (customVisit b ++ [.clickCustomDecrypt, .finish 0 true ρ nonce])).error = true)) := by
  obtain ⟨b, k, hb, -⟩ := custom_flow
  have := C85_message smallNums S customInst customEnv (customVisit b) (custom_idle b) sqData [1] b full (custom_ready b) sq sqData_js sq_wf sq_ct
    (by simp [sq]) [104, 105] hi_dec _ (.js sym inputs sqData_js js_noAlias js_small true ρ nonce rfl (fun _ s hs => stringify_len s hs) k hb) ρ nonce
  exact ⟨b, k, hb, fun wtns v hw hv => ⟨fun h => ((this.1 wtns v hw hv).1 h).1, fun h => ((this.1 wtns v hw hv).2 h).2⟩⟩

end Ex

end Zkenc.Props
