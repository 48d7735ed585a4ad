import Verif.Model.Playground
import Verif.Props.EndToEndExample
/-!
# C78, C79, C80: the playground of the documentation site

The theorems are about the page after any history of events: clicks, typing, files read, promises settled, in any order.
-/

namespace Zkenc.PlaySpec

open Zkenc

/-- The ciphertext files read in the Sudoku tab, in order. -/
def uploads : List PlayEvent → List Bytes
  | [] => []
  | .ciphertextFile b :: h => b :: uploads h
  | _ :: h => uploads h

/-- The ciphertext files read in the custom tab, in order. -/
def customUploads : List PlayEvent → List Bytes
  | [] => []
  | .customCiphertextFile b :: h => b :: customUploads h
  | _ :: h => customUploads h

/-- An array without zeros. -/
def NoZeros (l : List JsVal) : Prop := ∀ v ∈ l, v ≠ .num 0

/-- The text shown for a decrypted message: an empty one is replaced by a fixed text. -/
def TextFor {G1 G2 GT : Type} [AddCommGroup G1] [Module Fr G1] [AddCommGroup G2] [Module Fr G2] [AddCommGroup GT] [Module Fr GT]
    (S : Sys G1 G2 GT) (m : Bytes) (t : Str) : Prop :=
  (textDecode S m ≠ [] ∧ t = textDecode S m) ∨ (textDecode S m = [] ∧ t = "Decryption successful!".toList)

end Zkenc.PlaySpec

namespace Zkenc.Props

open Zkenc Zkenc.PlaySpec

section
variable {σ : Type} (N : JsNums) {G1 G2 GT : Type} [AddCommGroup G1] [Module Fr G1] [AddCommGroup G2] [Module Fr G2] [AddCommGroup GT]
  [Module Fr GT] (S : Sys G1 G2 GT) (inst : Bytes → Res (CircuitWasm σ)) (E : PlayEnv)

theorem play_after_snoc (h : List PlayEvent) (e : PlayEvent) :
    Play.after N S inst E (h ++ [e]) = (Play.after N S inst E h).step N S inst E e := by
  unfold Play.after
  rw [List.foldl_append]
  rfl

theorem play_after_append (h h' : List PlayEvent) :
    Play.after N S inst E (h ++ h') = h'.foldl (fun s e => s.step N S inst E e) (Play.after N S inst E h) := by
  unfold Play.after
  rw [List.foldl_append]

theorem uploads_append (h h' : List PlayEvent) : uploads (h ++ h') = uploads h ++ uploads h' := by
  induction h with
  | nil => rfl
  | cons e h ih => cases e <;> simp [uploads, ih]

theorem customUploads_append (h h' : List PlayEvent) : customUploads (h ++ h') = customUploads h ++ customUploads h' := by
  induction h with
  | nil => rfl
  | cons e h ih => cases e <;> simp [customUploads, ih]

theorem playEncrypt_fails (files : PlayFiles) (inputs : JsVal) (m : Bytes) (incl ok : Bool) (ρ : Rand Fr) (nonce : Bytes) :
    ∃ e, playEncrypt S files inputs m incl ok ρ nonce = .error e := by
  unfold playEncrypt
  split
  · exact ⟨_, rfl⟩
  · exact ⟨_, rfl⟩

/-- Settling changes only what is listed. -/
theorem settle_cases (s : Play) (ok : Bool) (ρ : Rand Fr) (nonce : Bytes) (j : PlayJob) :
    (∃ tab f i m b, j = .encrypt tab f i m b ∧ s.settle N S inst ok ρ nonce j = { s with error := true, loading := false }) ∨
    (∃ tab f c i, j = .decrypt tab f c i ∧ ((∃ e, playDecrypt N S inst f c i ok = .error e) ∧
      s.settle N S inst ok ρ nonce j = { s with error := true, loading := false } ∨
      (∃ b, playDecrypt N S inst f c i ok = .ok b ∧ ((tab = .sudoku ∧
        s.settle N S inst ok ρ nonce j = { s with decrypted := shownText (textDecode S b), loading := false }) ∨ (tab = .custom ∧
        s.settle N S inst ok ρ nonce j = { s with customDecrypted := shownText (textDecode S b), loading := false }))))) := by
  cases j with
  | encrypt tab f i m b =>
    obtain ⟨e, he⟩ := playEncrypt_fails S f i m b ok ρ nonce
    exact Or.inl ⟨tab, f, i, m, b, rfl, by simp only [Play.settle, he]⟩
  | decrypt tab f c i =>
    refine Or.inr ⟨tab, f, c, i, rfl, ?_⟩
    cases h : playDecrypt N S inst f c i ok with
    | error e => exact Or.inl ⟨⟨e, rfl⟩, by simp only [Play.settle, h]⟩
    | ok b =>
      refine Or.inr ⟨b, rfl, ?_⟩
      cases tab <;> simp [Play.settle, h]

/-! ## C78: the playground does not encrypt -/

/-- What no event changes, except reading a file. -/
theorem step_ciphertexts (s : Play) (e : PlayEvent) :
    (s.step N S inst E e).ciphertext = s.ciphertext ∧
    (s.step N S inst E e).uploadedCiphertext = (uploads [e]).getLast?.or s.uploadedCiphertext ∧
    (s.step N S inst E e).customCiphertext = (customUploads [e]).getLast?.or s.customCiphertext := by
  cases e with
  | finish i ok ρ nonce =>
    simp only [Play.step, uploads, customUploads]
    split
    · simp
    · rename_i job _
      rcases settle_cases N S inst { s with jobs := s.jobs.eraseIdx i } ok ρ nonce job with
        ⟨_, _, _, _, _, -, h⟩ | ⟨_, _, _, _, -, ⟨-, h⟩ | ⟨_, -, ⟨-, h⟩ | ⟨-, h⟩⟩⟩ <;> rw [h] <;> simp
  | circuitsLoaded ok => cases ok <;> simp [Play.step, uploads, customUploads]
  | generate raw => simp only [Play.step, Play.generate, uploads, customUploads]; split <;> simp
  | typePuzzle i c => simp only [Play.step, Play.typePuzzle, uploads, customUploads]; split <;> simp
  | typeSolution i c => simp only [Play.step, Play.typeSolution, uploads, customUploads]; split <;> simp
  | clickSolve =>
      simp only [Play.step, Play.clickSolve, uploads, customUploads]
      repeat' split
      all_goals simp
  | clickEncrypt =>
      simp only [Play.step, Play.clickEncrypt, uploads, customUploads]
      repeat' split
      all_goals simp
  | clickDecrypt =>
      simp only [Play.step, Play.clickDecrypt, uploads, customUploads]
      repeat' split
      all_goals simp
  | ciphertextFile b =>
      simp only [Play.step, Play.ciphertextFile, uploads, customUploads]
      repeat' split
      all_goals simp
  | customCiphertextFile b =>
      simp only [Play.step, Play.customCiphertextFile, uploads, customUploads]
      repeat' split
      all_goals simp
  | publicInputFile t => simp only [Play.step, uploads, customUploads]; split <;> simp
  | privateInputFile t => simp only [Play.step, uploads, customUploads]; split <;> simp
  | clickCustomEncrypt =>
      simp only [Play.step, Play.clickCustomEncrypt, uploads, customUploads]
      repeat' split
      all_goals simp
  | clickCustomDecrypt =>
      simp only [Play.step, Play.clickCustomDecrypt, uploads, customUploads]
      repeat' split
      all_goals simp
  | _ => simp [Play.step, uploads, customUploads, Play.customR1csFile, Play.customWasmFile]

theorem play_ciphertexts (h : List PlayEvent) :
    (Play.after N S inst E h).ciphertext = none ∧ (Play.after N S inst E h).uploadedCiphertext = (uploads h).getLast? ∧
    (Play.after N S inst E h).customCiphertext = (customUploads h).getLast? := by
  induction h using List.reverseRecOn with
  | nil => exact ⟨rfl, rfl, rfl⟩
  | append_singleton h e ih =>
    rw [play_after_snoc]
    obtain ⟨h1, h2, h3⟩ := step_ciphertexts N S inst E (Play.after N S inst E h) e
    rw [h1, h2, h3, ih.1, ih.2.1, ih.2.2, uploads_append, customUploads_append, List.getLast?_append, List.getLast?_append]
    exact ⟨rfl, rfl, rfl⟩

/-- **C78** — whatever is done in the playground, the Sudoku tab never has a ciphertext to offer. -/
theorem C78_no_ciphertext (h : List PlayEvent) :
    (Play.after N S inst E h).ciphertext = none ∧ (Play.after N S inst E h).offered = none := by
  obtain ⟨h1, -, -⟩ := play_ciphertexts N S inst E h
  refine ⟨h1, ?_⟩
  unfold Play.offered
  split
  · exact h1
  · rfl

/-- **C78** (the custom tab) — the file it offers as the result of an encryption is always the ciphertext file uploaded last. -/
theorem C78_custom_offers_upload (h : List PlayEvent) (b : Bytes) (hb : (Play.after N S inst E h).customOffered = some b) :
    (customUploads h).getLast? = some b := by
  obtain ⟨-, -, h3⟩ := play_ciphertexts N S inst E h
  unfold Play.customOffered at hb
  split at hb
  · rw [← h3, hb]
  · cases hb

/-- **C78** (every attempt fails) — when a call of `encrypt` made by the page ends, an error is shown and nothing else than the loading state
has changed. -/
theorem C78_attempt_fails (h : List PlayEvent) (i : Nat) (tab : PlayTab) (files : PlayFiles) (inputs : JsVal) (m : Bytes) (incl : Bool)
    (hj : (Play.after N S inst E h).jobs[i]? = some (.encrypt tab files inputs m incl)) (ok : Bool) (ρ : Rand Fr) (nonce : Bytes) :
    Play.after N S inst E (h ++ [.finish i ok ρ nonce]) =
      { Play.after N S inst E h with error := true, loading := false, jobs := (Play.after N S inst E h).jobs.eraseIdx i } := by
  rw [play_after_snoc]
  simp only [Play.step, hj]
  obtain ⟨e, he⟩ := playEncrypt_fails S files inputs m incl ok ρ nonce
  simp only [Play.settle, he]

/-! ## The shape of a step -/

/-- What the handlers capture when they call `decrypt`. -/
def CapturedIn (s : Play) (files : PlayFiles) (ct : Bytes) (inputs : JsVal) : PlayTab → Prop
  | .sudoku => s.circuitFiles = some files ∧ s.ciphertextToUse = some ct ∧
      inputs = .obj [("puzzle".toList, .arr s.puzzle), ("solution".toList, .arr s.solution)] ∧ s.solution.length = 81 ∧ NoZeros s.solution
  | .custom => s.customCircuitFiles = some files ∧ s.customCiphertext = some ct ∧
      S.jsonParse (if s.customPrivateInput = [] then s.customPublicInput else s.customPrivateInput) = some inputs

/-- The click that starts a decryption. -/
def decryptClick : PlayTab → PlayEvent
  | .sudoku => .clickDecrypt
  | .custom => .clickCustomDecrypt

/-- The decrypted text of a tab. -/
def _root_.Zkenc.Play.textOf (s : Play) : PlayTab → Str
  | .sudoku => s.decrypted
  | .custom => s.customDecrypted

/-- Nothing that concerns calls has changed. -/
def Quiet (s t : Play) : Prop :=
  t.jobs = s.jobs ∧ t.loading = s.loading ∧ t.decrypted = s.decrypted ∧ t.customDecrypted = s.customDecrypted ∧
    (t.circuitFiles = s.circuitFiles ∨ t.circuitFiles = some E.site)

/-- A call has been started by the event. -/
def Starts (s : Play) (e : PlayEvent) (t : Play) (j : PlayJob) : Prop :=
  s.loading = false ∧ t.jobs = s.jobs ++ [j] ∧ t.loading = true ∧ t.circuitFiles = s.circuitFiles ∧
    (t.decrypted = s.decrypted ∨ t.decrypted = []) ∧ (t.customDecrypted = s.customDecrypted ∨ t.customDecrypted = []) ∧
    ∀ tab f c i, j = .decrypt tab f c i → e = decryptClick tab ∧ CapturedIn S s f c i tab ∧ t.textOf tab = []

theorem noZeros_of_any {l : List JsVal} (h : ¬ (l.any isZero = true)) : NoZeros l := by
  intro v hv h0
  subst h0
  exact h (List.any_eq_true.2 ⟨_, hv, rfl⟩)

theorem step_shape (s : Play) (e : PlayEvent) :
    Quiet E s (s.step N S inst E e) ∨ (∃ j, Starts S s e (s.step N S inst E e) j) ∨
    (∃ i ok ρ nonce j, e = .finish i ok ρ nonce ∧ s.jobs[i]? = some j ∧
      s.step N S inst E e = ({ s with jobs := s.jobs.eraseIdx i } : Play).settle N S inst ok ρ nonce j) := by
  have q : Quiet E s s := ⟨rfl, rfl, rfl, rfl, Or.inl rfl⟩
  have qe : Quiet E s { s with error := true } := ⟨rfl, rfl, rfl, rfl, Or.inl rfl⟩
  cases e with
  | finish i ok ρ nonce =>
    cases hj : s.jobs[i]? with
    | none => exact Or.inl (by simpa [Play.step, hj] using q)
    | some j => exact Or.inr (Or.inr ⟨i, ok, ρ, nonce, j, rfl, hj, by simp only [Play.step, hj]⟩)
  | circuitsLoaded ok =>
    refine Or.inl ?_
    cases ok
    · exact qe
    · exact ⟨rfl, rfl, rfl, rfl, Or.inr rfl⟩
  | generate raw =>
    refine Or.inl ?_
    simp only [Play.step, Play.generate]
    split
    · exact ⟨rfl, rfl, rfl, rfl, Or.inl rfl⟩
    · exact q
  | typePuzzle i c =>
    refine Or.inl ?_
    simp only [Play.step, Play.typePuzzle]
    split
    · exact ⟨rfl, rfl, rfl, rfl, Or.inl rfl⟩
    · exact q
  | typeSolution i c =>
    refine Or.inl ?_
    simp only [Play.step, Play.typeSolution]
    split
    · exact ⟨rfl, rfl, rfl, rfl, Or.inl rfl⟩
    · exact q
  | clickSolve =>
    refine Or.inl ?_
    simp only [Play.step, Play.clickSolve]
    repeat' split
    all_goals first | exact q | exact ⟨rfl, rfl, rfl, rfl, Or.inl rfl⟩
  | clickEncrypt =>
    simp only [Play.step, Play.clickEncrypt]
    split
    · rename_i hc
      repeat' split
      · exact Or.inl qe
      · exact Or.inl qe
      · exact Or.inr (Or.inl ⟨_, hc.2.2.1, rfl, rfl, rfl, Or.inl rfl, Or.inl rfl, by intro _ _ _ _ h; cases h⟩)
    · exact Or.inl q
  | clickDecrypt =>
    simp only [Play.step, Play.clickDecrypt]
    split
    · rename_i hc
      split
      · exact Or.inl q
      · rename_i ct hct
        split
        · exact Or.inl qe
        · rename_i files hf
          split
          · exact Or.inl qe
          · rename_i hz
            split
            · exact Or.inl qe
            · rename_i hl
              refine Or.inr (Or.inl ⟨_, hc.2.2, rfl, rfl, rfl, Or.inr rfl, Or.inl rfl, ?_⟩)
              rintro _ _ _ _ h
              cases h
              exact ⟨rfl, ⟨hf, hct, rfl, not_not.1 hl, noZeros_of_any hz⟩, rfl⟩
    · exact Or.inl q
  | ciphertextFile b =>
    refine Or.inl ?_
    simp only [Play.step, Play.ciphertextFile]
    repeat' split
    all_goals exact ⟨rfl, rfl, rfl, rfl, Or.inl rfl⟩
  | customCiphertextFile b =>
    refine Or.inl ?_
    simp only [Play.step, Play.customCiphertextFile]
    repeat' split
    all_goals exact ⟨rfl, rfl, rfl, rfl, Or.inl rfl⟩
  | publicInputFile t =>
    refine Or.inl ?_
    simp only [Play.step]
    split
    all_goals exact ⟨rfl, rfl, rfl, rfl, Or.inl rfl⟩
  | privateInputFile t =>
    refine Or.inl ?_
    simp only [Play.step]
    split
    all_goals exact ⟨rfl, rfl, rfl, rfl, Or.inl rfl⟩
  | clickCustomEncrypt =>
    simp only [Play.step, Play.clickCustomEncrypt]
    split
    · rename_i hc
      repeat' split
      · exact Or.inl q
      · exact Or.inl qe
      · exact Or.inl qe
      · exact Or.inl qe
      · exact Or.inr (Or.inl ⟨_, hc.2.2.1, rfl, rfl, rfl, Or.inl rfl, Or.inl rfl, by intro _ _ _ _ h; cases h⟩)
    · exact Or.inl q
  | clickCustomDecrypt =>
    simp only [Play.step, Play.clickCustomDecrypt]
    split
    · rename_i hc
      split
      · rename_i ct files hct hf
        split
        · exact Or.inl qe
        · split
          · exact Or.inl qe
          · rename_i v hv
            refine Or.inr (Or.inl ⟨_, hc.2.2, rfl, rfl, rfl, Or.inl rfl, Or.inr rfl, ?_⟩)
            rintro _ _ _ _ h
            cases h
            exact ⟨rfl, ⟨hf, hct, hv⟩, rfl⟩
      · exact Or.inl q
    · exact Or.inl q
  | _ => exact Or.inl ⟨rfl, rfl, rfl, rfl, Or.inl rfl⟩

/-- What an ended call leaves behind. -/
theorem settle_shape (s : Play) (i : Nat) (ok : Bool) (ρ : Rand Fr) (nonce : Bytes) (j : PlayJob) :
    let t := ({ s with jobs := s.jobs.eraseIdx i } : Play).settle N S inst ok ρ nonce j
    t.jobs = s.jobs.eraseIdx i ∧ t.loading = false ∧ t.circuitFiles = s.circuitFiles ∧
    (t.decrypted = s.decrypted ∨ ∃ f c v b, j = .decrypt .sudoku f c v ∧ playDecrypt N S inst f c v ok = .ok b ∧ TextFor S b t.decrypted) ∧
    (t.customDecrypted = s.customDecrypted ∨
      ∃ f c v b, j = .decrypt .custom f c v ∧ playDecrypt N S inst f c v ok = .ok b ∧ TextFor S b t.customDecrypted) := by
  have textFor_shown : ∀ m : Bytes, TextFor S m (shownText (textDecode S m)) := by
    intro m
    unfold TextFor shownText
    by_cases h : textDecode S m = []
    · exact Or.inr ⟨h, by rw [if_pos h]⟩
    · exact Or.inl ⟨h, by rw [if_neg h]⟩
  rcases settle_cases N S inst { s with jobs := s.jobs.eraseIdx i } ok ρ nonce j with
    ⟨_, _, _, _, _, -, h⟩ | ⟨tab, f, c, v, hj, ⟨-, h⟩ | ⟨b, hb, ⟨rfl, h⟩ | ⟨rfl, h⟩⟩⟩ <;> intro t <;> have ht : t = _ := h <;>
      clear_value t <;> subst ht
  · exact ⟨rfl, rfl, rfl, Or.inl rfl, Or.inl rfl⟩
  · exact ⟨rfl, rfl, rfl, Or.inl rfl, Or.inl rfl⟩
  · exact ⟨rfl, rfl, rfl, Or.inr ⟨f, c, v, b, hj, hb, textFor_shown b⟩, Or.inl rfl⟩
  · exact ⟨rfl, rfl, rfl, Or.inl rfl, Or.inr ⟨f, c, v, b, hj, hb, textFor_shown b⟩⟩

theorem files_site (h : List PlayEvent) (f : PlayFiles) (hf : (Play.after N S inst E h).circuitFiles = some f) : f = E.site := by
  induction h using List.reverseRecOn with
  | nil => cases hf
  | append_singleton h e ih =>
    rw [play_after_snoc] at hf
    rcases step_shape N S inst E (Play.after N S inst E h) e with ⟨-, -, -, -, h1 | h1⟩ | ⟨j, -, -, -, h1, -⟩ | ⟨i, ok, ρ, nonce, j, rfl, -, h1⟩
    · exact ih (h1 ▸ hf)
    · rw [h1] at hf
      exact (Option.some.inj hf).symm
    · exact ih (h1 ▸ hf)
    · rw [h1, (settle_shape N S inst _ i ok ρ nonce j).2.2.1] at hf
      exact ih hf

/-! ## C79: one operation at a time -/

theorem play_loading (h : List PlayEvent) :
    (Play.after N S inst E h).jobs.length = if (Play.after N S inst E h).loading then 1 else 0 := by
  induction h using List.reverseRecOn with
  | nil => rfl
  | append_singleton h e ih =>
    rw [play_after_snoc]
    rcases step_shape N S inst E (Play.after N S inst E h) e with ⟨h1, h2, -⟩ | ⟨j, h0, h1, h2, -⟩ | ⟨i, ok, ρ, nonce, j, rfl, hj, h1⟩
    · rw [h1, h2]; exact ih
    · rw [h0] at ih
      rw [h1, h2, List.length_append, ih]
      rfl
    · have hs := settle_shape N S inst (Play.after N S inst E h) i ok ρ nonce j
      rw [h1, hs.1, hs.2.1]
      have hi := (List.getElem?_eq_some_iff.1 hj).1
      rw [List.length_eraseIdx_of_lt hi]
      split at ih <;> simp <;> omega

/-- **C79** — at most one call is in flight, and the page shows that it is working exactly while one is. -/
theorem C79_one_call (h : List PlayEvent) :
    (Play.after N S inst E h).jobs.length ≤ 1 ∧ ((Play.after N S inst E h).loading = true ↔ (Play.after N S inst E h).jobs ≠ []) := by
  have := play_loading N S inst E h
  cases hl : (Play.after N S inst E h).loading <;> rw [hl] at this
  · refine ⟨by rw [this]; decide, ?_⟩
    have h0 : (Play.after N S inst E h).jobs = [] := List.length_eq_zero_iff.1 (by simpa using this)
    simp [h0]
  · refine ⟨by rw [this]; decide, ?_⟩
    have h1 : (Play.after N S inst E h).jobs.length = 1 := by simpa using this
    constructor
    · intro _ h0
      rw [h0] at h1
      cases h1
    · intro _; rfl

/-- **C79** (buttons) — while a call is in flight the five buttons that start work do nothing. -/
theorem C79_buttons (h : List PlayEvent) (hj : (Play.after N S inst E h).jobs ≠ []) (e : PlayEvent)
    (he : e = .clickSolve ∨ e = .clickEncrypt ∨ e = .clickDecrypt ∨ e = .clickCustomEncrypt ∨ e = .clickCustomDecrypt) :
    Play.after N S inst E (h ++ [e]) = Play.after N S inst E h := by
  have hl := (C79_one_call N S inst E h).2.2 hj
  rw [play_after_snoc]
  rcases he with rfl | rfl | rfl | rfl | rfl <;>
    simp [Play.step, Play.clickSolve, Play.clickEncrypt, Play.clickDecrypt, Play.clickCustomEncrypt, Play.clickCustomDecrypt, hl]

/-- **C79** (the page becomes free again) — when the call in flight ends, well or not, no call is in flight and the page is no longer working. -/
theorem C79_free_again (h : List PlayEvent) (hj : (Play.after N S inst E h).jobs ≠ []) (ok : Bool) (ρ : Rand Fr) (nonce : Bytes) :
    (Play.after N S inst E (h ++ [.finish 0 ok ρ nonce])).jobs = [] ∧ (Play.after N S inst E (h ++ [.finish 0 ok ρ nonce])).loading = false := by
  have h1 := (C79_one_call N S inst E h).1
  rw [play_after_snoc]
  generalize Play.after N S inst E h = s at hj h1
  match hs : s.jobs, h1, hj with
  | [j], _, _ =>
    simp only [Play.step, hs, List.getElem?_cons_zero]
    rcases settle_cases N S inst { s with jobs := List.eraseIdx [j] 0 } ok ρ nonce j with
      ⟨_, _, _, _, _, -, h⟩ | ⟨_, _, _, _, -, ⟨-, h⟩ | ⟨_, -, ⟨-, h⟩ | ⟨-, h⟩⟩⟩ <;> rw [h] <;> simp

/-! ## C80: what is shown as the decrypted message -/

/-- The `decrypt` calls in flight were started by a click, with the page's values at that moment. -/
theorem play_jobs (h : List PlayEvent) (i : Nat) (tab : PlayTab) (f : PlayFiles) (c : Bytes) (v : JsVal)
    (hj : (Play.after N S inst E h).jobs[i]? = some (.decrypt tab f c v)) :
    ∃ h₁ h₂, h = h₁ ++ decryptClick tab :: h₂ ∧ CapturedIn S (Play.after N S inst E h₁) f c v tab := by
  induction h using List.reverseRecOn generalizing i with
  | nil => simp [Play.after] at hj
  | append_singleton h e ih =>
    have extend : (∃ h₁ h₂, h = h₁ ++ decryptClick tab :: h₂ ∧ CapturedIn S (Play.after N S inst E h₁) f c v tab) →
        ∃ h₁ h₂, h ++ [e] = h₁ ++ decryptClick tab :: h₂ ∧ CapturedIn S (Play.after N S inst E h₁) f c v tab := by
      rintro ⟨h₁, h₂, rfl, hc⟩
      exact ⟨h₁, h₂ ++ [e], by simp, hc⟩
    rw [play_after_snoc] at hj
    rcases step_shape N S inst E (Play.after N S inst E h) e with ⟨h1, -⟩ | ⟨j, -, h1, -, -, -, -, hst⟩ | ⟨k, ok, ρ, nonce, j, rfl, -, h1⟩
    · rw [h1] at hj
      exact extend (ih i hj)
    · rw [h1] at hj
      by_cases hi : i < (Play.after N S inst E h).jobs.length
      · rw [List.getElem?_append_left hi] at hj
        exact extend (ih i hj)
      · rw [List.getElem?_append_right (by omega)] at hj
        have hj' : j = PlayJob.decrypt tab f c v := by
          have : i - (Play.after N S inst E h).jobs.length = 0 := by
            have := (List.getElem?_eq_some_iff.1 hj).1
            simpa using this
          rw [this] at hj
          exact Option.some.inj hj
        obtain ⟨rfl, hc, -⟩ := hst _ _ _ _ hj'
        exact ⟨h, [], by simp, hc⟩
    · rw [h1, (settle_shape N S inst _ k ok ρ nonce j).1] at hj
      obtain ⟨i', hi'⟩ : ∃ i', (Play.after N S inst E h).jobs[i']? = some (PlayJob.decrypt tab f c v) := by
        have := List.mem_of_mem_eraseIdx (List.mem_of_getElem? hj)
        exact List.getElem?_of_mem this
      exact extend (ih i' hi')

/-- **C80** — a text shown as decrypted message in the Sudoku tab is what `decrypt` returned for the site's circuit, the ciphertext file that was
the last one uploaded, and the puzzle and the complete solution that were on the page, all at a moment when the button was clicked. -/
theorem C80_shown_text (h : List PlayEvent) (t : Str) (ht : (Play.after N S inst E h).shown = some t) :
    ∃ h₁ h₂ i ρ nonce h₃ ct m, h = h₁ ++ .clickDecrypt :: (h₂ ++ .finish i true ρ nonce :: h₃) ∧
      (uploads h₁).getLast? = some ct ∧ (Play.after N S inst E h₁).solution.length = 81 ∧ NoZeros (Play.after N S inst E h₁).solution ∧
      jsDecryptApi N S E.site.r1csBuffer (inst E.site.wasmBuffer) ct
        [("puzzle".toList, .arr (Play.after N S inst E h₁).puzzle), ("solution".toList, .arr (Play.after N S inst E h₁).solution)] = .ok m ∧
      TextFor S m t := by
  have hd : (Play.after N S inst E h).decrypted = t ∧ t ≠ [] := by
    unfold Play.shown at ht
    split at ht
    · rename_i hc
      cases ht
      exact ⟨rfl, hc.2.2⟩
    · cases ht
  obtain ⟨hd, hne⟩ := hd
  clear ht
  induction h using List.reverseRecOn with
  | nil => exact absurd hd.symm hne
  | append_singleton h e ih =>
    by_cases hprev : (Play.after N S inst E h).decrypted = t
    · obtain ⟨h₁, h₂, i, ρ, nonce, h₃, ct, m, rfl, hrest⟩ := ih hprev
      exact ⟨h₁, h₂, i, ρ, nonce, h₃ ++ [e], ct, m, by simp, hrest⟩
    rw [play_after_snoc] at hd
    rcases step_shape N S inst E (Play.after N S inst E h) e with ⟨-, -, h1, -⟩ | ⟨j, -, -, -, -, h1 | h1, -⟩ | ⟨k, ok, ρ, nonce, j, rfl, hj, h1⟩
    · exact absurd (h1 ▸ hd) hprev
    · exact absurd (h1 ▸ hd) hprev
    · exact absurd (h1 ▸ hd).symm hne
    · have hs := (settle_shape N S inst (Play.after N S inst E h) k ok ρ nonce j).2.2.2.1
      rw [← h1] at hs
      rcases hs with hs | ⟨f, c, v, b, rfl, hb, htext⟩
      · exact absurd (hs ▸ hd) hprev
      · obtain ⟨h₁, h₂, rfl, hf, hct, hv, hlen, hz⟩ := play_jobs N S inst E h k .sudoku f c v hj
        obtain rfl := files_site N S inst E h₁ f hf
        obtain ⟨p1, p2, -⟩ := play_ciphertexts N S inst E h₁
        have hup : (uploads h₁).getLast? = some c := by
          unfold Play.ciphertextToUse at hct
          rw [p1, p2] at hct
          cases hl : (uploads h₁).getLast? with
          | none => rw [hl] at hct; cases hct
          | some c' => rw [hl] at hct; exact hct
        unfold playDecrypt at hb
        split at hb
        · cases hb
        · rename_i hok
          have hok : ok = true := by simpa using hok
          subst hok hv
          refine ⟨h₁, h₂, k, ρ, nonce, [], c, b, by simp [decryptClick], hup, hlen, hz, ?_, hd ▸ htext⟩
          simpa [jsEntries] using hb

/-- **C80** (custom tab). -/
theorem C80_custom_shown_text (h : List PlayEvent) (t : Str) (ht : (Play.after N S inst E h).customShown = some t) :
    ∃ h₁ h₂ i ρ nonce h₃ files ct v l m, h = h₁ ++ .clickCustomDecrypt :: (h₂ ++ .finish i true ρ nonce :: h₃) ∧
      (customUploads h₁).getLast? = some ct ∧ (Play.after N S inst E h₁).customCircuitFiles = some files ∧
      S.jsonParse (if (Play.after N S inst E h₁).customPrivateInput = [] then (Play.after N S inst E h₁).customPublicInput
        else (Play.after N S inst E h₁).customPrivateInput) = some v ∧ jsEntries v = .ok l ∧
      jsDecryptApi N S files.r1csBuffer (inst files.wasmBuffer) ct l = .ok m ∧ TextFor S m t := by
  have hd : (Play.after N S inst E h).customDecrypted = t ∧ t ≠ [] := by
    unfold Play.customShown at ht
    split at ht
    · rename_i hc
      cases ht
      exact ⟨rfl, hc.2.2⟩
    · cases ht
  obtain ⟨hd, hne⟩ := hd
  clear ht
  induction h using List.reverseRecOn with
  | nil => exact absurd hd.symm hne
  | append_singleton h e ih =>
    by_cases hprev : (Play.after N S inst E h).customDecrypted = t
    · obtain ⟨h₁, h₂, i, ρ, nonce, h₃, files, ct, v, l, m, rfl, hrest⟩ := ih hprev
      exact ⟨h₁, h₂, i, ρ, nonce, h₃ ++ [e], files, ct, v, l, m, by simp, hrest⟩
    rw [play_after_snoc] at hd
    rcases step_shape N S inst E (Play.after N S inst E h) e with ⟨-, -, -, h1, -⟩ | ⟨j, -, -, -, -, -, h1 | h1, -⟩ | ⟨k, ok, ρ, nonce, j, rfl, hj, h1⟩
    · exact absurd (h1 ▸ hd) hprev
    · exact absurd (h1 ▸ hd) hprev
    · exact absurd (h1 ▸ hd).symm hne
    · have hs := (settle_shape N S inst (Play.after N S inst E h) k ok ρ nonce j).2.2.2.2
      rw [← h1] at hs
      rcases hs with hs | ⟨f, c, v, b, rfl, hb, htext⟩
      · exact absurd (hs ▸ hd) hprev
      · obtain ⟨h₁, h₂, rfl, hf, hct, hv⟩ := play_jobs N S inst E h k .custom f c v hj
        obtain ⟨-, -, p3⟩ := play_ciphertexts N S inst E h₁
        rw [p3] at hct
        unfold playDecrypt at hb
        split at hb
        · cases hb
        · rename_i hok
          have hok : ok = true := by simpa using hok
          subst hok
          obtain ⟨l, hl, hb⟩ := Res.bind_eq_ok.1 hb
          exact ⟨h₁, h₂, k, ρ, nonce, [], f, c, v, l, b, by simp [decryptClick], hct, hf, hv, hl, hb, hd ▸ htext⟩

/-- While a decryption is in flight no text is shown in its tab. -/
theorem play_no_text (h : List PlayEvent) (i : Nat) (tab : PlayTab) (f : PlayFiles) (c : Bytes) (v : JsVal)
    (hj : (Play.after N S inst E h).jobs[i]? = some (.decrypt tab f c v)) : (Play.after N S inst E h).textOf tab = [] := by
  induction h using List.reverseRecOn generalizing i with
  | nil => simp [Play.after] at hj
  | append_singleton h e ih =>
    have hone := (C79_one_call N S inst E (h ++ [e])).1
    rw [play_after_snoc] at hj hone ⊢
    rcases step_shape N S inst E (Play.after N S inst E h) e with ⟨h1, -, h2, h3, -⟩ | ⟨j, -, h1, -, -, -, -, hst⟩ | ⟨k, ok, ρ, nonce, j, rfl, hk, h1⟩
    · rw [h1] at hj
      have := ih i hj
      cases tab
      · exact h2.trans this
      · exact h3.trans this
    · rw [h1] at hone hj
      have h0 : (Play.after N S inst E h).jobs = [] := by
        simp only [List.length_append, List.length_cons, List.length_nil] at hone
        exact List.length_eq_zero_iff.1 (by omega)
      rw [h0, List.nil_append] at hj
      have hi : i = 0 := by
        have := (List.getElem?_eq_some_iff.1 hj).1
        simpa using this
      subst hi
      exact (hst _ _ _ _ (Option.some.inj hj)).2.2
    · rw [h1, (settle_shape N S inst _ k ok ρ nonce j).1] at hj
      have hlen := play_loading N S inst E h
      have := (List.getElem?_eq_some_iff.1 hj).1
      have hk := (List.getElem?_eq_some_iff.1 hk).1
      rw [List.length_eraseIdx_of_lt hk] at this
      split at hlen <;> omega

/-- **C80** (failed decryption) — when a call of `decrypt` ends with an exception, the page shows an error and no decrypted message in that tab, in
particular not that of an earlier decryption. -/
theorem C80_failure (h : List PlayEvent) (i : Nat) (tab : PlayTab) (f : PlayFiles) (c : Bytes) (v : JsVal)
    (hj : (Play.after N S inst E h).jobs[i]? = some (.decrypt tab f c v)) (ok : Bool) (ρ : Rand Fr) (nonce : Bytes)
    (hfail : ok = false ∨ ∀ l m, jsEntries v = .ok l → jsDecryptApi N S f.r1csBuffer (inst f.wasmBuffer) c l ≠ .ok m) :
    (Play.after N S inst E (h ++ [.finish i ok ρ nonce])).error = true ∧
    (tab = .sudoku → (Play.after N S inst E (h ++ [.finish i ok ρ nonce])).shown = none) ∧
    (tab = .custom → (Play.after N S inst E (h ++ [.finish i ok ρ nonce])).customShown = none) := by
  have ht := play_no_text N S inst E h i tab f c v hj
  have he : ∃ e, playDecrypt N S inst f c v ok = .error e := by
    cases hr : playDecrypt N S inst f c v ok with
    | error e => exact ⟨e, rfl⟩
    | ok m =>
      exfalso
      unfold playDecrypt at hr
      split at hr
      · cases hr
      · rename_i hok
        obtain ⟨l, hl, hr⟩ := Res.bind_eq_ok.1 hr
        rcases hfail with rfl | hf
        · exact hok rfl
        · exact hf l m hl hr
  obtain ⟨e, he⟩ := he
  rw [play_after_snoc]
  simp only [Play.step, hj, Play.settle, he]
  refine ⟨trivial, ?_, ?_⟩
  · rintro rfl
    unfold Play.shown
    rw [if_neg]
    rintro ⟨-, -, h3⟩
    exact h3 ht
  · rintro rfl
    unfold Play.customShown
    rw [if_neg]
    rintro ⟨-, -, h3⟩
    exact h3 ht

/-- **C80** (stale text) — uploading another ciphertext, or changing the puzzle or the solution, does not remove the text of an earlier decryption: it is
then shown beside a ciphertext it does not belong to. -/
theorem C80_stale (h : List PlayEvent) (t : Str) (ht : (Play.after N S inst E h).shown = some t) (b : Bytes) (i : Nat) (c : Option Char) :
    (Play.after N S inst E (h ++ [.ciphertextFile b])).shown = some t ∧
    (Play.after N S inst E (h ++ [.ciphertextFile b])).uploadedCiphertext = some b ∧
    (Play.after N S inst E (h ++ [.typePuzzle i c])).shown = some t ∧ (Play.after N S inst E (h ++ [.typeSolution i c])).shown = some t := by
  have hd : (Play.after N S inst E h).activeTab = .sudoku ∧ (Play.after N S inst E h).mode = .decrypt ∧ (Play.after N S inst E h).decrypted = t ∧ t ≠ [] := by
    unfold Play.shown at ht
    split at ht
    · rename_i hc
      cases ht
      exact ⟨hc.1, hc.2.1, rfl, hc.2.2⟩
    · cases ht
  obtain ⟨h1, h2, h3, h4⟩ := hd
  have key : ∀ u : Play, u.activeTab = .sudoku → u.mode = .decrypt → u.decrypted = t → u.shown = some t := by
    intro u h1 h2 h3
    unfold Play.shown
    rw [if_pos ⟨h1, h2, by rw [h3]; exact h4⟩, h3]
  simp only [play_after_snoc, Play.step]
  refine ⟨?_, ?_, ?_, ?_⟩
  · unfold Play.ciphertextFile
    repeat' split
    all_goals exact key _ h1 rfl h3
  · unfold Play.ciphertextFile
    repeat' split
    all_goals rfl
  · unfold Play.typePuzzle
    split
    all_goals exact key _ h1 h2 h3
  · unfold Play.typeSolution
    split
    all_goals exact key _ h1 h2 h3

/-- **C78** (false success) — after a failed encryption the custom tab can say "Encryption successful!" and offer a file for download: one that was uploaded
as ciphertext before, whatever it contains. -/
theorem C78_false_success (b : Bytes) (j : Str) (v : JsVal) (hj : j ≠ []) (hv : S.jsonParse j = some v) (ok : Bool) (ρ : Rand Fr) (nonce : Bytes) :
    ∃ h, (Play.after N S inst E (h ++ [.clickCustomEncrypt])).jobs ≠ [] ∧
      (Play.after N S inst E (h ++ [.clickCustomEncrypt, .finish 0 ok ρ nonce])).error = true ∧
      (Play.after N S inst E (h ++ [.clickCustomEncrypt, .finish 0 ok ρ nonce])).customOffered = some b := by
  refine ⟨[.customCiphertextFile b, .selectTab .custom, .selectMode .encrypt, .customR1csFile [1], .customWasmFile [1], .typeCustomMessage ['x'],
    .typeCustomPublic j], ?_⟩
  set s := Play.after N S inst E [.customCiphertextFile b, .selectTab .custom, .selectMode .encrypt, .customR1csFile [1], .customWasmFile [1],
    .typeCustomMessage ['x'], .typeCustomPublic j] with hs
  have f : s.activeTab = .custom ∧ s.mode = .encrypt ∧ s.loading = false ∧ s.customMessage = ['x'] ∧ s.customCircuitFiles = some ⟨[1], [1]⟩ ∧
      s.customPublicInput = j ∧ s.customCiphertext = some b ∧ s.jobs = [] := by
    rw [hs]
    unfold Play.after
    simp only [List.foldl_cons, List.foldl_nil, Play.step, Play.customCiphertextFile]
    split <;> simp [Play.customR1csFile, Play.customWasmFile]
  obtain ⟨f1, f2, f3, f4, f5, f6, f7, f8⟩ := f
  have hc : Play.after N S inst E ([.customCiphertextFile b, .selectTab .custom, .selectMode .encrypt, .customR1csFile [1], .customWasmFile [1],
      .typeCustomMessage ['x'], .typeCustomPublic j] ++ [.clickCustomEncrypt]) =
      { s with loading := true, error := false, jobs := [.encrypt .custom ⟨[1], [1]⟩ v (utf8Enc ['x']) s.includePublicInput] } := by
    rw [play_after_snoc, ← hs]
    simp [Play.step, Play.clickCustomEncrypt, f1, f2, f3, f4, f5, f6, hj, hv, f8]
  refine ⟨by rw [hc]; simp, ?_⟩
  rw [show ∀ l : List PlayEvent, l ++ [.clickCustomEncrypt, .finish 0 ok ρ nonce] = (l ++ [.clickCustomEncrypt]) ++ [.finish 0 ok ρ nonce] by simp,
    C78_attempt_fails N S inst E _ 0 .custom ⟨[1], [1]⟩ v (utf8Enc ['x']) s.includePublicInput (by rw [hc]; rfl) ok ρ nonce, hc]
  refine ⟨rfl, ?_⟩
  unfold Play.customOffered
  rw [if_pos ⟨f1, f2⟩]
  exact f7

/-- A concrete history: the site's files are there, a puzzle was generated, a message typed and the button clicked; the call is in flight. -/
example : (Play.after N S inst E [.circuitsLoaded true, .generate (List.replicate 81 (-1)), .typeMessage "hi".toList, .clickEncrypt]).jobs =
    [.encrypt .sudoku E.site (.obj [("puzzle".toList, .arr (List.replicate 81 (.num 0)))]) (utf8Enc "hi".toList) true] := by
  simp [Play.after, Play.step, Play.generate, Play.clickEncrypt, ofGenerator]

end

end Zkenc.Props
