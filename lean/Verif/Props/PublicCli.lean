import Verif.Props.JsonText
import Verif.Proofs.SerializableTree
import Verif.Props.AppliedEndToEnd
/-!
# C45: the public input of a CLI ciphertext, with concrete JSON

`serde_json` refuses a byte order mark, so the condition of `C45_cli_included` on it is always met.
-/

namespace Zkenc.Props

open Zkenc Zkenc.Spec Zkenc.InputSpec

/-- The byte order mark. -/
def bomChar : Char := Char.ofNat 0xFEFF

theorem bom_bytes : String.utf8EncodeChar bomChar = [0xEF, 0xBB, 0xBF] := by decide

/-- A JSON text does not start with a byte order mark. -/
theorem bom_no_json (r : Str) : pText (bomChar :: r) = none := by
  have h : ∀ f, pValue (f + 1) (bomChar :: r) = none := by
    intro f
    have hw : skipWs (bomChar :: r) = bomChar :: r := by
      have : jsonWs bomChar = false := by decide
      simp [skipWs, this]
    have hn : pNum (bomChar :: r) = none := by
      have h1 : ¬ (bomChar = '-') := by decide
      have h2 : isDig bomChar = false := by decide
      have h3 : ¬ (bomChar = '0') := by decide
      simp [pNum, pInt, h1, h2, h3]
    rw [pValue, hw]
    simp only
    rw [if_neg (by decide), if_neg (by decide), if_neg (by decide), if_neg (by decide), if_neg (by decide), if_neg (by decide), hn]
    rfl
  rw [pText, h]

/-- The bytes of a JSON text do not start with a byte order mark. -/
theorem json_no_bom {j : Bytes} {text : String} (hd : utf8Dec j = some text) {t : JTree} (ht : pText text.toList = some t) :
    j.take 3 ≠ [0xEF, 0xBB, 0xBF] := by
  intro hb
  have hj := utf8Dec_eq hd
  cases hs : text.toList with
  | nil =>
    rw [hs] at hj
    rw [hj] at hb
    exact absurd hb (by decide)
  | cons c r =>
    rw [hs, utf8Enc_cons] at hj
    have : String.utf8EncodeChar bomChar ++ j.drop 3 = String.utf8EncodeChar c ++ utf8Enc r := by
      rw [bom_bytes, ← hb, List.take_append_drop, hj]
    have hc : bomChar = c := utf8EncodeChar_inj this
    rw [hs, ← hc, bom_no_json] at ht
    cases ht

section
variable {G1 G2 GT : Type} [AddCommGroup G1] [Module Fr G1] [AddCommGroup G2] [Module Fr G2] [AddCommGroup GT] [Module Fr GT]
  (S : Sys G1 G2 GT) {D : Doubles} {ord : List (Str × Json) → List (Str × Json)}

/-- **C45** (CLI to JS, concrete JSON) — whenever `zkenc encrypt` has included the public input, `getPublicInput` succeeds and returns what `JSON.parse` makes of the
input file. -/
theorem C45_cli_values (hJ : ConcreteJson S D ord) (fs fs' : FS) (circuit sym input message output : Path) (r : R1csFile) (symtab : AMap Nat)
    (entries : List (Str × Json)) (hfiles : CliFiles S fs circuit sym input r symtab entries) (ρ : Rand Fr) (nonce : Bytes)
    (henc : (encryptCommand S circuit sym input message output true ρ nonce).exec fs = (fs', .ok ())) (hf : PublicFits r) (hs : CtFits r)
    (hlen : ∀ j, fs input = some j → j.length < 2 ^ 32) :
    ∃ j text x combined, fs input = some j ∧ utf8Dec j = some text ∧ jsonParse D text.toList = some x ∧ fs' output = some combined ∧
      jsGetPublicInput S combined = .ok x := by
  obtain ⟨j, text, h1, h2, h3⟩ := hfiles.input
  rw [hJ.serde, serdeFromStr] at h3
  obtain ⟨t, ht, -⟩ := Option.bind_eq_some_iff.1 h3
  have hx : jsonParse D text.toList = some (t.toJs D) := by rw [jsonParse, ht]; rfl
  obtain ⟨combined, c1, c2⟩ := C45_cli_included S fs fs' circuit sym input message output r symtab entries hfiles ρ nonce henc hf hs j text h1 h2
    (json_no_bom h2 ht) (hlen j h1) _ (by rw [hJ.parse]; exact hx)
  exact ⟨j, text, _, combined, h1, h2, hx, c1, c2⟩

end

/-! ### Examples -/

namespace Ex

example : ∃ b x, (encryptCommand S ['c'] ['s'] ['i'] ['m'] ['o'] true ρ nonce).exec fs = (fs.set ['o'] b, .ok ()) ∧ jsGetPublicInput S b = .ok x := by
  obtain ⟨symtab, b, hf, -, -, -, -, hb, hj⟩ := cli_encrypted true
  obtain ⟨j, text, x, c, h1, h2, h3, h4, h5⟩ := C45_cli_values S S_json fs _ ['c'] ['s'] ['i'] ['m'] ['o'] sq symtab entries hf ρ nonce hb sq_wf.fits sq_ct (hj rfl)
  have : b = c := by simpa [FS.set] using h4
  subst this
  exact ⟨b, x, hb, h5⟩

/-- A text with a byte order mark in a container. -/
example : jsGetPublicInput S (combine true [] ([0xEF, 0xBB, 0xBF] ++ utf8Enc ['n', 'u', 'l', 'l']) []) = .ok .null := by
  refine C45_js_text S _ [] ([0xEF, 0xBB, 0xBF] ++ utf8Enc ['n', 'u', 'l', 'l']) [] (combine_layout true _ _ _ ?_ fun _ => ?_) (String.ofList ['n', 'u', 'l', 'l']) (.inr ⟨_, rfl, utf8Dec_enc _⟩) _ ?_
  · simp
  · decide
  · rw [String.toList_ofList]; rfl

end Ex

end Zkenc.Props
