import Verif.Props.EndToEnd
import Verif.Props.Serializable
/-!
# C45 end to end: reading the public input out of a ciphertext

`S.stringify`/`S.jsonParse` are `JSON.stringify`/`JSON.parse`.
-/

namespace Zkenc.Props

open Zkenc Zkenc.Spec Zkenc.InputSpec

variable {G1 G2 GT : Type} [AddCommGroup G1] [Module Fr G1] [AddCommGroup G2] [Module Fr G2] [AddCommGroup GT] [Module Fr GT]
  (S : Sys G1 G2 GT)

theorem utf8Enc_cons (c : Char) (s : Str) : utf8Enc (c :: s) = String.utf8EncodeChar c ++ utf8Enc s := by
  unfold utf8Enc
  simp [String.toByteArray_ofList, List.utf8Encode]

theorem utf8_brace (s : Str) : (utf8Enc ('{' :: s)).take 3 ≠ [0xEF, 0xBB, 0xBF] := by
  rw [utf8Enc_cons, show String.utf8EncodeChar '{' = [0x7B] by decide]
  simp

/-- `TextDecoder` undoes `TextEncoder` on texts that do not start with a byte order mark. -/
theorem textDecode_enc (s : Str) (h : (utf8Enc s).take 3 ≠ [0xEF, 0xBB, 0xBF]) : textDecode S (utf8Enc s) = s := by
  unfold textDecode
  simp only [if_neg h]
  rw [show utf8Dec (utf8Enc s) = some (String.ofList s) from utf8Dec_enc _]
  exact String.toList_ofList

/-- **C45** (JS to JS, included) — `getPublicInput` on the output of `encrypt` parses exactly the text that `JSON.stringify` made of the
inputs. -/
theorem C45_js_included (data : Bytes) (r : R1csFile) (hr : jsParseR1cs data = .ok r.toJs) (sym : Str)
    (inputs : List (Str × JsVal)) (m : Bytes) (ρ : Rand Fr) (nonce : Bytes) (combined key : Bytes)
    (henc : jsEncrypt S data sym inputs m true ρ nonce = .ok (combined, key)) (hf : PublicFits r) (hs : CtFits r)
    (s : Str) (hstr : S.stringify inputs = .ok ('{' :: s)) (hlen : (utf8Enc ('{' :: s)).length < 2 ^ 32) (x : JsVal)
    (hx : S.jsonParse ('{' :: s) = some x) : jsGetPublicInput S combined = .ok x := by
  unfold jsEncrypt at henc
  obtain ⟨⟨ctB, kB⟩, h1, h⟩ := Res.bind_eq_ok.1 henc
  obtain ⟨enc, h2, h⟩ := Res.bind_eq_ok.1 h
  obtain ⟨pub, h3, h⟩ := Res.bind_eq_ok.1 h
  cases h
  rw [if_pos rfl, hstr] at h3
  cases h3
  unfold jsEncap at h1
  obtain ⟨wtns, h4, h1⟩ := Res.bind_eq_ok.1 h1
  unfold wasmEncap at h1
  rw [hr, Res.ok_bind] at h1
  obtain ⟨vals, h5, h1⟩ := Res.bind_eq_ok.1 h1
  obtain ⟨⟨ct, k⟩, h6, h1⟩ := Res.bind_eq_ok.1 h1
  cases h1
  have hnp : r.toJs.nPublicInputs = r.nPubOut + r.nPubIn := nPublicInputs_eq hf
  rw [hnp] at h6
  have hsz := (ct_size S .js r hf _ (fun i hi => if_neg (by omega)) ρ ct k h6).1
  unfold CtFits at hs
  exact C45_returns (textDecode S) S.jsonParse _ _ _ (by simp only; omega) hlen x (by rw [textDecode_enc S _ (utf8_brace s)]; exact hx)

/-- **C45** (JS, not included) — `getPublicInput` throws on every output of `encrypt` without public input. -/
theorem C45_js_not_included (data : Bytes) (sym : Str) (inputs : List (Str × JsVal)) (m : Bytes) (ρ : Rand Fr) (nonce : Bytes)
    (combined key : Bytes) (henc : jsEncrypt S data sym inputs m false ρ nonce = .ok (combined, key)) :
    jsGetPublicInput S combined = Res.fail "Public inputs are not included in this ciphertext" := by
  unfold jsEncrypt at henc
  obtain ⟨⟨ctB, kB⟩, -, h⟩ := Res.bind_eq_ok.1 henc
  obtain ⟨enc, -, h⟩ := Res.bind_eq_ok.1 h
  obtain ⟨pub, -, h⟩ := Res.bind_eq_ok.1 h
  cases h
  exact C45_refuses _ _ _ _ _

/-- **C45** (CLI to JS, included) — `getPublicInput` on a ciphertext of `zkenc encrypt` parses exactly the text of the input file, byte for
byte, unless the file starts with a byte order mark. -/
theorem C45_cli_included (fs fs' : FS) (circuit sym input message output : Path) (r : R1csFile) (symtab : AMap Nat)
    (entries : List (Str × Json)) (hfiles : CliFiles S fs circuit sym input r symtab entries) (ρ : Rand Fr) (nonce : Bytes)
    (henc : (encryptCommand S circuit sym input message output true ρ nonce).exec fs = (fs', .ok ())) (hf : PublicFits r) (hs : CtFits r)
    (j : Bytes) (text : String) (hj : fs input = some j) (htext : utf8Dec j = some text) (hbom : j.take 3 ≠ [0xEF, 0xBB, 0xBF])
    (hlen : j.length < 2 ^ 32) (x : JsVal) (hx : S.jsonParse text.toList = some x) :
    ∃ combined, fs' output = some combined ∧ jsGetPublicInput S combined = .ok x := by
  obtain ⟨w, symText, jsonB, ct, key, h1, h2, h3, h4, h5⟩ := CliFiles.assign hfiles henc
  rw [hj] at h3; cases h3
  simp only [exec_readFile_ok, exec_lift_ok, exec_writeFile] at h5
  obtain ⟨m', hm', enc, he, h5⟩ := h5
  simp only [Cmd.exec, Prod.mk.injEq, and_true] at h5
  subst h5
  have hsz := (ct_size S .cli r hf w (fun i hi => C40_cli_bound S.hash _ _ _ w h2 i (by omega)) ρ ct key h4).1
  unfold CtFits at hs
  refine ⟨_, FS.set_same _ _ _, C45_returns (textDecode S) S.jsonParse _ _ _ (by omega) hlen x ?_⟩
  unfold textDecode
  simp only [if_neg hbom, htext]
  exact hx

/-- **C45** (JS, any container) — `getPublicInput` of a ciphertext with the documented layout parses the text between, without a leading byte order mark. -/
theorem C45_js_text (b w p m : Bytes) (hb : ContainerSpec.Layout b ⟨1, w, some p, m⟩) (text : String)
    (hp : (p.take 3 ≠ [0xEF, 0xBB, 0xBF] ∧ utf8Dec p = some text) ∨ ∃ q, p = [0xEF, 0xBB, 0xBF] ++ q ∧ utf8Dec q = some text) (x : JsVal)
    (hx : S.jsonParse text.toList = some x) : jsGetPublicInput S b = .ok x := by
  refine ((C45_arbitrary (textDecode S) S.jsonParse b).1 x).2 ⟨w, p, m, hb, ?_⟩
  unfold textDecode
  rcases hp with ⟨h1, h2⟩ | ⟨q, rfl, h2⟩
  · simp only [if_neg h1, h2]
    exact hx
  · simp only [List.take_left', List.length_cons, List.length_nil, List.drop_left', if_true, h2]
    exact hx

end Zkenc.Props
