import Verif.Props.Playground
import Verif.Props.EndToEndExactly
/-!
# C85: the custom tab of the playground

What the fields of the custom tab hold after any history, what a click on "Decrypt" does with them, and which message appears.
-/

namespace Zkenc.PlaySpec

open Zkenc Zkenc.Spec Zkenc.InputSpec

/-- The `.r1cs` files read in the custom tab, in order. -/
def r1csUploads : List PlayEvent → List Bytes
  | [] => []
  | .customR1csFile b :: h => b :: r1csUploads h
  | _ :: h => r1csUploads h

/-- The `.wasm` files read in the custom tab, in order. -/
def wasmUploads : List PlayEvent → List Bytes
  | [] => []
  | .customWasmFile b :: h => b :: wasmUploads h
  | _ :: h => wasmUploads h

/-- The tab chosen last. -/
def openTab : List PlayEvent → PlayTab
  | [] => .sudoku
  | h@(_ :: _) => ((h.filterMap fun | .selectTab t => some t | _ => none).getLast?).getD .sudoku

/-- The side (encryption or decryption) chosen last; reading a ciphertext opens the decryption side. -/
def openMode (h : List PlayEvent) : PlayMode :=
  ((h.filterMap fun | .selectMode m => some m | .ciphertextFile _ => some .decrypt | .customCiphertextFile _ => some .decrypt | _ => none).getLast?).getD .encrypt

section
variable {G1 G2 GT : Type} [AddCommGroup G1] [Module Fr G1] [AddCommGroup G2] [Module Fr G2] [AddCommGroup GT] [Module Fr GT] (S : Sys G1 G2 GT) (E : PlayEnv)

/-- What an event puts into the field for the public inputs: what is typed; a JSON file; the public inputs stored in a ciphertext. -/
def putPublic : PlayEvent → Option Str
  | .typeCustomPublic t => some t
  | .publicInputFile t => (S.jsonParse t).map E.pretty
  | .customCiphertextFile b => match jsGetPublicInput S b with
    | .ok v => some (E.pretty v)
    | .error _ => none
  | _ => none

/-- What an event puts into the field for the full inputs. -/
def putPrivate : PlayEvent → Option Str
  | .typeCustomPrivate t => some t
  | .privateInputFile t => (S.jsonParse t).map E.pretty
  | _ => none

/-- The text in the field for the public inputs: what was put there last. -/
def publicField (h : List PlayEvent) : Str := ((h.filterMap (putPublic S E)).getLast?).getD []

/-- The text in the field for the full inputs. -/
def privateField (h : List PlayEvent) : Str := ((h.filterMap (putPrivate S E)).getLast?).getD []

/-- The custom tab is open on its decryption side and has everything to call `decrypt`: circuit, witness program, ciphertext, and in the field for the full
inputs, or if this is empty in the field for the public inputs, a JSON text. -/
structure CustomReady (h : List PlayEvent) (r1cs wasm ct : Bytes) (v : JsVal) : Prop where
  tab : openTab h = .custom
  mode : openMode h = .decrypt
  ct : (customUploads h).getLast? = some ct
  r1cs : (r1csUploads h).getLast? = some r1cs ∧ r1cs ≠ []
  wasm : (wasmUploads h).getLast? = some wasm ∧ wasm ≠ []
  inputs : S.jsonParse (if privateField S E h = [] then publicField S E h else privateField S E h) = some v

/-- One of the tools has made the ciphertext for the message `m` and the circuit `r` in the file `data`; `Q` says which public values a witness must have. -/
inductive MadeFor (data : Bytes) (r : R1csFile) (m combined : Bytes) : (List Fr → Prop) → Prop
  | cli (fs fs' : FS) (circuit sym input message output : Path) (symtab : AMap Nat) (entries : List (Str × Json))
      (files : CliFiles S fs circuit sym input r symtab entries) (msg : fs message = some m) (incl : Bool) (ρ : Rand Fr) (nonce : Bytes) (hn : nonce.length = 12)
      (hj : incl = true → ∀ j, fs input = some j → j.length < 2 ^ 32) (noAlias : NoAlias symtab (some r.nPubIn) entries) (hdata : fs circuit = some data)
      (hd : data.length < 2 ^ 31) (run : (encryptCommand S circuit sym input message output incl ρ nonce).exec fs = (fs', .ok ()))
      (out : fs' output = some combined) : MadeFor data r m combined (CliEnforced symtab r.nPubIn entries)
  | js (sym : Str) (inputs : List (Str × JsVal)) (hr : jsParseR1cs data = .ok r.toJs) (noAlias : JsNoAlias (jsParseSymFile sym) inputs)
      (small : JsSmall (jsParseSymFile sym) inputs) (incl : Bool) (ρ : Rand Fr) (nonce : Bytes) (hn : nonce.length = 12)
      (hj : incl = true → ∀ s, S.stringify inputs = .ok s → (utf8Enc s).length < 2 ^ 32) (key : Bytes)
      (run : jsEncrypt S data sym inputs m incl ρ nonce = .ok (combined, key)) :
      MadeFor data r m combined (JsEnforced (jsParseSymFile sym) (r.nPubOut + r.nPubIn) inputs)
end

end Zkenc.PlaySpec

namespace Zkenc.Props

open Zkenc Zkenc.PlaySpec Zkenc.Spec Zkenc.InputSpec

theorem r1csUploads_append (h h' : List PlayEvent) : r1csUploads (h ++ h') = r1csUploads h ++ r1csUploads h' := by
  induction h with
  | nil => rfl
  | cons e h ih => cases e <;> simp [r1csUploads, ih]

theorem wasmUploads_append (h h' : List PlayEvent) : wasmUploads (h ++ h') = wasmUploads h ++ wasmUploads h' := by
  induction h with
  | nil => rfl
  | cons e h ih => cases e <;> simp [wasmUploads, ih]

/-- The last thing put somewhere. -/
theorem last_snoc {α β : Type} (f : α → Option β) (d : β) (h : List α) (e : α) :
    (((h ++ [e]).filterMap f).getLast?).getD d = (f e).getD (((h.filterMap f).getLast?).getD d) := by
  rw [List.filterMap_append, List.filterMap_cons, List.filterMap_nil]
  cases hf : f e with
  | none => simp
  | some b => simp

theorem openTab_eq (h : List PlayEvent) : openTab h = ((h.filterMap fun | .selectTab t => some t | _ => none).getLast?).getD .sudoku := by
  cases h <;> rfl

section
variable {σ : Type} (N : JsNums) {G1 G2 GT : Type} [AddCommGroup G1] [Module Fr G1] [AddCommGroup G2] [Module Fr G2] [AddCommGroup GT]
  [Module Fr GT] (S : Sys G1 G2 GT) (inst : Bytes → Res (CircuitWasm σ)) (E : PlayEnv)

/-- What a step does to the fields of the custom tab. -/
theorem step_fields (s : Play) (e : PlayEvent) :
    (s.step N S inst E e).activeTab = ((fun e : PlayEvent => match e with | .selectTab t => some t | _ => none) e).getD s.activeTab ∧
    (s.step N S inst E e).mode = ((fun e : PlayEvent => match e with
      | .selectMode m => some m | .ciphertextFile _ => some .decrypt | .customCiphertextFile _ => some .decrypt | _ => none) e).getD s.mode ∧
    (s.step N S inst E e).customPublicInput = (putPublic S E e).getD s.customPublicInput ∧
    (s.step N S inst E e).customPrivateInput = (putPrivate S E e).getD s.customPrivateInput := by
  cases e with
  | finish i ok ρ nonce =>
    simp only [Play.step, putPublic, putPrivate]
    split
    · simp
    · rename_i job _
      rcases settle_cases N S inst { s with jobs := s.jobs.eraseIdx i } ok ρ nonce job with
        ⟨_, _, _, _, _, -, h⟩ | ⟨_, _, _, _, -, ⟨-, h⟩ | ⟨_, -, ⟨-, h⟩ | ⟨-, h⟩⟩⟩ <;> rw [h] <;> simp
  | circuitsLoaded ok => cases ok <;> simp [Play.step, putPublic, putPrivate]
  | generate raw => simp only [Play.step, Play.generate, putPublic, putPrivate]; split <;> simp
  | typePuzzle i c => simp only [Play.step, Play.typePuzzle, putPublic, putPrivate]; split <;> simp
  | typeSolution i c => simp only [Play.step, Play.typeSolution, putPublic, putPrivate]; split <;> simp
  | clickSolve =>
      simp only [Play.step, Play.clickSolve, putPublic, putPrivate]
      repeat' split
      all_goals simp
  | clickEncrypt =>
      simp only [Play.step, Play.clickEncrypt, putPublic, putPrivate]
      repeat' split
      all_goals simp
  | clickDecrypt =>
      simp only [Play.step, Play.clickDecrypt, putPublic, putPrivate]
      repeat' split
      all_goals simp
  | ciphertextFile b =>
      simp only [Play.step, Play.ciphertextFile, putPublic, putPrivate]
      repeat' split
      all_goals simp
  | customCiphertextFile b =>
      simp only [Play.step, Play.customCiphertextFile, putPublic, putPrivate]
      cases jsGetPublicInput S b <;> simp
  | publicInputFile t => simp only [Play.step, putPublic, putPrivate]; cases S.jsonParse t <;> simp
  | privateInputFile t => simp only [Play.step, putPublic, putPrivate]; cases S.jsonParse t <;> simp
  | clickCustomEncrypt =>
      simp only [Play.step, Play.clickCustomEncrypt, putPublic, putPrivate]
      repeat' split
      all_goals simp
  | clickCustomDecrypt =>
      simp only [Play.step, Play.clickCustomDecrypt, putPublic, putPrivate]
      repeat' split
      all_goals simp
  | _ => simp [Play.step, putPublic, putPrivate, Play.customR1csFile, Play.customWasmFile]

/-- What a step does to the circuit files of the custom tab. -/
theorem step_files (s : Play) (e : PlayEvent) :
    (s.step N S inst E e).customCircuitFiles = match e with
      | .customR1csFile b => some ⟨b, (s.customCircuitFiles.map (·.wasmBuffer)).getD []⟩
      | .customWasmFile b => some ⟨(s.customCircuitFiles.map (·.r1csBuffer)).getD [], b⟩
      | _ => s.customCircuitFiles := by
  cases e with
  | finish i ok ρ nonce =>
    simp only [Play.step]
    split
    · simp
    · rename_i job _
      rcases settle_cases N S inst { s with jobs := s.jobs.eraseIdx i } ok ρ nonce job with
        ⟨_, _, _, _, _, -, h⟩ | ⟨_, _, _, _, -, ⟨-, h⟩ | ⟨_, -, ⟨-, h⟩ | ⟨-, h⟩⟩⟩ <;> rw [h]
  | circuitsLoaded ok => cases ok <;> simp [Play.step]
  | generate raw => simp only [Play.step, Play.generate]; split <;> simp
  | typePuzzle i c => simp only [Play.step, Play.typePuzzle]; split <;> simp
  | typeSolution i c => simp only [Play.step, Play.typeSolution]; split <;> simp
  | clickSolve =>
      simp only [Play.step, Play.clickSolve]
      repeat' split
      all_goals simp
  | clickEncrypt =>
      simp only [Play.step, Play.clickEncrypt]
      repeat' split
      all_goals simp_all
  | clickDecrypt =>
      simp only [Play.step, Play.clickDecrypt]
      repeat' split
      all_goals simp_all
  | ciphertextFile b =>
      simp only [Play.step, Play.ciphertextFile]
      repeat' split
      all_goals simp
  | customCiphertextFile b =>
      simp only [Play.step, Play.customCiphertextFile]
      cases jsGetPublicInput S b <;> simp
  | publicInputFile t => simp only [Play.step]; cases S.jsonParse t <;> simp
  | privateInputFile t => simp only [Play.step]; cases S.jsonParse t <;> simp
  | clickCustomEncrypt =>
      simp only [Play.step, Play.clickCustomEncrypt]
      repeat' split
      all_goals simp_all
  | clickCustomDecrypt =>
      simp only [Play.step, Play.clickCustomDecrypt]
      repeat' split
      all_goals simp_all
  | _ => simp [Play.step, Play.customR1csFile, Play.customWasmFile]

/-- **C85** (the fields) — after any history the custom tab holds what was put there last: the two text fields, the tab and side that are open, and the circuit
and witness program files, each kept when the other one is replaced; a circuit counts as present as soon as one of the two files has been read. -/
theorem C85_fields (h : List PlayEvent) :
    (Play.after N S inst E h).activeTab = openTab h ∧ (Play.after N S inst E h).mode = openMode h ∧
    (Play.after N S inst E h).customPublicInput = publicField S E h ∧ (Play.after N S inst E h).customPrivateInput = privateField S E h ∧
    (Play.after N S inst E h).customCiphertext = (customUploads h).getLast? ∧
    (Play.after N S inst E h).customCircuitFiles = if r1csUploads h = [] ∧ wasmUploads h = [] then none
      else some ⟨((r1csUploads h).getLast?).getD [], ((wasmUploads h).getLast?).getD []⟩ := by
  induction h using List.reverseRecOn with
  | nil => exact ⟨rfl, rfl, rfl, rfl, rfl, rfl⟩
  | append_singleton h e ih =>
    obtain ⟨i1, i2, i3, i4, -, i6⟩ := ih
    rw [play_after_snoc]
    obtain ⟨s1, s2, s3, s4⟩ := step_fields N S inst E (Play.after N S inst E h) e
    refine ⟨?_, ?_, ?_, ?_, ?_, ?_⟩
    · rw [s1, openTab_eq, last_snoc, i1, openTab_eq]
    · rw [s2, openMode, last_snoc, i2, openMode]
    · rw [s3, publicField, last_snoc, i3, publicField]
    · rw [s4, privateField, last_snoc, i4, privateField]
    · rw [← play_after_snoc]; exact (play_ciphertexts N S inst E (h ++ [e])).2.2
    · rw [step_files, i6, r1csUploads_append, wasmUploads_append]
      cases e with
      | customR1csFile b =>
        simp only [r1csUploads, wasmUploads, List.append_nil]
        rw [if_neg (show ¬ (r1csUploads h ++ [b] = [] ∧ wasmUploads h = []) by simp), List.getLast?_concat, Option.getD_some]
        by_cases hw : wasmUploads h = []
        · by_cases hr : r1csUploads h = [] <;> simp [hw, hr]
        · rw [if_neg (fun h0 => hw h0.2)]
          rfl
      | customWasmFile b =>
        simp only [r1csUploads, wasmUploads, List.append_nil]
        rw [if_neg (show ¬ (r1csUploads h = [] ∧ wasmUploads h ++ [b] = []) by simp), List.getLast?_concat, Option.getD_some]
        by_cases hw : r1csUploads h = []
        · by_cases hr : wasmUploads h = [] <;> simp [hw, hr]
        · rw [if_neg (fun h0 => hw h0.1)]
          rfl
      | _ => simp [r1csUploads, wasmUploads]

/-- **C85** (a click that calls nothing) — no call is in flight; unless the tab is ready, a click on "Decrypt" calls nothing and changes nothing but perhaps shows
an error. -/
theorem C85_not_ready (h : List PlayEvent) (hn : ¬ ∃ r1cs wasm ct v, CustomReady S E h r1cs wasm ct v) :
    Play.after N S inst E (h ++ [.clickCustomDecrypt]) = Play.after N S inst E h ∨
    Play.after N S inst E (h ++ [.clickCustomDecrypt]) = { Play.after N S inst E h with error := true } := by
  obtain ⟨f1, f2, f3, f4, f5, f6⟩ := C85_fields N S inst E h
  rw [play_after_snoc]
  simp only [Play.step, Play.clickCustomDecrypt]
  split
  · rename_i hc
    rw [f1, f2] at hc
    split
    · rename_i ct files hct hf
      rw [f5] at hct
      rw [f6] at hf
      split
      · exact .inr rfl
      · rename_i hlen
        split
        · exact .inr rfl
        · rename_i v hv
          exfalso
          rw [f3, f4] at hv
          split at hf
          · cases hf
          · cases hf
            cases hx : (r1csUploads h).getLast? with
            | none => rw [hx] at hlen; simp at hlen
            | some rb =>
              cases hy : (wasmUploads h).getLast? with
              | none => rw [hy] at hlen; simp at hlen
              | some wb =>
                rw [hx, hy] at hlen
                simp only [Option.getD_some, not_or] at hlen
                exact hn ⟨rb, wb, ct, v, hc.1, hc.2.1, hct, ⟨hx, fun h0 => hlen.1 (by rw [h0]; rfl)⟩, ⟨hy, fun h0 => hlen.2 (by rw [h0]; rfl)⟩, hv⟩
    · exact .inl rfl
  · exact .inl rfl

theorem custom_click (h : List PlayEvent) (hidle : (Play.after N S inst E h).loading = false) {r1cs wasm ct : Bytes} {v : JsVal}
    (hr : CustomReady S E h r1cs wasm ct v) : Play.after N S inst E (h ++ [.clickCustomDecrypt]) =
      { Play.after N S inst E h with loading := true, error := false, customDecrypted := [], jobs := [.decrypt .custom ⟨r1cs, wasm⟩ ct v] } := by
  obtain ⟨f1, f2, f3, f4, f5, f6⟩ := C85_fields N S inst E h
  have hjobs : (Play.after N S inst E h).jobs = [] := by
    by_contra hj
    rw [(C79_one_call N S inst E h).2.2 hj] at hidle
    cases hidle
  rw [play_after_snoc]
  simp only [Play.step, Play.clickCustomDecrypt]
  rw [if_pos ⟨f1.trans hr.tab, f2.trans hr.mode, hidle⟩, f5, f6, f3, f4, hr.ct]
  have hne : ¬ (r1csUploads h = [] ∧ wasmUploads h = []) := by
    rintro ⟨h0, -⟩
    have := hr.r1cs.1
    rw [h0] at this
    cases this
  rw [if_neg hne, hr.r1cs.1, hr.wasm.1]
  simp only [Option.getD_some]
  rw [if_neg (by rintro (h0 | h0)
                 · exact hr.r1cs.2 (List.length_eq_zero_iff.1 h0)
                 · exact hr.wasm.2 (List.length_eq_zero_iff.1 h0)), hr.inputs]
  simp only [hjobs, List.nil_append]

/-- **C85** (a click that calls `decrypt`) — no call is in flight and the tab is ready. When the call that the click starts has ended, the tab shows what `decrypt`
returned for the circuit, the program and the ciphertext read last and the inputs in the field, and no error; if it did not return, an error and no text, in
particular not that of an earlier decryption. -/
theorem C85_decrypt (h : List PlayEvent) (hidle : (Play.after N S inst E h).loading = false) (r1cs wasm ct : Bytes) (v : JsVal)
    (hr : CustomReady S E h r1cs wasm ct v) (ok : Bool) (ρ : Rand Fr) (nonce : Bytes) :
    let s := Play.after N S inst E (h ++ [.clickCustomDecrypt, .finish 0 ok ρ nonce])
    (∀ l m, ok = true → jsEntries v = .ok l → jsDecryptApi N S r1cs (inst wasm) ct l = .ok m →
      (∃ t, s.customShown = some t ∧ TextFor S m t) ∧ s.error = false) ∧
    ((ok = false ∨ ∀ l m, jsEntries v = .ok l → jsDecryptApi N S r1cs (inst wasm) ct l ≠ .ok m) → s.customShown = none ∧ s.error = true) ∧
    s.loading = false ∧ s.jobs = [] := by
  obtain ⟨f1, f2, -⟩ := C85_fields N S inst E h
  have happ : h ++ [.clickCustomDecrypt, .finish 0 ok ρ nonce] = (h ++ [.clickCustomDecrypt]) ++ [.finish 0 ok ρ nonce] := by simp
  intro s
  have hs : s = Play.after N S inst E (h ++ [.clickCustomDecrypt, .finish 0 ok ρ nonce]) := rfl
  rw [happ, play_after_snoc, custom_click N S inst E h hidle hr] at hs
  simp only [Play.step, List.getElem?_cons_zero, Play.settle] at hs
  clear_value s
  cases hd : playDecrypt N S inst ⟨r1cs, wasm⟩ ct v ok with
  | error e =>
    rw [hd] at hs
    subst hs
    refine ⟨fun l m h1 h2 h3 => ?_, fun _ => ⟨?_, rfl⟩, rfl, rfl⟩
    · rw [playDecrypt, h1, if_neg (by simp), h2, Res.ok_bind, h3] at hd
      cases hd
    · unfold Play.customShown
      rw [if_neg]
      rintro ⟨-, -, h3⟩
      exact h3 rfl
  | ok b =>
    rw [hd] at hs
    subst hs
    have hok : ok = true := by
      cases ok with
      | true => rfl
      | false => rw [playDecrypt, if_pos rfl] at hd; cases hd
    rw [playDecrypt, hok, if_neg (by simp)] at hd
    obtain ⟨l', hl', hd⟩ := Res.bind_eq_ok.1 hd
    refine ⟨fun l m h1 h2 h3 => ?_, fun hbad => ?_, rfl, rfl⟩
    · rw [hl'] at h2
      cases h2
      rw [hd] at h3
      cases h3
      refine ⟨⟨shownText (textDecode S b), ?_, ?_⟩, rfl⟩
      · unfold Play.customShown
        rw [if_pos]
        refine ⟨f1.trans hr.tab, f2.trans hr.mode, ?_⟩
        simp only [shownText]
        split_ifs with h0
        · decide
        · exact h0
      · unfold TextFor shownText
        by_cases h0 : textDecode S b = []
        · exact Or.inr ⟨h0, by rw [if_pos h0]⟩
        · exact Or.inl ⟨h0, by rw [if_neg h0]⟩
    · rcases hbad with h0 | h0
      · rw [hok] at h0; cases h0
      · exact absurd hd (h0 l' b hl')

/-- **C85** (a message in the custom tab) — a ciphertext of either tool is decrypted with the circuit it was made for, and the witness program computes a witness
for the inputs in the field. The message is shown, without an error, exactly if that witness satisfies the circuit and has the enforced public values (and one
value per wire); otherwise an error and no text. If the program computes no witness, an error. -/
theorem C85_message (h : List PlayEvent) (hidle : (Play.after N S inst E h).loading = false) (data wasm combined : Bytes) (l : List (Str × JsVal))
    (hr : CustomReady S E h data wasm combined (.obj l)) (r : R1csFile) (hcirc : jsParseR1cs data = .ok r.toJs) (hwf : WellFormed r) (hct : CtFits r)
    (hpriv : r.nPubOut + r.nPubIn + 1 < r.nWires) (m : Bytes) (hl : m.length ≤ S.cipher.maxDec .js) (Q : List Fr → Prop) (hm : MadeFor S data r m combined Q)
    (ρ : Rand Fr) (nonce : Bytes) :
    let s := Play.after N S inst E (h ++ [.clickCustomDecrypt, .finish 0 true ρ nonce])
    (∀ wtns vals, calculateWitness N (inst wasm) l = .ok wtns → jsParseWtns wtns = .ok vals →
      (vals.length = r.nWires ∧ Accepted r vals ∧ Q vals → (∃ t, s.customShown = some t ∧ TextFor S m t) ∧ s.error = false) ∧
      (¬ (vals.length = r.nWires ∧ Accepted r vals ∧ Q vals) → s.customShown = none ∧ s.error = true)) ∧
    (∀ e, calculateWitness N (inst wasm) l = .error e → s.customShown = none ∧ s.error = true) := by
  obtain ⟨d1, d2, -, -⟩ := C85_decrypt N S inst E h hidle data wasm combined (.obj l) hr true ρ nonce
  intro s
  have key : ∀ wtns vals, jsParseWtns wtns = .ok vals →
      (vals.length = r.nWires ∧ Accepted r vals ∧ Q vals → jsDecrypt S data (.ok wtns) combined = .ok m) ∧
      (¬ (vals.length = r.nWires ∧ Accepted r vals ∧ Q vals) → ∃ e, jsDecrypt S data (.ok wtns) combined = .error e) := by
    intro wtns vals hw
    cases hm with
    | cli fs fs' circuit sym input message output symtab entries files msg incl ρ' nonce' hn hj hna hdata hd run out =>
      obtain ⟨data', g1, g2⟩ := files.circuit
      exact C77_cli_to_js_exactly S fs fs' circuit sym input message output r symtab entries files m msg incl ρ' nonce' hn hj run hwf hct (by omega) hna data hdata hd
        combined out wtns vals hw hl
    | js sym inputs hr' hna hsm incl ρ' nonce' hn hj k run =>
      exact C77_js_to_js_exactly S data r hcirc sym inputs hna hsm m incl ρ' nonce' hn hj combined k run hwf hct hpriv wtns vals hw
  refine ⟨fun wtns vals hc hw => ⟨fun hgood => ?_, fun hbad => ?_⟩, fun e he => ?_⟩
  · exact d1 l m rfl rfl (by rw [jsDecryptApi, hc]; exact (key wtns vals hw).1 hgood)
  · obtain ⟨e, he⟩ := (key wtns vals hw).2 hbad
    refine d2 (.inr fun l' m' hl' => ?_)
    cases hl'
    rw [jsDecryptApi, hc, he]
    simp
  · refine d2 (.inr fun l' m' hl' hx => ?_)
    cases hl'
    rw [jsDecryptApi, he] at hx
    obtain ⟨p', k, k1, k2⟩ := js_decrypt_decap hx
    unfold jsDecap at k2
    cases k2

end

end Zkenc.Props
