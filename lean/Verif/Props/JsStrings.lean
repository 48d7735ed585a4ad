import Verif.Proofs.JsStringsUse
import Verif.Props.PublicCli
import Verif.Props.JsonGrammar
import Verif.Props.Commands
import Verif.Props.EndToEndOutcome
import Verif.Props.EndToEndExample
/-!
# C100: input objects with arbitrary JS strings

A JS string is a sequence of UTF-16 code units; it may contain surrogates without their partners. Elsewhere strings are lists of characters.
Here: the inputs come back through `encrypt` and `getPublicInput` code unit by code unit; `JSON.parse` against the grammar; on strings that are
lists of characters this is the model used elsewhere; names with lone surrogates count for nothing and no number contains one; the CLI
rejects JSON texts with lone surrogates.
-/

namespace Zkenc.Props

open Zkenc Zkenc.Spec Zkenc.InputSpec Zkenc.JsonSpec

/-- **C100** (text) — `JSON.parse` of what `JSON.stringify` wrote gives the inputs back, code unit by code unit, up to what JSON cannot
express. -/
theorem C100_text (D : Doubles) (inputs : List (JStr × UVal)) (hreal : UReal D (.obj inputs)) (s : Str)
    (h : uStringify inputs = .ok s) : uParse D s = some (.obj (uKeptFields inputs)) ∧ ∃ t, s = '{' :: t := by
  unfold uStringify at h
  obtain ⟨ts, h1, h⟩ := Res.bind_eq_ok.1 h
  cases h
  simp only [UReal] at hreal
  obtain ⟨h2, h3⟩ := uFields_spec D inputs hreal.2 ts h1
  refine ⟨?_, _, by simp only [UTree.render]; rfl⟩
  unfold uParse
  rw [uText_render (.obj ts) (by simp only [UTree.Lits]; exact h2)]
  simp only [Option.map_some, UTree.toJs]
  rw [h3 [] (by simpa [uKeyBefore_iff] using hreal.1)]
  rfl

/-- **C100** (outcome) — `JSON.stringify` throws exactly on inputs with a `BigInt` in them, whatever the strings. -/
theorem C100_stringify_outcome (inputs : List (JStr × UVal)) :
    (UHasBigFields inputs → uStringify inputs = Res.fail "TypeError") ∧ (¬ UHasBigFields inputs → ∃ s, uStringify inputs = .ok s) := by
  obtain ⟨h1, h2⟩ := uFields_outcome inputs
  unfold uStringify
  refine ⟨fun h => by rw [h1 h]; rfl, fun h => ?_⟩
  obtain ⟨ts, ht⟩ := h2 h
  exact ⟨_, by rw [ht, Res.ok_bind]⟩

/-- **C100** (grammar) — `JSON.parse` accepts exactly the JSON texts, lone surrogates written as escapes included, and gives their value. -/
theorem C100_grammar (D : Doubles) (s : Str) (x : UVal) : uParse D s = some x ↔ ∃ t, UText s t ∧ UJsMeans D t x := by
  unfold uParse
  rw [Option.map_eq_some_iff]
  constructor
  · rintro ⟨t, h, rfl⟩
    exact ⟨t, (uText_iff s t).1 h, uToJs_means D t⟩
  · rintro ⟨t, h, hm⟩
    exact ⟨t, (uText_iff s t).2 h, uJsMeans_unique D (uToJs_means D t) x hm⟩

/-- **C100** (unambiguous) — a text is at most one tree, and a tree at most one value. -/
theorem C100_unambiguous (D : Doubles) (s : Str) (t t' : UTree) (h : UText s t) (h' : UText s t') (x x' : UVal) (hx : UJsMeans D t x)
    (hx' : UJsMeans D t' x') : t = t' ∧ x = x' := by
  have := Option.some.inj (((uText_iff s t).2 h).symm.trans ((uText_iff s t').2 h'))
  subst this
  exact ⟨rfl, uJsMeans_unique D hx x' hx'⟩

/-- **C100** (what the CLI can read) — a text is a JSON text for `serde_json` exactly if it is one for `JSON.parse` and all its strings and
names are well-formed. -/
theorem C100_cli_texts (s : Str) : (∃ t, Text s t) ↔ ∃ u, UText s u ∧ ∀ k, UHasStr u k → JsonSpec.WellFormed k := by
  constructor
  · rintro ⟨t, ht⟩
    exact ⟨t.units, (text_units_iff s t).1 ht, fun k hk => hasStr_units hk t rfl⟩
  · rintro ⟨u, hu, hw⟩
    obtain ⟨t, rfl⟩ := units_of_wellFormed u hw
    exact ⟨t, (text_units_iff s t).2 hu⟩

/-- **C100** (rejected by the CLI) — `serde_json` rejects every text with a lone surrogate in a string or a name. -/
theorem C100_cli_rejects (D : Doubles) (ord : List (Str × Json) → List (Str × Json)) (s : Str) (u : UTree) (hu : UText s u) (k : JStr)
    (hk : UHasStr u k) (hill : ¬ JsonSpec.WellFormed k) : serdeFromStr D ord s = none := by
  by_contra hne
  obtain ⟨j, hj⟩ := Option.ne_none_iff_exists'.1 hne
  obtain ⟨t, ht, -⟩ := (C81_serde D ord s).1 ⟨j, hj⟩
  have h1 := (uText_iff s _).2 hu
  have h2 := (uText_iff s _).2 ((text_units_iff s t).1 ht)
  rw [h1] at h2
  exact hill (hasStr_units hk t (Option.some.inj h2))

section
variable {G1 G2 GT : Type} [AddCommGroup G1] [Module Fr G1] [AddCommGroup G2] [Module Fr G2] [AddCommGroup GT] [Module Fr GT]
  (S : Sys G1 G2 GT) {D : Doubles} {ord : List (Str × Json) → List (Str × Json)}

/-- **C100** (not portable) — a file with the JSON text of an input object that contains a lone surrogate, in a name or in a value that JSON
keeps, is no input for the CLI: `zkenc encrypt` and `zkenc encap` fail and change no file. -/
theorem C100_not_portable (hJ : ConcreteJson S D ord) (inputs : List (JStr × UVal)) (hreal : UReal D (.obj inputs)) (k : JStr)
    (hk : UContains (.obj (uKeptFields inputs)) k) (hill : ¬ JsonSpec.WellFormed k) (s : Str) (hs : uStringify inputs = .ok s)
    (fs : FS) (circuit sym input message output keyPath : Path) (hf : fs input = some (utf8Enc s)) (incl : Bool) (ρ : Rand Fr) (nonce : Bytes) :
    (∃ e, (encryptCommand S circuit sym input message output incl ρ nonce).exec fs = (fs, .error e)) ∧
    (∃ e, (encapCommand S circuit sym input output keyPath ρ).exec fs = (fs, .error e)) := by
  unfold uStringify at hs
  obtain ⟨ts, h1, hs⟩ := Res.bind_eq_ok.1 hs
  cases hs
  simp only [UReal] at hreal
  obtain ⟨h2, -⟩ := uFields_spec D inputs hreal.2 ts h1
  have hu : UText (UTree.obj ts).render (.obj ts) := (uText_iff _ _).1 (uText_render (.obj ts) (by simp only [UTree.Lits]; exact h2))
  have hks : UHasStr (.obj ts) k := by
    cases hk with
    | name hm =>
      obtain ⟨t, ht, -⟩ := uFields_contains inputs ts h1 _ _ hm
      exact .name ht
    | field hm hc =>
      obtain ⟨t, ht, hs⟩ := uFields_contains inputs ts h1 _ _ hm
      exact .field ht (hs _ hc)
  have hrej := C100_cli_rejects D ord _ _ hu k hks hill
  have key : ∀ kc, ∀ fs', (cliEncapPart S circuit sym input ρ kc).exec fs ≠ (fs', .ok ()) := by
    intro kc fs' h
    obtain ⟨data, r', symB, symText, jsonB, jsonText, json, w, ct, key, g1, g2, g3, g4, g5, g6, g7, -⟩ := encapPart_ok S h
    rw [hf] at g5
    cases g5
    rw [show utf8Dec (utf8Enc (UTree.obj ts).render) = some (String.ofList (UTree.obj ts).render) from utf8Dec_enc _] at g6
    cases g6
    rw [hJ.serde, String.toList_ofList, hrej] at g7
    cases g7
  constructor
  · cases h : (encryptCommand S circuit sym input message output incl ρ nonce).exec fs with
    | mk fs' o =>
      cases o with
      | ok u => exact absurd h (key _ fs')
      | error e =>
        have := C50_failure_changes_nothing S (.encrypt circuit sym input message output (!incl)) ρ nonce fs e (by
          simp only [cliMain, Bool.not_not]; rw [h]) fs' (some (.error e)) (by
          simp only [cliMain, Bool.not_not]; have := run_exec (encryptCommand S circuit sym input message output incl ρ nonce) fs; rw [h] at this; exact this)
        exact ⟨e, by rw [this.1]⟩
  · cases h : (encapCommand S circuit sym input output keyPath ρ).exec fs with
    | mk fs' o =>
      cases o with
      | ok u => exact absurd h (key _ fs')
      | error e =>
        have := C50_failure_changes_nothing S (.encap circuit sym input output keyPath) ρ nonce fs e (by
          simp only [cliMain]; rw [h]) fs' (some (.error e)) (by
          simp only [cliMain]; have := run_exec (encapCommand S circuit sym input output keyPath ρ) fs; rw [h] at this; exact this)
        exact ⟨e, by rw [this.1]⟩

/-- **C100** (same as elsewhere) — on strings that are lists of characters, every function is the one used elsewhere. -/
theorem C100_agree (hJ : ConcreteJson S D ord) (data : Bytes) (sym : Str) (inputs : List (Str × JsVal)) (u : List (JStr × UVal))
    (hu : SameEntries inputs u) (m : Bytes) (incl : Bool) (ρ : Rand Fr) (nonce : Bytes) :
    uEncap S data sym u ρ = jsEncap S data sym inputs ρ ∧ uEncrypt S data sym u m incl ρ nonce = jsEncrypt S data sym inputs m incl ρ nonce := by
  have hu' := (sameEntries_iff inputs u).1 hu
  subst hu'
  have h1 : uEncap S data sym (unitsFields inputs) ρ = jsEncap S data sym inputs ρ := by
    unfold uEncap jsEncap; rw [uEncapWitness_units]
  refine ⟨h1, ?_⟩
  unfold uEncrypt jsEncrypt
  rw [h1, uStringify_units, hJ.stringify]

/-- **C100** (same as elsewhere, reading) — whenever the model with lists of characters gives a public input, it is the one given here. -/
theorem C100_agree_public (hJ : ConcreteJson S D ord) (b : Bytes) (x : JsVal) (h : jsGetPublicInput S b = .ok x) :
    ∃ u, SameVal x u ∧ uGetPublicInput S D b = .ok u := by
  refine ⟨x.units, (sameVal_iff _ _).2 rfl, ?_⟩
  have h' := ((C45_arbitrary (textDecode S) S.jsonParse b).1 x).1 h
  obtain ⟨w, p, mm, hb, hp⟩ := h'
  refine ((C45_arbitrary (textDecode S) (uParse D) b).1 _).2 ⟨w, p, mm, hb, ?_⟩
  rw [hJ.parse] at hp
  exact uParse_units D _ _ hp

/-- **C100** (key) — the key and the witness ciphertext are those of the inputs without their lone surrogates: entries with such names count
for nothing, a value with one is no number. -/
theorem C100_same_key (data : Bytes) (sym : Str) (u : List (JStr × UVal)) (inputs : List (Str × JsVal)) (hc : CleanedEntries u inputs)
    (ρ : Rand Fr) : uEncap S data sym u ρ = jsEncap S data sym inputs ρ := by
  have := cleanFields_of_cleaned hc
  subst this
  unfold uEncap jsEncap
  rw [uEncapWitness_clean]

/-- **C100** — every input object has exactly one without its lone surrogates. -/
theorem C100_cleaned (u : List (JStr × UVal)) : ∃! inputs, CleanedEntries u inputs :=
  ⟨cleanFields u, cleaned_cleanFields u, fun _ h => cleanFields_of_cleaned h⟩

/-- **C100** (public input) — `getPublicInput` on the output of `encrypt` returns the inputs code unit by code unit, up to what JSON cannot
express. -/
theorem C100_public_input (data : Bytes) (r : R1csFile) (hr : jsParseR1cs data = .ok r.toJs) (sym : Str)
    (inputs : List (JStr × UVal)) (hreal : UReal D (.obj inputs)) (m : Bytes) (ρ : Rand Fr) (nonce : Bytes) (combined key : Bytes)
    (henc : uEncrypt S data sym inputs m true ρ nonce = .ok (combined, key)) (hf : PublicFits r) (hs : Spec.CtFits r)
    (hlen : ∀ s, uStringify inputs = .ok s → (utf8Enc s).length < 2 ^ 32) :
    uGetPublicInput S D combined = .ok (.obj (uKeptFields inputs)) := by
  unfold uEncrypt at henc
  obtain ⟨⟨ctB, kB⟩, h1, h⟩ := Res.bind_eq_ok.1 henc
  obtain ⟨enc, h2, h⟩ := Res.bind_eq_ok.1 h
  obtain ⟨pub, h3, h⟩ := Res.bind_eq_ok.1 h
  cases h
  rw [if_pos rfl] at h3
  obtain ⟨s, h4, h3⟩ := Res.bind_eq_ok.1 h3
  cases h3
  obtain ⟨h5, t, rfl⟩ := C100_text D inputs hreal s h4
  rw [C100_same_key S data sym inputs _ (cleaned_cleanFields inputs)] at h1
  unfold jsEncap at h1
  obtain ⟨wtns, -, h1⟩ := Res.bind_eq_ok.1 h1
  unfold wasmEncap at h1
  rw [hr, Res.ok_bind] at h1
  obtain ⟨vals, -, h1⟩ := Res.bind_eq_ok.1 h1
  obtain ⟨⟨ct, k⟩, h6, h1⟩ := Res.bind_eq_ok.1 h1
  cases h1
  have hnp : r.toJs.nPublicInputs = r.nPubOut + r.nPubIn := nPublicInputs_eq hf
  rw [hnp] at h6
  have hsz := (ct_size S .js r hf _ (fun i hi => if_neg (by omega)) ρ ct k h6).1
  unfold Spec.CtFits at hs
  exact C45_returns (textDecode S) (uParse D) _ _ _ (by simp only; omega) (hlen _ h4) _ (by rw [textDecode_enc S _ (utf8_brace t)]; exact h5)

/-- **C100** (refused) — without public input, `getPublicInput` throws. -/
theorem C100_not_included (data : Bytes) (sym : Str) (inputs : List (JStr × UVal)) (m : Bytes) (ρ : Rand Fr) (nonce : Bytes)
    (combined key : Bytes) (henc : uEncrypt S data sym inputs m false ρ nonce = .ok (combined, key)) :
    uGetPublicInput S D combined = Res.fail "Public inputs are not included in this ciphertext" := by
  unfold uEncrypt at henc
  obtain ⟨⟨ctB, kB⟩, -, h⟩ := Res.bind_eq_ok.1 henc
  obtain ⟨enc, -, h⟩ := Res.bind_eq_ok.1 h
  obtain ⟨pub, -, h⟩ := Res.bind_eq_ok.1 h
  cases h
  exact C45_refuses _ _ _ _ _

theorem u_sealed {S : Sys G1 G2 GT} {data : Bytes} {r : R1csFile} (hr : jsParseR1cs data = .ok r.toJs) (hf : PublicFits r) {sym : Str}
    {u : List (JStr × UVal)} {inputs : List (Str × JsVal)} (hc : CleanedEntries u inputs) {m : Bytes} {incl : Bool} {ρ : Rand Fr} {nonce : Bytes}
    (hn : nonce.length = 12) (hj : incl = true → ∀ s, uStringify u = .ok s → (utf8Enc s).length < 2 ^ 32) {combined key : Bytes}
    (h : uEncrypt S data sym u m incl ρ nonce = .ok (combined, key)) :
    ∃ w, jsAssign (r.nPubOut + r.nPubIn) sym inputs = .ok w ∧ Sealed S .js r w m combined := by
  unfold uEncrypt at h
  obtain ⟨⟨ctB, kB⟩, h1, h⟩ := Res.bind_eq_ok.1 h
  obtain ⟨enc, h2, h⟩ := Res.bind_eq_ok.1 h
  obtain ⟨pub, h3, h⟩ := Res.bind_eq_ok.1 h
  cases h
  rw [C100_same_key S data sym u inputs hc] at h1
  unfold jsEncap at h1
  obtain ⟨wtns, h4, h1⟩ := Res.bind_eq_ok.1 h1
  unfold wasmEncap at h1
  rw [hr, Res.ok_bind] at h1
  obtain ⟨vals, h5, h1⟩ := Res.bind_eq_ok.1 h1
  obtain ⟨⟨ct, k⟩, h6, h1⟩ := Res.bind_eq_ok.1 h1
  cases h1
  have hnp : r.toJs.nPublicInputs = r.nPubOut + r.nPubIn := nPublicInputs_eq hf
  rw [hnp] at h6
  refine ⟨_, by rw [jsAssign, h4, Res.ok_bind, h5, Res.ok_bind], ρ, ct, k, enc, nonce, incl, pub, hn, h6, h2, ?_, rfl⟩
  intro hi
  rw [if_pos hi] at h3
  obtain ⟨s, hs, h3⟩ := Res.bind_eq_ok.1 h3
  cases h3
  exact hj hi s hs

/-- **C100** (JS to JS) — what `encrypt` made of inputs with arbitrary strings is decrypted by every witness that agrees with the inputs
without their lone surrogates. -/
theorem C100_js_to_js (data : Bytes) (r : R1csFile) (hr : jsParseR1cs data = .ok r.toJs) (sym : Str) (u : List (JStr × UVal))
    (inputs : List (Str × JsVal)) (hc : CleanedEntries u inputs)
    (hna : JsNoAlias (jsParseSymFile sym) inputs) (hmax : JsSmall (jsParseSymFile sym) inputs) (m : Bytes) (incl : Bool) (ρ : Rand Fr)
    (nonce : Bytes) (hn : nonce.length = 12) (hj : incl = true → ∀ s, uStringify u = .ok s → (utf8Enc s).length < 2 ^ 32)
    (combined key : Bytes) (henc : uEncrypt S data sym u m incl ρ nonce = .ok (combined, key))
    (hwf : Spec.WellFormed r) (hs : Spec.CtFits r) (hpriv : r.nPubOut + r.nPubIn + 1 < r.nWires)
    (wtns : Bytes) (vals : List Fr) (hwit : jsParseWtns wtns = .ok vals) (hv : Spec.Witness r vals)
    (hag : JsAgrees (jsParseSymFile sym) (r.nPubOut + r.nPubIn) inputs vals) :
    jsDecrypt S data (.ok wtns) combined = .ok m := by
  obtain ⟨w, hw, hse⟩ := u_sealed hr hwf.fits hc hn hj henc
  exact js_open hse hwf hs (fun i hi => js_beyond hw i hi) (js_missing hwf hpriv hw) hr hwit hv
    (fun i x h1 _ hx => js_agrees_wires hna hmax hw hag i x h1 hx) hse.message_le

/-- **C100** (JS to CLI). -/
theorem C100_js_to_cli (data : Bytes) (hd : data.length < 2 ^ 31) (r : R1csFile) (hr : cliParseR1cs S.lim data = .ok r) (sym : Str)
    (u : List (JStr × UVal)) (inputs : List (Str × JsVal)) (hc : CleanedEntries u inputs)
    (hna : JsNoAlias (jsParseSymFile sym) inputs) (hmax : JsSmall (jsParseSymFile sym) inputs) (m : Bytes)
    (incl : Bool) (ρ : Rand Fr) (nonce : Bytes) (hn : nonce.length = 12)
    (hj : incl = true → ∀ s, uStringify u = .ok s → (utf8Enc s).length < 2 ^ 32)
    (combined key : Bytes) (henc : uEncrypt S data sym u m incl ρ nonce = .ok (combined, key))
    (hwf : Spec.WellFormed r) (hs : Spec.CtFits r) (hpriv : r.nPubOut + r.nPubIn + 1 < r.nWires)
    (fs : FS) (circuit witness ciphertext output : Path) (wdata : Bytes) (vals : List Fr)
    (hdata : fs circuit = some data) (hct : fs ciphertext = some combined) (hwd : fs witness = some wdata)
    (hwit : CliWitness wdata vals) (hv : Spec.Witness r vals)
    (hag : JsAgrees (jsParseSymFile sym) (r.nPubOut + r.nPubIn) inputs vals) (hl : m.length ≤ S.cipher.maxDec .cli) :
    (decryptCommand S circuit witness ciphertext output).exec fs = (fs.set output m, .ok ()) := by
  obtain ⟨w, hw, hse⟩ := u_sealed (C23_js_agrees hd hr) hwf.fits hc hn hj henc
  exact cli_open hse hwf hs (fun i hi => js_beyond hw i hi) (js_missing hwf hpriv hw) hdata hr hwd hwit hv
    (fun i x h1 _ hx => js_agrees_wires hna hmax hw hag i x h1 hx) hct hl

/-- **C100** (outcome) — `encrypt` succeeds exactly if the inputs without their lone surrogates are usable, the cipher accepts the message,
and, to include the public input, there is no `BigInt` in it. -/
theorem C100_encrypt_outcome (data : Bytes) (r : R1csFile) (hr : jsParseR1cs data = .ok r.toJs) (sym : Str) (u : List (JStr × UVal))
    (inputs : List (Str × JsVal)) (hc : CleanedEntries u inputs) (hna : JsNoAlias (jsParseSymFile sym) inputs)
    (hmax : JsSmall (jsParseSymFile sym) inputs) (m : Bytes) (incl : Bool) (ρ : Rand Fr) (nonce : Bytes) (hn : nonce.length = 12) :
    (∃ ct k, uEncrypt S data sym u m incl ρ nonce = .ok (ct, k)) ↔
      JsUsable (jsParseSymFile sym) inputs ∧ ρ.delta ≠ 0 ∧ m.length ≤ S.cipher.maxEnc .js ∧ (incl = true → ¬ UHasBigFields u) := by
  have hout := C48_encrypt_outcome S data r hr sym inputs hna hmax m false ρ nonce hn
  have hfalse : uEncrypt S data sym u m false ρ nonce = jsEncrypt S data sym inputs m false ρ nonce := by
    unfold uEncrypt jsEncrypt
    rw [C100_same_key S data sym u inputs hc]
    rfl
  rw [← hfalse] at hout
  have hbig := C100_stringify_outcome u
  constructor
  · rintro ⟨ct, k, h⟩
    unfold uEncrypt at h
    obtain ⟨ck, h1, h⟩ := Res.bind_eq_ok.1 h
    obtain ⟨enc, h2, h⟩ := Res.bind_eq_ok.1 h
    obtain ⟨pub, h3, h⟩ := Res.bind_eq_ok.1 h
    obtain ⟨a, b, c, -⟩ := hout.1 ⟨_, _, by unfold uEncrypt; rw [h1, Res.ok_bind, h2, Res.ok_bind, if_neg (by simp), Res.ok_bind]⟩
    refine ⟨a, b, c, ?_⟩
    rintro rfl hb
    rw [if_pos rfl, hbig.1 hb] at h3
    cases h3
  · rintro ⟨a, b, c, d⟩
    obtain ⟨ct, k, h⟩ := hout.2 ⟨a, b, c, by simp⟩
    unfold uEncrypt at h
    obtain ⟨ck, h1, h⟩ := Res.bind_eq_ok.1 h
    obtain ⟨enc, h2, h⟩ := Res.bind_eq_ok.1 h
    cases incl with
    | false => exact ⟨_, _, by unfold uEncrypt; rw [h1, Res.ok_bind, h2, Res.ok_bind, if_neg (by simp), Res.ok_bind]⟩
    | true =>
      obtain ⟨s, hs⟩ := hbig.2 (d rfl)
      exact ⟨_, _, by unfold uEncrypt; rw [h1, Res.ok_bind, h2, Res.ok_bind, if_pos rfl, hs, Res.ok_bind, Res.ok_bind]⟩

end

/-! ## A concrete case -/

namespace Ex

/-- The input object `{ y: 9, "\ud800": "\udc00a" }`: a lone surrogate in a name and another one in a value. -/
def loneInputs : List (JStr × UVal) := [([0x79], .num 9), ([0xD800], .str [0xDC00, 0x61])]

theorem lone_ill : ¬ JsonSpec.WellFormed [0xD800] := by
  rw [wellFormed_iff]
  rintro ⟨s, hs⟩
  have : JStr.toStr? [0xD800] = none := by decide +kernel
  rw [this] at hs; cases hs

theorem lone_cleaned : CleanedEntries loneInputs inputs := by
  refine .cons (.one (by decide +kernel) .nil) (.num 9) (.ill lone_ill .nil)

/-- The text written for it: `{"y":9,"\ud800":"\udc00a"}`. -/
def loneText : Str :=
  ['{', '"', 'y', '"', ':', '9', ',', '"', '\\', 'u', 'd', '8', '0', '0', '"', ':', '"', '\\', 'u', 'd', 'c', '0', '0', 'a', '"', '}']

theorem lone_stringify : uStringify loneInputs = .ok loneText := by
  have : intDec 9 = ['9'] := by simp [intDec, natDec, digChar]
  simp only [uStringify, loneInputs, uFields, uTree, this]
  rfl

theorem lone_real : UReal D (.obj loneInputs) := by
  have h1 : ∀ n, ¬ UIsIndex [0x79] n := by
    rw [← uKeyIndex_none]; decide +kernel
  have h2 : ∀ n, ¬ UIsIndex [0xD800] n := by
    rw [← uKeyIndex_none]; decide +kernel
  simp only [UReal, loneInputs, URealFields]
  refine ⟨?_, D.round_small 9 (by norm_num), trivial, trivial⟩
  simp only [List.pairwise_cons, List.mem_singleton, forall_eq, List.not_mem_nil, false_imp_iff, implies_true, List.Pairwise.nil, and_true]
  exact Or.inr (Or.inr ⟨h1, h2, by decide⟩)

theorem lone_len (s : Str) (hs : uStringify loneInputs = .ok s) : (utf8Enc s).length < 2 ^ 32 := by
  rw [lone_stringify] at hs
  cases hs
  simp only [loneText, utf8Enc_cons, List.length_append]
  decide

theorem lone_kept : uKeptFields loneInputs = loneInputs := by
  simp [loneInputs, uKeptFields, uKept]

/-- `encrypt` succeeds, both tools decrypt, `getPublicInput` gives the object back, lone surrogates included. -/
theorem lone_run :
    ∃ b k, uEncrypt S sqData sym loneInputs [1, 2, 3] true ρ nonce = .ok (b, k) ∧ uGetPublicInput S D b = .ok (.obj loneInputs) ∧
      jsDecrypt S sqData (.ok wtns) b = .ok [1, 2, 3] ∧
      (decryptCommand S ['c'] ['w'] ['o'] ['d']).exec (fs.set ['o'] b) = ((fs.set ['o'] b).set ['d'] [1, 2, 3], .ok ()) := by
  have hmax : ([1, 2, 3] : Bytes).length ≤ S.cipher.maxEnc .js := by change 3 ≤ 2 ^ 36; norm_num
  have hmax' : ([1, 2, 3] : Bytes).length ≤ S.cipher.maxDec .cli := by change 3 ≤ 2 ^ 36; norm_num
  obtain ⟨b, k, hb⟩ := (C100_encrypt_outcome S sqData sq sqData_js sym loneInputs inputs lone_cleaned js_noAlias js_small [1, 2, 3] true ρ nonce rfl).2
    ⟨js_usable, delta_ne, hmax, fun _ => by simp [loneInputs, UHasBigFields, UHasBig]⟩
  refine ⟨b, k, hb, ?_, ?_, ?_⟩
  · rw [C100_public_input S sqData sq sqData_js sym loneInputs lone_real [1, 2, 3] ρ nonce b k hb sq_wf.fits sq_ct lone_len, lone_kept]
  · exact C100_js_to_js S sqData sq sqData_js sym loneInputs inputs lone_cleaned js_noAlias js_small [1, 2, 3] true ρ nonce rfl (fun _ => lone_len) b k hb
      sq_wf sq_ct (by simp [sq]) wtns vals wtns_js vals_witness js_agrees
  · exact C100_js_to_cli S sqData (by rw [sqData_len]; norm_num) sq sqData_cli sym loneInputs inputs lone_cleaned js_noAlias js_small [1, 2, 3] true ρ nonce
      rfl (fun _ => lone_len) b k hb sq_wf sq_ct (by simp [sq]) (fs.set ['o'] b) ['c'] ['w'] ['o'] ['d'] wtns vals rfl rfl rfl wtns_cli vals_witness
      js_agrees hmax'

/-- The same object as input file of the CLI. -/
example : (∃ e, (encryptCommand S ['c'] ['s'] ['i'] ['m'] ['o'] true ρ nonce).exec (fs.set ['i'] (utf8Enc loneText)) = (fs.set ['i'] (utf8Enc loneText), .error e)) ∧
    ∃ e, (encapCommand S ['c'] ['s'] ['i'] ['o'] ['k'] ρ).exec (fs.set ['i'] (utf8Enc loneText)) = (fs.set ['i'] (utf8Enc loneText), .error e) := by
  refine C100_not_portable S S_json loneInputs lone_real [0xD800] ?_ lone_ill loneText lone_stringify _ _ _ _ _ _ _ (FS.set_same _ _ _) _ _ nonce
  rw [lone_kept]
  exact .name (v := .str [0xDC00, 0x61]) (by simp [loneInputs])

/-- The text against the grammar, and what each tool makes of it. -/
theorem lone_text : UText loneText (.obj [([0x79], .num ['9']), ([0xD800], .str [0xDC00, 0x61])]) := (uText_iff _ _).1 (by rfl)

example : uParse D loneText = some (.obj loneInputs) := by
  have := (C100_text D loneInputs lone_real loneText lone_stringify).1
  rwa [lone_kept] at this

example : serdeFromStr D id loneText = none := C100_cli_rejects D id loneText _ lone_text [0xD800] (.name (t := .str [0xDC00, 0x61]) (by simp)) lone_ill

example : ¬ ∃ t, Text loneText t := by
  rw [C100_cli_texts]
  rintro ⟨u, hu, hw⟩
  have hu' := (C100_unambiguous D loneText _ _ lone_text hu _ _ (uToJs_means D _) (uToJs_means D _)).1
  subst hu'
  exact lone_ill (hw _ (.name (t := .str [0xDC00, 0x61]) (by simp)))

example : ∃ x, uParse D loneText = some x ∧ ∃ t, UText loneText t ∧ UJsMeans D t x :=
  ⟨_, (C100_text D loneInputs lone_real loneText lone_stringify).1, (C100_grammar D _ _).1 (C100_text D loneInputs lone_real loneText lone_stringify).1⟩

/-- A surrogate pair is one character; a `BigInt` stops `JSON.stringify` whatever the strings. -/
example : JsonSpec.WellFormed [0xD83D, 0xDE00] ∧ uStringify [([0xD800], .bigint 1)] = Res.fail "TypeError" :=
  ⟨⟨['😀'], .two (by decide) (by decide) (by decide) (by decide) (by decide +kernel) .nil⟩, (C100_stringify_outcome _).1 (by simp [UHasBigFields, UHasBig])⟩

example : uEncap S sqData sym loneInputs ρ = jsEncap S sqData sym inputs ρ := C100_same_key S _ _ _ _ lone_cleaned ρ

/-- The entries of `{ y: 9 }` as code units. -/
theorem same_inputs : SameEntries inputs [([0x79], .num 9)] := .cons (.one (by decide +kernel) .nil) (.num 9) .nil

example : uEncrypt S sqData sym [([0x79], .num 9)] [1, 2, 3] true ρ nonce = jsEncrypt S sqData sym inputs [1, 2, 3] true ρ nonce :=
  (C100_agree S S_json sqData sym inputs _ same_inputs _ _ _ _).2

example : ∃ b u, SameVal (.obj inputs) u ∧ uGetPublicInput S D b = .ok u := by
  obtain ⟨b, k, -, hb, -⟩ := js_public
  obtain ⟨u, h1, h2⟩ := C100_agree_public S S_json b _ hb
  exact ⟨b, u, h1, h2⟩

example : ∃ b k, uEncrypt S sqData sym loneInputs [1, 2, 3] false ρ nonce = .ok (b, k) ∧
    uGetPublicInput S D b = Res.fail "Public inputs are not included in this ciphertext" := by
  have hmax : ([1, 2, 3] : Bytes).length ≤ S.cipher.maxEnc .js := by change 3 ≤ 2 ^ 36; norm_num
  obtain ⟨b, k, hb⟩ := (C100_encrypt_outcome S sqData sq sqData_js sym loneInputs inputs lone_cleaned js_noAlias js_small [1, 2, 3] false ρ nonce rfl).2
    ⟨js_usable, delta_ne, hmax, by simp⟩
  exact ⟨b, k, hb, C100_not_included S _ _ _ _ _ _ b k hb⟩

example : ∃ inputs, CleanedEntries loneInputs inputs := (C100_cleaned loneInputs).exists

end Ex

end Zkenc.Props
