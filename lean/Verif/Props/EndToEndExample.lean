import Verif.Props.EndToEndOutcome
import Verif.Props.EndToEndPublic
import Verif.Props.JsonText
import Verif.Spec.Toy
/-!
# A concrete end-to-end case

The circuit `y = x²` with public `y` and private `x`; `y = 9`, `x = 3`. All hypotheses of the end-to-end theorems (C45-C50, C55) are met
for it, with a toy pairing, a toy block cipher and the JSON functions of `Model/JsonText.lean`.
-/

namespace Zkenc.Props

open Zkenc Zkenc.Spec Zkenc.InputSpec Zkenc.JsonSpec

namespace Ex

/-- Coefficient 1. -/
def one32 : Bytes := leBytes 32 1

/-- The circuit. -/
def sq : R1csFile where
  fieldSize := 32
  prime := leBytes 32 frModulus
  nWires := 3
  nPubOut := 0
  nPubIn := 1
  nPrvIn := 1
  nLabels := 3
  nConstraints := 1
  constraints := [⟨[(2, one32)], [(2, one32)], [(1, one32)]⟩]
  wire2label := [0, 1, 2]

/-- Its file. -/
def sqSecs : List (Nat × Bytes) :=
  [(2, R1csFormat.constraintsBytes sq), (1, R1csFormat.headerBytes sq), (3, R1csFormat.labelsBytes sq)]

def sqData : Bytes := R1csFormat.fileBytes sqSecs

theorem one32_len : one32.length = 32 := leBytes_length _ _

theorem sq_fits : R1csFormat.Fits sq where
  fieldSize := by simp [sq]
  prime := by simp [sq]
  nWires := by simp [sq]
  nPubOut := by simp [sq]
  nPubIn := by simp [sq]
  nPrvIn := by simp [sq]
  nLabels := by simp [sq]
  nConstraints := by simp [sq]
  constraints := by simp [sq]
  lcs := by
    intro c hc
    simp only [sq, List.mem_singleton] at hc
    subst hc
    simp [R1csFormat.LcOk, one32_len, sq]
  labels := by simp [sq]
  label := by simp [sq]

theorem sqSecs_len : (sqSecs.map fun s => s.2.length) = [3 * 40, 64, 24] := by
  simp [sqSecs, R1csFormat.constraintsBytes, R1csFormat.headerBytes, R1csFormat.labelsBytes, sq, R1csFormat.cstrBytes,
    R1csFormat.lcBytes, one32_len]

theorem sqSecs_fit : R1csFormat.SecsFit sqSecs where
  count := by simp [sqSecs]
  each := by
    intro s hs
    have h := sqSecs_len
    have : s.2.length ∈ sqSecs.map fun s => s.2.length := List.mem_map.2 ⟨s, hs, rfl⟩
    rw [h] at this
    refine ⟨?_, ?_⟩
    · simp only [sqSecs, List.mem_cons, List.not_mem_nil, or_false] at hs
      rcases hs with rfl | rfl | rfl <;> simp
    · simp at this; omega

theorem sqSecs_describe : R1csFormat.Describes sqSecs sq where
  header := ⟨[], by simp [sqSecs, List.lookup]⟩
  constraints := ⟨[], by simp [sqSecs, List.lookup]⟩
  labels := Or.inl ⟨[], by simp [sqSecs, List.lookup]⟩

theorem sqData_len : sqData.length = 12 + (12 + 120) + (12 + 64) + (12 + 24) := by
  simp [sqData, sqSecs, R1csFormat.fileBytes, R1csFormat.secBytes, R1csFormat.constraintsBytes, R1csFormat.headerBytes,
    R1csFormat.labelsBytes, sq, R1csFormat.cstrBytes, R1csFormat.lcBytes, one32_len]

theorem sqData_cli : cliParseR1cs (2 ^ 62) sqData = .ok sq := by
  have := C21_cli_inverts_format (lim := 2 ^ 62) [] sq_fits sqSecs_fit sqSecs_describe (by
    have := sqData_len; unfold sqData at this; omega)
  simpa [sqData] using this

theorem sqData_js : jsParseR1cs sqData = .ok sq.toJs := C23_js_agrees (by have := sqData_len; omega) sqData_cli

theorem sq_wf : WellFormed sq := ⟨by simp [sq], by simp [sq]⟩
theorem sq_ct : CtFits sq := by simp [CtFits, sq]

/-- The witness. -/
def vals : List Fr := [1, 9, 3]

theorem coeff_one : (coeff one32 : Fr) = 1 := by
  unfold coeff one32
  rw [List.take_of_length_le (by simp), leNat_leBytes_of_lt (by decide)]
  simp

theorem vals_witness : Witness sq vals where
  len := by simp [sq, vals]
  one := by simp [vals]
  sat := by
    intro k hk
    simp only [sq, List.mem_singleton] at hk
    subst hk
    simp only [lcSum, List.map_cons, List.map_nil, coeff_one, vals]
    simp
    norm_num

/-- The witness file. -/
def wtns : Bytes := WtnsFormat.fileBytes ⟨leBytes 32 frModulus, vals.map frEnc⟩ [.header, .data]

theorem wtns_fits : WtnsFormat.Fits ⟨leBytes 32 frModulus, vals.map frEnc⟩ where
  fieldPos := by simp
  field := by simp
  count := by simp [vals]
  len := by
    intro v hv
    simp only [List.mem_map] at hv
    obtain ⟨x, -, rfl⟩ := hv
    rw [frEnc_length, leBytes_length]

theorem wtns_data : (vals.map frEnc).flatten.length = 96 := by
  simp only [vals, List.map_cons, List.map_nil, List.flatten_cons, List.flatten_nil, List.length_append, frEnc_length, List.length_nil]

theorem wtns_secs : WtnsFormat.SecsFit ⟨leBytes 32 frModulus, vals.map frEnc⟩ [.header, .data] where
  count := by simp
  other := by simp
  dataLen := by rw [wtns_data]; norm_num

theorem wtns_cli : CliWitness wtns vals := by
  have := C26_roundtrip (xs := vals) [] (leBytes_length 32 frModulus) (by simp [vals]) (by simp [vals]) wtns_secs (by simp) (by simp)
  rw [List.append_nil] at this
  obtain ⟨w, h1, h2⟩ := Res.bind_eq_ok.1 this
  exact ⟨w, h1, h2⟩

theorem frEnc_value (x : Fr) : ((leNat ((frEnc x).take 32) : Nat) : Fr) = x := by
  have h2 := frEnc_length x
  have h3 : x.val < 256 ^ 32 := lt_trans (ZMod.val_lt x) frModulus_lt
  rw [List.take_of_length_le (by omega), show frEnc x = leBytes 32 x.val from rfl, leNat_leBytes_of_lt h3, ZMod.natCast_zmod_val]

theorem wtns_js : jsParseWtns wtns = .ok vals := by
  have h := C27_js_inverts_format (pre := [.header]) (post := []) [] wtns_fits wtns_secs (by simp) (by simp) (by simp) (by
    simp only [WtnsFormat.fileBytes, List.map_cons, List.map_nil, WtnsFormat.Sec.bytes, WtnsFormat.Sec.payload, List.length_append,
      List.flatten_cons, List.flatten_nil, List.length_nil, u32le_length, u64le_length, leBytes_length, wtns_data, List.cons_append,
      List.nil_append, List.length_cons]
    norm_num)
  rw [List.append_nil] at h
  refine h.trans (congrArg Except.ok ?_)
  rw [List.map_map]
  exact (List.map_congr_left (g := id) fun x _ => frEnc_value x).trans (List.map_id _)

/-- The symbol file. -/
def symItems : List SymSpec.Item :=
  [.entry ⟨['1'], 1, ['0'], ['m', 'a', 'i', 'n', '.', 'y']⟩, .entry ⟨['2'], 2, ['0'], ['m', 'a', 'i', 'n', '.', 'x']⟩]

def sym : Str := SymSpec.text symItems

theorem sym_parse : ∃ m, parseSymFile sym = .ok m ∧ (∀ name w, m.get name = some w ↔
    (name, w) ∈ [(['m', 'a', 'i', 'n', '.', 'y'], 1), (['m', 'a', 'i', 'n', '.', 'x'], 2)]) ∧ jsParseSymFile sym = m := by
  obtain ⟨m, h1, -, h3, h4⟩ := C35_parses (is := symItems) (by simp [symItems]) (by
    intro i hi
    simp only [symItems, List.mem_cons, List.not_mem_nil, or_false] at hi
    rcases hi with rfl | rfl <;> refine ⟨?_, ?_, ?_, ?_, ?_, ?_⟩ <;> first | decide | norm_num) (by
    intro s hs s' hs'
    have : SymSpec.signals symItems = [(['m', 'a', 'i', 'n', '.', 'y'], 1), (['m', 'a', 'i', 'n', '.', 'x'], 2)] := by decide
    rw [this] at hs hs'
    revert s s'
    decide)
  refine ⟨m, h1, ?_, h4 ?_⟩
  · have : SymSpec.signals symItems = [(['m', 'a', 'i', 'n', '.', 'y'], 1), (['m', 'a', 'i', 'n', '.', 'x'], 2)] := by decide
    rw [← this]; exact h3
  · have : SymSpec.text symItems = ['1', ',', '1', ',', '0', ',', 'm', 'a', 'i', 'n', '.', 'y', '\n', '2', ',', '2', ',', '0', ',', 'm', 'a', 'i', 'n', '.', 'x'] := by
      simp [SymSpec.text, symItems, SymSpec.Item.text, intDec, natDec, digChar]
    unfold SymSpec.PlainWs
    rw [this]
    decide

/-- The input object `{"y": 9}`. -/
def entries : List (Str × Json) := [(['y'], .int 9)]

theorem denotes_nine {x : Fr} (h : Denotes (.int 9) x) : x = 9 := by
  cases h with
  | nat z h1 h2 => norm_num
  | neg z h1 h2 => omega

theorem gives {name : Str} {x : Fr} (h : Gives entries name x) : name = ['y'] ∧ x = 9 := by
  obtain ⟨e, he, path, y, hat, -, hn, hd⟩ := h
  rw [entries, List.mem_singleton] at he
  subst he
  cases hat with
  | here => exact ⟨hn, denotes_nine hd⟩

theorem all_denote : AllDenote entries := by
  intro e he path y hat hn
  rw [entries, List.mem_singleton] at he
  subst he
  cases hat with
  | here => exact ⟨_, .nat 9 (by norm_num) (by norm_num)⟩

theorem main_y : "main.".toList ++ ['y'] = ['m', 'a', 'i', 'n', '.', 'y'] := by decide

/-- Numbers that are all integers. -/
def D : Doubles where
  round s := if s.head? = some '-' then .num (-(decVal s.tail : Int)) else .num (decVal s)
  round_small z _ := by
    obtain ⟨h1, h2, h3⟩ := natDec_spec z.natAbs
    unfold intDec
    split_ifs with hz hh hh
    · simp only [List.tail_cons, h3]; congr 1; omega
    · simp at hh
    · obtain ⟨c, t, he, hc⟩ := natDec_head z.natAbs
      rw [he] at hh
      simp only [List.head?_cons, Option.some.injEq] at hh
      exact absurd hh (isDig_facts hc).1
    · rw [h3]; congr 1; omega
  outOfRange _ := false

/-- The library parameters, with the concrete JSON functions. -/
def S : Sys Fr Fr Fr :=
  { toySys .null .null with serdeParse := serdeFromStr D id, stringify := jsonStringify, jsonParse := jsonParse D }

theorem S_json : ConcreteJson S D id := ⟨rfl, rfl, rfl, fun _ => List.Perm.refl _⟩

/-- The text of the input file. -/
def inputText : Str := ['{', '"', 'y', '"', ':', ' ', '9', '}', '\n']

theorem input_serde : S.serdeParse inputText = some (.obj entries) := by
  have h1 : pText inputText = some (.obj [(['y'], .num ['9'])]) := by rfl
  have h2 : serdeNum D ['9'] = some (.int 9) := by rfl
  change (pText inputText).bind (JTree.toSerde D id 127) = _
  rw [h1]
  simp only [Option.bind_some, JTree.toSerde, fieldsToSerde, h2]
  rfl

/-- The files: circuit, symbols, inputs, message, witness. -/
def fs : FS := fun p =>
  if p = ['c'] then some sqData else
  if p = ['s'] then some (utf8Enc sym) else
  if p = ['i'] then some (utf8Enc inputText) else
  if p = ['m'] then some [1, 2, 3] else
  if p = ['w'] then some wtns else none

theorem inputText_len : (utf8Enc inputText).length = 9 := by
  simp only [inputText, utf8Enc_cons, List.length_append]
  decide

theorem files : ∃ symtab, CliFiles S fs ['c'] ['s'] ['i'] sq symtab entries ∧ CliAgrees symtab sq.nPubIn entries vals := by
  obtain ⟨m, h1, h2, -⟩ := sym_parse
  refine ⟨m, ⟨⟨sqData, rfl, sqData_cli⟩, ⟨utf8Enc sym, String.ofList sym, rfl, utf8Dec_enc _, ?_⟩,
    ⟨utf8Enc inputText, String.ofList inputText, rfl, utf8Dec_enc _, by rw [String.toList_ofList]; exact input_serde⟩⟩, ?_⟩
  · rw [String.toList_ofList]; exact h1
  · intro name i x hr hg
    obtain ⟨rfl, rfl⟩ := gives hg
    obtain ⟨hr, -⟩ := hr
    rw [main_y, h2] at hr
    simp at hr
    subst hr
    rfl

/-- Randomness and nonce. -/
def ρ : Rand Fr := ⟨2, 3, 5, 7, 11⟩
def nonce : Bytes := [0, 1, 2, 3, 4, 5, 6, 7, 8, 9, 10, 11]

theorem fr_ne (n : Nat) (h0 : 0 < n) (h : n < 1000) : ((n : Nat) : Fr) ≠ 0 := by
  intro hc
  rw [ZMod.natCast_eq_zero_iff] at hc
  have := Nat.le_of_dvd h0 hc
  have : 1000 < frModulus := by decide
  omega

theorem delta_ne : ρ.delta ≠ 0 := by
  have := fr_ne 5 (by decide) (by decide)
  exact_mod_cast this

/-- Encryption succeeds, decryption returns the message, and so does the attack. -/
theorem cli_run :
    ∃ b, (encryptCommand S ['c'] ['s'] ['i'] ['m'] ['o'] true ρ nonce).exec fs = (fs.set ['o'] b, .ok ()) ∧
      (decryptCommand S ['c'] ['w'] ['o'] ['d']).exec (fs.set ['o'] b) = ((fs.set ['o'] b).set ['d'] [1, 2, 3], .ok ()) ∧
      jsDecrypt S sqData (.ok wtns) b = .ok [1, 2, 3] ∧ openWithoutWitness S b = .ok [1, 2, 3] := by
  obtain ⟨symtab, hf, hag⟩ := files
  have hmax : ([1, 2, 3] : Bytes).length ≤ S.cipher.maxEnc .cli := by
    change 3 ≤ 2 ^ 36; norm_num
  have hmax' : ([1, 2, 3] : Bytes).length ≤ S.cipher.maxDec .js := by
    change 3 ≤ 2 ^ 36; norm_num
  obtain ⟨b, hb⟩ := (C47_encrypt_outcome S fs ['c'] ['s'] ['i'] ['m'] ['o'] sq symtab entries hf [1, 2, 3] rfl true ρ nonce rfl).1
    ⟨all_denote, delta_ne, hmax⟩
  have hj : true = true → ∀ j, fs ['i'] = some j → j.length < 2 ^ 32 := by
    intro _ j hj
    have : utf8Enc inputText = j := by simpa [fs] using hj
    rw [← this, inputText_len]; norm_num
  refine ⟨b, hb, ?_, ?_, ?_⟩
  · exact C47_roundtrip S fs _ ['c'] ['s'] ['i'] ['m'] ['o'] sq symtab entries hf [1, 2, 3] rfl true ρ nonce rfl hj hb sq_wf sq_ct
      (by simp [sq]) (fs.set ['o'] b) ['c'] ['w'] ['o'] ['d'] sqData wtns vals rfl sqData_cli rfl rfl wtns_cli vals_witness hag
  · exact C48_cli_to_js S fs _ ['c'] ['s'] ['i'] ['m'] ['o'] sq symtab entries hf [1, 2, 3] rfl true ρ nonce rfl hj hb sq_wf sq_ct
      (by simp [sq]) sqData rfl (by rw [sqData_len]; norm_num) b rfl wtns vals wtns_js vals_witness hag hmax'
  · obtain ⟨b', h1, h2⟩ := C49_cli_opened_by_anyone S fs _ ['c'] ['s'] ['i'] ['m'] ['o'] sq symtab entries hf [1, 2, 3] rfl true ρ nonce
      rfl hj hb sq_wf.fits sq_ct
    cases h1
    exact h2

/-! ### JS -/

/-- The JS input object `{ y: 9 }`. -/
def inputs : List (Str × JsVal) := [(['y'], .num 9)]

theorem stringify_inputs : S.stringify inputs = .ok ['{', '"', 'y', '"', ':', '9', '}'] := by
  have : intDec 9 = ['9'] := by simp [intDec, natDec, digChar]
  change jsonStringify inputs = _
  simp only [jsonStringify, inputs, jsonFields, jsTree, this]
  rfl

theorem stringify_len (s : Str) (hs : S.stringify inputs = .ok s) : (utf8Enc s).length < 2 ^ 32 := by
  rw [stringify_inputs] at hs
  cases hs
  simp only [utf8Enc_cons, List.length_append]
  decide

theorem js_gives {name : Str} {v : JsVal} (h : JsGives inputs name v) : name = ['y'] ∧ v = .num 9 := by
  obtain ⟨e, he, hat⟩ := h
  rw [inputs, List.mem_singleton] at he
  subst he
  cases hat with
  | scalar h1 h2 => exact ⟨rfl, rfl⟩

theorem js_resolves {i : Nat} (h : Resolves (jsParseSymFile sym) none ['y'] i) : i = 1 := by
  obtain ⟨m, -, h2, h3⟩ := sym_parse
  obtain ⟨hr, -⟩ := h
  rw [h3, main_y, h2] at hr
  simpa using hr

theorem nine_text : jsBigInt (intDec 9) = some 9 := by
  have : intDec 9 = ['9'] := by simp [intDec, natDec, digChar]
  rw [this]; decide

theorem js_noAlias : JsNoAlias (jsParseSymFile sym) inputs := by
  intro n n' i v v' _ _ h1 h2
  rw [(js_gives h1).2, (js_gives h2).2]

theorem js_small : JsSmall (jsParseSymFile sym) inputs := by
  refine .of_lt fun name v i hr hg => ?_
  obtain ⟨rfl, rfl⟩ := js_gives hg
  rw [js_resolves hr]; norm_num

theorem js_usable : JsUsable (jsParseSymFile sym) inputs where
  not_null := by
    intro name v i _ hg
    rw [(js_gives hg).2]
    exact ⟨by simp, by simp⟩
  integer := by
    intro i _ _ name v s _ hg hs
    rw [(js_gives hg).2] at hs
    cases hs
    exact ⟨9, nine_text⟩

theorem js_agrees : JsAgrees (jsParseSymFile sym) (sq.nPubOut + sq.nPubIn) inputs vals := by
  intro name i v s z hr _ hg hs hz
  obtain ⟨rfl, rfl⟩ := js_gives hg
  rw [js_resolves hr]
  cases hs
  have : jsBigInt (intDec 9) = some z := hz
  rw [nine_text] at this
  cases this
  simp [vals]

/-- JS `encrypt` succeeds; JS and the CLI decrypt to the message; the attack opens it too; JS `encap`/`decap` agree on the key. -/
theorem js_run (incl : Bool) :
    ∃ b k, jsEncrypt S sqData sym inputs [1, 2, 3] incl ρ nonce = .ok (b, k) ∧
      jsDecrypt S sqData (.ok wtns) b = .ok [1, 2, 3] ∧
      (decryptCommand S ['c'] ['w'] ['o'] ['d']).exec (fs.set ['o'] b) = ((fs.set ['o'] b).set ['d'] [1, 2, 3], .ok ()) ∧
      openWithoutWitness S b = .ok [1, 2, 3] := by
  have hmax : ([1, 2, 3] : Bytes).length ≤ S.cipher.maxEnc .js := by change 3 ≤ 2 ^ 36; norm_num
  have hmax' : ([1, 2, 3] : Bytes).length ≤ S.cipher.maxDec .cli := by change 3 ≤ 2 ^ 36; norm_num
  obtain ⟨b, k, hb⟩ := (C48_encrypt_outcome S sqData sq sqData_js sym inputs js_noAlias js_small [1, 2, 3] incl ρ nonce rfl).2
    ⟨js_usable, delta_ne, hmax, fun _ => ⟨_, rfl⟩⟩
  have hj : incl = true → ∀ s, S.stringify inputs = .ok s → (utf8Enc s).length < 2 ^ 32 := by
    intro _ s hs
    exact stringify_len s hs
  refine ⟨b, k, hb, ?_, ?_, ?_⟩
  · exact C48_js_to_js S sqData sq sqData_js sym inputs js_noAlias js_small [1, 2, 3] incl ρ nonce rfl hj b k hb sq_wf sq_ct
      (by simp [sq]) wtns vals wtns_js vals_witness js_agrees
  · exact C48_js_to_cli S sqData (by rw [sqData_len]; norm_num) sq sqData_cli sym inputs js_noAlias js_small [1, 2, 3] incl ρ nonce rfl hj
      b k hb sq_wf sq_ct (by simp [sq]) (fs.set ['o'] b) ['c'] ['w'] ['o'] ['d'] wtns vals rfl rfl rfl wtns_cli vals_witness js_agrees hmax'
  · exact C49_js_opened_by_anyone S sqData sq sqData_js sym inputs [1, 2, 3] incl ρ nonce rfl hj b k hb sq_wf.fits sq_ct hmax'

/-- `getPublicInput` returns the input object; with a `BigInt` instead of the number, the default mode fails. -/
theorem js_public : ∃ b k, jsEncrypt S sqData sym inputs [1, 2, 3] true ρ nonce = .ok (b, k) ∧ jsGetPublicInput S b = .ok (.obj inputs) ∧
    ∃ e, jsEncrypt S sqData sym [(['y'], .bigint 9)] [1, 2, 3] true ρ nonce = .error e := by
  obtain ⟨b, k, hb, -⟩ := js_run true
  refine ⟨b, k, hb, ?_, (C56_bigint_inputs S S_json sqData sym [(['y'], .bigint 9)] (by simp [HasBigFields, HasBig]) _ _ _).1⟩
  exact C45_js_values_plain S S_json sqData sq sqData_js sym inputs
    (by simp only [Real, inputs, RealFields]; exact ⟨by simp, D.round_small 9 (by norm_num), trivial⟩)
    (by simp [Plain, inputs, PlainFields]) [1, 2, 3] ρ nonce b k hb sq_wf.fits sq_ct (fun s hs => stringify_len s hs)

/-- The public input that `zkenc encrypt` embeds is read by JS. -/
theorem cli_public : ∃ b x, (encryptCommand S ['c'] ['s'] ['i'] ['m'] ['o'] true ρ nonce).exec fs = (fs.set ['o'] b, .ok ()) ∧
    jsGetPublicInput S b = .ok x ∧ Same D (.obj entries) x := by
  obtain ⟨symtab, hf, -⟩ := files
  obtain ⟨b, hb, -⟩ := cli_run
  obtain ⟨c, x, h1, h2, h3⟩ := C57_cli_values S S_json fs _ ['c'] ['s'] ['i'] ['m'] ['o'] sq symtab entries hf ρ nonce hb sq_wf.fits sq_ct
    (fun j hj => by
      have : utf8Enc inputText = j := by simpa [fs] using hj
      rw [← this, inputText_len]; norm_num)
  cases h1
  exact ⟨b, x, hb, h2, h3⟩

/-- JS `encap` succeeds and both tools recover its key. -/
theorem js_kem_run : ∃ ct k, jsEncap S sqData sym inputs ρ = .ok (ct, k) ∧ jsDecap S sqData (.ok wtns) ct = .ok k ∧
    (decapCommand S ['c'] ['w'] ['o'] ['k']).exec (fs.set ['o'] ct) = ((fs.set ['o'] ct).set ['k'] k, .ok ()) := by
  obtain ⟨ct, k, hb, -⟩ := (C55_js_encap_outcome S sqData sq sqData_js sym inputs js_noAlias js_small ρ).1 ⟨js_usable, delta_ne⟩
  exact ⟨ct, k, hb, (C55_js_to_js S sqData sq sqData_js sym inputs js_noAlias js_small ρ ct k hb sq_wf (by simp [sq]) wtns vals wtns_js
    vals_witness js_agrees).1, C55_js_to_cli S sqData (by rw [sqData_len]; norm_num) sq sqData_cli sym inputs js_noAlias js_small ρ ct k hb
    sq_wf (by simp [sq]) (fs.set ['o'] ct) ['c'] ['w'] ['o'] ['k'] wtns vals rfl rfl rfl wtns_cli vals_witness js_agrees⟩

/-- `zkenc encap` succeeds and both tools recover its key. -/
theorem cli_kem_run : ∃ ct k, (encapCommand S ['c'] ['s'] ['i'] ['o'] ['k'] ρ).exec fs = ((fs.set ['o'] ct).set ['k'] k, .ok ()) ∧
    (decapCommand S ['c'] ['w'] ['o'] ['d']).exec ((fs.set ['o'] ct).set ['k'] k) =
      (((fs.set ['o'] ct).set ['k'] k).set ['d'] k, .ok ()) ∧
    jsDecap S sqData (.ok wtns) ct = .ok k := by
  obtain ⟨symtab, hf, hag⟩ := files
  obtain ⟨ct, k, -, hb⟩ := (C55_cli_encap_outcome S fs ['c'] ['s'] ['i'] ['o'] ['k'] sq symtab entries hf ρ).1 ⟨all_denote, delta_ne⟩
  refine ⟨ct, k, hb, ?_, ?_⟩
  · obtain ⟨k', h1, -, h2⟩ := C55_cli_to_cli S fs _ ['c'] ['s'] ['i'] ['o'] ['k'] (by decide) sq symtab entries hf ρ hb sq_wf (by simp [sq])
      ((fs.set ['o'] ct).set ['k'] k) ['c'] ['w'] ['o'] ['d'] sqData wtns vals rfl sqData_cli rfl rfl wtns_cli vals_witness hag
    cases h1
    exact h2
  · obtain ⟨k', h1, h2⟩ := C55_cli_to_js S fs _ ['c'] ['s'] ['i'] ['o'] ['k'] (by decide) sq symtab entries hf ρ hb sq_wf (by simp [sq])
      sqData rfl (by rw [sqData_len]; norm_num) ct rfl wtns vals wtns_js vals_witness hag
    cases h1
    exact h2

end Ex

end Zkenc.Props
