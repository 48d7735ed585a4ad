import Verif.Props.QuickStart
import Verif.Props.EndToEndExample
/-!
# C93: a concrete case

The compiled quick-start circuit, encrypted for `{"publicValue": …}` and opened with other numbers.
-/

namespace Zkenc.Props

open Zkenc Zkenc.Spec Zkenc.InputSpec

namespace ExQuick

open Ex (one32 one32_len coeff_one frEnc_value ρ nonce delta_ne S)

/-- Coefficient −1. -/
def neg32 : Bytes := leBytes 32 (frModulus - 1)

theorem neg32_len : neg32.length = 32 := leBytes_length _ _

theorem coeff_neg : (coeff neg32 : Fr) = -1 := by
  unfold coeff neg32
  rw [List.take_of_length_le (by simp), leNat_leBytes_of_lt (by decide)]
  rw [Nat.cast_sub (by decide)]
  simp

/-- The circuit of the quick start: `0 · 0 = publicValue + privateValue − result`. -/
def quick : R1csFile where
  fieldSize := 32
  prime := leBytes 32 frModulus
  nWires := 4
  nPubOut := 1
  nPubIn := 0
  nPrvIn := 2
  nLabels := 4
  nConstraints := 1
  constraints := [⟨[], [], [(1, neg32), (2, one32), (3, one32)]⟩]
  wire2label := [0, 1, 2, 3]

theorem quick_start : QuickStart quick none where
  nPubOut := rfl
  nPubIn := by simp [quick]
  nWires := rfl
  constraints := by
    intro val h0
    simp only [Satisfies, quick, List.mem_singleton, forall_eq, lcSum, List.map_cons, List.map_nil, coeff_one, coeff_neg, List.sum_nil, List.sum_cons]
    constructor
    · intro h
      refine ⟨?_, by simp⟩
      linear_combination h
    · rintro ⟨h, -⟩
      rw [h]; ring

/-- The circuit of the guide for Node.js, with `100 · 1 = result` and a public input. -/
def node : R1csFile :=
  { quick with
    nPubIn := 1
    nPrvIn := 1
    nConstraints := 2
    constraints := [⟨[], [], [(1, neg32), (2, one32), (3, one32)]⟩, ⟨[], [], [(0, leBytes 32 100), (1, neg32)]⟩] }

theorem node_start : QuickStart node (some 100) where
  nPubOut := rfl
  nPubIn := by simp [node]
  nWires := rfl
  constraints := by
    intro val h0
    have hc : (coeff (leBytes 32 100) : Fr) = 100 := by
      unfold coeff
      rw [List.take_of_length_le (by simp), leNat_leBytes_of_lt (by decide)]
      simp
    simp only [Satisfies, node, List.mem_cons, List.not_mem_nil, or_false, forall_eq_or_imp, forall_eq, lcSum, List.map_cons, List.map_nil, coeff_one,
      coeff_neg, hc, h0, List.sum_nil, List.sum_cons, Option.some.injEq, forall_eq']
    constructor
    · rintro ⟨h1, h2⟩
      exact ⟨by linear_combination h1, by linear_combination h2⟩
    · rintro ⟨h1, h2⟩
      exact ⟨by linear_combination h1, by linear_combination h2⟩

/-- The file of the first. -/
def secs : List (Nat × Bytes) :=
  [(2, R1csFormat.constraintsBytes quick), (1, R1csFormat.headerBytes quick), (3, R1csFormat.labelsBytes quick)]

def data : Bytes := R1csFormat.fileBytes secs

theorem fits : R1csFormat.Fits quick where
  fieldSize := by simp [quick]
  prime := by simp [quick]
  nWires := by simp [quick]
  nPubOut := by simp [quick]
  nPubIn := by simp [quick]
  nPrvIn := by simp [quick]
  nLabels := by simp [quick]
  nConstraints := by simp [quick]
  constraints := by simp [quick]
  lcs := by
    intro c hc
    simp only [quick, List.mem_singleton] at hc
    subst hc
    simp [R1csFormat.LcOk, one32_len, neg32_len, quick]
  labels := by simp [quick]
  label := by simp [quick]

theorem secs_len : (secs.map fun s => s.2.length) = [120, 64, 32] := by
  simp [secs, R1csFormat.constraintsBytes, R1csFormat.headerBytes, R1csFormat.labelsBytes, quick, R1csFormat.cstrBytes,
    R1csFormat.lcBytes, one32_len, neg32_len]

theorem secs_fit : R1csFormat.SecsFit secs where
  count := by simp [secs]
  each := by
    intro s hs
    have h := secs_len
    have : s.2.length ∈ secs.map fun s => s.2.length := List.mem_map.2 ⟨s, hs, rfl⟩
    rw [h] at this
    refine ⟨?_, ?_⟩
    · simp only [secs, List.mem_cons, List.not_mem_nil, or_false] at hs
      rcases hs with rfl | rfl | rfl <;> norm_num
    · simp at this
      omega

theorem secs_describe : R1csFormat.Describes secs quick where
  header := ⟨[], by simp [secs, List.lookup]⟩
  constraints := ⟨[], by simp [secs, List.lookup]⟩
  labels := Or.inl ⟨[], by simp [secs, List.lookup]⟩

theorem data_len : data.length = 264 := by
  simp [data, secs, R1csFormat.fileBytes, R1csFormat.secBytes, R1csFormat.constraintsBytes, R1csFormat.headerBytes,
    R1csFormat.labelsBytes, quick, R1csFormat.cstrBytes, R1csFormat.lcBytes, one32_len, neg32_len]

theorem data_cli : cliParseR1cs (2 ^ 62) data = .ok quick := by
  have := C21_cli_inverts_format (lim := 2 ^ 62) [] fits secs_fit secs_describe (by
    have := data_len; unfold data at this; omega)
  simpa [data] using this

/-- The symbol file. -/
def symItems : List SymSpec.Item :=
  [.entry ⟨['1'], 1, ['0'], ['m', 'a', 'i', 'n', '.', 'r', 'e', 's', 'u', 'l', 't']⟩,
   .entry ⟨['2'], 2, ['0'], ['m', 'a', 'i', 'n', '.', 'p', 'u', 'b', 'l', 'i', 'c', 'V', 'a', 'l', 'u', 'e']⟩,
   .entry ⟨['3'], 3, ['0'], ['m', 'a', 'i', 'n', '.', 'p', 'r', 'i', 'v', 'a', 't', 'e', 'V', 'a', 'l', 'u', 'e']⟩]

def sym : Str := SymSpec.text symItems

theorem signals_eq : SymSpec.signals symItems = [("main.".toList ++ "result".toList, 1), ("main.".toList ++ "publicValue".toList, 2),
    ("main.".toList ++ "privateValue".toList, 3)] := by decide

theorem sym_parse : ∃ m, parseSymFile sym = .ok m ∧ QuickStartSymbols m ∧ jsParseSymFile sym = m := by
  obtain ⟨m, h1, -, h3, h4⟩ := C35_parses (is := symItems) (by simp [symItems]) (by
    intro i hi
    simp only [symItems, List.mem_cons, List.not_mem_nil, or_false] at hi
    rcases hi with rfl | rfl | rfl <;> refine ⟨?_, ?_, ?_, ?_, ?_, ?_⟩ <;> first | decide | norm_num) (by
    intro s hs s' hs'
    rw [signals_eq] at hs hs'
    revert s s'
    decide)
  refine ⟨m, h1, fun name i => ?_, h4 ?_⟩
  · unfold Resolves
    rw [h3, signals_eq]
    simp only [List.mem_cons, List.not_mem_nil, or_false, Prod.mk.injEq, List.append_cancel_left_eq]
    exact ⟨fun h => h.1, fun h => ⟨h, fun k hk => by cases hk⟩⟩
  · unfold SymSpec.PlainWs
    simp [SymSpec.text, symItems, SymSpec.Item.text, intDec, natDec, digChar]

/-- The witness file of a solution. -/
def wtns (a b : Fr) : Bytes := WtnsFormat.fileBytes ⟨leBytes 32 frModulus, [1, a + b, a, b].map frEnc⟩ [.header, .data]

theorem wtns_data (a b : Fr) : (([1, a + b, a, b] : List Fr).map frEnc).flatten.length = 128 := by
  simp only [List.map_cons, List.map_nil, List.flatten_cons, List.flatten_nil, List.length_append, frEnc_length, List.length_nil]

theorem wtns_secs (a b : Fr) : WtnsFormat.SecsFit ⟨leBytes 32 frModulus, ([1, a + b, a, b] : List Fr).map frEnc⟩ [.header, .data] where
  count := by simp
  other := by simp
  dataLen := by rw [wtns_data]; norm_num

theorem wtns_cli (a b : Fr) : CliWitness (wtns a b) [1, a + b, a, b] := by
  have := C26_roundtrip (xs := [1, a + b, a, b]) [] (leBytes_length 32 frModulus) (by simp) (by simp) (wtns_secs a b) (by simp) (by simp)
  rw [List.append_nil] at this
  obtain ⟨w, h1, h2⟩ := Res.bind_eq_ok.1 this
  exact ⟨w, h1, h2⟩

/-- `public_inputs.json` of the quick start. -/
def inputText : Str := ['{', '"', 'p', 'u', 'b', 'l', 'i', 'c', 'V', 'a', 'l', 'u', 'e', '"', ':', ' ', '"', '4', '2', '"', '}', '\n']

def entries : List (Str × Json) := [(['p', 'u', 'b', 'l', 'i', 'c', 'V', 'a', 'l', 'u', 'e'], .str ['4', '2'])]

theorem input_serde : S.serdeParse inputText = some (.obj entries) := by
  have h1 : pText inputText = some (.obj [(['p', 'u', 'b', 'l', 'i', 'c', 'V', 'a', 'l', 'u', 'e'], .str ['4', '2'])]) := by rfl
  change (pText inputText).bind (JTree.toSerde Ex.D id 127) = _
  rw [h1]
  rfl

theorem not_result (x : Fr) : ¬ Gives entries "result".toList x := by
  rintro ⟨e, he, path, y, hat, -, hn, -⟩
  rw [entries, List.mem_singleton] at he
  subst he
  cases hat with
  | here => exact absurd hn (by decide)

theorem all_denote : AllDenote entries := by
  intro e he path y hat hn
  rw [entries, List.mem_singleton] at he
  subst he
  cases hat with
  | here => exact ⟨_, .str _ 42 ⟨'4', ['2'], by decide, by decide, .inl ⟨rfl, by decide⟩⟩⟩

/-- The files: circuit, symbols, inputs, message, witness. -/
def fs (a b : Fr) : FS := fun p =>
  if p = ['c'] then some data else
  if p = ['s'] then some (utf8Enc sym) else
  if p = ['i'] then some (utf8Enc inputText) else
  if p = ['m'] then some [1, 2, 3] else
  if p = ['w'] then some (wtns a b) else none

theorem inputText_len : (utf8Enc inputText).length = 22 := by
  simp only [inputText, utf8Enc_cons, List.length_append]
  decide

/-- Encrypted for 42, opened with any two numbers. -/
theorem run (a b : Fr) :
    ∃ c, (encryptCommand S ['c'] ['s'] ['i'] ['m'] ['o'] true ρ nonce).exec (fs a b) = ((fs a b).set ['o'] c, .ok ()) ∧
      (decryptCommand S ['c'] ['w'] ['o'] ['d']).exec ((fs a b).set ['o'] c) = (((fs a b).set ['o'] c).set ['d'] [1, 2, 3], .ok ()) := by
  obtain ⟨m, h1, h2, -⟩ := sym_parse
  have hf : CliFiles S (fs a b) ['c'] ['s'] ['i'] quick m entries :=
    ⟨⟨data, rfl, data_cli⟩, ⟨utf8Enc sym, String.ofList sym, rfl, utf8Dec_enc _, by rw [String.toList_ofList]; exact h1⟩,
      ⟨utf8Enc inputText, String.ofList inputText, rfl, utf8Dec_enc _, by rw [String.toList_ofList]; exact input_serde⟩⟩
  have hmax : ([1, 2, 3] : Bytes).length ≤ S.cipher.maxEnc .cli := by
    change 3 ≤ 2 ^ 36; norm_num
  obtain ⟨c, hc⟩ := (C47_encrypt_outcome S (fs a b) ['c'] ['s'] ['i'] ['m'] ['o'] quick m entries hf [1, 2, 3] rfl true ρ nonce rfl).1
    ⟨all_denote, delta_ne, hmax⟩
  have hj : true = true → ∀ j, (fs a b) ['i'] = some j → j.length < 2 ^ 32 := by
    intro _ j hj
    have : utf8Enc inputText = j := by simpa [fs] using hj
    rw [← this, inputText_len]; norm_num
  refine ⟨c, hc, ?_⟩
  exact (C93_cli_to_cli S (fs a b) _ ['c'] ['s'] ['i'] ['m'] ['o'] quick none quick_start m h2 entries not_result hf [1, 2, 3] rfl true ρ nonce rfl hj hc
    ((fs a b).set ['o'] c) ['c'] ['w'] ['o'] ['d'] data (wtns a b) 1 (a + b) a b rfl data_cli rfl rfl (wtns_cli a b)).1 ⟨rfl, fun t ht => by cases ht⟩

end ExQuick

end Zkenc.Props
