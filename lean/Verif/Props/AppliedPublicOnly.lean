import Verif.Props.AppliedEndToEnd
import Verif.Props.AppliedCore
/-!
# A circuit without private wires, applied

The theorems of `Props/EndToEndPublicOnly.lean` on a concrete file: encap and decap both succeed with the right public value, and the keys differ.
-/

namespace Zkenc.Props

open Zkenc Zkenc.Spec Zkenc.InputSpec CalcSpec

namespace Ex

def oneSecs : List (Nat × Bytes) :=
  [(1, R1csFormat.headerBytes trivialOne), (2, R1csFormat.constraintsBytes trivialOne), (3, R1csFormat.labelsBytes trivialOne)]

/-- The circuit file. -/
def oneData : Bytes := R1csFormat.fileBytes oneSecs

theorem one_fits : R1csFormat.Fits trivialOne where
  fieldSize := by simp [trivialOne]
  prime := by simp [trivialOne]
  nWires := by simp [trivialOne]
  nPubOut := by simp [trivialOne]
  nPubIn := by simp [trivialOne]
  nPrvIn := by simp [trivialOne]
  nLabels := by simp [trivialOne]
  nConstraints := by simp [trivialOne]
  constraints := by simp [trivialOne]
  lcs := by
    intro c hc
    simp only [trivialOne, List.mem_singleton] at hc
    subst hc
    simp [R1csFormat.LcOk, trivialOne]
  labels := by simp [trivialOne]
  label := by simp [trivialOne]

theorem oneSecs_len : (oneSecs.map fun s => s.2.length) = [64, 3 * 40, 16] := by
  simp [oneSecs, R1csFormat.constraintsBytes, R1csFormat.headerBytes, R1csFormat.labelsBytes, trivialOne, R1csFormat.cstrBytes, R1csFormat.lcBytes]

theorem oneSecs_fit : R1csFormat.SecsFit oneSecs where
  count := by simp [oneSecs]
  each := by
    intro s hs
    have h := oneSecs_len
    have : s.2.length ∈ oneSecs.map fun s => s.2.length := List.mem_map.2 ⟨s, hs, rfl⟩
    rw [h] at this
    refine ⟨?_, ?_⟩
    · simp only [oneSecs, List.mem_cons, List.not_mem_nil, or_false] at hs
      rcases hs with rfl | rfl | rfl <;> simp
    · simp at this; omega

theorem oneSecs_describe : R1csFormat.Describes oneSecs trivialOne where
  header := ⟨[], by simp [oneSecs, List.lookup]⟩
  constraints := ⟨[], by simp [oneSecs, List.lookup]⟩
  labels := Or.inl ⟨[], by simp [oneSecs, List.lookup]⟩

theorem oneData_len : oneData.length = 12 + (12 + 64) + (12 + 120) + (12 + 16) := by
  simp [oneData, oneSecs, R1csFormat.fileBytes, R1csFormat.secBytes, R1csFormat.constraintsBytes, R1csFormat.headerBytes,
    R1csFormat.labelsBytes, trivialOne, R1csFormat.cstrBytes, R1csFormat.lcBytes]

theorem oneData_cli : cliParseR1cs (2 ^ 62) oneData = .ok trivialOne := by
  have := C21_cli_inverts_format (lim := 2 ^ 62) [] one_fits oneSecs_fit oneSecs_describe (by
    have := oneData_len; unfold oneData at this; omega)
  simpa [oneData] using this

theorem oneData_js : jsParseR1cs oneData = .ok trivialOne.toJs := C23_js_agrees (by have := oneData_len; omega) oneData_cli

/-- The witness file with the values 1 and 9. -/
def oneWtns : Bytes := WtnsFormat.fileBytes ⟨leBytes 32 frModulus, ([1, 9] : List Fr).map frEnc⟩ [.header, .data]

theorem oneWtns_fits : WtnsFormat.Fits ⟨leBytes 32 frModulus, ([1, 9] : List Fr).map frEnc⟩ where
  fieldPos := by simp
  field := by simp
  count := by simp
  len := by
    intro v hv
    simp only [List.mem_map] at hv
    obtain ⟨x, -, rfl⟩ := hv
    rw [frEnc_length, leBytes_length]

theorem oneWtns_secs : WtnsFormat.SecsFit ⟨leBytes 32 frModulus, ([1, 9] : List Fr).map frEnc⟩ [.header, .data] where
  count := by simp
  other := by simp
  dataLen := by
    simp only [List.map_cons, List.map_nil, List.flatten_cons, List.flatten_nil, List.length_append, frEnc_length, List.length_nil]
    norm_num

theorem oneWtns_cli : CliWitness oneWtns [1, 9] := by
  have := C26_roundtrip (xs := ([1, 9] : List Fr)) [] (leBytes_length 32 frModulus) (by simp) (by simp) oneWtns_secs (by simp) (by simp)
  rw [List.append_nil] at this
  obtain ⟨w, h1, h2⟩ := Res.bind_eq_ok.1 this
  exact ⟨w, h1, h2⟩

theorem oneWtns_js : jsParseWtns oneWtns = .ok [1, 9] := by
  have h := C27_js_inverts_format (pre := [.header]) (post := []) [] oneWtns_fits oneWtns_secs (by simp) (by simp) (by simp) (by
    simp only [WtnsFormat.fileBytes, List.map_cons, List.map_nil, WtnsFormat.Sec.bytes, WtnsFormat.Sec.payload, List.length_append,
      List.flatten_cons, List.flatten_nil, List.length_nil, u32le_length, u64le_length, leBytes_length, frEnc_length, List.cons_append,
      List.nil_append, List.length_cons]
    norm_num)
  rw [List.append_nil] at h
  refine h.trans (congrArg Except.ok ?_)
  rw [List.map_map]
  exact (List.map_congr_left (g := id) fun x _ => frEnc_value x).trans (List.map_id _)

/-- The equation is violated by the randomness `α = 2, β = 3, δ = 5, r = 7, x = 11`. -/
theorem one_poly : ρ.r * (1 + ρ.x + ρ.x ^ 2 + ρ.x ^ 3) *
    (ρ.r * ρ.delta * (ρ.x + ρ.x ^ 2 + ρ.x ^ 3 - 3) - 4 * (ρ.alpha + ρ.beta + ρ.r)) ≠ 0 := by
  have h : ρ.r * (1 + ρ.x + ρ.x ^ 2 + ρ.x ^ 3) *
      (ρ.r * ρ.delta * (ρ.x + ρ.x ^ 2 + ρ.x ^ 3 - 3) - 4 * (ρ.alpha + ρ.beta + ρ.r)) = ((7 * 1464 * 51052 : Nat) : Fr) := by
    change (7 : Fr) * (1 + 11 + 11 ^ 2 + 11 ^ 3) * (7 * 5 * (11 + 11 ^ 2 + 11 ^ 3 - 3) - 4 * (2 + 3 + 7)) = _
    push_cast
    ring
  rw [h]
  intro hc
  rw [ZMod.natCast_eq_zero_iff] at hc
  have := Nat.le_of_dvd (by norm_num) hc
  have : 7 * 1464 * 51052 < frModulus := by decide
  omega

/-- The files. -/
def fs1 : FS := (fs.set ['c'] oneData).set ['w'] oneWtns

theorem kdf_inj : Function.Injective S.P.kdf := Applied.toy_inj
theorem pairing_nd : S.P.e S.P.g1 S.P.g2 ≠ 0 := Applied.toy_nd

/-- The CLI. -/
example : ∃ ct k k', (encapCommand S ['c'] ['s'] ['i'] ['o'] ['k'] ρ).exec fs1 = ((fs1.set ['o'] ct).set ['k'] k, .ok ()) ∧
    (decapCommand S ['c'] ['w'] ['o'] ['d']).exec ((fs1.set ['o'] ct).set ['k'] k) = (((fs1.set ['o'] ct).set ['k'] k).set ['d'] k', .ok ()) ∧ k' ≠ k := by
  obtain ⟨symtab, hf, hag, h1, h2, h3, h4⟩ := cli_case
  have hf' : CliFiles S fs1 ['c'] ['s'] ['i'] trivialOne symtab entries := ⟨⟨oneData, rfl, oneData_cli⟩, hf.sym, hf.input⟩
  obtain ⟨ct, k, -, hb⟩ := (C55_cli_encap_outcome S fs1 ['c'] ['s'] ['i'] ['o'] ['k'] trivialOne symtab entries hf' ρ).1 ⟨all_denote, delta_ne⟩
  have hag' : CliAgrees symtab 1 entries [1, 9] := by
    intro name i x hr hg
    have hv := hag name i x hr hg
    obtain ⟨rfl, rfl⟩ := gives hg
    obtain ⟨e1, -⟩ := hr
    obtain ⟨e2, -⟩ := h3
    rw [e1] at e2
    obtain rfl : i = 1 := by simpa using e2
    rfl
  obtain ⟨-, k1, k', g1, g2, g3⟩ := C02_cli_public_only S kdf_inj pairing_nd rfl fs1 _ ['c'] ['s'] ['i'] ['o'] ['k'] (by decide) symtab entries hf' ρ delta_ne hb
    ['y'] 9 h3 h4 ((fs1.set ['o'] ct).set ['k'] k) ['c'] ['w'] ['o'] ['d'] oneData oneWtns rfl oneData_cli rfl rfl oneWtns_cli hag'
  cases g1
  exact ⟨ct, k, k', hb, g2, fun h => one_poly (g3.1 h)⟩

/-- The JS library. -/
example : ∃ ct k k', jsEncap S oneData sym inputs ρ = .ok (ct, k) ∧ jsDecap S oneData (.ok oneWtns) ct = .ok k' ∧ k' ≠ k := by
  obtain ⟨ct, k, hb, -⟩ := (C55_js_encap_outcome S oneData trivialOne oneData_js sym inputs js_noAlias js_small ρ).1 ⟨js_usable, delta_ne⟩
  have hg : JsGives inputs ['y'] (.num 9) := ⟨_, List.mem_singleton.2 rfl, .scalar (by simp) (by simp)⟩
  obtain ⟨m, -, h2, h3⟩ := sym_parse
  have hr : Resolves (jsParseSymFile sym) none ['y'] 1 := ⟨by rw [h3, main_y, h2]; simp, by simp⟩
  have hag : JsAgrees (jsParseSymFile sym) 1 inputs [1, 9] := by
    intro name i v s z hr _ hg hs hz
    obtain ⟨rfl, rfl⟩ := js_gives hg
    rw [js_resolves hr]
    cases hs
    have : jsBigInt (intDec 9) = some z := hz
    rw [nine_text] at this
    cases this
    simp
  obtain ⟨-, k', g2, g3⟩ := C02_js_public_only S kdf_inj pairing_nd rfl oneData oneData_js sym inputs js_noAlias js_small ρ delta_ne ct k hb
    ['y'] (.num 9) hr hg oneWtns 9 oneWtns_js hag
  exact ⟨ct, k, k', hb, g2, fun h => one_poly (g3.1 h)⟩

end Ex

end Zkenc.Props
