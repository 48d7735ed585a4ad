import Verif.Props.PlayCustom
import Verif.Props.ComposeExample
/-!
# A concrete case for C85

The circuit `y = x²` in the custom tab.
-/

namespace Zkenc.Props

open Zkenc Zkenc.Spec Zkenc.InputSpec Zkenc.PlaySpec CalcSpec

namespace Ex

def customEnv : PlayEnv := ⟨⟨[], []⟩, fun _ => none, fun _ => []⟩

def customInst : Bytes → Res (CircuitWasm (Option Nat × Option Nat)) := fun _ => .ok sqWasm

/-- The text typed into the field for the full inputs. -/
def fullText : Str := ['{', '"', 'y', '"', ':', ' ', '9', ',', ' ', '"', 'x', '"', ':', ' ', '"', '3', '"', '}']

theorem fullText_parse : S.jsonParse fullText = some (.obj full) := by
  have h1 : pText fullText = some (.obj [(['y'], .num ['9']), (['x'], .str ['3'])]) := by rfl
  change (pText fullText).map (JTree.toJs D) = _
  rw [h1]
  rfl

/-- A visit: the tab is opened, the ciphertext, the circuit and the witness program are read, then the inputs are typed. -/
def customVisit (b : Bytes) : List PlayEvent :=
  [.selectTab .custom, .customR1csFile sqData, .customCiphertextFile b, .customWasmFile [1], .typeCustomPrivate fullText]

theorem custom_ready (b : Bytes) : CustomReady S customEnv (customVisit b) sqData [1] b (.obj full) where
  tab := rfl
  mode := rfl
  ct := rfl
  r1cs := ⟨rfl, fun h => by have := sqData_len; rw [h] at this; simp at this⟩
  wasm := ⟨rfl, by simp⟩
  inputs := by
    have : privateField S customEnv (customVisit b) = fullText := by
      simp [privateField, customVisit, putPrivate, List.findSome?]
    rw [this, if_neg (by simp [fullText])]
    exact fullText_parse

/-- The message appears. -/
theorem custom_flow : ∃ b k, jsEncrypt S sqData sym inputs [104, 105] true ρ nonce = .ok (b, k) ∧
    ∃ t, (Play.after smallNums S customInst customEnv (customVisit b ++ [.clickCustomDecrypt, .finish 0 true ρ nonce])).customShown = some t ∧
      TextFor S [104, 105] t := by
  have hmax : ([104, 105] : Bytes).length ≤ S.cipher.maxEnc .js := by change 2 ≤ 2 ^ 36; norm_num
  obtain ⟨b, k, hb⟩ := (C48_encrypt_outcome S sqData sq sqData_js sym inputs js_noAlias js_small [104, 105] true ρ nonce rfl).2
    ⟨js_usable, delta_ne, hmax, fun _ => ⟨_, rfl⟩⟩
  have hdec : jsDecryptApi smallNums S sqData (.ok sqWasm) b full = .ok [104, 105] :=
    (C58_js_to_js S sqData sqData_js sym inputs js_noAlias js_small pub_value [104, 105] true ρ nonce rfl
      (fun _ s hs => stringify_len s hs) b k hb sq_wf sq_ct (by simp [sq]) (by simp [sq]) sq_compiled
      (fun e he => by
        rw [inputs, List.mem_singleton] at he
        subst he
        exact ⟨[], by simp⟩) full (fun e he => by
        rw [inputs, List.mem_singleton] at he
        subst he
        simp [full])).1 full_ok
  have hidle : (Play.after smallNums S customInst customEnv (customVisit b)).loading = false := by
    simp only [Play.after, customVisit, List.foldl_cons, List.foldl_nil, Play.step, Play.customR1csFile, Play.customWasmFile, Play.customCiphertextFile]
    cases jsGetPublicInput S b <;> rfl
  obtain ⟨d1, -⟩ := C85_decrypt smallNums S customInst customEnv (customVisit b) hidle sqData [1] b (.obj full) (custom_ready b) true ρ nonce
  exact ⟨b, k, hb, (d1 full [104, 105] rfl rfl hdec).1⟩

end Ex

end Zkenc.Props
