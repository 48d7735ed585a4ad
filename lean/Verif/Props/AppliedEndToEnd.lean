import Verif.Props.EndToEndExactlyKem
import Verif.Props.EndToEndPublicOnly
import Verif.Props.ComposeExactlyExample
import Verif.Props.WitnessLength
import Verif.Props.Sizes
import Verif.Props.Flatten
/-!
# The end-to-end theorems, applied

Every theorem is applied, with all its hypotheses, to the circuit `y = x²` of `Props/EndToEndExample.lean`, with the right witness `(9, 3)` and with `(16, 4)`, which
satisfies the circuit but has another public value.
-/

namespace Zkenc.Props

open Zkenc Zkenc.Spec Zkenc.InputSpec CalcSpec

namespace Ex

/-! ### Witness files with three values -/

def wtnsOf (a b c : Fr) : Bytes := WtnsFormat.fileBytes ⟨leBytes 32 frModulus, [a, b, c].map frEnc⟩ [.header, .data]

theorem wtnsOf_fits (a b c : Fr) : WtnsFormat.Fits ⟨leBytes 32 frModulus, [a, b, c].map frEnc⟩ where
  fieldPos := by simp
  field := by simp
  count := by simp
  len := by
    intro v hv
    simp only [List.mem_map] at hv
    obtain ⟨x, -, rfl⟩ := hv
    rw [frEnc_length, leBytes_length]

theorem wtnsOf_data (a b c : Fr) : ([a, b, c].map frEnc).flatten.length = 96 := by
  simp only [List.map_cons, List.map_nil, List.flatten_cons, List.flatten_nil, List.length_append, frEnc_length, List.length_nil]

theorem wtnsOf_secs (a b c : Fr) : WtnsFormat.SecsFit ⟨leBytes 32 frModulus, [a, b, c].map frEnc⟩ [.header, .data] where
  count := by simp
  other := by simp
  dataLen := by rw [wtnsOf_data]; norm_num

theorem wtnsOf_cli (a b c : Fr) : CliWitness (wtnsOf a b c) [a, b, c] := by
  have := C26_roundtrip (xs := [a, b, c]) [] (leBytes_length 32 frModulus) (by simp) (by simp) (wtnsOf_secs a b c) (by simp) (by simp)
  rw [List.append_nil] at this
  obtain ⟨w, h1, h2⟩ := Res.bind_eq_ok.1 this
  exact ⟨w, h1, h2⟩

theorem wtnsOf_js (a b c : Fr) : jsParseWtns (wtnsOf a b c) = .ok [a, b, c] := by
  have h := C27_js_inverts_format (pre := [.header]) (post := []) [] (wtnsOf_fits a b c) (wtnsOf_secs a b c) (by simp) (by simp) (by simp) (by
    simp only [WtnsFormat.fileBytes, List.map_cons, List.map_nil, WtnsFormat.Sec.bytes, WtnsFormat.Sec.payload, List.length_append,
      List.flatten_cons, List.flatten_nil, List.length_nil, u32le_length, u64le_length, leBytes_length, frEnc_length, List.cons_append,
      List.nil_append, List.length_cons]
    norm_num)
  rw [List.append_nil] at h
  refine h.trans (congrArg Except.ok ?_)
  rw [List.map_map]
  exact (List.map_congr_left (g := id) fun x _ => frEnc_value x).trans (List.map_id _)

/-- The other solution of the circuit, for the public value 16. -/
def vals16 : List Fr := [1, 16, 4]
def wtns16 : Bytes := wtnsOf 1 16 4

/-- The files with both witnesses. -/
def fsw : FS := fs.set ['W'] wtns16

/-! ### What the symbol table and the inputs say -/

theorem cli_case : ∃ symtab, CliFiles S fs ['c'] ['s'] ['i'] sq symtab entries ∧ CliAgrees symtab sq.nPubIn entries vals ∧
    jsParseSymFile sym = symtab ∧ NoAlias symtab (some sq.nPubIn) entries ∧
    Resolves symtab (some sq.nPubIn) ['y'] 1 ∧ Gives entries ['y'] 9 := by
  obtain ⟨m, h1, h2, h3⟩ := sym_parse
  obtain ⟨m', hf, hag⟩ := files
  obtain ⟨b, s, g1, g2, g3⟩ := hf.sym
  have hb : b = utf8Enc sym := by
    have : fs ['s'] = some (utf8Enc sym) := rfl
    rw [this] at g1
    exact (Option.some.inj g1).symm
  subst hb
  have g2' := (utf8Dec_enc (String.ofList sym)).symm.trans g2
  cases g2'
  rw [String.toList_ofList, h1] at g3
  cases g3
  refine ⟨m, hf, hag, h3, ?_, ⟨?_, ?_⟩, ?_⟩
  · intro n n' i x x' _ _ g g'
    rw [(gives g).2, (gives g').2]
  · rw [main_y, h2]; simp
  · intro k hk; cases hk; decide
  · exact ⟨_, List.mem_singleton.2 rfl, [], .int 9, .here _, by simp [NotArr], rfl, by
      have := Denotes.nat 9 (by norm_num) (by norm_num)
      simpa using this⟩


theorem sq_witness_of (y x : Fr) (h : x * x = y) : Witness sq [1, y, x] where
  len := rfl
  one := rfl
  sat := by
    intro k hk
    simp only [sq, List.mem_singleton] at hk
    subst hk
    simp only [lcSum, List.map_cons, List.map_nil, coeff_one, List.sum_cons, List.sum_nil, one_mul, add_zero]
    exact h

theorem vals16_witness : Witness sq vals16 := sq_witness_of 16 4 (by norm_num)

theorem fr_16_ne_9 : (16 : Fr) ≠ 9 := by
  intro h
  apply fr_ne 7 (by decide) (by decide)
  push_cast
  linear_combination h

/-- The right witness is let through, the other one is not. -/
theorem cli_enforced {symtab : AMap Nat} (hr : Resolves symtab (some sq.nPubIn) ['y'] 1) (hag : CliAgrees symtab sq.nPubIn entries vals) :
    (Accepted sq vals ∧ CliEnforced symtab sq.nPubIn entries vals) ∧ ¬ (Accepted sq vals16 ∧ CliEnforced symtab sq.nPubIn entries vals16) := by
  refine ⟨⟨witness_accepted sq_wf vals_witness, fun j _ _ name x => hag name j x⟩, ?_⟩
  rintro ⟨-, h⟩
  have hg : Gives entries ['y'] 9 := ⟨_, List.mem_singleton.2 rfl, [], .int 9, .here _, by simp [NotArr], rfl, by
    have := Denotes.nat 9 (by norm_num) (by norm_num)
    simpa using this⟩
  have := h 1 le_rfl (fun i h1 h2 => by
    obtain rfl : i = 1 := by omega
    exact ⟨['y'], 9, hr, hg⟩) ['y'] 9 hr hg
  exact fr_16_ne_9 (by simpa [vals16] using this)

theorem js_enforced : (Accepted sq vals ∧ JsEnforced (jsParseSymFile sym) (sq.nPubOut + sq.nPubIn) inputs vals) ∧
    ¬ (Accepted sq vals16 ∧ JsEnforced (jsParseSymFile sym) (sq.nPubOut + sq.nPubIn) inputs vals16) := by
  refine ⟨⟨witness_accepted sq_wf vals_witness, fun j _ h2 _ name v s z hr hg => js_agrees name j v s z hr h2 hg⟩, ?_⟩
  rintro ⟨-, h⟩
  obtain ⟨m, -, h2, h3⟩ := sym_parse
  have hr : Resolves (jsParseSymFile sym) none ['y'] 1 := ⟨by rw [h3, main_y, h2]; simp, by simp⟩
  have hg : JsGives inputs ['y'] (.num 9) := ⟨_, List.mem_singleton.2 rfl, .scalar (by simp) (by simp)⟩
  have := h 1 le_rfl (by simp [sq]) (fun i h1 h2 => by
    obtain rfl : i = 1 := by omega
    exact ⟨['y'], .num 9, hr, hg⟩) ['y'] (.num 9) (intDec 9) 9 hr hg rfl nine_text
  exact fr_16_ne_9 (by simpa [vals16] using this)

/-- A ciphertext written by `zkenc encrypt`. -/
theorem cli_encrypted (incl : Bool) : ∃ symtab b, CliFiles S fs ['c'] ['s'] ['i'] sq symtab entries ∧ CliAgrees symtab sq.nPubIn entries vals ∧
    jsParseSymFile sym = symtab ∧ NoAlias symtab (some sq.nPubIn) entries ∧ Resolves symtab (some sq.nPubIn) ['y'] 1 ∧
    (encryptCommand S ['c'] ['s'] ['i'] ['m'] ['o'] incl ρ nonce).exec fs = (fs.set ['o'] b, .ok ()) ∧
    (incl = true → ∀ j, fs ['i'] = some j → j.length < 2 ^ 32) := by
  obtain ⟨symtab, hf, hag, h1, h2, h3, -⟩ := cli_case
  obtain ⟨b, hb⟩ := (C47_encrypt_outcome S fs ['c'] ['s'] ['i'] ['m'] ['o'] sq symtab entries hf [1, 2, 3] rfl incl ρ nonce rfl).1
    ⟨all_denote, delta_ne, by change 3 ≤ 2 ^ 36; norm_num⟩
  refine ⟨symtab, b, hf, hag, h1, h2, h3, hb, fun _ j hj => ?_⟩
  have : utf8Enc inputText = j := by simpa [fs] using hj
  rw [← this, inputText_len]; norm_num

/-- The files of the receiver: both witnesses and the ciphertext. -/
def fsr (b : Bytes) : FS := (fs.set ['W'] wtns16).set ['o'] b

theorem msg_js : ([1, 2, 3] : Bytes).length ≤ S.cipher.maxDec .js := by change 3 ≤ 2 ^ 36; norm_num
theorem msg_cli : ([1, 2, 3] : Bytes).length ≤ S.cipher.maxDec .cli := by change 3 ≤ 2 ^ 36; norm_num
theorem sqData_small : sqData.length < 2 ^ 31 := by rw [sqData_len]; norm_num
theorem sq_priv : sq.nPubIn + 1 < sq.nWires := by simp [sq]
theorem sq_priv' : sq.nPubOut + sq.nPubIn + 1 < sq.nWires := by simp [sq]

/-! ### The theorems -/

/-- C77, CLI to CLI: the right witness writes the message, the other one fails. -/
example (incl : Bool) : ∃ b, (encryptCommand S ['c'] ['s'] ['i'] ['m'] ['o'] incl ρ nonce).exec fs = (fs.set ['o'] b, .ok ()) ∧
    (decryptCommand S ['c'] ['w'] ['o'] ['d']).exec (fsr b) = ((fsr b).set ['d'] [1, 2, 3], .ok ()) ∧
    ∃ e, (decryptCommand S ['c'] ['W'] ['o'] ['d']).exec (fsr b) = (fsr b, .error e) := by
  obtain ⟨symtab, b, hf, hag, -, hna, hr, hb, hj⟩ := cli_encrypted incl
  have h := fun w wd vs h1 h2 => C77_cli_to_cli_exactly S fs _ ['c'] ['s'] ['i'] ['m'] ['o'] sq symtab entries hf [1, 2, 3] rfl incl ρ nonce rfl hj hb
    sq_wf sq_ct sq_priv hna (fsr b) ['c'] w ['o'] ['d'] sqData wd vs rfl sqData_cli rfl h1 h2
  exact ⟨b, hb, (h ['w'] wtns vals rfl wtns_cli).1 (cli_enforced hr hag).1, (h ['W'] wtns16 vals16 rfl (wtnsOf_cli _ _ _)).2 (cli_enforced hr hag).2⟩

/-- C77, CLI to JS. -/
example (incl : Bool) : ∃ b, (encryptCommand S ['c'] ['s'] ['i'] ['m'] ['o'] incl ρ nonce).exec fs = (fs.set ['o'] b, .ok ()) ∧
    jsDecrypt S sqData (.ok wtns) b = .ok [1, 2, 3] ∧ ∃ e, jsDecrypt S sqData (.ok wtns16) b = .error e := by
  obtain ⟨symtab, b, hf, hag, -, hna, hr, hb, hj⟩ := cli_encrypted incl
  have h := fun wd vs h1 => C77_cli_to_js_exactly S fs _ ['c'] ['s'] ['i'] ['m'] ['o'] sq symtab entries hf [1, 2, 3] rfl incl ρ nonce rfl hj hb
    sq_wf sq_ct sq_priv hna sqData rfl sqData_small b rfl wd vs h1 msg_js
  exact ⟨b, hb, (h wtns vals wtns_js).1 ⟨rfl, (cli_enforced hr hag).1⟩, (h wtns16 vals16 (wtnsOf_js _ _ _)).2 fun hc => (cli_enforced hr hag).2 hc.2⟩

/-- C77, JS to CLI and to JS. -/
example (incl : Bool) : ∃ b k, jsEncrypt S sqData sym inputs [1, 2, 3] incl ρ nonce = .ok (b, k) ∧
    (decryptCommand S ['c'] ['w'] ['o'] ['d']).exec (fsr b) = ((fsr b).set ['d'] [1, 2, 3], .ok ()) ∧
    (∃ e, (decryptCommand S ['c'] ['W'] ['o'] ['d']).exec (fsr b) = (fsr b, .error e)) ∧
    jsDecrypt S sqData (.ok wtns) b = .ok [1, 2, 3] ∧ ∃ e, jsDecrypt S sqData (.ok wtns16) b = .error e := by
  obtain ⟨b, k, hb, -⟩ := js_run incl
  have hj : incl = true → ∀ s, S.stringify inputs = .ok s → (utf8Enc s).length < 2 ^ 32 := fun _ s hs => stringify_len s hs
  have h := fun w wd vs h1 h2 => C77_js_to_cli_exactly S sqData sqData_small sq sqData_cli sym inputs js_noAlias js_small [1, 2, 3] incl ρ nonce rfl hj b k hb
    sq_wf sq_ct sq_priv' (fsr b) ['c'] w ['o'] ['d'] wd vs rfl rfl h1 h2 msg_cli
  have h' := fun wd vs h1 => C77_js_to_js_exactly S sqData sq sqData_js sym inputs js_noAlias js_small [1, 2, 3] incl ρ nonce rfl hj b k hb
    sq_wf sq_ct sq_priv' wd vs h1
  exact ⟨b, k, hb, (h ['w'] wtns vals rfl wtns_cli).1 js_enforced.1, (h ['W'] wtns16 vals16 rfl (wtnsOf_cli _ _ _)).2 js_enforced.2,
    (h' wtns vals wtns_js).1 ⟨rfl, js_enforced.1⟩, (h' wtns16 vals16 (wtnsOf_js _ _ _)).2 fun hc => js_enforced.2 hc.2⟩

/-- C77 and C47, whoever succeeds: from the success of a decryption to the message and the public value (all pairs of tools). -/
example (incl : Bool) : ∃ symtab b, (encryptCommand S ['c'] ['s'] ['i'] ['m'] ['o'] incl ρ nonce).exec fs = (fs.set ['o'] b, .ok ()) ∧
    (∀ fs₃, (decryptCommand S ['c'] ['w'] ['o'] ['d']).exec (fsr b) = (fs₃, .ok ()) → fs₃ = (fsr b).set ['d'] [1, 2, 3] ∧
      ∃ data r₂ wdata vals, fsr b ['c'] = some data ∧ cliParseR1cs S.lim data = .ok r₂ ∧ fsr b ['w'] = some wdata ∧ CliWitness wdata vals ∧
        (PublicFits r₂ → Accepted r₂ vals ∧ CliEnforced symtab sq.nPubIn entries vals)) ∧
    ∃ wt r₂ vals, (.ok wtns : Res Bytes) = .ok wt ∧ jsParseR1cs sqData = .ok (R1csFile.toJs r₂) ∧ jsParseWtns wt = .ok vals ∧ vals.length = r₂.nWires ∧
      (PublicFits r₂ → Accepted r₂ vals ∧ CliEnforced symtab sq.nPubIn entries vals) := by
  obtain ⟨symtab, b, hf, hag, -, hna, hr, hb, hj⟩ := cli_encrypted incl
  refine ⟨symtab, b, hb, fun fs₃ h3 => ⟨?_, ?_⟩, ?_⟩
  · exact C47_decrypt_sound S fs _ ['c'] ['s'] ['i'] ['m'] ['o'] sq symtab entries hf [1, 2, 3] rfl incl ρ nonce rfl hj hb sq_wf sq_ct sq_priv
      (fsr b) fs₃ ['c'] ['w'] ['o'] ['d'] rfl h3
  · exact C77_cli_to_cli S fs _ ['c'] ['s'] ['i'] ['m'] ['o'] sq symtab entries hf [1, 2, 3] rfl incl ρ nonce rfl hj hb sq_wf.fits sq_ct hna
      (fsr b) fs₃ ['c'] ['w'] ['o'] ['d'] rfl h3
  · have hd := (C77_cli_to_js_exactly S fs _ ['c'] ['s'] ['i'] ['m'] ['o'] sq symtab entries hf [1, 2, 3] rfl incl ρ nonce rfl hj hb
      sq_wf sq_ct sq_priv hna sqData rfl sqData_small b rfl wtns vals wtns_js msg_js).1 ⟨rfl, (cli_enforced hr hag).1⟩
    exact C77_cli_to_js S fs _ ['c'] ['s'] ['i'] ['m'] ['o'] sq symtab entries hf [1, 2, 3] rfl incl ρ nonce rfl hj hb sq_wf.fits sq_ct hna
      sqData b [1, 2, 3] (.ok wtns) rfl hd

example (incl : Bool) : ∃ b k fs₃, jsEncrypt S sqData sym inputs [1, 2, 3] incl ρ nonce = .ok (b, k) ∧
    (decryptCommand S ['c'] ['w'] ['o'] ['d']).exec (fs.set ['o'] b) = (fs₃, .ok ()) ∧
    ∃ data r₂ wdata vals, (fs.set ['o'] b) ['c'] = some data ∧ cliParseR1cs S.lim data = .ok r₂ ∧ (fs.set ['o'] b) ['w'] = some wdata ∧
      CliWitness wdata vals ∧ (PublicFits r₂ → Accepted r₂ vals ∧ JsEnforced (jsParseSymFile sym) (sq.nPubOut + sq.nPubIn) inputs vals) := by
  obtain ⟨b, k, hb, -, hd, -⟩ := js_run incl
  have hj : incl = true → ∀ s, S.stringify inputs = .ok s → (utf8Enc s).length < 2 ^ 32 := fun _ s hs => stringify_len s hs
  exact ⟨b, k, _, hb, hd, C77_js_to_cli S sqData sq sqData_js sym inputs js_noAlias js_small [1, 2, 3] incl ρ nonce rfl hj b k hb sq_wf.fits sq_ct
    (fs.set ['o'] b) _ ['c'] ['w'] ['o'] ['d'] rfl hd⟩

/-- A key and ciphertext written by `zkenc encap`. -/
theorem cli_encapped : ∃ symtab ct k, CliFiles S fs ['c'] ['s'] ['i'] sq symtab entries ∧ CliAgrees symtab sq.nPubIn entries vals ∧
    jsParseSymFile sym = symtab ∧ NoAlias symtab (some sq.nPubIn) entries ∧ Resolves symtab (some sq.nPubIn) ['y'] 1 ∧
    (encapCommand S ['c'] ['s'] ['i'] ['o'] ['k'] ρ).exec fs = ((fs.set ['o'] ct).set ['k'] k, .ok ()) := by
  obtain ⟨symtab, hf, hag, h1, h2, h3, -⟩ := cli_case
  obtain ⟨ct, k, -, hb⟩ := (C55_cli_encap_outcome S fs ['c'] ['s'] ['i'] ['o'] ['k'] sq symtab entries hf ρ).1 ⟨all_denote, delta_ne⟩
  exact ⟨symtab, ct, k, hf, hag, h1, h2, h3, hb⟩

/-- C77 (keys): the right witness gives the key, the other one fails, with both tools; and C55: whoever gets a key has a witness. -/
example : ∃ ct k, (encapCommand S ['c'] ['s'] ['i'] ['o'] ['k'] ρ).exec fs = ((fs.set ['o'] ct).set ['k'] k, .ok ()) ∧
    (decapCommand S ['c'] ['w'] ['o'] ['d']).exec (fsr ct) = ((fsr ct).set ['d'] k, .ok ()) ∧
    (∃ e, (decapCommand S ['c'] ['W'] ['o'] ['d']).exec (fsr ct) = (fsr ct, .error e)) ∧
    jsDecap S sqData (.ok wtns) ct = .ok k ∧ (∃ e, jsDecap S sqData (.ok wtns16) ct = .error e) ∧
    (∃ data r₂ wdata vals k', fsr ct ['c'] = some data ∧ cliParseR1cs S.lim data = .ok r₂ ∧ fsr ct ['w'] = some wdata ∧ CliWitness wdata vals ∧
      (fsr ct).set ['d'] k = (fsr ct).set ['d'] k' ∧ k'.length = 32 ∧
      (PublicFits r₂ → ∃ val, Valuation r₂ val ∧ Assigns r₂ (fullWires vals) val ∧ Satisfies r₂.constraints val)) ∧
    (∃ wt r vals, (.ok wtns : Res Bytes) = .ok wt ∧ jsParseR1cs sqData = .ok r ∧ jsParseWtns wt = .ok vals ∧ vals.length = r.nWires ∧ k.length = 32 ∧
      ∀ r', r = R1csFile.toJs r' → PublicFits r' → ∃ val, Valuation r' val ∧ Assigns r' (fullWires vals) val ∧ Satisfies r'.constraints val) := by
  obtain ⟨symtab, ct, k, hf, hag, -, hna, hr, hb⟩ := cli_encapped
  obtain ⟨ct', k', e1, e2, h1, h2⟩ := C77_cli_encap_exactly S fs _ ['c'] ['s'] ['i'] ['o'] ['k'] (by decide) sq symtab entries hf ρ hb sq_wf sq_priv hna
  cases e1
  cases e2
  have d1 := (h1 (fsr ct) ['c'] ['w'] ['o'] ['d'] sqData wtns vals rfl sqData_cli rfl rfl wtns_cli).1 (cli_enforced hr hag).1
  have d2 := (h2 sqData wtns vals sqData_js wtns_js).1 ⟨rfl, (cli_enforced hr hag).1⟩
  exact ⟨ct, k, hb, d1, (h1 (fsr ct) ['c'] ['W'] ['o'] ['d'] sqData wtns16 vals16 rfl sqData_cli rfl rfl (wtnsOf_cli _ _ _)).2 (cli_enforced hr hag).2,
    d2, (h2 sqData wtns16 vals16 sqData_js (wtnsOf_js _ _ _)).2 fun hc => (cli_enforced hr hag).2 hc.2,
    C55_cli_decap_sound S _ _ _ _ _ _ d1, C55_js_decap_sound S _ _ _ _ d2⟩

/-- C77 (keys, from success). -/
example : ∃ symtab ct k, (encapCommand S ['c'] ['s'] ['i'] ['o'] ['k'] ρ).exec fs = ((fs.set ['o'] ct).set ['k'] k, .ok ()) ∧
    (∀ data wit k', jsDecap S data wit ct = .ok k' →
      ∃ wtns r₂ vals, wit = .ok wtns ∧ jsParseR1cs data = .ok (R1csFile.toJs r₂) ∧ jsParseWtns wtns = .ok vals ∧ vals.length = r₂.nWires ∧
        (PublicFits r₂ → Accepted r₂ vals ∧ CliEnforced symtab sq.nPubIn entries vals)) := by
  obtain ⟨symtab, ct, k, hf, -, -, hna, -, hb⟩ := cli_encapped
  exact ⟨symtab, ct, k, hb, fun data wit k' =>
    (C77_cli_encap S fs _ ['c'] ['s'] ['i'] ['o'] ['k'] (by decide) sq symtab entries hf ρ hb sq_wf.fits hna).2 data wit ct k' rfl⟩

end Ex

end Zkenc.Props
