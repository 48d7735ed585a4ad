import Verif.Props.AppliedEndToEnd
/-!
# C45, C46, C58, C74, C87, C94, applied

To the circuit `y = x²` and its witness program (`Props/ComposeExample.lean`).
-/

namespace Zkenc.Props

open Zkenc Zkenc.Spec Zkenc.InputSpec Zkenc.JsonSpec CalcSpec

namespace Ex

theorem full_eq : full = other 9 ['3'] := rfl

theorem small_nine : smallNums.big 9 = 9 := smallNums.big_small 9 (by norm_num)
theorem small_sixteen : smallNums.big 16 = 16 := smallNums.big_small 16 (by norm_num)

/-- What the program gets for `y`. -/
theorem gets_only (n : Int) (t : Str) (z : Int) (h : ProgramGets smallNums [(['y'], []), (['x'], [])] (other n t) ['y'] z) : z = smallNums.big n := by
  obtain ⟨k, u, dims, path, y, g1, g2, g3, g4, g5⟩ := h
  have hp : path = [] := sq_names (.inl g3.symm)
  subst hp
  simp only [signalName] at g3
  subst g3
  simp only [other, List.mem_cons, Prod.mk.injEq, List.not_mem_nil, or_false, true_and] at g1
  rcases g1 with rfl | ⟨h, -⟩
  · have : y = .num n := by cases dims <;> exact (Option.some.inj g4).symm
    subst this
    generalize hv : JsVal.num n = v at g5
    cases g5 <;> cases hv
    rfl
  · exact absurd h (by decide)

theorem js_same : JsSameBound smallNums [(['y'], []), (['x'], [])] (jsParseSymFile sym) (sq.nPubOut + sq.nPubIn) inputs (other 9 ['3']) := by
  intro j _ name v s z z' _ hg hs hz hgz
  obtain ⟨rfl, rfl⟩ := js_gives hg
  cases hs
  have : jsBigInt (intDec 9) = some z := hz
  rw [nine_text] at this
  cases this
  rw [gets_only _ _ _ hgz, small_nine]
  norm_num

theorem js_not_same (t : Str) : ¬ JsSameBound smallNums [(['y'], []), (['x'], [])] (jsParseSymFile sym) (sq.nPubOut + sq.nPubIn) inputs (other 16 t) := by
  intro h
  obtain ⟨m, -, h2, h3⟩ := sym_parse
  have := h 1 binds_one ['y'] (.num 9) (intDec 9) 9 (smallNums.big 16) ⟨by rw [h3, main_y, h2]; simp, fun k hk => by cases hk⟩
    ⟨_, List.mem_singleton.2 rfl, .scalar (by simp) (by simp)⟩ rfl nine_text (gets_y 16 t)
  rw [small_sixteen] at this
  exact fr_16_ne_9 (by simpa using this)

theorem cli_gives_bound (symtab : AMap Nat) (n : Int) (t : Str) : CliGivesBound smallNums [(['y'], []), (['x'], [])] symtab sq.nPubIn entries (other n t) := by
  intro j _ name v _ hg
  obtain ⟨rfl, rfl⟩ := gives hg
  exact ⟨_, gets_y n t⟩

theorem cli_same (symtab : AMap Nat) : CliSameBound smallNums [(['y'], []), (['x'], [])] symtab sq.nPubIn entries (other 9 ['3']) := by
  intro j _ name x z' _ hg hgz
  obtain ⟨rfl, rfl⟩ := gives hg
  rw [gets_only _ _ _ hgz, small_nine]
  norm_num

theorem cli_not_same (symtab : AMap Nat) (hr : Resolves symtab (some sq.nPubIn) ['y'] 1) (t : Str) :
    ¬ CliSameBound smallNums [(['y'], []), (['x'], [])] symtab sq.nPubIn entries (other 16 t) := by
  intro h
  have hg : Gives entries ['y'] 9 := ⟨_, List.mem_singleton.2 rfl, [], .int 9, .here _, by simp [NotArr], rfl, by
    have := Denotes.nat 9 (by norm_num) (by norm_num)
    simpa using this⟩
  have := h 1 ⟨le_rfl, fun i h1 h2 => by
    obtain rfl : i = 1 := by omega
    exact ⟨['y'], 9, hr, hg⟩⟩ ['y'] 9 _ hr hg (gets_y 16 t)
  rw [small_sixteen] at this
  exact fr_16_ne_9 (by simpa using this)

theorem sq_small : sq.nWires < 2 ^ 26 - 8 := by simp [sq]

/-! ### C94 and C58 -/

/-- C94 and C58, JS encrypt, JS calculateWitness, CLI decrypt. -/
example (incl : Bool) : ∃ b k w, jsEncrypt S sqData sym inputs [1, 2, 3] incl ρ nonce = .ok (b, k) ∧
    calculateWitness smallNums (.ok sqWasm) (other 9 ['3']) = .ok w ∧
    (decryptCommand S ['c'] ['v'] ['o'] ['d']).exec ((fs.set ['o'] b).set ['v'] w) = (((fs.set ['o'] b).set ['v'] w).set ['d'] [1, 2, 3], .ok ()) ∧
    (decryptCommand S ['c'] ['v'] ['o'] ['d']).exec ((fs.set ['o'] b).set ['v'] w) = (((fs.set ['o'] b).set ['v'] w).set ['d'] [1, 2, 3], .ok ()) := by
  obtain ⟨b, k, hb, -⟩ := js_run incl
  obtain ⟨w, hw⟩ := full_ok
  have hj : incl = true → ∀ s, S.stringify inputs = .ok s → (utf8Enc s).length < 2 ^ 32 := fun _ s hs => stringify_len s hs
  refine ⟨b, k, w, hb, hw, ?_, ?_⟩
  · exact (C94_js_to_cli (N := smallNums) S sqData sqData_small sqData_cli sym inputs js_noAlias js_small [1, 2, 3] incl ρ nonce rfl hj b k hb sq_wf sq_ct
      sq_priv' sq_small sq_compiled (other 9 ['3']) (gives_bound 9 ['3']) w hw _ ['c'] ['v'] ['o'] ['d'] rfl rfl rfl msg_cli).1 js_same
  · exact C58_js_to_cli (N := smallNums) S sqData sqData_small sqData_cli sym inputs js_noAlias js_small pub_value [1, 2, 3] incl ρ nonce rfl hj b k hb
      sq_wf sq_ct sq_priv' sq_small sq_compiled (fun e he => by
        rw [inputs, List.mem_singleton] at he
        subst he
        exact ⟨[], by simp⟩) full (fun e he => by
        rw [inputs, List.mem_singleton] at he
        subst he
        simp [full]) w hw _ ['c'] ['v'] ['o'] ['d'] rfl rfl rfl msg_cli

/-- C94 and C58, CLI encrypt, JS decrypt, and CLI encrypt, JS calculateWitness, CLI decrypt. -/
example (incl : Bool) : ∃ b w, (encryptCommand S ['c'] ['s'] ['i'] ['m'] ['o'] incl ρ nonce).exec fs = (fs.set ['o'] b, .ok ()) ∧
    calculateWitness smallNums (.ok sqWasm) (other 9 ['3']) = .ok w ∧
    jsDecryptApi smallNums S sqData (.ok sqWasm) b (other 9 ['3']) = .ok [1, 2, 3] ∧
    (∀ t, ∃ e, jsDecryptApi smallNums S sqData (.ok sqWasm) b (other 16 t) = .error e) ∧
    jsDecryptApi smallNums S sqData (.ok sqWasm) b full = .ok [1, 2, 3] ∧
    (decryptCommand S ['c'] ['v'] ['o'] ['d']).exec ((fs.set ['o'] b).set ['v'] w) = (((fs.set ['o'] b).set ['v'] w).set ['d'] [1, 2, 3], .ok ()) := by
  obtain ⟨symtab, b, hf, hag, h3, hna, hr, hb, hj⟩ := cli_encrypted incl
  obtain ⟨w, hw⟩ := full_ok
  have hc := sq_compiled
  rw [h3] at hc
  have h := fun n t => C94_cli_to_js (N := smallNums) S fs _ ['c'] ['s'] ['i'] ['m'] ['o'] symtab entries hf [1, 2, 3] rfl incl ρ nonce rfl hj hb sq_wf sq_ct
    sq_priv sq_small hna sqData rfl sqData_small b rfl hc (other n t) (cli_gives_bound symtab n t) msg_js
  refine ⟨b, w, hb, hw, (h 9 ['3']).1 ⟨⟨w, hw⟩, cli_same symtab⟩, fun t => (h 16 t).2 fun hh => cli_not_same symtab hr t hh.2, ?_, ?_⟩
  · exact C58_cli_to_js (N := smallNums) S fs _ ['c'] ['s'] ['i'] ['m'] ['o'] symtab entries hf [1, 2, 3] rfl incl ρ nonce rfl hj hb sq_wf sq_ct
      sq_priv sq_small sqData rfl sqData_small b rfl hc full (fun e he => by
        rw [entries, List.mem_singleton] at he
        subst he
        refine ⟨.num 9, [], by simp [full], by simp, by simp [HasShape, JsLeaf], .int 9 _ ?_⟩
        have := IsInt.num (N := smallNums) 9
        rw [small_nine] at this
        exact this) msg_js full_ok
  · exact (C94_cli_to_cli (N := smallNums) S fs _ ['c'] ['s'] ['i'] ['m'] ['o'] symtab entries hf [1, 2, 3] rfl incl ρ nonce rfl hj hb sq_wf sq_ct
      sq_priv sq_small hna hc (other 9 ['3']) (cli_gives_bound symtab 9 ['3']) w hw ((fs.set ['o'] b).set ['v'] w) ['c'] ['v'] ['o'] ['d'] sqData rfl sqData_cli
      rfl rfl).1 (cli_same symtab)

/-- C94 and C58 (keys), encapsulation with JS. -/
example : ∃ ct k, jsEncap S sqData sym inputs ρ = .ok (ct, k) ∧ jsDecapApi smallNums S sqData (.ok sqWasm) ct (other 9 ['3']) = .ok k ∧
    (∀ t, ∃ e, jsDecapApi smallNums S sqData (.ok sqWasm) ct (other 16 t) = .error e) ∧ jsDecapApi smallNums S sqData (.ok sqWasm) ct full = .ok k := by
  obtain ⟨ct, k, hb, -⟩ := js_kem_run
  have h := fun n t => C94_js_kem (N := smallNums) S sqData sqData_js sym inputs js_noAlias js_small ρ ct k hb sq_wf sq_priv' sq_small sq_compiled (other n t)
    (gives_bound n t)
  refine ⟨ct, k, hb, (h 9 ['3']).1 ⟨full_ok, js_same⟩, fun t => (h 16 t).2 fun hh => js_not_same t hh.2, ?_⟩
  exact (C58_kem (N := smallNums) S sqData sqData_js sym inputs js_noAlias js_small pub_value ρ ct k hb sq_wf sq_priv' sq_small sq_compiled (fun e he => by
        rw [inputs, List.mem_singleton] at he
        subst he
        exact ⟨[], by simp⟩) full (fun e he => by
        rw [inputs, List.mem_singleton] at he
        subst he
        simp [full])).1 full_ok

/-- C94 (keys), encapsulation with the CLI. -/
example : ∃ ct k, (encapCommand S ['c'] ['s'] ['i'] ['o'] ['k'] ρ).exec fs = ((fs.set ['o'] ct).set ['k'] k, .ok ()) ∧
    jsDecapApi smallNums S sqData (.ok sqWasm) ct (other 9 ['3']) = .ok k ∧
    ∀ t, ∃ e, jsDecapApi smallNums S sqData (.ok sqWasm) ct (other 16 t) = .error e := by
  obtain ⟨symtab, ct, k, hf, hag, h3, hna, hr, hb⟩ := cli_encapped
  have hc := sq_compiled
  rw [h3] at hc
  have h := fun n t => C94_cli_kem (N := smallNums) S fs _ ['c'] ['s'] ['i'] ['o'] ['k'] (by decide) symtab entries hf ρ hb sq_wf sq_priv sq_small hna sqData
    sqData_js hc (other n t) (cli_gives_bound symtab n t)
  refine ⟨ct, k, hb, ?_, fun t => ?_⟩
  · obtain ⟨ct', k', e1, e2, h1, -⟩ := h 9 ['3']
    cases e1
    cases e2
    exact h1 ⟨full_ok, cli_same symtab⟩
  · obtain ⟨ct', k', e1, e2, -, h2⟩ := h 16 t
    cases e1
    exact h2 fun hh => cli_not_same symtab hr t hh.2

/-! ### C45 and C46 -/

/-- C45, JS: included and not included. -/
example : ∃ b k b' k', jsEncrypt S sqData sym inputs [1, 2, 3] true ρ nonce = .ok (b, k) ∧ jsEncrypt S sqData sym inputs [1, 2, 3] false ρ nonce = .ok (b', k') ∧
    jsGetPublicInput S b = .ok (.obj inputs) ∧ jsGetPublicInput S b = .ok (.obj (keptFields inputs)) ∧
    jsGetPublicInput S b' = Res.fail "Public inputs are not included in this ciphertext" := by
  obtain ⟨b, k, hb, -⟩ := js_run true
  obtain ⟨b', k', hb', -⟩ := js_run false
  have hreal : Real D (.obj inputs) := by simp only [Real, inputs, RealFields]; exact ⟨by simp, D.round_small 9 (by norm_num), trivial⟩
  have hrt := C45_json_roundtrip D inputs hreal _ stringify_inputs
  refine ⟨b, k, b', k', hb, hb', ?_, ?_, C45_js_not_included S sqData sym inputs [1, 2, 3] ρ nonce b' k' hb'⟩
  · exact C45_js_included S sqData sq sqData_js sym inputs [1, 2, 3] ρ nonce b k hb sq_wf.fits sq_ct ['"', 'y', '"', ':', '9', '}'] stringify_inputs
      (stringify_len _ stringify_inputs) (.obj inputs) hrt.1
  · exact C45_js_values S S_json sqData sq sqData_js sym inputs hreal [1, 2, 3] ρ nonce b k hb sq_wf.fits sq_ct (fun s hs => stringify_len s hs)

/-- C45, CLI to JS. -/
example : ∃ b, (encryptCommand S ['c'] ['s'] ['i'] ['m'] ['o'] true ρ nonce).exec fs = (fs.set ['o'] b, .ok ()) ∧ jsGetPublicInput S b = .ok (.obj inputs) := by
  obtain ⟨symtab, b, hf, -, -, -, -, hb, -⟩ := cli_encrypted true
  have h1 : pText inputText = some (.obj [(['y'], .num ['9'])]) := by rfl
  have hx : S.jsonParse (String.ofList inputText).toList = some (.obj inputs) := by
    rw [String.toList_ofList]
    change (pText inputText).map (JTree.toJs D) = _
    rw [h1]
    simp only [Option.map_some]
    rfl
  obtain ⟨c, h1, h2⟩ := C45_cli_included S fs _ ['c'] ['s'] ['i'] ['m'] ['o'] sq symtab entries hf ρ nonce hb sq_wf.fits sq_ct (utf8Enc inputText)
    (String.ofList inputText) rfl (utf8Dec_enc _) (by
      simp only [inputText, utf8Enc_cons]
      decide) (by rw [inputText_len]; norm_num) (.obj inputs) hx
  cases h1
  exact ⟨b, hb, h2⟩

/-- C46: replacing the public input by other bytes, or removing it, with arbitrary parts. -/
example (w enc : Bytes) (hw : w.length < 2 ^ 32) (wit : Res Bytes) :
    (let fs' := (fs.set ['o'] (combine true w [123, 125] enc)).set ['O'] (combine false w [] enc)
     (decryptCommand S ['c'] ['w'] ['o'] ['d']).exec fs' = (decryptCommand S ['c'] ['w'] ['O'] ['d']).exec fs') ∧
    jsDecrypt S sqData wit (combine true w [123, 125] enc) = jsDecrypt S sqData wit (combine true w [1, 2, 3] enc) :=
  ⟨C46_cli_decrypt S true false w [123, 125] [] enc hw (by simp) (by simp) _ ['c'] ['w'] ['o'] ['O'] ['d'] rfl rfl,
   C46_js_decrypt S true true w [123, 125] [1, 2, 3] enc hw (by simp) (by simp) sqData wit⟩

/-! ### C74 -/

/-- C74 (JS): a witness with two values is refused; wire 0 does not matter. -/
example (ct : Bytes) : jsDecap S sqData (.ok (wtnsOf 1 9 3)) ct = jsDecap S sqData (.ok (wtnsOf 5 9 3)) ct :=
  (C74_js_wire_zero S sqData (wtnsOf 1 9 3) (wtnsOf 5 9 3) ct sq sqData_js sq_wf.fits (by simp [sq]) [9, 3] 1 5 (wtnsOf_js _ _ _) (wtnsOf_js _ _ _)).1

/-! ### C87 -/

theorem run_one_cli {symtab : AMap Nat} (hr : Resolves symtab (some sq.nPubIn) ['y'] 1) (hg : Gives entries ['y'] 9) :
    GivenRun (CliSupplies symtab sq.nPubIn entries) (sq.nPubOut + sq.nPubIn) 1 :=
  ⟨by simp [sq], fun i h1 h2 => by
    obtain rfl : i = 1 := by omega
    exact ⟨['y'], 9, hr, hg⟩, fun h => by simp [sq] at h⟩

theorem run_one_js : GivenRun (JsSupplies (jsParseSymFile sym) inputs) (sq.nPubOut + sq.nPubIn) 1 :=
  ⟨by simp [sq], fun i h1 h2 => binds_one.2.2 i h1 h2, fun h => by simp [sq] at h⟩

/-- C87: `456 + 160 = 616` bytes for one public value, and a message of three bytes in `489 + 160 + 3 + 4 + 9` bytes with the input file. -/
example : ∃ ct k b, (encapCommand S ['c'] ['s'] ['i'] ['o'] ['k'] ρ).exec fs = ((fs.set ['o'] ct).set ['k'] k, .ok ()) ∧ k.length = 32 ∧ ct.length = 616 ∧
    (encryptCommand S ['c'] ['s'] ['i'] ['m'] ['o'] true ρ nonce).exec fs = (fs.set ['o'] b, .ok ()) ∧ b.length = 665 ∧
    ¬ ∃ ct', ((fs.set ['o'] ct).set ['k'] k) ['o'] = some ct' ∧ ct'.length = 1576 := by
  obtain ⟨symtab, ct, k, hf, -, -, hna, hr, hb⟩ := cli_encapped
  obtain ⟨symtab', b, hf', -, e', hna', hr', hb', -⟩ := cli_encrypted true
  obtain ⟨-, -, -, -, -, -, hg⟩ := cli_case
  have hd := C87_documented_cli S fs _ ['c'] ['s'] ['i'] ['o'] ['k'] (by decide) sq symtab entries hf hna ρ hb sq_wf.fits sq_priv'
  obtain ⟨ct', k', l, e1, e2, h3, h4, h5⟩ := C87_cli_encap S fs _ ['c'] ['s'] ['i'] ['o'] ['k'] (by decide) sq symtab entries hf hna ρ hb sq_wf.fits sq_priv'
  cases e1
  cases e2
  obtain ⟨b', l', e3, h6, h7⟩ := C87_cli_encrypt S fs _ ['c'] ['s'] ['i'] ['m'] ['o'] sq symtab' entries hf' hna' [1, 2, 3] (utf8Enc inputText) rfl rfl true ρ nonce
    rfl hb' sq_wf.fits sq_priv'
  cases e3
  have hl : l = 1 := GivenRun.unique (fun _ _ => Iff.rfl) h5 (run_one_cli hr hg)
  have hl' : l' = 1 := GivenRun.unique (fun _ _ => Iff.rfl) h7 (run_one_cli hr' hg)
  refine ⟨ct, k, b, hb, h3, by rw [h4, hl], hb', by rw [h6, hl', if_pos rfl, inputText_len]; rfl, fun hc => ?_⟩
  have := GivenRun.unique (fun _ _ => Iff.rfl) (hd.1 hc) (run_one_cli hr hg)
  omega

/-- C87 (JS). -/
example : ∃ ct k b k', jsEncap S sqData sym inputs ρ = .ok (ct, k) ∧ k.length = 32 ∧ ct.length = 616 ∧ ct.length ≠ 1576 ∧
    jsEncrypt S sqData sym inputs [1, 2, 3] false ρ nonce = .ok (b, k') ∧ b.length = 652 := by
  obtain ⟨ct, k, hb, -⟩ := js_kem_run
  obtain ⟨b, k', hb', -⟩ := js_run false
  obtain ⟨l, h1, h2, h3⟩ := C87_js_encap S sqData sq sqData_js sym inputs js_noAlias js_small ρ ct k hb sq_wf.fits sq_priv'
  obtain ⟨l', p, -, -, h5, h6⟩ := C87_js_encrypt S sqData sq sqData_js sym inputs js_noAlias js_small [1, 2, 3] false ρ nonce rfl b k' hb' sq_wf.fits sq_priv'
  have hl : l = 1 := GivenRun.unique (fun _ _ => Iff.rfl) h3 run_one_js
  have hl' : l' = 1 := GivenRun.unique (fun _ _ => Iff.rfl) h6 run_one_js
  refine ⟨ct, k, b, k', hb, h1, by rw [h2, hl], fun hc => ?_, hb', by rw [h5, hl']; simp⟩
  have := GivenRun.unique (fun _ _ => Iff.rfl)
    ((C87_documented_js S sqData sq sqData_js sym inputs js_noAlias js_small ρ ct k hb sq_wf.fits sq_priv').1 hc) run_one_js
  omega

end Ex

end Zkenc.Props
