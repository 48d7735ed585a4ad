import Verif.Props.InputOrder
import Verif.Props.Flatten
/-!
# C101 on a concrete system

The circuit `x · x = y` with the public input `y`, on the toy system of the other examples, and input objects with two values for `y`:
`{"": {"y": 5}, "y": 9}` and `{"y": 9, "": {"y": 5}}`. (A field of an object under the empty key has the name of the field alone.)
-/

namespace Zkenc.Props.Ex

open Zkenc Zkenc.Spec Zkenc.InputSpec

/-- `{"": {"y": 5}, "y": 9}`. -/
def fiveNine : List (Str × JsVal) := [([], .obj [(['y'], .num 5)]), (['y'], .num 9)]

/-- `{"y": 9, "": {"y": 5}}`. -/
def nineFive : List (Str × JsVal) := [(['y'], .num 9), ([], .obj [(['y'], .num 5)])]

theorem fiveNine_values : valuesInOrder fiveNine = [(['y'], .num 5), (['y'], .num 9)] := by
  simp [valuesInOrder, fiveNine, valuesOf, valuesUnder]

theorem nineFive_values : valuesInOrder nineFive = [(['y'], .num 9), (['y'], .num 5)] := by
  simp [valuesInOrder, nineFive, valuesOf, valuesUnder]

theorem fiveNine_gives {name : Str} {v : JsVal} (h : JsGives fiveNine name v) : name = ['y'] ∧ (v = .num 5 ∨ v = .num 9) := by
  rw [← C101_values, fiveNine_values] at h
  simp only [List.mem_cons, Prod.mk.injEq, List.not_mem_nil, or_false] at h
  tauto

theorem nineFive_gives {name : Str} {v : JsVal} (h : JsGives nineFive name v) : name = ['y'] ∧ (v = .num 9 ∨ v = .num 5) := by
  rw [← C101_values, nineFive_values] at h
  simp only [List.mem_cons, Prod.mk.injEq, List.not_mem_nil, or_false] at h
  tauto

theorem y_resolves : Resolves (jsParseSymFile sym) none ['y'] 1 := by
  obtain ⟨m, -, h2, h3⟩ := sym_parse
  refine ⟨?_, by simp⟩
  rw [h3, main_y, h2]
  simp

theorem fiveNine_counts {i : Nat} {v : JsVal} (h : JsCounts (jsParseSymFile sym) fiveNine i v) : v = .num 9 := by
  obtain ⟨name, h1, h2⟩ := (C101_counts _ _ _).2.1 v h
  rw [(fiveNine_gives h2).1] at h1
  have hi := js_resolves h1
  subst hi
  exact (C101_counts _ _ _).2.2 v (.num 9) h ⟨[(['y'], .num 5)], ['y'], [], fiveNine_values, y_resolves, by simp⟩

theorem nineFive_counts : JsCounts (jsParseSymFile sym) nineFive 1 (.num 5) :=
  ⟨[(['y'], .num 9)], ['y'], [], nineFive_values, y_resolves, by simp⟩

theorem five_text : jsBigInt (intDec 5) = some 5 := by
  have : intDec 5 = ['5'] := by simp [intDec, natDec, digChar]
  rw [this]; decide

/-- The values of `fiveNine` for wire 1 have different texts: the theorems that assume `JsNoAlias` say nothing about it. -/
theorem fiveNine_alias : ¬ JsNoAlias (jsParseSymFile sym) fiveNine := by
  intro h
  have := h ['y'] ['y'] 1 (.num 5) (.num 9) y_resolves y_resolves ((C101_values _ _ _).1 (by rw [fiveNine_values]; simp))
    ((C101_values _ _ _).1 (by rw [fiveNine_values]; simp))
  simp [JsVal.toStr, JsVal.joinText, intDec, natDec, digChar] at this

theorem fiveNine_usable : JsUsableLast (jsParseSymFile sym) fiveNine where
  not_null := by
    intro name v i _ hg
    rcases (fiveNine_gives hg).2 with rfl | rfl <;> exact ⟨by simp, by simp⟩
  integer := by
    intro i _ _ v s hv hs
    rw [fiveNine_counts hv] at hs
    cases hs
    exact ⟨9, nine_text⟩

theorem nineFive_usable : JsUsableLast (jsParseSymFile sym) nineFive where
  not_null := by
    intro name v i _ hg
    rcases (nineFive_gives hg).2 with rfl | rfl <;> exact ⟨by simp, by simp⟩
  integer := by
    intro i _ _ v s hv hs
    obtain ⟨name, h1, h2⟩ := (C101_counts _ _ _).2.1 v hv
    rcases (nineFive_gives h2).2 with rfl | rfl
    · cases hs; exact ⟨9, nine_text⟩
    · cases hs; exact ⟨5, five_text⟩

theorem fiveNine_small : JsSmall (jsParseSymFile sym) fiveNine := by
  refine .of_lt fun name v i hr hg => ?_
  rw [(fiveNine_gives hg).1] at hr
  rw [js_resolves hr]; norm_num

theorem nineFive_small : JsSmall (jsParseSymFile sym) nineFive := by
  refine .of_lt fun name v i hr hg => ?_
  rw [(nineFive_gives hg).1] at hr
  rw [js_resolves hr]; norm_num

theorem fiveNine_enforced : JsEnforcedLast (jsParseSymFile sym) (sq.nPubOut + sq.nPubIn) fiveNine vals := by
  intro j hj hjn _ v s z hv hs hz
  have hj1 : j = 1 := by simp [sq] at hjn; omega
  rw [fiveNine_counts hv] at hs
  cases hs
  have : jsBigInt (intDec 9) = some z := hz
  rw [nine_text] at this
  cases this
  simp [hj1, vals]

theorem nineFive_not_enforced : ¬ JsEnforcedLast (jsParseSymFile sym) (sq.nPubOut + sq.nPubIn) nineFive vals := by
  intro h
  have := h 1 le_rfl (by simp [sq]) (fun i h1 h2 => by
    obtain rfl : i = 1 := by omega
    exact ⟨['y'], .num 9, y_resolves, (C101_values _ _ _).1 (by rw [nineFive_values]; simp)⟩) (.num 5) (intDec 5) 5 nineFive_counts rfl five_text
  simp only [vals, List.getElem?_cons_succ, List.getElem?_cons_zero, Option.some.injEq] at this
  refine fr_ne 4 (by norm_num) (by norm_num) ?_
  have h5 : ((5 : Int) % 2 ^ 256).toNat = 5 := by decide
  rw [h5] at this
  push_cast at this ⊢
  linear_combination this

theorem vals_accepted : Accepted sq vals := witness_accepted sq_wf vals_witness

/-- With `{"": {"y": 5}, "y": 9}` the witness with `y = 9` opens the ciphertext; with the fields in the other order it does not. -/
theorem last_counts :
    (∃ b k, jsEncrypt S sqData sym fiveNine [1, 2, 3] false ρ nonce = .ok (b, k) ∧ jsDecrypt S sqData (.ok wtns) b = .ok [1, 2, 3] ∧
      (decryptCommand S ['c'] ['w'] ['o'] ['d']).exec (fs.set ['o'] b) = ((fs.set ['o'] b).set ['d'] [1, 2, 3], .ok ())) ∧
    ∃ b k, jsEncrypt S sqData sym nineFive [1, 2, 3] false ρ nonce = .ok (b, k) ∧ ∃ e, jsDecrypt S sqData (.ok wtns) b = .error e := by
  have hmax : ([1, 2, 3] : Bytes).length ≤ S.cipher.maxEnc .js := by change 3 ≤ 2 ^ 36; norm_num
  have hmax' : ([1, 2, 3] : Bytes).length ≤ S.cipher.maxDec .cli := by change 3 ≤ 2 ^ 36; norm_num
  obtain ⟨b, k, hb⟩ := (C101_encrypt_outcome S sqData sq sqData_js sym fiveNine fiveNine_small [1, 2, 3] false ρ nonce rfl).2
    ⟨fiveNine_usable, delta_ne, hmax, by simp⟩
  obtain ⟨b', k', hb'⟩ := (C101_encrypt_outcome S sqData sq sqData_js sym nineFive nineFive_small [1, 2, 3] false ρ nonce rfl).2
    ⟨nineFive_usable, delta_ne, hmax, by simp⟩
  refine ⟨⟨b, k, hb, ?_, ?_⟩, b', k', hb', ?_⟩
  · exact (C101_js_to_js_exactly S sqData sq sqData_js sym fiveNine fiveNine_small [1, 2, 3] false ρ nonce rfl (by simp) b k hb sq_wf sq_ct
      (by simp [sq]) wtns vals wtns_js).1 ⟨vals_witness.len, vals_accepted, fiveNine_enforced⟩
  · exact (C101_js_to_cli_exactly S sqData (by rw [sqData_len]; norm_num) sq sqData_cli sym fiveNine fiveNine_small [1, 2, 3] false ρ nonce rfl
      (by simp) b k hb sq_wf sq_ct (by simp [sq]) (fs.set ['o'] b) ['c'] ['w'] ['o'] ['d'] wtns vals rfl rfl rfl wtns_cli hmax').1
      ⟨vals_accepted, fiveNine_enforced⟩
  · exact (C101_js_to_js_exactly S sqData sq sqData_js sym nineFive nineFive_small [1, 2, 3] false ρ nonce rfl (by simp) b' k' hb' sq_wf sq_ct
      (by simp [sq]) wtns vals wtns_js).2 fun h => nineFive_not_enforced h.2.2

/-- A null that does not count makes `encap` fail all the same. -/
theorem null_fails : ∃ e, jsEncap S sqData sym [([], .obj [(['y'], .null)]), (['y'], .num 9)] ρ = .error e := by
  have hg : JsGives [([], .obj [(['y'], .null)]), (['y'], .num 9)] ['y'] .null :=
    (C101_values _ _ _).1 (by simp [valuesInOrder, valuesOf, valuesUnder])
  refine (C101_encap_outcome S sqData sq sqData_js sym _ ?_ ρ).2 fun h => (h.1.not_null _ _ _ y_resolves hg).1 rfl
  refine .of_lt fun name v i hr hg => ?_
  rw [← C101_values] at hg
  have hname : name = ['y'] := by
    simp [valuesInOrder, valuesOf, valuesUnder] at hg
    tauto
  rw [hname] at hr
  rw [js_resolves hr]; norm_num

/-- The CLI round trip of the other examples, with the choice made at encryption. -/
theorem cli_choice_run : ∃ b symtab c, (encryptCommand S ['c'] ['s'] ['i'] ['m'] ['o'] true ρ nonce).exec fs = (fs.set ['o'] b, .ok ()) ∧
    CliChoice symtab sq.nPubIn entries c ∧ c 1 = some 9 ∧
    (decryptCommand S ['c'] ['w'] ['o'] ['d']).exec (fs.set ['o'] b) = ((fs.set ['o'] b).set ['d'] [1, 2, 3], .ok ()) := by
  obtain ⟨symtab, hf, hag⟩ := files
  obtain ⟨b, hb, hdec, -⟩ := cli_run
  have hj : true = true → ∀ j, fs ['i'] = some j → j.length < 2 ^ 32 := by
    intro _ j hj
    have : utf8Enc inputText = j := by simpa [fs] using hj
    rw [← this, inputText_len]; norm_num
  obtain ⟨c, hc, hrun⟩ := C101_cli_to_cli_exactly S fs _ ['c'] ['s'] ['i'] ['m'] ['o'] sq symtab entries hf [1, 2, 3] rfl true ρ nonce rfl hj hb
    sq_wf sq_ct (by simp [sq])
  obtain ⟨h1, h2⟩ := hrun (fs.set ['o'] b) ['c'] ['w'] ['o'] ['d'] sqData wtns vals rfl sqData_cli rfl rfl wtns_cli
  have hacc : Accepted sq vals ∧ RunAgrees sq.nPubIn c vals := by
    by_contra hcon
    obtain ⟨e, he⟩ := h2 hcon
    rw [hdec] at he
    simp at he
  have hne : c 1 = some 9 := by
    by_cases hs : CliGivesWire symtab sq.nPubIn entries 1
    · obtain ⟨name, x, g1, g2, g3⟩ := hc.given 1 hs
      rw [(gives ((C101_cli_counts entries all_denote name).2.1 x g2)).2] at g3
      exact g3
    · exfalso
      obtain ⟨sb, st, g1, g2, g3⟩ := hf.sym
      have : sb = utf8Enc sym := by simpa [fs] using g1.symm
      subst this
      obtain ⟨m, k1, k2, -⟩ := sym_parse
      have hst : st.toList = sym := by
        have h0 : utf8Dec (utf8Enc sym) = some (String.ofList sym) := utf8Dec_enc _
        rw [h0] at g2
        cases g2
        exact String.toList_ofList
      rw [hst, k1] at g3
      obtain rfl : m = symtab := by simpa using g3
      have hy : m.get ("main.".toList ++ ['y']) = some 1 := by rw [main_y, k2]; simp
      refine hs ⟨['y'], 9, ⟨hy, ?_⟩, ?_⟩
      · intro k hk
        cases hk
        simp [sq]
      · exact ⟨(['y'], .int 9), by simp [entries], [], .int 9, AtPath.here _, trivial, rfl, by
          have := Denotes.nat 9 (by norm_num) (by norm_num)
          exact_mod_cast this⟩
  exact ⟨b, symtab, c, hb, hc, hne, h1 hacc⟩

/-- The witness built from `{"": {"y": 5}, "y": 9}` has `y = 9`. -/
theorem fiveNine_witness : jsEncapWitness sym fiveNine = .ok (serializeWitnessSimple [1, 9]) := by
  refine (C101_witness sym fiveNine _).2 ⟨fiveNine_usable.not_null, [9], rfl, fun k hk => ?_, fun name v hr hg => ?_⟩
  · obtain rfl : k = 0 := by simpa using hk
    exact ⟨.num 9, intDec 9, ⟨[(['y'], .num 5)], ['y'], [], fiveNine_values, y_resolves, by simp⟩, rfl, nine_text⟩
  · rw [(fiveNine_gives hg).1] at hr
    have := js_resolves hr
    simp at this

/-- The object that is used in place of `fiveNine`. -/
theorem fiveNine_effective : ∃ inputs', JsNoAlias (jsParseSymFile sym) inputs' ∧
    jsEncapWitness sym inputs' = .ok (serializeWitnessSimple [1, 9]) ∧ JsGives inputs' ['y'] (.str ['9']) := by
  obtain ⟨inputs', h1, h2, h3⟩ := C101_effective sym fiveNine fiveNine_usable.not_null
  refine ⟨inputs', h1, (h2 _).1 fiveNine_witness, ?_⟩
  obtain ⟨name, g1, g2⟩ := (h3 1 (.str ['9'])).2
    ⟨.num 9, ['9'], ⟨[(['y'], .num 5)], ['y'], [], fiveNine_values, y_resolves, by simp⟩, by
      simp [JsVal.toStr, JsVal.joinText, intDec, natDec, digChar], rfl⟩
  have : name = ['y'] := by
    obtain ⟨m, -, k2, k3⟩ := sym_parse
    have g := g1.1
    rw [k3, k2] at g
    simp only [List.mem_cons, Prod.mk.injEq, List.not_mem_nil, or_false] at g
    rcases g with ⟨g, -⟩ | ⟨-, g⟩
    · rw [← main_y] at g
      exact List.append_cancel_left g
    · cases g
  exact this ▸ g2

/-- With one value the notions are the usual ones. -/
theorem nine_usable_last : JsUsableLast (jsParseSymFile sym) inputs := (C101_noalias sym inputs js_noAlias).1.2 js_usable

/-- Two names on one wire, given 5 and 6: the CLI uses one of the two, and each is possible. -/
theorem two_names (w : WireMap) :
    (∃ h : HashOrder, cliAssign h 1 "1,1,0,main.a\n2,1,0,main.b".toList (.obj [(['a'], .int 5), (['b'], .int 6)]) = .ok w) ↔
      (w 1 = some 5 ∨ w 1 = some 6) ∧ w 0 = some 1 ∧ ∀ i, 2 ≤ i → w i = none := by
  have hs : parseSymFile "1,1,0,main.a\n2,1,0,main.b".toList = .ok [("main.a".toList, 1), ("main.b".toList, 1)] := by rfl
  have hall : AllDenote [(['a'], Json.int 5), (['b'], .int 6)] := by
    intro e he path y ha hn
    simp only [List.mem_cons, List.not_mem_nil, or_false] at he
    rcases he with rfl | rfl <;> cases ha
    · exact ⟨_, .nat 5 (by norm_num) (by norm_num)⟩
    · exact ⟨_, .nat 6 (by norm_num) (by norm_num)⟩
  have hval : cliValuesInOrder [(['a'], Json.int 5), (['b'], .int 6)] = [(['a'], Json.int 5), (['b'], .int 6)] := by
    simp [cliValuesInOrder, cliValuesUnder]
  have h5 : CliCounts [(['a'], Json.int 5), (['b'], .int 6)] ['a'] 5 :=
    ⟨[], .int 5, [(['b'], .int 6)], hval, by simpa using Denotes.nat 5 (by norm_num) (by norm_num), by simp⟩
  have h6 : CliCounts [(['a'], Json.int 5), (['b'], .int 6)] ['b'] 6 :=
    ⟨[(['a'], .int 5)], .int 6, [], hval, by simpa using Denotes.nat 6 (by norm_num) (by norm_num), by simp⟩
  have hra : Resolves [("main.a".toList, 1), ("main.b".toList, 1)] (some 1) ['a'] 1 := ⟨rfl, by intro k hk; cases hk; decide⟩
  have hrb : Resolves [("main.a".toList, 1), ("main.b".toList, 1)] (some 1) ['b'] 1 := ⟨rfl, by intro k hk; cases hk; decide⟩
  have hres : ∀ {name i x}, Resolves [("main.a".toList, 1), ("main.b".toList, 1)] (some 1) name i →
      CliCounts [(['a'], Json.int 5), (['b'], .int 6)] name x → i = 1 ∧ (x = 5 ∨ x = 6) := by
    intro name i x hr hc
    have hg : name = ['a'] ∨ name = ['b'] := by
      obtain ⟨l₁, y, l₂, h1, -⟩ := hc
      rw [hval] at h1
      have : (name, y) ∈ [(['a'], Json.int 5), (['b'], .int 6)] := by rw [h1]; simp
      simp only [List.mem_cons, Prod.mk.injEq, List.not_mem_nil, or_false] at this
      tauto
    rcases hg with rfl | rfl
    · refine ⟨?_, .inl ((C101_cli_counts _ hall ['a']).2.2 x 5 hc h5)⟩
      have := hra.1.symm.trans hr.1
      simpa using this.symm
    · refine ⟨?_, .inr ((C101_cli_counts _ hall ['b']).2.2 x 6 hc h6)⟩
      have := hrb.1.symm.trans hr.1
      simpa using this.symm
  have hgives : ∀ i, CliGivesWire [("main.a".toList, 1), ("main.b".toList, 1)] 1 [(['a'], Json.int 5), (['b'], .int 6)] i ↔ i = 1 := by
    intro i
    constructor
    · rintro ⟨name, x, hr, hg⟩
      obtain ⟨x', hx'⟩ := (C101_cli_counts _ hall name).1.1 ⟨x, hg⟩
      exact (hres hr hx').1
    · rintro rfl
      exact ⟨['a'], 5, hra, (C101_cli_counts _ hall ['a']).2.1 5 h5⟩
  rw [C101_cli_choices 1 _ _ w hs]
  constructor
  · rintro ⟨-, hc⟩
    obtain ⟨name, x, g1, g2, g3⟩ := hc.given 1 ((hgives 1).2 rfl)
    refine ⟨?_, ?_, fun i hi => ?_⟩
    · rcases (hres g1 g2).2 with rfl | rfl
      · exact .inl g3
      · exact .inr g3
    · exact hc.other 0 fun h => by simpa using (hgives 0).1 h
    · have := hc.other i fun h => by have := (hgives i).1 h; omega
      rw [if_neg (by omega)] at this
      exact this
  · rintro ⟨h1, h2, h3⟩
    refine ⟨hall, ⟨fun i hi => ?_, fun i hi => ?_⟩⟩
    · obtain rfl := (hgives i).1 hi
      rcases h1 with h1 | h1
      · exact ⟨['a'], 5, hra, h5, h1⟩
      · exact ⟨['b'], 6, hrb, h6, h1⟩
    · split_ifs with h0
      · rw [h0]; exact h2
      · have : i ≠ 1 := fun h => hi ((hgives i).2 h)
        exact h3 i (by omega)

end Zkenc.Props.Ex
