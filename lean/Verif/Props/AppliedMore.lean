import Verif.Props.AppliedCompose
import Verif.Props.Legacy
import Verif.Props.Native
import Verif.Props.Documented
/-!
# Flat arrays, the older input functions and Rust synthesizers, applied
-/

namespace Zkenc.Props

open Zkenc Zkenc.Spec Zkenc.InputSpec CalcSpec NativeSpec

namespace Ex

/-! ### C88 -/

/-- `{ y: 9, x: [["3"]] }` is to the calculator as `{ y: [9], x: "3" }`. -/
theorem grouped : SameUpToGrouping [(['y'], .num 9), (['x'], .arr [.arr [.str ['3']]])] [(['y'], .arr [.num 9]), (['x'], .str ['3'])] :=
  .cons ⟨rfl, rfl⟩ (.cons ⟨rfl, rfl⟩ .nil)

theorem grouped_full : SameUpToGrouping [(['y'], .num 9), (['x'], .arr [.arr [.str ['3']]])] full := .cons ⟨rfl, rfl⟩ (.cons ⟨rfl, rfl⟩ .nil)

example : calculateWitness smallNums (.ok sqWasm) [(['y'], .num 9), (['x'], .arr [.arr [.str ['3']]])] =
    calculateWitness smallNums (.ok sqWasm) [(['y'], .arr [.num 9]), (['x'], .str ['3'])] := C88_calculator smallNums _ _ _ grouped

/-- The nested inputs decrypt, as `full` does. -/
example (incl : Bool) : ∃ b k, jsEncrypt S sqData sym inputs [1, 2, 3] incl ρ nonce = .ok (b, k) ∧
    jsDecryptApi smallNums S sqData (.ok sqWasm) b [(['y'], .num 9), (['x'], .arr [.arr [.str ['3']]])] = .ok [1, 2, 3] := by
  obtain ⟨b, k, h1, h2⟩ := js_flow incl
  exact ⟨b, k, h1, by rw [(C88_decrypt S smallNums sqData (.ok sqWasm) b _ _ grouped_full).1]; exact h2⟩

/-- The public signal is declared as `y[1][1]`, the input file is `{"y":[9]}`. -/
def flatText : Str := ['{', '"', 'y', '"', ':', '[', '9', ']', '}']
def flatEntries : List (Str × Json) := [(['y'], .arr [.int 9])]
def flatSym : Str := "1,1,0,main.y[0][0]".toList

theorem flat_entries : FlatEntries flatEntries := by
  intro e he
  rw [flatEntries, List.mem_singleton] at he
  subst he
  refine ⟨by decide, fun l hl x hx => ?_⟩
  cases hl
  rw [List.mem_singleton] at hx
  subst hx
  simp [NotArr]

theorem flat_serde : S.serdeParse flatText = some (.obj flatEntries) := by
  have h1 : pText flatText = some (.obj [(['y'], .arr [.num ['9']])]) := by rfl
  have h2 : serdeNum D ['9'] = some (.int 9) := by rfl
  change (pText flatText).bind (JTree.toSerde D id 127) = _
  rw [h1]
  simp only [Option.bind_some, JTree.toSerde, fieldsToSerde, treesToSerde, h2]
  rfl

def flatFs : FS := ((fs.set ['s'] (utf8Enc flatSym)).set ['i'] (utf8Enc flatText)).set ['W'] (wtnsOf 1 4 2)

theorem flat_files : CliFiles S flatFs ['c'] ['s'] ['i'] sq [("main.y[0][0]".toList, 1)] flatEntries :=
  ⟨⟨sqData, rfl, sqData_cli⟩, ⟨utf8Enc flatSym, String.ofList flatSym, rfl, utf8Dec_enc _, by rw [String.toList_ofList]; rfl⟩,
    ⟨utf8Enc flatText, String.ofList flatText, rfl, utf8Dec_enc _, by rw [String.toList_ofList]; exact flat_serde⟩⟩

theorem flat_nested {name : Str} {i : Nat} (h : Resolves [("main.y[0][0]".toList, 1)] (some sq.nPubIn) name i) : Nested name ∧ i = 1 := by
  obtain ⟨hr, -⟩ := h
  have hd : natDec 0 = ['0'] := by rw [natDec]; rfl
  simp only [AMap.get] at hr
  split at hr
  · rename_i h
    have h : "main.".toList ++ "y[0][0]".toList = "main.".toList ++ name := h
    refine ⟨⟨['y'], 0, 0, [], ?_⟩, by simpa using hr.symm⟩
    rw [← List.append_cancel_left h]
    simp only [signalName, hd]
    rfl
  · cases hr

theorem flat_denote : AllDenote flatEntries := by
  intro e he path y hat hn
  rw [flatEntries, List.mem_singleton] at he
  subst he
  cases hat with
  | here => exact hn.elim
  | @elem _ j x _ _ h1 h2 =>
    cases j with
    | zero =>
      cases h1
      cases h2
      exact ⟨_, .nat 9 (by norm_num) (by norm_num)⟩
    | succ j => cases h1

/-- `zkenc encrypt` succeeds, and the witness of `2² = 4` decrypts. -/
example : ∃ b, (encryptCommand S ['c'] ['s'] ['i'] ['m'] ['o'] false ρ nonce).exec flatFs = (flatFs.set ['o'] b, .ok ()) ∧
    (decryptCommand S ['c'] ['W'] ['o'] ['d']).exec (flatFs.set ['o'] b) = ((flatFs.set ['o'] b).set ['d'] [1, 2, 3], .ok ()) := by
  obtain ⟨b, hb⟩ := (C47_encrypt_outcome S flatFs ['c'] ['s'] ['i'] ['m'] ['o'] sq _ flatEntries flat_files [1, 2, 3] rfl false ρ nonce rfl).1
    ⟨flat_denote, delta_ne, by change 3 ≤ 2 ^ 36; norm_num⟩
  have hno : ∀ {name i x}, Resolves [("main.y[0][0]".toList, 1)] (some sq.nPubIn) name i → ¬ Gives flatEntries name x := fun hr =>
    C88_cli_no_value _ flat_entries _ (flat_nested hr).1 _
  exact ⟨b, hb, C88_cli_unenforced S flatFs _ ['c'] ['s'] ['i'] ['m'] ['o'] sq _ flatEntries flat_files [1, 2, 3] rfl false ρ nonce rfl (by simp) hb sq_wf sq_ct
    (by simp [sq]) (fun _ _ _ _ _ hr _ hg _ => absurd hg (hno hr)) flat_entries 1 le_rfl (fun name hr => (flat_nested hr).1) _ ['c'] ['W'] ['o'] ['d'] sqData
    (wtnsOf 1 4 2) [1, 4, 2] rfl sqData_cli rfl rfl (wtnsOf_cli 1 4 2) (witness_accepted sq_wf (sq_witness_of 4 2 (by norm_num)))
    (fun i name x _ hr hg => absurd hg (hno hr))⟩

/-! ### C63 -/

theorem exEntries_leaves : List.Forall₂ Denotes (entriesInOrder exEntries) [((1 : Int) : Fr), ((2 : Int) : Fr), ((3 : Int) : Fr), ((7 : Int) : Fr)] := by
  refine .cons (.nat 1 (by decide) (by decide)) (.cons (.str _ 2 ?_) (.cons (.nat 3 (by decide) (by decide)) (.cons (.str _ 7 ?_) .nil)))
  · exact (bigIntFromStr_iff _ _).1 (by decide)
  · exact (bigIntFromStr_iff _ _).1 (by decide)

/-- `{"y": 9}`: list and map have the same values. -/
example : ∃ m xs, cliInputs (.obj entries) = .ok m ∧ parseCircuitInputs (.obj entries) = .ok xs ∧ ∀ x, x ∈ xs ↔ ∃ name, m.get name = some x := by
  have hx := (C63_ordered_values entries [((9 : Int) : Fr)]).2 (.cons (.nat 9 (by norm_num) (by norm_num)) .nil)
  obtain ⟨m, hm⟩ := (C63_same_acceptance (.obj entries)).1.1 ⟨_, hx⟩
  exact ⟨m, _, hm, hx, C63_same_values hm hx fun n x x' h h' => by rw [(gives h).2, (gives h').2]⟩

example : ∃ m, legacyParseInputs (fun _ => []) (.obj exEntries) = .ok m ∧ ∃ ts, AMap.get m "a".toList = some ts ∧ ts.length = 3 := by
  obtain ⟨m, h1, h2⟩ := C63_texts (fun _ => []) exEntries (by decide)
  obtain ⟨ts, h3, h4⟩ := h2 "a".toList _ (List.mem_cons_self ..)
  exact ⟨m, h1, ts, h3, h4.length_eq.symm⟩

example : ∃ e, legacyParseInputs (fun _ => []) (.arr [.int 1]) = .error (.err e) := C63_texts_rejects _ _ fun l h => by cases h

/-- `-3` as a number: the text denotes −3, the key-based parser takes `2^64 − 3`; as a text both take −3. -/
example : frFromStr (intDec (-3)) = some (((-3 : Int) : Fr)) ∨ ∃ z : Int, z < 0 ∧ Json.int (-3) = .int z ∧ frFromStr (intDec (-3)) = some (z : Fr) ∧
    (((-3 + 2 ^ 64 : Int) : Fr)) = ((z + 2 ^ 64 : Int) : Fr) := by
  rcases C63_text_value (fun _ => []) (.int (-3)) _ _ (.neg (-3) (by norm_num) (by norm_num)) (.int (-3) (by norm_num) (by norm_num)) with h | ⟨z, h1, h2, h3, h4⟩
  · exact .inr ⟨-3, by norm_num, rfl, (by
      rcases C63_text_value (fun _ => []) (.str (intDec (-3))) ((-3 : Int) : Fr) _ (.str _ _ ((bigIntFromStr_iff _ _).1 (by
        simp [intDec, natDec, digChar]; decide))) (.str _) with h | ⟨z, -, h, -⟩
      · exact h
      · cases h), rfl⟩
  · exact .inr ⟨z, h1, h2, h3, h4⟩

example : ∃ t, loadCircomCircuit (fs.set ['x'] []) ['c'] ['x'] = .ok t ∧
    loadCircomCircuit ((fs.set ['x'] []).set ['c'] (List.replicate sqData.length 0)) ['c'] ['x'] = .ok t :=
  C63_load_ignores_contents _ _ _ _ sqData (List.replicate sqData.length 0) [] [] rfl rfl rfl rfl (by simp)

/-! ### C89 -/

/-- A public 42, a private variable without value, a public 5: only the 42 is recorded. -/
example (δ : Fr) (hδ : δ ≠ 0) : ∃ ct key, encap toyPairing bn254Domains
      (allocateThen [⟨true, some (42 : Fr)⟩, ⟨false, none⟩, ⟨true, some 5⟩] fun _ => .done (.ok ())).run ⟨2, 3, δ, 7, 11⟩ = .ok (ct, key) ∧ ct.publicInputs = [42] ∧
    decap toyPairing (fun cs => ({ cs with numInst := 2, inst := [1, 42] }, .ok ())) ct = .ok key := by
  obtain ⟨ct, key, h⟩ := C07_encap_ok toyPairing bn254Domains
    (allocateThen [⟨true, some (42 : Fr)⟩, ⟨false, none⟩, ⟨true, some 5⟩] fun _ => .done (.ok ())).run ⟨2, 3, δ, 7, 11⟩ hδ
  obtain ⟨h1, h2⟩ := C89_bound toyPairing bn254Domains _ ⟨⟨false, none⟩, by simp, rfl⟩ _ _ ct key h
  have h1' : ct.publicInputs = [42] := h1
  exact ⟨ct, key, h, h1', h2 _ _ rfl rfl (by rw [h1'])⟩

/-- MiMC with two rounds: any pair of private inputs. -/
example (δ : Fr) (hδ : δ ≠ 0) : ∃ ct key, encap toyPairing bn254Domains (mimcCircuit none none (some 100) [1, 2]).run ⟨2, 3, δ, 7, 11⟩ = .ok (ct, key) ∧
    ct.publicInputs = [] ∧ decap toyPairing (mimcCircuit (some 5) (some 6) (some (mimc [1, 2] 5 6)) [1, 2]).run ct = .ok key := by
  obtain ⟨ct, key, h⟩ := C07_encap_ok toyPairing bn254Domains (mimcCircuit none none (some 100) [1, 2]).run ⟨2, 3, δ, 7, 11⟩ hδ
  obtain ⟨h1, h2⟩ := C89_mimc_unbound toyPairing bn254Domains [1, 2] (some 100) _ ct key h
  exact ⟨ct, key, h, h1, h2 5 6⟩

end Ex

end Zkenc.Props
