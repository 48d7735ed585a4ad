import Verif.Props.CliErrorsReceiver
import Verif.Props.CliErrorsRun
import Verif.Props.AppliedEndToEnd
/-!
# C104, applied

The circuit `y = x²`, a message encrypted for `y = 9`, and receivers with the witnesses `(9, 3)`, `(16, 4)`, `(9, 4)`; damaged files.
-/

namespace Zkenc.Props

open Zkenc Zkenc.Spec Zkenc.InputSpec ContainerSpec CliErrorSpec

namespace Ex

/-- A wrong witness: 4 is not a square root of 9. -/
def valsBad : List Fr := [1, 9, 4]
def wtnsBad : Bytes := wtnsOf 1 9 4

theorem valsBad_rejected : ¬ Accepted sq valsBad := by
  rintro ⟨val, hv, hw, hs⟩
  have ha : sq.nAlloc = 3 := by decide
  have h1 := hw 1 (by omega) (by omega)
  have h2 := hw 2 (by omega) (by omega)
  have e1 : (9 : Fr) = val 1 := Option.some.inj h1
  have e2 : (4 : Fr) = val 2 := Option.some.inj h2
  have := hs _ (List.mem_singleton.2 rfl)
  simp only [lcSum, List.map_cons, List.map_nil, coeff_one, List.sum_cons, List.sum_nil, one_mul, add_zero, ← e1, ← e2] at this
  exact fr_16_ne_9 (by linear_combination this)

theorem no_missing (a b c : Fr) : ¬ SomeWireMissing sq (fullWires [a, b, c]) := by
  rintro ⟨i, h1, h2, h3⟩
  have : i < 3 := by
    have ha : sq.nAlloc = 3 := by decide
    omega
  have : i = 1 ∨ i = 2 := by omega
  rcases this with rfl | rfl <;> cases h3

theorem one_missing (a b : Fr) : SomeWireMissing sq (fullWires [a, b]) := ⟨2, by decide, by decide, rfl⟩

/-- The files of the receiver. -/
def fsm (b : Bytes) : FS := (fsr b).set ['B'] wtnsBad

/-- `C104_receiver_cli`: the three witnesses, and what is reported. -/
example (incl : Bool) : ∃ b, (encryptCommand S ['c'] ['s'] ['i'] ['m'] ['o'] incl ρ nonce).exec fs = (fs.set ['o'] b, .ok ()) ∧
    ending ((cliMainE S ρ nonce (.decrypt ['c'] ['w'] ['o'] ['d'])).exec (fsm b)).2 = some ⟨0, none⟩ ∧
    ending ((cliMainE S ρ nonce (.decrypt ['c'] ['W'] ['o'] ['d'])).exec (fsm b)).2 = some ⟨1, some "Decap failed: InvalidPublicInputs".toList⟩ ∧
    ending ((cliMainE S ρ nonce (.decrypt ['c'] ['B'] ['o'] ['d'])).exec (fsm b)).2 = some ⟨1, some "Decap failed: InvalidWitness".toList⟩ := by
  obtain ⟨symtab, b, hf, hag, -, hna, hr, hb, hj⟩ := cli_encrypted incl
  have h := fun w wd vs h1 h2 e => C104_receiver_cli S fs _ ['c'] ['s'] ['i'] ['m'] ['o'] sq symtab entries hf [1, 2, 3] rfl incl ρ nonce rfl hj hb
    sq_wf sq_ct sq_priv hna ρ nonce (fsm b) ['c'] w ['o'] ['d'] sqData wd vs rfl sqData_cli rfl h1 h2 e
  obtain ⟨⟨a1, a2⟩, a3⟩ := cli_enforced hr hag
  have a4 : Accepted sq vals16 := witness_accepted sq_wf vals16_witness
  refine ⟨b, hb, (h ['w'] wtns vals rfl wtns_cli _).2 ?_, (h ['W'] wtns16 vals16 rfl (wtnsOf_cli _ _ _) _).2 ?_,
    (h ['B'] wtnsBad valsBad rfl (wtnsOf_cli _ _ _) _).2 ?_⟩
  · have a6 : ¬ SomeWireMissing sq (fullWires vals) := no_missing _ _ _
    simp [receiverChecks, Ends, a1, a2, a6]
  · have a5 : ¬ CliEnforced symtab sq.nPubIn entries vals16 := fun hc => a3 ⟨a4, hc⟩
    have a6 : ¬ SomeWireMissing sq (fullWires vals16) := no_missing _ _ _
    simp [receiverChecks, Ends, a4, a5, a6, reports]
  · have a6 : ¬ SomeWireMissing sq (fullWires valsBad) := no_missing _ _ _
    simp [receiverChecks, Ends, valsBad_rejected, a6, reports]

/-- `C104_receiver_js`: a message from the JS library, and the witness for another public value. -/
example (incl : Bool) : ∃ b k, jsEncrypt S sqData sym inputs [1, 2, 3] incl ρ nonce = .ok (b, k) ∧
    ending ((cliMainE S ρ nonce (.decrypt ['c'] ['W'] ['o'] ['d'])).exec (fsm b)).2 = some ⟨1, some "Decap failed: InvalidPublicInputs".toList⟩ := by
  obtain ⟨b, k, hb, -⟩ := js_run incl
  have hj : incl = true → ∀ s, S.stringify inputs = .ok s → (utf8Enc s).length < 2 ^ 32 := fun _ s hs => stringify_len s hs
  refine ⟨b, k, hb, (C104_receiver_js S sqData sqData_small sq sqData_cli sym inputs js_noAlias js_small [1, 2, 3] incl ρ nonce rfl hj b k hb
    sq_wf sq_ct sq_priv' ρ nonce (fsm b) ['c'] ['W'] ['o'] ['d'] wtns16 vals16 rfl rfl rfl (wtnsOf_cli _ _ _) msg_cli _).2 ?_⟩
  have a4 : Accepted sq vals16 := witness_accepted sq_wf vals16_witness
  have a5 : ¬ JsEnforced (jsParseSymFile sym) (sq.nPubOut + sq.nPubIn) inputs vals16 := fun hc => js_enforced.2 ⟨a4, hc⟩
  have a6 : ¬ SomeWireMissing sq (fullWires vals16) := no_missing _ _ _
  simp [receiverChecks, Ends, a4, a5, a6, reports]

/-- `C104_intact_cli`, `C104_intact_js`: whatever the witness file, the message is never reported. -/
example (incl : Bool) : ∃ b b' k, (encryptCommand S ['c'] ['s'] ['i'] ['m'] ['o'] incl ρ nonce).exec fs = (fs.set ['o'] b, .ok ()) ∧
    jsEncrypt S sqData sym inputs [1, 2, 3] incl ρ nonce = .ok (b', k) ∧
    (∀ w o e, ending ((cliMainE S ρ nonce (.decrypt ['c'] w ['o'] o)).exec (fsm b)).2 = some e → e ≠ reports "Message decryption failed") ∧
    (∀ w o e, ending ((cliMainE S ρ nonce (.decrypt ['c'] w ['o'] o)).exec (fsm b')).2 = some e → e ≠ reports "Message decryption failed") := by
  obtain ⟨symtab, b, hf, -, -, hna, -, hb, hj⟩ := cli_encrypted incl
  obtain ⟨b', k, hb', -⟩ := js_run incl
  have hj' : incl = true → ∀ s, S.stringify inputs = .ok s → (utf8Enc s).length < 2 ^ 32 := fun _ s hs => stringify_len s hs
  have hfit : ∀ (x : Bytes) r, IsCircuit S (fsm x) ['c'] r → PublicFits r := fun x r hr => by
    rw [CliErr.circuit_unique hr ⟨sqData, rfl, sqData_cli⟩]
    exact sq_wf.fits
  have hne : ∀ e, (e = ⟨0, none⟩ ∨ e = panics ∨ e ∈ ["Failed to load R1CS circuit", "Failed to load witness file", "Failed to convert witness to field elements",
      "Decap failed: SynthesisError(\"AssignmentMissing\")", "Decap failed: InvalidWitness", "Decap failed: InvalidPublicInputs"].map reports) →
      e ≠ reports "Message decryption failed" := by
    rintro e (h | h | h) rfl
    · cases h
    · cases h
    · revert h
      decide +kernel
  refine ⟨b, b', k, hb, hb', fun w o e he => hne e ?_, fun w o e he => hne e ?_⟩
  · exact C104_intact_cli S fs _ ['c'] ['s'] ['i'] ['m'] ['o'] sq symtab entries hf [1, 2, 3] rfl incl ρ nonce rfl hj hb
      sq_wf sq_ct sq_priv ρ nonce (fsm b) ['c'] w ['o'] o (hfit b) rfl e he
  · exact C104_intact_js S sqData sq sqData_js sym inputs [1, 2, 3] incl ρ nonce rfl hj' b' k hb' sq_wf sq_ct sq_priv' ρ nonce (fsm b') ['c'] w ['o'] o
      (hfit b') rfl msg_cli e he

theorem sq_only {f : FS} (h : f ['c'] = some sqData) {r : R1csFile} (hr : IsCircuit S f ['c'] r) : r = sq :=
  CliErr.circuit_unique hr ⟨sqData, h, sqData_cli⟩

/-- `C104_decrypt`: no file; a file of three bytes; a file that is cut in the witness part; one with an empty witness part. -/
example (w o : Path) : ending ((cliMainE S ρ nonce (.decrypt ['c'] w ['q'] o)).exec fs).2 = some ⟨1, some "Failed to read ciphertext file".toList⟩ ∧
    ending ((cliMainE S ρ nonce (.decrypt ['c'] w ['q'] o)).exec (fs.set ['q'] [1, 2, 3])).2 = some ⟨1, some "Invalid ciphertext: too short".toList⟩ ∧
    ending ((cliMainE S ρ nonce (.decrypt ['c'] w ['q'] o)).exec (fs.set ['q'] [1, 0, 0, 0, 3, 7])).2 =
      some ⟨1, some "Invalid ciphertext: witness length mismatch".toList⟩ := by
  have hno : ∀ {f : FS} {b : Bytes}, f ['q'] = some b → (∃ e, splitCli b = .error e) → ∀ e, Ends (containerChecks b) e → DecryptEnds S f ['c'] w ['q'] e := by
    intro f b hb ⟨er, hs⟩ e he
    have hl : ∀ p, ¬ Layout b p := fun p hp => by
      have := ((C44_cli_iff b).1 p).2 hp
      rw [hs] at this
      cases this
    refine ⟨fun h => ?_, fun b' h _ => ?_, fun b' p h hp => ?_, fun b' p c h hp => ?_⟩
    · rw [hb] at h; cases h
    · rw [hb] at h; cases h; exact he
    · rw [hb] at h; cases h; exact absurd hp (hl p)
    · rw [hb] at h; cases h; exact absurd hp (hl p)
  refine ⟨(C104_decrypt S ρ nonce fs ['c'] w ['q'] o (fun r hr => ?_) _).2 ?_,
    (C104_decrypt S ρ nonce _ ['c'] w ['q'] o (fun r hr => ?_) _).2 (hno (FS.set_same _ _ _) ⟨_, (split_short [1, 2, 3] (by decide)).1⟩ _ ?_),
    (C104_decrypt S ρ nonce _ ['c'] w ['q'] o (fun r hr => ?_) _).2
      (hno (FS.set_same _ _ _) ⟨_, (split_overrun_w (f := 1) (lw := [0, 0, 0, 3]) (r := [7]) rfl (by decide)).1⟩ _ ?_)⟩
  · rw [sq_only rfl hr]; exact sq_wf.fits
  · refine ⟨fun _ => rfl, fun b h => ?_, fun b p h => ?_, fun b p c h => ?_⟩ <;> cases h
  · rw [sq_only (FS.set_other _ (by decide) _) hr]; exact sq_wf.fits
  · simp [containerChecks, Ends, reports]
  · rw [sq_only (FS.set_other _ (by decide) _) hr]; exact sq_wf.fits
  · refine .inl ⟨by decide, .inr ⟨?_, rfl⟩⟩
    rintro ⟨f, lw, v, rest, he, hl, hb⟩
    rw [List.cons.injEq] at he
    have he' : ([0, 0, 0, 3] : Bytes) ++ [7] = lw ++ (v ++ rest) := he.2
    obtain ⟨h1, h2⟩ := List.append_inj he' (by rw [hl]; rfl)
    subst h1
    have := congrArg List.length h2
    rw [List.length_append, ← hb] at this
    have h3 : beNat [0, 0, 0, 3] = 3 := by decide
    rw [h3] at this
    simp only [List.length_cons, List.length_nil] at this
    omega

/-- `C104_decap`: without a circuit file. -/
example (w ct k : Path) : ending ((cliMainE S ρ nonce (.decap ['q'] w ct k)).exec fs).2 = some ⟨1, some "Failed to load R1CS circuit".toList⟩ := by
  have hq : ¬ ∃ r, IsCircuit S fs ['q'] r := by rintro ⟨r, d, h, -⟩; cases h
  refine (C104_decap S ρ nonce fs ['q'] w ct k (fun r hr => absurd ⟨r, hr⟩ hq) _).2 ⟨fun _ _ _ _ => ?_, fun _ => ?_⟩
  all_goals
    simp only [loadChecks, List.cons_append, Ends]
    exact .inr ⟨hq, rfl⟩

theorem sym_text : ∃ symtab, IsText fs ['s'] sym ∧ parseSymFile sym = .ok symtab := by
  obtain ⟨m, h1, -, -⟩ := sym_parse
  exact ⟨m, ⟨utf8Enc sym, String.ofList sym, rfl, utf8Dec_enc _, String.toList_ofList.symm⟩, h1⟩

theorem input_text : ∃ s, IsText fs ['i'] s ∧ IsInput S s := by
  obtain ⟨symtab, hf, -⟩ := cli_case
  obtain ⟨b, s, h1, h2, h3⟩ := hf.input
  exact ⟨s.toList, ⟨b, s, h1, h2, rfl⟩, entries, h3, all_denote⟩

theorem sq_is : ∃ r, IsCircuit S fs ['c'] r := ⟨sq, sqData, rfl, sqData_cli⟩

/-- `C104_encap` and `C104_encrypt`: success; no message; a circuit in place of the input file; the random number zero. -/
example (ct k o : Path) (n : Bool) :
    ending ((cliMainE S ρ nonce (.encap ['c'] ['s'] ['i'] ct k)).exec fs).2 = some ⟨0, none⟩ ∧
    ending ((cliMainE S ρ nonce (.encrypt ['c'] ['s'] ['i'] ['m'] o n)).exec fs).2 = some ⟨0, none⟩ ∧
    ending ((cliMainE S ρ nonce (.encrypt ['c'] ['s'] ['i'] ['q'] o n)).exec fs).2 = some ⟨1, some "Failed to read message file".toList⟩ ∧
    ending ((cliMainE S ρ nonce (.encrypt ['c'] ['s'] ['q'] ['m'] o n)).exec fs).2 = some ⟨1, some "Failed to read input JSON file".toList⟩ ∧
    ending ((cliMainE S { ρ with delta := 0 } nonce (.encap ['c'] ['s'] ['i'] ct k)).exec fs).2 = some ⟨101, none⟩ := by
  obtain ⟨symtab, h1, h2⟩ := sym_text
  obtain ⟨s, h3, h4⟩ := input_text
  have c1 : ∃ s, IsText fs ['s'] s := ⟨_, h1⟩
  have c2 : ∃ s symtab, IsText fs ['s'] s ∧ parseSymFile s = .ok symtab := ⟨_, _, h1, h2⟩
  have c3 : ∃ s, IsText fs ['i'] s := ⟨_, h3⟩
  have c4 : ∃ s, IsText fs ['i'] s ∧ IsInput S s := ⟨_, h3, h4⟩
  have c5 : ¬ ∃ s, IsText fs ['q'] s := by rintro ⟨s, b, t, h, -⟩; cases h
  have c6 : ∃ m, fs ['m'] = some m := ⟨[1, 2, 3], rfl⟩
  have c7 : ∃ m, fs ['m'] = some m ∧ m.length ≤ S.cipher.maxEnc .cli := ⟨[1, 2, 3], rfl, by change 3 ≤ 2 ^ 36; norm_num⟩
  have c8 : ¬ ∃ m, fs ['q'] = some m := by rintro ⟨m, h⟩; cases h
  refine ⟨(C104_encap S ρ nonce fs ['c'] ['s'] ['i'] ct k _).2 ?_, (C104_encrypt S ρ nonce rfl fs ['c'] ['s'] ['i'] ['m'] o n _).2 ?_,
    (C104_encrypt S ρ nonce rfl fs ['c'] ['s'] ['i'] ['q'] o n _).2 ?_, (C104_encrypt S ρ nonce rfl fs ['c'] ['s'] ['q'] ['m'] o n _).2 ?_,
    (C104_encap S _ nonce fs ['c'] ['s'] ['i'] ct k _).2 ?_⟩
  · exact .inl ⟨sq_is, .inl ⟨c1, .inl ⟨c2, .inl ⟨c3, .inl ⟨c4, .inl ⟨delta_ne, rfl⟩⟩⟩⟩⟩⟩
  · exact .inl ⟨sq_is, .inl ⟨c1, .inl ⟨c2, .inl ⟨c3, .inl ⟨c4, .inl ⟨delta_ne, .inl ⟨c6, .inl ⟨c7, rfl⟩⟩⟩⟩⟩⟩⟩⟩
  · exact .inl ⟨sq_is, .inl ⟨c1, .inl ⟨c2, .inl ⟨c3, .inl ⟨c4, .inl ⟨delta_ne, .inr ⟨c8, rfl⟩⟩⟩⟩⟩⟩⟩
  · exact .inl ⟨sq_is, .inl ⟨c1, .inl ⟨c2, .inr ⟨c5, rfl⟩⟩⟩⟩
  · exact .inl ⟨sq_is, .inl ⟨c1, .inl ⟨c2, .inl ⟨c3, .inl ⟨c4, .inr ⟨fun h => h rfl, rfl⟩⟩⟩⟩⟩⟩

/-- `C104_same`, `C104_io`: a run in which the circuit file cannot be read although it is there. -/
example (ct k : Path) : ∃ r, Run (cliMainE S ρ nonce (.encap ['c'] ['s'] ['i'] ct k)) fs fs (some r) ∧
    ending r = some ⟨1, some "Failed to load R1CS circuit".toList⟩ ∧
    ∃ r', Run (cliMain S ρ nonce (.encap ['c'] ['s'] ['i'] ct k)) fs fs (some r') ∧ SameKind r r' := by
  have h : Run (cliMainE S ρ nonce (.encap ['c'] ['s'] ['i'] ct k)) fs fs (some (Res.fail "Failed to load R1CS circuit")) := .readError (.done _ _)
  exact ⟨_, h, rfl, (C104_same S _ ρ nonce fs fs).1 _ h⟩

end Ex

end Zkenc.Props
