import Verif.Model.Documented
import Verif.Props.CommandLine
import Verif.Props.Container
import Verif.Props.Native
import Verif.Props.Commands
import Verif.Model.Api
/-!
# C92: what the API reference shows

The commands of the command line reference, the documented layout of a combined ciphertext, and the complete example of the library reference.
-/

namespace Zkenc.Props

open Zkenc CmdSpec NativeSpec

variable {G1 G2 GT : Type} [AddCommGroup G1] [Module Fr G1] [AddCommGroup G2] [Module Fr G2] [AddCommGroup GT] [Module Fr GT]

/-- A required option shows in the arguments, by its name or its letter. -/
theorem asks_token {argv : List Str} {a : Args} (h : Asks argv a) {name : String} {v : Option Str} (hm : (name, v) ∈ (settings a).2) :
    ∃ t ∈ argv, LongToken name t ∨ ∃ x w, Letter (settings a).1 name x ∧ t = '-' :: x :: w := by
  obtain ⟨toks, hs, hsub⟩ := asks_sets h hm
  cases hs with
  | long _ => exact ⟨_, hsub _ (List.mem_cons_self ..), .inl (.inl rfl)⟩
  | longEq => exact ⟨_, hsub _ (List.mem_cons_self ..), .inl (.inr ⟨_, rfl⟩)⟩
  | short h _ => exact ⟨_, hsub _ (List.mem_cons_self ..), .inr ⟨_, _, h, rfl⟩⟩
  | shortEq h => exact ⟨_, hsub _ (List.mem_cons_self ..), .inr ⟨_, _, h, rfl⟩⟩
  | attached h _ _ => exact ⟨_, hsub _ (List.mem_cons_self ..), .inr ⟨_, _, h, rfl⟩⟩
  | switch => exact ⟨_, hsub _ (List.mem_cons_self ..), .inl (.inl rfl)⟩

/-- The argument lists of the reference: a command followed by options from `words` and plain values (file names). -/
def DocumentedArgs (cmd : String) (words : List String) (argv : List Str) : Prop :=
  ∃ toks, argv = cmd.toList :: toks ∧ ∀ t ∈ toks, Plain t ∨ ∃ w ∈ words, t = w.toList

theorem not_asks_of {cmd need : String} {words : List String} {argv : List Str} (hd : DocumentedArgs cmd words argv) (hcmd : cmd.toList.head? ≠ some '-')
    (hneed : ∀ a : Args, (settings a).1 = cmd → ∃ v, (need, v) ∈ (settings a).2)
    (hw : ∀ w ∈ words, ¬ LongToken need w.toList ∧ ∀ x u, Letter cmd need x → w.toList ≠ '-' :: x :: u) (a : Args) : ¬ Asks argv a := by
  intro h
  obtain ⟨toks, rfl, ht⟩ := hd
  have hc : (settings a).1 = cmd := by
    obtain ⟨items, -, -, tail, -, he⟩ := h
    exact (String.toList_inj.1 (List.cons.inj he).1).symm
  obtain ⟨v, hv⟩ := hneed a hc
  obtain ⟨t, htm, hlt⟩ := asks_token h hv
  rw [hc] at hlt
  have hdash : t.head? = some '-' ∧ t ≠ ['-'] := by
    rcases hlt with (rfl | ⟨v, rfl⟩) | ⟨x, u, -, rfl⟩
    · exact ⟨rfl, by simp⟩
    · exact ⟨rfl, by simp⟩
    · exact ⟨rfl, by simp⟩
  rcases List.mem_cons.1 htm with rfl | htm
  · exact hcmd hdash.1
  rcases ht t htm with hp | ⟨w, hwm, rfl⟩
  · rcases hp with hp | hp
    · exact hdash.2 hp
    · exact hp hdash.1
  · rcases hlt with hl | ⟨x, u, hl, he⟩
    · exact (hw w hwm).1 hl
    · exact (hw w hwm).2 x u hl he

/-- **C92** (commands of the reference) — `zkenc encrypt` and `zkenc decrypt` with a key, an input and an output file, and `zkenc encap` and `zkenc encrypt` without
a symbol file, as the command line reference and the READMEs show them in their examples, do nothing: whatever the file names and the order and spelling of
the options, no file changes and no run reports success. -/
theorem C92_commands (S : Sys G1 G2 GT) (ρ : Rand Fr) (nonce : Bytes) (argv : List Str)
    (hd : DocumentedArgs "encrypt" ["-k", "--key", "-i", "--input", "-o", "--output"] argv ∨
      DocumentedArgs "decrypt" ["-k", "--key", "-i", "--input", "-o", "--output"] argv ∨
      DocumentedArgs "encap" ["-c", "--circuit", "-i", "--input", "--ciphertext", "-k", "--key"] argv ∨
      DocumentedArgs "encrypt" ["-c", "--circuit", "-i", "--input", "-m", "--message", "-o", "--output", "--no-public-input"] argv)
    (fs fs' : FS) (o : Option (Res Unit)) (hr : Run (cliProgram S false ρ nonce argv) fs fs' o) : fs' = fs ∧ o ≠ some (.ok ()) := by
  refine C71_otherwise_nothing S ρ nonce argv (fun a => ?_) fs fs' o hr
  have long : ∀ need w : String, (w.toList ≠ "--".toList ++ need.toList) → ('=' ∉ w.toList) → ¬ LongToken need w.toList := by
    rintro need w h1 h2 (h | ⟨v, h⟩)
    · exact h1 h
    · exact h2 (by rw [h]; simp)
  have circ : ∀ cmd x, Letter cmd "circuit" x → x = 'c' := by
    intro cmd x hl
    generalize hn : "circuit" = n at hl
    cases hl <;> first | rfl | exact absurd hn (by decide)
  have symb : ∀ cmd x, Letter cmd "sym" x → x = 's' := by
    intro cmd x hl
    generalize hn : "sym" = n at hl
    cases hl <;> first | rfl | exact absurd hn (by decide)
  have hcirc : ∀ a : Args, ∃ v, ("circuit", v) ∈ (settings a).2 := by
    intro a
    cases a <;> exact ⟨_, List.mem_cons_self ..⟩
  have hsym : ∀ a : Args, (settings a).1 = "encap" ∨ (settings a).1 = "encrypt" → ∃ v, ("sym", v) ∈ (settings a).2 := by
    intro a ha
    cases a with
    | encap c s i ct k => exact ⟨some s, by simp [settings]⟩
    | decap c w ct k => exact absurd ha (by simp [settings])
    | encrypt c s i m o np => exact ⟨some s, by simp [settings]⟩
    | decrypt c w ct o => exact absurd ha (by simp [settings])
  rcases hd with hd | hd | hd | hd
  · refine not_asks_of (need := "circuit") hd (by decide) (fun a _ => hcirc a) (fun w hw => ⟨?_, fun x u hl => ?_⟩) a
    · simp only [List.mem_cons, List.not_mem_nil, or_false] at hw
      rcases hw with rfl | rfl | rfl | rfl | rfl | rfl <;> exact long _ _ (by decide) (by decide)
    · cases circ _ _ hl
      simp only [List.mem_cons, List.not_mem_nil, or_false] at hw
      rcases hw with rfl | rfl | rfl | rfl | rfl | rfl <;> (intro h; injection h with _ h; injection h with h; exact absurd h (by decide))
  · refine not_asks_of (need := "circuit") hd (by decide) (fun a _ => hcirc a) (fun w hw => ⟨?_, fun x u hl => ?_⟩) a
    · simp only [List.mem_cons, List.not_mem_nil, or_false] at hw
      rcases hw with rfl | rfl | rfl | rfl | rfl | rfl <;> exact long _ _ (by decide) (by decide)
    · cases circ _ _ hl
      simp only [List.mem_cons, List.not_mem_nil, or_false] at hw
      rcases hw with rfl | rfl | rfl | rfl | rfl | rfl <;> (intro h; injection h with _ h; injection h with h; exact absurd h (by decide))
  · refine not_asks_of (need := "sym") hd (by decide) (fun a h => hsym a (.inl h)) (fun w hw => ⟨?_, fun x u hl => ?_⟩) a
    · simp only [List.mem_cons, List.not_mem_nil, or_false] at hw
      rcases hw with rfl | rfl | rfl | rfl | rfl | rfl | rfl <;> exact long _ _ (by decide) (by decide)
    · cases symb _ _ hl
      simp only [List.mem_cons, List.not_mem_nil, or_false] at hw
      rcases hw with rfl | rfl | rfl | rfl | rfl | rfl | rfl <;> (intro h; injection h with _ h; injection h with h; exact absurd h (by decide))
  · refine not_asks_of (need := "sym") hd (by decide) (fun a h => hsym a (.inr h)) (fun w hw => ⟨?_, fun x u hl => ?_⟩) a
    · simp only [List.mem_cons, List.not_mem_nil, or_false] at hw
      rcases hw with rfl | rfl | rfl | rfl | rfl | rfl | rfl | rfl | rfl <;> exact long _ _ (by decide) (by decide)
    · cases symb _ _ hl
      simp only [List.mem_cons, List.not_mem_nil, or_false] at hw
      rcases hw with rfl | rfl | rfl | rfl | rfl | rfl | rfl | rfl | rfl <;> (intro h; injection h with _ h; injection h with h; exact absurd h (by decide))

theorem documented_header (w e : Bytes) (hw : w ≠ []) (hl : w.length < 2 ^ 24) :
    (documentedCombine w e)[0]? = some 0 ∧ ∃ d, d < 256 ∧ beNat (slice (documentedCombine w e) 1 4) = 256 * w.length + d ∧
      ∃ b1 b2 b3 b4 : UInt8, ∃ rest, documentedCombine w e = 0 :: b1 :: b2 :: b3 :: b4 :: rest ∧ beNat [b1, b2, b3, b4] = 256 * w.length + d := by
  obtain ⟨a, t, rfl⟩ := List.exists_cons_of_ne_nil hw
  generalize hn : (a :: t).length = n at hl
  have he : documentedCombine (a :: t) e = UInt8.ofNat (n / 256 / 256 / 256 % 256) :: UInt8.ofNat (n / 256 / 256 % 256) :: UInt8.ofNat (n / 256 % 256) ::
      UInt8.ofNat (n % 256) :: a :: (t ++ e) := by
    simp [documentedCombine, hn, u32be, beBytes, leBytes]
  rw [he]
  have h0 : UInt8.ofNat (n / 256 / 256 / 256 % 256) = 0 := by
    have : n / 256 / 256 / 256 % 256 = 0 := by omega
    rw [this]; rfl
  have hb : beNat [UInt8.ofNat (n / 256 / 256 % 256), UInt8.ofNat (n / 256 % 256), UInt8.ofNat (n % 256), a] = 256 * n + a.toNat := by
    simp [beNat, leNat]
    omega
  rw [h0]
  exact ⟨rfl, a.toNat, a.toNat_lt, hb, _, _, _, _, _, rfl, hb⟩

/-- **C92** (the documented layout) — bytes in the documented layout, `[4 bytes length][witness ciphertext][encrypted message]`, are refused by both tools as invalid unless the
message is at least 255 times as long as the witness ciphertext: the real layout has a flag byte in front. -/
theorem C92_layout (S : Sys G1 G2 GT) (w e : Bytes) (hw : w ≠ []) (hl : w.length < 2 ^ 24) (he : e.length < 255 * w.length) :
    (∀ r1cs wit, jsDecrypt S r1cs wit (documentedCombine w e) = Res.fail "Invalid ciphertext: length mismatch") ∧
    ∀ circuit witness ciphertext output (fs fs' : FS) o, fs ciphertext = some (documentedCombine w e) →
      Run (decryptCommand S circuit witness ciphertext output) fs fs' o → fs' = fs ∧ o ≠ some (.ok ()) := by
  obtain ⟨h0, d, hd, hb, b1, b2, b3, b4, rest, hr, hb'⟩ := documented_header w e hw hl
  have hlen : (documentedCombine w e).length = 4 + (w.length + e.length) := by simp [documentedCombine]
  have hpos : 0 < w.length := List.length_pos_iff.2 hw
  have h5 : ¬ (documentedCombine w e).length < 5 := by omega
  have hlt : (documentedCombine w e).length < 5 + (256 * w.length + d) := by omega
  have hjs : splitJs (documentedCombine w e) = Res.fail "Invalid ciphertext: length mismatch" := by
    unfold splitJs
    rw [if_neg h5]
    have h1 : viewU8 (documentedCombine w e) 0 = .ok 0 := by rw [viewU8, h0]; rfl
    have h2 : viewU32 (documentedCombine w e) 1 = .ok (256 * w.length + d) := by
      rw [viewU32, if_pos (by omega), hb]
    rw [h1, h2]
    simp only [bind, Except.bind, if_pos hlt]
  have hcli : splitCli (documentedCombine w e) = Res.fail "Invalid ciphertext: witness length mismatch" := by
    unfold splitCli
    rw [if_neg h5]
    have h1 : idx (documentedCombine w e) 0 = .ok 0 := by rw [idx, h0]
    have h2 : idxU32 (documentedCombine w e) 1 = .ok (256 * w.length + d) := by
      rw [← hb', hr]; rfl
    rw [h1, h2]
    simp only [bind, Except.bind, if_pos hlt]
  refine ⟨fun r1cs wit => by rw [jsDecrypt, hjs]; rfl, fun circuit witness ciphertext output fs fs' o hf hrun => ?_⟩
  refine C50_failure_changes_nothing S (.decrypt circuit witness ciphertext output) ⟨0, 0, 0, 0, 0⟩ [] fs
    (.err "Invalid ciphertext: witness length mismatch") ?_ fs' o hrun
  simp only [cliMain, decryptCommand, Cmd.readFile, Cmd.exec, hf, hcli]
  rfl

theorem natCast_eq_of_lt {a b : Nat} (ha : a < 2 ^ 65) (hb : b < 2 ^ 65) : ((a : Fr) = (b : Fr)) ↔ a = b := by
  have h : (2 : Nat) ^ 65 < frModulus := by decide
  rw [ZMod.natCast_eq_natCast_iff', Nat.mod_eq_of_lt (by omega), Nat.mod_eq_of_lt (by omega)]

/-- **C92** (the complete example of the library reference) — encap with the public number alone, then decap with a public and a private number: the key is
recovered exactly if the public number is the same and the two add up to 165; otherwise decap reports which of the two is wrong. -/
theorem C92_example (P : Pairing Fr G1 G2 GT) (dom : Domains Fr) (pub pub' priv : Nat) (h1 : pub < 2 ^ 64) (h2 : pub' < 2 ^ 64) (h3 : priv < 2 ^ 64)
    (ρ : Rand Fr) (ct : Ciphertext Fr G1 G2) (key : Key) (henc : encap P dom (simpleCircuit (some pub) none).run ρ = .ok (ct, key)) :
    decap P (simpleCircuit (some pub') (some priv)).run ct =
      if pub' + priv ≠ 165 then Res.fail "InvalidWitness" else if pub' ≠ pub then Res.fail "InvalidPublicInputs" else .ok key := by
  have hrun : (simpleCircuit (some pub) none).run =
      (allocateThen [⟨true, some (pub : Fr)⟩, ⟨false, none⟩] fun _ => .done (.ok ())).run := rfl
  rw [hrun] at henc
  obtain ⟨hp, hd⟩ := C89_bound P dom _ ⟨⟨false, none⟩, by simp, rfl⟩ _ ρ ct key henc
  have hp : ct.publicInputs = [(pub : Fr)] := hp
  let k : Cstr Fr := ⟨[(1, .inst 1), (1, .wit 0)], [(1, .one)], [((165 : Nat), .one)]⟩
  let cs : CS Fr := { numInst := 2, numWit := 1, inst := [1, (pub' : Fr)], wit := [(priv : Fr)], cons := [k] }
  have hcs : (simpleCircuit (some pub') (some priv)).run (CS.new Fr) = (cs, .ok ()) := rfl
  have hsat : cs.isSatisfied = true ↔ pub' + priv = 165 := by
    have : cs.isSatisfied = decide (((1 : Fr) * pub' + (1 * priv + 0)) * (1 * 1 + 0) = ((165 : Nat) : Fr) * 1 + 0) := by
      simp [CS.isSatisfied, cs, k, CS.cstrOk, CS.lcVal, CS.varVal]
    rw [this, decide_eq_true_iff]
    have : ((1 : Fr) * pub' + (1 * priv + 0)) * (1 * 1 + 0) = ((pub' + priv : Nat) : Fr) := by push_cast; ring
    rw [this, mul_one, add_zero]
    exact natCast_eq_of_lt (by omega) (by omega)
  by_cases hs : pub' + priv = 165
  · rw [if_neg (by simpa using hs)]
    by_cases he : pub' = pub
    · rw [if_neg (by simpa using he)]
      refine hd _ cs hcs (hsat.2 hs) ?_
      rw [hp, ← he]
    · rw [if_pos he, decap_eq, hcs]
      have hne : ((pub' : Fr)) ≠ (pub : Fr) := fun h => he ((natCast_eq_of_lt (by omega) (by omega)).1 h)
      simp [hsat.2 hs, hp, cs, hne]
  · rw [if_pos hs, decap_eq, hcs]
    have : cs.isSatisfied = false := by
      rw [Bool.eq_false_iff]
      exact fun h => hs (hsat.1 h)
    simp [this]

/-- The numbers of the reference: 42 and 123. -/
example (P : Pairing Fr G1 G2 GT) (dom : Domains Fr) (ρ : Rand Fr) (hδ : ρ.delta ≠ 0) :
    ∃ ct key, encap P dom (simpleCircuit (some 42) none).run ρ = .ok (ct, key) ∧ decap P (simpleCircuit (some 42) (some 123)).run ct = .ok key ∧
      decap P (simpleCircuit (some 41) (some 124)).run ct = Res.fail "InvalidPublicInputs" := by
  obtain ⟨ct, key, h⟩ := C07_encap_ok P dom (simpleCircuit (some 42) none).run ρ hδ
  refine ⟨ct, key, h, ?_, ?_⟩
  · rw [C92_example P dom 42 42 123 (by decide) (by decide) (by decide) ρ ct key h]; rfl
  · rw [C92_example P dom 42 41 124 (by decide) (by decide) (by decide) ρ ct key h]; rfl

/-- The commands of the reference's "Bash Script" are such. -/
example : DocumentedArgs "encap" ["-c", "--circuit", "-i", "--input", "--ciphertext", "-k", "--key"]
      (["encap", "-c", "sudoku.r1cs", "-i", "public.json", "--ciphertext", "ct.bin", "-k", "key.bin"].map String.toList) ∧
    DocumentedArgs "encrypt" ["-k", "--key", "-i", "--input", "-o", "--output"]
      (["encrypt", "-k", "key.bin", "-i", "secret.txt", "-o", "encrypted.bin"].map String.toList) := by
  constructor
  · refine ⟨_, rfl, ?_⟩
    simp only [List.mem_map, List.mem_cons, List.not_mem_nil, or_false, Plain]
    rintro t ⟨w, rfl | rfl | rfl | rfl | rfl | rfl | rfl | rfl, rfl⟩ <;> first | exact .inr ⟨_, by decide, rfl⟩ | exact .inl (.inr (by decide))
  · refine ⟨_, rfl, ?_⟩
    simp only [List.mem_map, List.mem_cons, List.not_mem_nil, or_false, Plain]
    rintro t ⟨w, rfl | rfl | rfl | rfl | rfl | rfl, rfl⟩ <;> first | exact .inr ⟨_, by decide, rfl⟩ | exact .inl (.inr (by decide))

/-- A witness ciphertext of the documented size and a message: refused. -/
example (S : Sys G1 G2 GT) (w e : Bytes) (hw : w.length = 1576) (he : e.length = 1266) (r1cs : Bytes) (wit : Res Bytes) :
    jsDecrypt S r1cs wit (documentedCombine w e) = Res.fail "Invalid ciphertext: length mismatch" :=
  (C92_layout S w e (by rintro rfl; simp at hw) (by omega) (by omega)).1 r1cs wit

end Zkenc.Props
