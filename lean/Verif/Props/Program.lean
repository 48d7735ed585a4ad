import Verif.Props.CommandLine
import Verif.Props.Commands
import Verif.Props.EndToEndExample
import Verif.Props.WitnessLength
/-!
# C73: the program from its command line to its files

`cliProgram S false ρ nonce argv` is a release build of `zkenc` run with the arguments `argv`. `CmdSpec.Asks argv a`: the arguments, in one of the accepted
forms, name the command `a` with its file names.
-/

namespace Zkenc.Props

open Zkenc Zkenc.Spec Zkenc.InputSpec CmdSpec ContainerSpec

variable {G1 G2 GT : Type} [AddCommGroup G1] [Module Fr G1] [AddCommGroup G2] [Module Fr G2] [AddCommGroup GT] [Module Fr GT]
  (S : Sys G1 G2 GT)

/-- **C73** (encrypt, then decrypt) — if `zkenc encrypt …` ended with success, then `zkenc decrypt …` with the same circuit, the written ciphertext and a witness
file for the same public values writes exactly the message. With or without `--no-public-input`. -/
theorem C73_roundtrip (argv argv₂ : List Str) (circuit sym input message output : Path) (noPub : Bool)
    (ha : Asks argv (.encrypt circuit sym input message output noPub)) (fs fs' : FS) (r : R1csFile) (symtab : AMap Nat)
    (entries : List (Str × Json)) (hfiles : CliFiles S fs circuit sym input r symtab entries) (m : Bytes) (hm : fs message = some m)
    (ρ ρ₂ : Rand Fr) (nonce nonce₂ : Bytes) (hn : nonce.length = 12)
    (hj : noPub = false → ∀ j, fs input = some j → j.length < 2 ^ 32)
    (henc : (cliProgram S false ρ nonce argv).exec fs = (fs', .ok ()))
    (hwf : WellFormed r) (hs : CtFits r) (hpriv : r.nPubIn + 1 < r.nWires)
    (fs₂ : FS) (circuit₂ witness ciphertext output₂ : Path) (ha₂ : Asks argv₂ (.decrypt circuit₂ witness ciphertext output₂))
    (data wdata : Bytes) (vals : List Fr) (hdata : fs₂ circuit₂ = some data) (hcirc : cliParseR1cs S.lim data = .ok r)
    (hct : fs₂ ciphertext = fs' output) (hwd : fs₂ witness = some wdata) (hwit : CliWitness wdata vals) (hv : Witness r vals)
    (hag : CliAgrees symtab r.nPubIn entries vals) :
    (cliProgram S false ρ₂ nonce₂ argv₂).exec fs₂ = (fs₂.set output₂ m, .ok ()) := by
  rw [C71_runs S ρ nonce argv _ ha] at henc
  rw [C71_runs S ρ₂ nonce₂ argv₂ _ ha₂]
  exact C47_roundtrip S fs fs' circuit sym input message output r symtab entries hfiles m hm (!noPub) ρ nonce hn
    (fun h => hj (by simpa using h)) henc hwf hs hpriv fs₂ circuit₂ witness ciphertext output₂ data wdata vals hdata hcirc hct hwd hwit hv hag

/-- **C73** (encap, then decap). -/
theorem C73_kem_roundtrip (argv argv₂ : List Str) (circuit sym input ciphertext key : Path) (hne : ciphertext ≠ key)
    (ha : Asks argv (.encap circuit sym input ciphertext key)) (fs fs' : FS) (r : R1csFile) (symtab : AMap Nat)
    (entries : List (Str × Json)) (hfiles : CliFiles S fs circuit sym input r symtab entries) (ρ ρ₂ : Rand Fr) (nonce nonce₂ : Bytes)
    (henc : (cliProgram S false ρ nonce argv).exec fs = (fs', .ok ())) (hwf : WellFormed r) (hpriv : r.nPubIn + 1 < r.nWires)
    (fs₂ : FS) (circuit₂ witness ciphertext₂ key₂ : Path) (ha₂ : Asks argv₂ (.decap circuit₂ witness ciphertext₂ key₂))
    (data wdata : Bytes) (vals : List Fr) (hdata : fs₂ circuit₂ = some data) (hcirc : cliParseR1cs S.lim data = .ok r)
    (hct : fs₂ ciphertext₂ = fs' ciphertext) (hwd : fs₂ witness = some wdata) (hwit : CliWitness wdata vals) (hv : Witness r vals)
    (hag : CliAgrees symtab r.nPubIn entries vals) :
    ∃ k, fs' key = some k ∧ k.length = 32 ∧ (cliProgram S false ρ₂ nonce₂ argv₂).exec fs₂ = (fs₂.set key₂ k, .ok ()) := by
  rw [C71_runs S ρ nonce argv _ ha] at henc
  rw [C71_runs S ρ₂ nonce₂ argv₂ _ ha₂]
  exact C55_cli_to_cli S fs fs' circuit sym input ciphertext key hne r symtab entries hfiles ρ henc hwf hpriv fs₂ circuit₂ witness ciphertext₂ key₂
    data wdata vals hdata hcirc hct hwd hwit hv hag

/-- **C73** (`--no-public-input`) — what a successful `zkenc encrypt …` writes: without the switch, a container with flag 1 in which the input file is embedded
byte for byte; with the switch, a container with flag 0 and nothing embedded. -/
theorem C73_public_input (argv : List Str) (circuit sym input message output : Path) (noPub : Bool)
    (ha : Asks argv (.encrypt circuit sym input message output noPub)) (fs fs' : FS) (r : R1csFile) (symtab : AMap Nat)
    (entries : List (Str × Json)) (hfiles : CliFiles S fs circuit sym input r symtab entries) (ρ : Rand Fr) (nonce : Bytes) (j : Bytes)
    (hj : fs input = some j) (henc : (cliProgram S false ρ nonce argv).exec fs = (fs', .ok ())) (hf : PublicFits r) (hs : CtFits r) :
    ∃ combined, fs' = fs.set output combined ∧
      (noPub = false → j.length < 2 ^ 32 → ∃ w e, Layout combined ⟨1, w, some j, e⟩) ∧
      (noPub = true → ∃ w e, Layout combined ⟨0, w, none, e⟩) := by
  rw [C71_runs S ρ nonce argv _ ha] at henc
  simp only [cliMain, encryptCommand] at henc
  obtain ⟨w, symText, jsonB, ct, key, h1, h2, h3, h4, h5⟩ := CliFiles.assign hfiles henc
  rw [hj] at h3; cases h3
  simp only [exec_readFile_ok, exec_lift_ok, exec_writeFile] at h5
  obtain ⟨m', hm', enc, he, h5⟩ := h5
  simp only [Cmd.exec, Prod.mk.injEq, and_true] at h5
  have hsz := (ct_size S .cli r hf w (fun i hi => C40_cli_bound S.hash _ _ _ w h2 i (by omega)) ρ ct key h4).1
  unfold CtFits at hs
  refine ⟨_, h5.symm, ?_, ?_⟩
  · rintro rfl hlen
    exact ⟨_, enc, combine_layout true _ j enc (by omega) fun _ => hlen⟩
  · rintro rfl
    exact ⟨_, enc, combine_layout false _ [] enc (by omega) fun h => by cases h⟩

/-- Only the switch itself has the token `--no-public-input`. -/
theorem sets_switch_token {cmd : String} {toks : List Str} {name : String} {v : Option Str} (h : Sets cmd toks name v)
    (hm : "--no-public-input".toList ∈ toks) : name = "no-public-input" := by
  have e : "--no-public-input".toList = "--".toList ++ "no-public-input".toList := by decide
  have hplain : ∀ u : Str, Plain u → u ≠ "--no-public-input".toList := by
    rintro u hu rfl
    rcases hu with h | h
    · exact absurd h (by decide)
    · exact absurd h (by decide)
  have hletter : ∀ {n : String} {x : Char} {r : Str}, Letter cmd n x → "--no-public-input".toList ≠ '-' :: x :: r := by
    intro n x r hl he
    have h2 := congrArg (fun l => l[1]?) he
    have h3 : some '-' = some x := h2
    cases hl <;> exact absurd h3 (by decide)
  have hname : ∀ n : String, "--no-public-input".toList = "--".toList ++ n.toList → n = "no-public-input" := by
    intro n hn
    rw [e] at hn
    exact (String.toList_inj.mp (List.append_cancel_left hn)).symm
  cases h with
  | long hp =>
    rcases List.mem_cons.mp hm with h | h
    · exact hname _ h
    · exact absurd (List.mem_singleton.mp h).symm (hplain _ hp)
  | longEq =>
    have h := List.mem_singleton.mp hm
    have hin : '=' ∈ "--no-public-input".toList := by rw [h]; simp
    exact absurd hin (by decide)
  | short hl hp =>
    rcases List.mem_cons.mp hm with h | h
    · exact absurd h (hletter hl)
    · exact absurd (List.mem_singleton.mp h).symm (hplain _ hp)
  | shortEq hl => exact absurd (List.mem_singleton.mp hm) (hletter hl)
  | attached hl => exact absurd (List.mem_singleton.mp hm) (hletter hl)
  | switch => exact hname _ (List.mem_singleton.mp hm)

/-- **C73** (the switch) — arguments that ask for `encrypt` contain `--no-public-input` exactly if nothing is to be embedded. -/
theorem C73_switch (argv : List Str) (circuit sym input message output : Path) (noPub : Bool)
    (ha : Asks argv (.encrypt circuit sym input message output noPub)) : "--no-public-input".toList ∈ argv ↔ noPub = true := by
  constructor
  · intro hm
    obtain ⟨items, hs, hperm, tail, ht, rfl⟩ := ha
    rcases List.mem_cons.mp hm with h | h
    · exact (show "--no-public-input".toList ≠ "encrypt".toList by decide) h |>.elim
    · rcases List.mem_append.mp h with h | h
      · obtain ⟨toks, h1, h2⟩ := List.mem_flatten.mp h
        obtain ⟨it, h3, rfl⟩ := List.mem_map.mp h1
        have hn := sets_switch_token (hs it h3) h2
        have h4 := hperm.mem_iff.mp (List.mem_map_of_mem (f := Prod.snd) h3)
        cases noPub with
        | true => rfl
        | false =>
          have h5 : it.2.1 ∈ ["circuit", "sym", "input", "message", "output"] := by
            have := List.mem_map_of_mem (f := Prod.fst) h4
            simpa [settings] using this
          rw [hn] at h5
          exact absurd h5 (by decide)
      · rcases ht with rfl | rfl
        · cases h
        · exact absurd (List.mem_singleton.mp h) (by decide)
  · rintro rfl
    obtain ⟨toks, hs, hsub⟩ := asks_sets ha (name := "no-public-input") (v := none) (by simp [settings])
    cases hs with
    | switch =>
      have e : "--".toList ++ "no-public-input".toList = "--no-public-input".toList := by decide
      rw [← e]
      exact hsub _ (List.mem_cons_self ..)

/-- **C73** (every run) — however a run of the program ends — success, failure, an I/O error, a crash at any point — only the files that the arguments name as
outputs can have changed, and success is only reported if running undisturbed succeeds with the same files. -/
theorem C73_every_run (argv : List Str) (ρ : Rand Fr) (nonce : Bytes) (fs fs' : FS) (o : Option (Res Unit))
    (h : Run (cliProgram S false ρ nonce argv) fs fs' o) :
    (∀ q, (∀ a, Asks argv a → q ∉ outputs a) → fs' q = fs q) ∧
    (o = some (.ok ()) → (cliProgram S false ρ nonce argv).exec fs = (fs', .ok ()) ∧ ∃ a, Asks argv a) := by
  by_cases ha : ∃ a, Asks argv a
  · obtain ⟨a, ha⟩ := ha
    rw [C71_runs S ρ nonce argv a ha] at h ⊢
    refine ⟨fun q hq => C50_only_outputs S a ρ nonce fs fs' o h q (hq a ha), ?_⟩
    rintro rfl
    exact ⟨C50_success_complete S a ρ nonce fs fs' h, a, ha⟩
  · obtain ⟨h1, h2⟩ := C71_otherwise_nothing S ρ nonce argv (fun a h => ha ⟨a, h⟩) fs fs' o h
    exact ⟨fun q _ => by rw [h1], fun h => absurd h h2⟩

/-! ## The hypotheses are met -/

namespace Ex

/-- `zkenc encrypt -c c --sym=s -ii --message m -o=o [--no-public-input]` -/
def encArgs (noPub : Bool) : List Str :=
  ["encrypt".toList, "-c".toList, ['c'], "--sym=s".toList, "-ii".toList, "--message".toList, ['m'], "-o=o".toList] ++
    if noPub then ["--no-public-input".toList] else []

/-- `zkenc decrypt -o d -i o -w w -c c` -/
def decArgs : List Str := ["decrypt".toList, "-o".toList, ['d'], "-i".toList, ['o'], "-w".toList, ['w'], "-c".toList, ['c']]

theorem encArgs_ask (noPub : Bool) : Asks (encArgs noPub) (.encrypt ['c'] ['s'] ['i'] ['m'] ['o'] noPub) := by
  have h : parseCli false (encArgs noPub) = .run (.encrypt ['c'] ['s'] ['i'] ['m'] ['o'] noPub) := by cases noPub <;> rfl
  exact (C71_accepts_iff _ _).1 h

theorem decArgs_ask : Asks decArgs (.decrypt ['c'] ['w'] ['o'] ['d']) := (C71_accepts_iff _ _).1 (by rfl)

/-- The two command lines, run one after the other on the example files, return the message. -/
example : ∃ b, (cliProgram Ex.S false ρ nonce (encArgs false)).exec fs = (fs.set ['o'] b, .ok ()) ∧
    (cliProgram Ex.S false ρ nonce decArgs).exec (fs.set ['o'] b) = ((fs.set ['o'] b).set ['d'] [1, 2, 3], .ok ()) := by
  obtain ⟨symtab, hf, hag⟩ := files
  obtain ⟨b, hb, -⟩ := cli_run
  have he : (cliProgram Ex.S false ρ nonce (encArgs false)).exec fs = (fs.set ['o'] b, .ok ()) := by
    rw [C71_runs Ex.S ρ nonce _ _ (encArgs_ask false)]; exact hb
  exact ⟨b, he, C73_roundtrip Ex.S _ _ _ _ _ _ _ false (encArgs_ask false) fs _ sq symtab entries hf [1, 2, 3] rfl ρ ρ nonce nonce rfl
    (fun _ j hj => by
      have : utf8Enc inputText = j := by simpa [fs] using hj
      rw [← this, inputText_len]; norm_num) he sq_wf sq_ct (by simp [sq]) _ _ _ _ _ decArgs_ask sqData wtns vals rfl sqData_cli rfl rfl wtns_cli
    vals_witness hag⟩

/-- A witness file with a wrong value for wire 0 and a surplus value. -/
def longVals : List Fr := [5, 9, 3, 7]

def longWtns : Bytes := WtnsFormat.fileBytes ⟨leBytes 32 frModulus, longVals.map frEnc⟩ [.header, .data]

theorem long_secs : WtnsFormat.SecsFit ⟨leBytes 32 frModulus, longVals.map frEnc⟩ [.header, .data] where
  count := by simp
  other := by simp
  dataLen := by
    simp only [longVals, List.map_cons, List.map_nil, List.flatten_cons, List.flatten_nil, List.length_append, frEnc_length, List.length_nil]
    norm_num

theorem long_cli : CliWitness longWtns longVals := by
  have := C26_roundtrip (xs := longVals) [] (leBytes_length 32 frModulus) (by simp [longVals]) (by simp [longVals]) long_secs (by simp) (by simp)
  rw [List.append_nil] at this
  obtain ⟨w, h1, h2⟩ := Res.bind_eq_ok.1 this
  exact ⟨w, h1, h2⟩

/-- The CLI opens the example ciphertext with it. -/
example : ∃ b, (encryptCommand Ex.S ['c'] ['s'] ['i'] ['m'] ['o'] true ρ nonce).exec fs = (fs.set ['o'] b, .ok ()) ∧
    (decryptCommand Ex.S ['c'] ['w'] ['o'] ['d']).exec ((fs.set ['o'] b).set ['w'] longWtns) =
      (((fs.set ['o'] b).set ['w'] longWtns).set ['d'] [1, 2, 3], .ok ()) := by
  obtain ⟨b, hb, hd, -⟩ := cli_run
  refine ⟨b, hb, ?_⟩
  refine ((C74_cli_ignored_values Ex.S (fs.set ['o'] b) ((fs.set ['o'] b).set ['w'] longWtns) ['c'] ['w'] ['o'] ['d'] rfl rfl sqData wtns longWtns
    sq rfl sqData_cli sq_wf.fits vals longVals rfl rfl wtns_cli long_cli ?_).2.2.2 [1, 2, 3]).1 hd
  intro i h1 h2
  have h3 : i < 3 := h2
  interval_cases i <;> rfl

end Ex

end Zkenc.Props
