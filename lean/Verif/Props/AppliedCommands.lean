import Verif.Props.Program
import Verif.Props.Parallel
import Verif.Props.Documented
import Verif.Props.AppliedEndToEnd
/-!
# The theorems about command lines, crashes and concurrency, applied

Every theorem is applied, with all its hypotheses, to a concrete command on the files of `Props/EndToEndExample.lean`.
-/

namespace Zkenc.Props

open Zkenc Zkenc.Spec Zkenc.InputSpec CmdSpec CalcSpec ContainerSpec

namespace Ex

/-! ### C71, C73, C92 -/

/-- `zkenc encap -kk --ciphertext=o -c c -s s --input i` -/
def capArgs : List Str := ["encap".toList, "-kk".toList, "--ciphertext=o".toList, "-c".toList, ['c'], "-s".toList, ['s'], "--input".toList, ['i']]
/-- `zkenc decap -c c -w w --ciphertext o -k d` -/
def uncapArgs : List Str := ["decap".toList, "-c".toList, ['c'], "-w".toList, ['w'], "--ciphertext".toList, ['o'], "-k".toList, ['d']]

theorem capArgs_ask : Asks capArgs (.encap ['c'] ['s'] ['i'] ['o'] ['k']) := (C71_accepts_iff _ _).1 (by rfl)
theorem uncapArgs_ask : Asks uncapArgs (.decap ['c'] ['w'] ['o'] ['d']) := (C71_accepts_iff _ _).1 (by rfl)

example (a : Args) (h : Asks capArgs a) : a = .encap ['c'] ['s'] ['i'] ['o'] ['k'] := C71_unambiguous _ _ _ h capArgs_ask

/-- Without `--sym`: nothing happens. -/
example (fs' : FS) (o : Option (Res Unit))
    (hr : Run (cliProgram S false ρ nonce (["encrypt", "--circuit", "c", "--input", "i", "--message", "m", "--output", "o"].map String.toList)) fs fs' o) :
    fs' = fs ∧ o ≠ some (.ok ()) := by
  refine C71_otherwise_nothing S ρ nonce _ (fun a ha => ?_) fs fs' o hr
  have h := (C71_accepts_iff _ _).2 ha
  have h' : parseCli false (["encrypt", "--circuit", "c", "--input", "i", "--message", "m", "--output", "o"].map String.toList) = .exit := by rfl
  rw [h'] at h
  cases h

example : ∃ t ∈ capArgs, LongToken "ciphertext" t := C71_ciphertext_long _ _ capArgs_ask (.inl rfl)
example : ∃ t ∈ uncapArgs, LongToken "ciphertext" t := C71_ciphertext_long _ _ uncapArgs_ask (.inr rfl)
example : ∃ t ∈ capArgs, LongToken "sym" t ∨ ∃ v, t = '-' :: 's' :: v := C71_sym_required _ _ capArgs_ask (.inr rfl)
example : ∃ t ∈ encArgs true, LongToken "sym" t ∨ ∃ v, t = '-' :: 's' :: v := C71_sym_required _ _ (encArgs_ask true) (.inl rfl)
example : "--no-public-input".toList ∈ encArgs true ∧ "--no-public-input".toList ∉ encArgs false :=
  ⟨(C73_switch _ _ _ _ _ _ _ (encArgs_ask true)).2 rfl, fun h => by cases (C73_switch _ _ _ _ _ _ _ (encArgs_ask false)).1 h⟩

/-- `encap` and `decap` as whole programs: the same key. -/
example : ∃ ct k, k.length = 32 ∧ (cliProgram S false ρ nonce capArgs).exec fs = ((fs.set ['o'] ct).set ['k'] k, .ok ()) ∧
    (cliProgram S false ρ nonce uncapArgs).exec ((fs.set ['o'] ct).set ['k'] k) = (((fs.set ['o'] ct).set ['k'] k).set ['d'] k, .ok ()) := by
  obtain ⟨symtab, hf, hag⟩ := files
  obtain ⟨ct, k, hk, hb⟩ := (C55_cli_encap_outcome S fs ['c'] ['s'] ['i'] ['o'] ['k'] sq symtab entries hf ρ).1 ⟨all_denote, delta_ne⟩
  have he : (cliProgram S false ρ nonce capArgs).exec fs = ((fs.set ['o'] ct).set ['k'] k, .ok ()) := by
    rw [C71_runs S ρ nonce _ _ capArgs_ask]; exact hb
  obtain ⟨k', h1, -, h2⟩ := C73_kem_roundtrip S capArgs uncapArgs _ _ _ _ _ (by decide) capArgs_ask fs _ sq symtab entries hf ρ ρ nonce nonce he sq_wf
    (by simp [sq]) _ _ _ _ _ uncapArgs_ask sqData wtns vals rfl sqData_cli rfl rfl wtns_cli vals_witness hag
  cases h1
  exact ⟨ct, k, hk, he, h2⟩

/-- Both settings of the switch. -/
example (noPub : Bool) : ∃ b, (cliProgram S false ρ nonce (encArgs noPub)).exec fs = (fs.set ['o'] b, .ok ()) ∧
    (noPub = false → ∃ w e, Layout b ⟨1, w, some (utf8Enc inputText), e⟩) ∧ (noPub = true → ∃ w e, Layout b ⟨0, w, none, e⟩) := by
  obtain ⟨symtab, b, hf, -, -, -, -, hb, -⟩ := cli_encrypted (!noPub)
  have he : (cliProgram S false ρ nonce (encArgs noPub)).exec fs = (fs.set ['o'] b, .ok ()) := by
    rw [C71_runs S ρ nonce _ _ (encArgs_ask noPub)]; exact hb
  obtain ⟨c, hc, h1, h2⟩ := C73_public_input S _ _ _ _ _ _ noPub (encArgs_ask noPub) fs _ sq symtab entries hf ρ nonce _ rfl he sq_wf.fits sq_ct
  have : b = c := by
    have := congrFun hc ['o']
    simpa [FS.set] using this
  subst this
  exact ⟨b, he, fun h => h1 h (by rw [inputText_len]; norm_num), h2⟩

/-- The commands of the reference's "Bash Script". -/
example (fs' : FS) (o : Option (Res Unit))
    (hr : Run (cliProgram S false ρ nonce (["encap", "-c", "c", "-i", "i", "--ciphertext", "ct.bin", "-k", "key.bin"].map String.toList)) fs fs' o) :
    fs' = fs ∧ o ≠ some (.ok ()) := by
  refine C92_commands S ρ nonce _ (.inr (.inr (.inl ⟨_, rfl, ?_⟩))) fs fs' o hr
  simp only [List.mem_map, List.mem_cons, List.not_mem_nil, or_false, Plain]
  rintro t ⟨w, rfl | rfl | rfl | rfl | rfl | rfl | rfl | rfl, rfl⟩ <;> first | exact .inr ⟨_, by decide, rfl⟩ | exact .inl (.inr (by decide))

/-! ### C50 -/

theorem cap_run : ∃ ct k, k.length = 32 ∧ (encapCommand S ['c'] ['s'] ['i'] ['o'] ['k'] ρ).exec fs = ((fs.set ['o'] ct).set ['k'] k, .ok ()) := by
  obtain ⟨symtab, hf, hag⟩ := files
  exact (C55_cli_encap_outcome S fs ['c'] ['s'] ['i'] ['o'] ['k'] sq symtab entries hf ρ).1 ⟨all_denote, delta_ne⟩

/-- A run of `encap` that is stopped while it writes the key. -/
example : ∃ ct k, Run (encapCommand S ['c'] ['s'] ['i'] ['o'] ['k'] ρ) fs (fs.set ['o'] ct) none ∧
    (∃ e, Run (encapCommand S ['c'] ['s'] ['i'] ['o'] ['k'] ρ) fs (fs.set ['o'] ct) (some (.error e))) ∧
    (encapCommand S ['c'] ['s'] ['i'] ['o'] ['k'] ρ).exec fs = ((fs.set ['o'] ct).set ['k'] k, .ok ()) := by
  obtain ⟨ct, k, -, h⟩ := cap_run
  obtain ⟨ct', k', h1, h2, h3⟩ := C50_encap_ciphertext_without_key S _ _ _ _ _ ρ fs _ h
  exact ⟨ct', k', h2, h3, by rw [h, h1]⟩

/-- The three kinds of ends that `C50_encap` allows all occur: stopped at once, stopped with the ciphertext alone, complete. -/
example : ∃ fs', Run (encapCommand S ['c'] ['s'] ['i'] ['o'] ['k'] ρ) fs fs' (some (.ok ())) ∧
    ∃ ct k, (encapCommand S ['c'] ['s'] ['i'] ['o'] ['k'] ρ).exec fs = ((fs.set ['o'] ct).set ['k'] k, .ok ()) := by
  obtain ⟨ct, k, -, h⟩ := cap_run
  have hr := run_exec (encapCommand S ['c'] ['s'] ['i'] ['o'] ['k'] ρ) fs
  rw [h] at hr
  refine ⟨_, hr, ?_⟩
  rcases C50_encap S _ _ _ _ _ ρ fs _ _ hr with ⟨-, h'⟩ | ⟨ct', k', h', -⟩
  · exact absurd rfl h'
  · exact ⟨ct', k', h'⟩

/-- Whatever happens, the message file stays. -/
example (fs' : FS) (o : Option (Res Unit)) (h : Run (cliMain S ρ nonce (.encrypt ['c'] ['s'] ['i'] ['m'] ['o'] false)) fs fs' o) :
    fs' ['m'] = some [1, 2, 3] := C50_only_outputs S _ ρ nonce fs fs' o h ['m'] (by simp [outputs])

/-- There is no circuit file `z`. -/
theorem missing_fails : ((cliMain S ρ nonce (.encrypt ['z'] ['s'] ['i'] ['m'] ['o'] false)).exec fs).2 =
    Res.fail "Failed to load R1CS circuit" := rfl

example (fs' : FS) (o : Option (Res Unit)) (h : Run (cliMain S ρ nonce (.encrypt ['z'] ['s'] ['i'] ['m'] ['o'] false)) fs fs' o) :
    fs' = fs ∧ o ≠ some (.ok ()) := C50_failure_changes_nothing S _ ρ nonce fs _ missing_fails fs' o h

/-- Ciphertext and key to the same file. -/
example : ∃ k, k.length = 32 ∧ (encapCommand S ['c'] ['s'] ['i'] ['o'] ['o'] ρ).exec fs = (fs.set ['o'] k, .ok ()) := by
  obtain ⟨symtab, hf, hag⟩ := files
  obtain ⟨ct, k, -, hb⟩ := (C55_cli_encap_outcome S fs ['c'] ['s'] ['i'] ['o'] ['o'] sq symtab entries hf ρ).1 ⟨all_denote, delta_ne⟩
  obtain ⟨k', h1, h2⟩ := C50_encap_same_path S _ _ _ _ ρ fs _ hb
  exact ⟨k', h2, by rw [hb, h1]⟩

example : ∃ fs', Run (cliMain S ρ nonce (.encap ['c'] ['s'] ['i'] ['o'] ['k'])) fs fs' (some (.ok ())) ∧
    (cliMain S ρ nonce (.encap ['c'] ['s'] ['i'] ['o'] ['k'])).exec fs = (fs', .ok ()) := by
  obtain ⟨ct, k, -, h⟩ := cap_run
  have hr := run_exec (encapCommand S ['c'] ['s'] ['i'] ['o'] ['k'] ρ) fs
  rw [h] at hr
  exact ⟨_, hr, C50_success_complete S (.encap ['c'] ['s'] ['i'] ['o'] ['k']) ρ nonce fs _ hr⟩

/-! ### C64, C65 -/

/-- `encap` stopped before the key was written, then repeated with other randomness. -/
example : ∃ ct k ct', Run (cliMain S ρ nonce (.encap ['c'] ['s'] ['i'] ['o'] ['k'])) fs (fs.set ['o'] ct') none ∧
    (cliMain S ρ nonce (.encap ['c'] ['s'] ['i'] ['o'] ['k'])).exec (fs.set ['o'] ct') = ((fs.set ['o'] ct).set ['k'] k, .ok ()) := by
  obtain ⟨ct, k, -, h⟩ := cap_run
  obtain ⟨ct', k', -, h2, -⟩ := C50_encap_ciphertext_without_key S _ _ _ _ _ ρ fs _ h
  obtain ⟨g1, g2, -⟩ := C64_repeat S (.encap ['c'] ['s'] ['i'] ['o'] ['k']) (by simp [Args.outs, Args.inputs]) ρ ρ nonce nonce fs _ _ h2
  have hf : ((cliMain S ρ nonce (.encap ['c'] ['s'] ['i'] ['o'] ['k'])).exec fs) = ((fs.set ['o'] ct).set ['k'] k, .ok ()) := h
  rw [hf] at g1 g2
  exact ⟨ct, k, ct', h2, Prod.ext (g2 rfl) g1⟩

/-- Decrypting in place, stopped while writing. -/
example : ∃ b fs₁, Run (decryptCommand S ['c'] ['w'] ['o'] ['o']) (fs.set ['o'] b) fs₁ none ∧ fs₁ ['o'] = some [] ∧
    ∃ e, ((decryptCommand S ['c'] ['w'] ['o'] ['o']).exec fs₁).2 = .error e := by
  obtain ⟨symtab, b, hf, hag, -, hna, hr, hb, hj⟩ := cli_encrypted true
  have hd := C47_roundtrip S fs _ ['c'] ['s'] ['i'] ['m'] ['o'] sq symtab entries hf [1, 2, 3] rfl true ρ nonce rfl hj hb sq_wf sq_ct (by simp [sq])
    (fs.set ['o'] b) ['c'] ['w'] ['o'] ['o'] sqData wtns vals rfl sqData_cli rfl rfl wtns_cli vals_witness hag
  obtain ⟨fs₁, h1, h2, h3⟩ := C64_in_place_loses S _ _ _ _ _ hd
  exact ⟨b, fs₁, h1, h2, h3⟩

/-- Two commands on the same inputs with different outputs. -/
def cmds (b : Bool) : Args := if b then .encrypt ['c'] ['s'] ['i'] ['m'] ['o'] false else .encap ['c'] ['s'] ['i'] ['p'] ['q']

theorem cmds_indep : Independent cmds := by
  intro i j hij p hp
  cases i <;> cases j
  · exact absurd rfl hij
  · simp only [cmds, Bool.false_eq_true, if_false, Args.outs, List.mem_cons, List.not_mem_nil, or_false] at hp
    rcases hp with rfl | rfl <;> decide
  · simp only [cmds, if_true, Args.outs, List.mem_singleton] at hp
    subst hp
    decide
  · exact absurd rfl hij

theorem par_true {c c' : Cmd} {f f' : FS} (d : Cmd) (h : Steps c f c' f') :
    Par (fun b : Bool => if b then c else d) f (fun b => if b then c' else d) f' := by
  induction h with
  | refl => exact .refl _ _
  | @tail c' fs' c'' fs'' _ h2 ih =>
    have h2' : Step ((fun b : Bool => if b then c' else d) true) fs' c'' fs'' := by simpa using h2
    have := Par.tail true c'' ih h2'
    convert this using 1
    funext b
    cases b <;> simp

theorem par_false {c d d' : Cmd} {f f' f'' : FS} {p : Bool → Cmd} (h : Steps d f' d' f'') (hp : Par p f (fun b => if b then c else d) f') :
    Par p f (fun b => if b then c else d') f'' := by
  induction h with
  | refl => exact hp
  | @tail c' fs' c'' fs'' _ h2 ih =>
    have h2' : Step ((fun b : Bool => if b then c else c') false) fs' c'' fs'' := by simpa using h2
    have := Par.tail false c'' ih h2'
    convert this using 1
    funext b
    cases b <;> simp

/-- Two commands, one after the other. -/
theorem par_ok {c d : Cmd} {f f1 f2 : FS} (hc : Run c f f1 (some (.ok ()))) (hd : Run d f1 f2 (some (.ok ()))) :
    ∃ ps, Par (fun b : Bool => if b then c else d) f ps f2 ∧ ∀ b, (ps b).outcome = some (.ok ()) := by
  obtain ⟨c', s1, e1⟩ := run_steps hc
  obtain ⟨d', s2, e2⟩ := run_steps hd
  refine ⟨_, par_false s2 (par_true d s1), fun b => ?_⟩
  cases b
  · simp [e2 _ rfl, Cmd.outcome]
  · simp [e1 _ rfl, Cmd.outcome]

theorem cmds_par : ∃ ps fs', Par (fun b => cliMain S ρ nonce (cmds b)) fs ps fs' ∧ ∀ b, (ps b).outcome = some (.ok ()) := by
  obtain ⟨symtab, b, hf, -, -, -, -, hb, -⟩ := cli_encrypted true
  have h1 := run_exec (encryptCommand S ['c'] ['s'] ['i'] ['m'] ['o'] true ρ nonce) fs
  rw [hb] at h1
  have hf' : CliFiles S (fs.set ['o'] b) ['c'] ['s'] ['i'] sq symtab entries := ⟨hf.circuit, hf.sym, hf.input⟩
  obtain ⟨ct, k, -, hk⟩ := (C55_cli_encap_outcome S (fs.set ['o'] b) ['c'] ['s'] ['i'] ['p'] ['q'] sq symtab entries hf' ρ).1 ⟨all_denote, delta_ne⟩
  have h2 := run_exec (encapCommand S ['c'] ['s'] ['i'] ['p'] ['q'] ρ) (fs.set ['o'] b)
  rw [hk] at h2
  obtain ⟨ps, h3, h4⟩ := par_ok h1 h2
  have he : (fun b => cliMain S ρ nonce (cmds b)) =
      fun b : Bool => if b then encryptCommand S ['c'] ['s'] ['i'] ['m'] ['o'] true ρ nonce else encapCommand S ['c'] ['s'] ['i'] ['p'] ['q'] ρ := by
    funext b; cases b <;> rfl
  rw [he]
  exact ⟨ps, _, h3, h4⟩

example : ∃ ps fs', Par (fun b => cliMain S ρ nonce (cmds b)) fs ps fs' ∧ (∀ q, (∀ i, q ∉ (cmds i).outs) → fs' q = fs q) ∧
    fs' ['q'] = ((cliMain S ρ nonce (cmds false)).exec fs).1 ['q'] ∧ fs' ['o'] = ((cliMain S ρ nonce (cmds true)).exec fs).1 ['o'] := by
  obtain ⟨ps, fs', h, hok⟩ := cmds_par
  exact ⟨ps, fs', h, (C65_parallel S cmds cmds_indep (fun _ => ρ) (fun _ => nonce) fs fs' ps h).2,
    (C65_parallel_success S cmds cmds_indep (fun _ => ρ) (fun _ => nonce) fs fs' ps h hok false).2 ['q'] (by simp [cmds, Args.outs]),
    (C65_parallel_success S cmds cmds_indep (fun _ => ρ) (fun _ => nonce) fs fs' ps h hok true).2 ['o'] (by simp [cmds, Args.outs])⟩

/-- Two encryptions to the same file, one without the public input. -/
example : ∃ b b' : Bytes, ∃ ps fs', Par (fun x : Bool => if x then cliMain S ρ nonce (.encrypt ['c'] ['s'] ['i'] ['m'] ['o'] false)
      else cliMain S ρ nonce (.encrypt ['c'] ['s'] ['i'] ['m'] ['o'] true)) fs ps fs' ∧ (∀ x, (ps x).outcome = some (.ok ())) ∧
    fs' ['o'] = (fs.set ['o'] b') ['o'] ∧ (cliMain S ρ nonce (.encrypt ['c'] ['s'] ['i'] ['m'] ['o'] false)).exec fs = (fs.set ['o'] b, .ok ()) := by
  obtain ⟨-, b, -, -, -, -, -, hb, -⟩ := cli_encrypted true
  obtain ⟨-, b', -, -, -, -, -, hb', -⟩ := cli_encrypted false
  obtain ⟨ps, fs', h1, h2, h3⟩ := C65_same_output_lost S (.encrypt ['c'] ['s'] ['i'] ['m'] ['o'] false) (.encrypt ['c'] ['s'] ['i'] ['m'] ['o'] true) ['o'] rfl rfl
    (by simp [Args.inputs]) ρ ρ nonce nonce fs _ _ hb hb'
  exact ⟨b, b', ps, fs', h1, h2, h3, hb⟩

/-! ### C66 -/

/-- The circuit file with a byte after its end: the same circuit. -/
theorem sqData0_cli : cliParseR1cs (2 ^ 62) (sqData ++ [0]) = .ok sq :=
  C21_cli_inverts_format (lim := 2 ^ 62) [0] sq_fits sqSecs_fit sqSecs_describe (by
    have := sqData_len; unfold sqData at this; omega)

/-- `encap` while another process replaces the circuit file. -/
theorem cap_sees : ∃ ct k, Sees (encapCommand S ['c'] ['s'] ['i'] ['o'] ['k'] ρ)
      [(['c'], some (sqData ++ [0])), (['s'], some (utf8Enc sym)), (['i'], some (utf8Enc inputText)), (['c'], some sqData)]
      (Cmd.writeFile ['o'] ct "Failed to write ciphertext file" <| Cmd.writeFile ['k'] k "Failed to write key file" (.done (.ok ()))) := by
  obtain ⟨ct, k, hk, h⟩ := cap_run
  obtain ⟨m, hm, -⟩ := sym_parse
  unfold encapCommand at h ⊢
  obtain ⟨data, r, sb, jb, st, jt, json, w, c, key, h1, h2, h3, h4, h5, h6, h7, h8, h9, -⟩ := encapPart_ok S h
  cases h1
  cases h3
  cases h5
  rw [show cliParseR1cs S.lim sqData = .ok sq from sqData_cli] at h2
  cases h2
  unfold cliAssign at h8
  obtain ⟨wm, h10, h11⟩ := Res.bind_eq_ok.1 h8
  obtain ⟨inputs, h12, h13⟩ := Res.bind_eq_ok.1 h11
  cases h13
  refine ⟨encCiphertext S.c1 S.c2 c, key.bytes, ?_⟩
  refine .read ?_
  simp only [show cliParseR1cs S.lim (sqData ++ [0]) = .ok sq from sqData0_cli, Cmd.lift]
  refine .read ?_
  simp only [h4, Res.ofOption, h10, Cmd.lift]
  refine .read ?_
  simp only [h6, h7, Res.ofOption, Res.ok_bind, h12, Cmd.lift]
  refine .read ?_
  simp only [show cliParseR1cs S.lim sqData = .ok sq from sqData_cli, h9, Cmd.lift]
  exact .nil _

example : ∃ seen c, Sees (cliMain S ρ nonce (.encap ['c'] ['s'] ['i'] ['o'] ['k'])) seen c ∧ seen.length = 4 ∧
    seen.map (·.1) <+: [['c'], ['s'], ['i'], ['c']] := by
  obtain ⟨ct, k, h⟩ := cap_sees
  exact ⟨_, _, h, rfl, C66_read_order S (.encap ['c'] ['s'] ['i'] ['o'] ['k']) ρ nonce _ _ h⟩

/-- The mixture: a file system with either content gives the same circuit here, and the ciphertext is that of the second content. -/
example : ∃ ct k, ∃ r₁ r₂ : R1csFile, cliParseR1cs S.lim (sqData ++ [0]) = .ok r₁ ∧ cliParseR1cs S.lim sqData = .ok r₂ ∧
    Sees (encapCommand S ['c'] ['s'] ['i'] ['o'] ['k'] ρ)
      [(['c'], some (sqData ++ [0])), (['s'], some (utf8Enc sym)), (['i'], some (utf8Enc inputText)), (['c'], some sqData)]
      (Cmd.writeFile ['o'] ct "Failed to write ciphertext file" <| Cmd.writeFile ['k'] k "Failed to write key file" (.done (.ok ()))) := by
  obtain ⟨ct, k, h⟩ := cap_sees
  obtain ⟨r₁, r₂, _, _, _, _, _, _, h1, h2, _⟩ := C66_encap_mixes S ['c'] ['s'] ['i'] ['o'] ['k'] ρ _ _ _ _ _ (fun _ => none) _ h
    (by rw [exec_writeFile, exec_writeFile]; rfl)
  exact ⟨ct, k, r₁, r₂, h1, h2, h⟩

/-- A command that has read two files, undisturbed. -/
example : ∃ seen c, Sees (cliMain S ρ nonce (.encap ['z'] ['s'] ['i'] ['o'] ['k'])) seen c ∧ seen = [(['z'], none)] ∧
    ∃ fs₀ : FS, (∀ e ∈ seen, fs₀ e.1 = e.2) ∧ (∀ q, q ∉ seen.map (·.1) → fs₀ q = fs q) ∧
      (cliMain S ρ nonce (.encap ['z'] ['s'] ['i'] ['o'] ['k'])).exec fs₀ = c.exec fs₀ := by
  have h : Sees (cliMain S ρ nonce (.encap ['z'] ['s'] ['i'] ['o'] ['k'])) [(['z'], none)] (.done (Res.fail "Failed to load R1CS circuit")) :=
    .read (.nil _)
  exact ⟨_, _, h, rfl, C66_snapshot S _ ρ nonce _ _ h (by
    intro p o o' h1 h2
    simp only [List.mem_singleton, Prod.mk.injEq] at h1 h2
    rw [h1.2, h2.2]) fs⟩

/-- `decap` while another process replaces the circuit file. -/
example : ∃ ct rest, Sees (decapCommand S ['c'] ['w'] ['o'] ['d'])
      [(['c'], some (sqData ++ [0])), (['w'], some wtns), (['o'], some ct), (['c'], some sqData)] rest ∧
    (decapCommand S ['c'] ['w'] ['o'] ['d']).exec (fs.set ['o'] ct) = rest.exec (fs.set ['o'] ct) := by
  obtain ⟨ct, k, -, h, -⟩ := cli_kem_run
  obtain ⟨wf, h1, h2⟩ := wtns_cli
  have h' := h
  unfold decapCommand at h
  obtain ⟨data, r, wdata, wf', vs, c, key, g1, g2, g3, g4, g5, g6, g7, g8⟩ := decapPart_ok S (ctB := ct) (by
    intro k; simp [Cmd.readFile, Cmd.exec, FS.set]) h
  cases g1
  cases g3
  rw [show cliParseR1cs S.lim sqData = .ok sq from sqData_cli] at g2
  cases g2
  have hs : Sees (decapCommand S ['c'] ['w'] ['o'] ['d'])
      [(['c'], some (sqData ++ [0])), (['w'], some wtns), (['o'], some ct), (['c'], some sqData)]
      (Cmd.writeFile ['d'] key.bytes "Failed to write key file" (.done (.ok ()))) := by
    refine .read ?_
    simp only [show cliParseR1cs S.lim (sqData ++ [0]) = .ok sq from sqData0_cli, Cmd.lift]
    refine .read ?_
    simp only [g4, g5, Cmd.lift]
    refine .read ?_
    simp only [g6, Res.ofOption, Cmd.lift]
    refine .read ?_
    simp only [show cliParseR1cs S.lim sqData = .ok sq from sqData_cli, g7, Cmd.lift]
    exact .nil _
  exact ⟨ct, _, hs, C66_decap_second_circuit S _ _ _ _ _ sq sqData0_cli _ sq sqData_cli _ _ _ _ hs rfl rfl rfl⟩

end Ex

end Zkenc.Props
