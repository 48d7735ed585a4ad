import Verif.Proofs.History
import Verif.Props.Program
import Verif.Props.Parallel
import Verif.Props.EndToEndExactly
import Verif.Props.EndToEndExactlyKem
/-!
# C99: histories of a machine on which `zkenc` is used

`Hist S w es w'`: starting with the processes and files `w`, the events `es` happened and led to `w'`: `zkenc` processes with any arguments were started, read
and wrote files, met I/O errors, were killed (they then have no further events), and other programs wrote or deleted files, all in any order.
-/

namespace Zkenc.Props

open Zkenc Zkenc.Spec Zkenc.InputSpec CmdSpec HistSpec

variable {G1 G2 GT : Type} [AddCommGroup G1] [Module Fr G1] [AddCommGroup G2] [Module Fr G2] [AddCommGroup GT] [Module Fr GT]
  (S : Sys G1 G2 GT)

/-- The files of a command line. -/
theorem uses_program (ρ : Rand Fr) (nonce : Bytes) (argv : List Str) :
    Uses (fun p => ∃ a, Asks argv a ∧ p ∈ a.inputs) (fun p => ∃ a, Asks argv a ∧ p ∈ a.outs) (cliProgram S false ρ nonce argv) := by
  by_cases ha : ∃ a, Asks argv a
  · obtain ⟨a, ha⟩ := ha
    rw [C71_runs S ρ nonce argv a ha]
    have mono : ∀ {R W R' W' : Path → Prop} {c : Cmd}, Uses R W c → (∀ p, R p → R' p) → (∀ p, W p → W' p) → Uses R' W' c := by
      intro R W R' W' c h hR hW
      induction h with
      | done r => exact .done r
      | read p k hp _ ih => exact .read p k (hR p hp) ih
      | write p b k hp _ ih => exact .write p b k (hW p hp) ih
    exact mono (uses_main S ρ nonce a) (fun p hp => ⟨a, ha, hp⟩) (fun p hp => ⟨a, ha, hp⟩)
  · unfold cliProgram
    cases hp : parseCli false argv with
    | run a => exact absurd ⟨a, (C71_accepts_iff argv a).1 hp⟩ ha
    | exit => exact .done _
    | panic => exact .done _

/-- What a running process has still to do uses only the files of its command line. -/
theorem hist_uses {w w' : World} (h0 : ∀ i, w.procs i = none) {es : List Event} (h : Hist S w es w') (i : Nat) (c : Cmd) (hc : w'.procs i = some c) :
    ∃ ρ nonce argv, Event.start i ρ nonce argv ∈ es ∧
      Uses (fun p => ∃ a, Asks argv a ∧ p ∈ a.inputs) (fun p => ∃ a, Asks argv a ∧ p ∈ a.outs) c := by
  induction h generalizing i c with
  | nil => rw [h0 i] at hc; cases hc
  | @snoc es w' e w'' h1 h2 ih =>
    by_cases hn : w'.procs i = none
    · cases h2 with
      | start j ρ nonce argv hj =>
        by_cases hij : i = j
        · subst hij
          rw [World.put_same] at hc
          cases hc
          exact ⟨ρ, nonce, argv, by simp, uses_program S ρ nonce argv⟩
        · rw [World.put_other _ hij, hn] at hc; cases hc
      | other => rw [show w'.procs i = some c from hc] at hn; cases hn
      | read j p k hj => rw [World.put_other _ (by rintro rfl; rw [hn] at hj; cases hj), hn] at hc; cases hc
      | readFailed j p k hj => rw [World.put_other _ (by rintro rfl; rw [hn] at hj; cases hj), hn] at hc; cases hc
      | writing j p b k n hj => rw [World.put_other _ (by rintro rfl; rw [hn] at hj; cases hj), hn] at hc; cases hc
      | writeCut j p b k n hj => rw [World.put_other _ (by rintro rfl; rw [hn] at hj; cases hj), hn] at hc; cases hc
      | write j p b k hj => rw [World.put_other _ (by rintro rfl; rw [hn] at hj; cases hj), hn] at hc; cases hc
      | writeFailed j p b k hj => rw [World.put_other _ (by rintro rfl; rw [hn] at hj; cases hj), hn] at hc; cases hc
    · obtain ⟨d, hd⟩ := Option.ne_none_iff_exists'.1 hn
      obtain ⟨ρ, nonce, argv, hm, hu⟩ := ih i d hd
      refine ⟨ρ, nonce, argv, by simp [hm], ?_⟩
      by_cases hb : By i e
      · obtain ⟨c', g1, g2⟩ := h2.by hd hb
        rw [hc] at g1; cases g1
        exact (hu.step g2).1
      · rw [h2.not_by hd hb] at hc; cases hc
        exact hu

/-- **C99** (who touches what) — in a history that begins before any process was started, a process reads only files that its arguments name as inputs and
writes only files that its arguments name as outputs; arguments that clap does not accept give a process that does neither. -/
theorem C99_names (w w' : World) (h0 : ∀ i, w.procs i = none) (es : List Event) (h : Hist S w es w') :
    (∀ i p f, Event.read i p f ∈ es → ∃ ρ nonce argv a, Event.start i ρ nonce argv ∈ es ∧ Asks argv a ∧ p ∈ a.inputs) ∧
    (∀ i p f, Event.write i p f ∈ es → ∃ ρ nonce argv a, Event.start i ρ nonce argv ∈ es ∧ Asks argv a ∧ p ∈ a.outs) := by
  induction h with
  | nil => exact ⟨fun _ _ _ h => (nomatch h), fun _ _ _ h => (nomatch h)⟩
  | @snoc es w' e w'' h1 h2 ih =>
    have reads : ∀ {i p k}, w'.procs i = some (.read p k) → ∃ ρ nonce argv a, Event.start i ρ nonce argv ∈ es ∧ Asks argv a ∧ p ∈ a.inputs := by
      intro i p k hp
      obtain ⟨ρ, nonce, argv, hm, hu⟩ := hist_uses S h0 h1 i _ hp
      cases hu with
      | read _ _ hp => obtain ⟨a, ha, hp⟩ := hp; exact ⟨ρ, nonce, argv, a, hm, ha, hp⟩
    have writes : ∀ {i p b k}, w'.procs i = some (.write p b k) → ∃ ρ nonce argv a, Event.start i ρ nonce argv ∈ es ∧ Asks argv a ∧ p ∈ a.outs := by
      intro i p b k hp
      obtain ⟨ρ, nonce, argv, hm, hu⟩ := hist_uses S h0 h1 i _ hp
      cases hu with
      | write _ _ _ hp => obtain ⟨a, ha, hp⟩ := hp; exact ⟨ρ, nonce, argv, a, hm, ha, hp⟩
    refine ⟨fun i p f he => ?_, fun i p f he => ?_⟩
    · suffices ∃ ρ nonce argv a, Event.start i ρ nonce argv ∈ es ∧ Asks argv a ∧ p ∈ a.inputs by
        obtain ⟨ρ, nonce, argv, a, h1, h2⟩ := this
        exact ⟨ρ, nonce, argv, a, by simp [h1], h2⟩
      rcases List.mem_append.1 he with he | he
      · exact ih.1 i p f he
      · rw [List.mem_singleton] at he
        subst he
        cases h2 with
        | read _ _ k hp => exact reads hp
        | readFailed _ _ k hp => exact reads hp
    · suffices ∃ ρ nonce argv a, Event.start i ρ nonce argv ∈ es ∧ Asks argv a ∧ p ∈ a.outs by
        obtain ⟨ρ, nonce, argv, a, h1, h2⟩ := this
        exact ⟨ρ, nonce, argv, a, by simp [h1], h2⟩
      rcases List.mem_append.1 he with he | he
      · exact ih.2 i p f he
      · rw [List.mem_singleton] at he
        subst he
        cases h2 with
        | writing _ _ b k n hp => exact writes hp
        | write _ _ b k hp => exact writes hp
        | writeFailed _ _ b k hp => exact writes hp
        | writeCut _ _ b k n hp => exact writes hp

/-- **C99** (files stay) — a file that no other program writes or deletes, and that no started process has as an output, is the same after any history. -/
theorem C99_kept (w w' : World) (h0 : ∀ i, w.procs i = none) (es : List Event) (h : Hist S w es w') (p : Path)
    (ho : ∀ b, Event.other p b ∉ es) (hs : ∀ i ρ nonce argv, Event.start i ρ nonce argv ∈ es → ∀ a, Asks argv a → p ∉ a.outs) :
    w'.fs p = w.fs p := by
  refine h.kept fun e he ht => ?_
  cases e with
  | start => cases ht
  | read => cases ht
  | write i q f =>
    have hq : q = p := ht
    subst hq
    obtain ⟨ρ, nonce, argv, a, h1, h2, h3⟩ := (C99_names S w w' h0 es h).2 i q f he
    exact hs i ρ nonce argv h1 a h2 h3
  | other q b =>
    have hq : q = p := ht
    subst hq
    exact ho b he

/-- **C99** (alone) — a process whose files nobody else writes or deletes while it runs does what it could have done alone with the files as they were when it
was started, whatever the other processes and programs do; if none of its operations failed and it has finished, that is the error-free run. -/
theorem C99_alone (w w₁ w₂ : World) (i : Nat) (ρ : Rand Fr) (nonce : Bytes) (argv : List Str) (hstart : Next S w (.start i ρ nonce argv) w₁)
    (es : List Event) (h : Hist S w₁ es w₂) (a : Args) (ha : Asks argv a) (hl : LeftTo i (a.inputs ++ a.outs) es) :
    ∃ gs, Run (cliProgram S false ρ nonce argv) w.fs gs (w₂.outcome i) ∧ (∀ p ∈ a.inputs ++ a.outs, w₂.fs p = gs p) ∧
      ((∀ e ∈ es, ¬ FailedFor i e) → ∀ r, w₂.outcome i = some r → (cliProgram S false ρ nonce argv).exec w.fs = (gs, r)) := by
  have hp : w₁.procs i = some (cliProgram S false ρ nonce argv) ∧ w₁.fs = w.fs := by
    cases hstart with
    | start _ _ _ _ _ => exact ⟨World.put_same .., rfl⟩
  rw [C71_runs S ρ nonce argv a ha] at hp ⊢
  obtain ⟨c', gs, h1, h2, h3, h4⟩ := h.alone hp.1 (uses_main S ρ nonce a) fun e he hb p hp => hl e he hb p (by simpa using hp)
  rw [hp.2] at h2 h4
  have ho : w₂.outcome i = c'.outcome := by simp [World.outcome, h1]
  refine ⟨gs, by rw [ho]; exact steps_run h2, fun p hp => h3 p (by simpa using hp), fun hn r hr => ?_⟩
  rw [h4 hn]
  rw [ho] at hr
  cases c' with
  | done r' => cases hr; rfl
  | read p k => cases hr
  | write p b k => cases hr

/-- **C99** (no waiting) — however the machine came to be where it is, every process that is running can go on to its end on its own, with the result and the files of
the error-free run from here. -/
theorem C99_finishes (w w' : World) (es : List Event) (_h : Hist S w es w') (i : Nat) (c : Cmd) (hi : w'.procs i = some c) :
    ∃ es' w'', Hist S w' es' w'' ∧ (∀ e ∈ es', By i e ∧ ¬ FailedFor i e) ∧ w''.outcome i = some (c.exec w'.fs).2 ∧ w''.fs = (c.exec w'.fs).1 := by
  obtain ⟨es', h1, h2⟩ := Hist.finish (S := S) w' i c hi
  exact ⟨es', _, h1, h2, by simp [World.outcome, World.put, Cmd.outcome], rfl⟩

/-- A successful process left its outputs as the error-free run leaves them. -/
theorem alone_ok {w w₁ w₂ : World} {i : Nat} {ρ : Rand Fr} {nonce : Bytes} {argv : List Str} (hstart : Next S w (.start i ρ nonce argv) w₁)
    {es : List Event} (h : Hist S w₁ es w₂) {a : Args} (ha : Asks argv a) (hl : LeftTo i (a.inputs ++ a.outs) es) (hok : w₂.outcome i = some (.ok ())) :
    ∃ fs', (cliMain S ρ nonce a).exec w.fs = (fs', .ok ()) ∧ ∀ p ∈ a.outs, w₂.fs p = fs' p := by
  obtain ⟨gs, h1, h2, -⟩ := C99_alone S w w₁ w₂ i ρ nonce argv hstart es h a ha hl
  rw [hok, C71_runs S ρ nonce argv a ha] at h1
  exact ⟨gs, C50_success_complete S a ρ nonce _ _ h1, fun p hp => h2 p (by simp [hp])⟩

/-- What a process that writes one file can have left. -/
theorem alone_once {w w₁ w₂ : World} {i : Nat} {ρ : Rand Fr} {nonce : Bytes} {argv : List Str} (hstart : Next S w (.start i ρ nonce argv) w₁)
    {es : List Event} (h : Hist S w₁ es w₂) {a : Args} (ha : Asks argv a) (hl : LeftTo i (a.inputs ++ a.outs) es) {out : Path} (ho : a.outs = [out])
    (hw : WritesOnce (cliMain S ρ nonce a) out) {P : Prop} {m : Bytes}
    (hy : P → (cliMain S ρ nonce a).exec w.fs = (w.fs.set out m, .ok ())) (hno : ¬ P → ∃ e, (cliMain S ρ nonce a).exec w.fs = (w.fs, .error e)) :
    (w₂.outcome i = some (.ok ()) → P ∧ w₂.fs out = some m) ∧
    (¬ P → w₂.fs out = w.fs out) ∧
    (w₂.fs out = w.fs out ∨ ∃ n, w₂.fs out = some (m.take n)) ∧
    (P → (∀ e ∈ es, ¬ FailedFor i e) → ∀ r, w₂.outcome i = some r → r = .ok ()) := by
  obtain ⟨gs, h1, h2, h3⟩ := C99_alone S w w₁ w₂ i ρ nonce argv hstart es h a ha hl
  rw [C71_runs S ρ nonce argv a ha] at h1 h3
  rw [h2 out (by rw [ho]; simp)]
  rcases hw _ _ _ h1 with ⟨rfl, hne⟩ | ⟨b, n, hx, rfl, hn⟩
  · refine ⟨fun h => absurd h hne, fun _ => rfl, .inl rfl, fun hP hf r hr => ?_⟩
    have := h3 hf r hr
    rw [hy hP] at this
    exact (Prod.mk.inj this).2.symm
  · have hP : P := by
      by_contra hP
      obtain ⟨e, he⟩ := hno hP
      rw [hx] at he
      cases (Prod.mk.inj he).2
    have hb : b = m := by
      have h4 := hx.symm.trans (hy hP)
      have h5 := congrFun (congrArg Prod.fst h4) out
      simpa [FS.set_same] using h5
    subst hb
    refine ⟨fun h => ⟨hP, by rw [FS.set_same, List.take_of_length_le (hn h)]⟩, fun h => absurd hP h, .inr ⟨n, FS.set_same _ _ _⟩, fun _ hf r hr => ?_⟩
    have := h3 hf r hr
    rw [hx] at this
    exact (Prod.mk.inj this).2.symm

/-- **C99** (a message survives) — a history: `zkenc encrypt …` is started and reports success, its files being left to it while it runs; then anything happens,
but nobody writes or deletes the output (all other files may be changed or deleted); then `zkenc decrypt …` is started, for the same circuit and that ciphertext or a
copy of it, its files being left to it while it runs. If it reports success, the witness satisfies the circuit with the enforced public values and the output is exactly
the message. If the witness is not such a one, the output file stays as it was. Whatever happens, the output file is as it was or holds an initial part of the message.
And with such a witness and no I/O error it cannot end in failure. -/
theorem C99_message (w₀ w₁ w₂ w₃ w₄ w₅ : World) (i j : Nat) (ρ ρ₂ : Rand Fr) (nonce nonce₂ : Bytes) (hn : nonce.length = 12) (argv argv₂ : List Str)
    (circuit sym input message output : Path) (noPub : Bool) (ha : Asks argv (.encrypt circuit sym input message output noPub))
    (r : R1csFile) (symtab : AMap Nat) (entries : List (Str × Json)) (hfiles : CliFiles S w₀.fs circuit sym input r symtab entries)
    (m : Bytes) (hm : w₀.fs message = some m) (hj : noPub = false → ∀ j, w₀.fs input = some j → j.length < 2 ^ 32)
    (hwf : WellFormed r) (hs : CtFits r) (hpriv : r.nPubIn + 1 < r.nWires) (hna : NoAlias symtab (some r.nPubIn) entries)
    (h01 : Next S w₀ (.start i ρ nonce argv) w₁) (es : List Event) (h12 : Hist S w₁ es w₂)
    (hl : LeftTo i [circuit, sym, input, message, output] es) (hok : w₂.outcome i = some (.ok ()))
    (es₂ : List Event) (h23 : Hist S w₂ es₂ w₃) (hk : Kept output es₂)
    (circuit₂ witness ciphertext output₂ : Path) (ha₂ : Asks argv₂ (.decrypt circuit₂ witness ciphertext output₂))
    (data wdata : Bytes) (vals : List Fr) (hdata : w₃.fs circuit₂ = some data) (hcirc : cliParseR1cs S.lim data = .ok r)
    (hct : w₃.fs ciphertext = w₃.fs output) (hwd : w₃.fs witness = some wdata) (hwit : CliWitness wdata vals)
    (h34 : Next S w₃ (.start j ρ₂ nonce₂ argv₂) w₄) (es₃ : List Event) (h45 : Hist S w₄ es₃ w₅)
    (hl₂ : LeftTo j [circuit₂, witness, ciphertext, output₂] es₃) :
    (w₅.outcome j = some (.ok ()) → (Accepted r vals ∧ CliEnforced symtab r.nPubIn entries vals) ∧ w₅.fs output₂ = some m) ∧
    (¬ (Accepted r vals ∧ CliEnforced symtab r.nPubIn entries vals) → w₅.fs output₂ = w₃.fs output₂) ∧
    (w₅.fs output₂ = w₃.fs output₂ ∨ ∃ n, w₅.fs output₂ = some (m.take n)) ∧
    (Accepted r vals ∧ CliEnforced symtab r.nPubIn entries vals → (∀ e ∈ es₃, ¬ FailedFor j e) → ∀ res, w₅.outcome j = some res → res = .ok ()) := by
  obtain ⟨fs', he, ho⟩ := alone_ok S h01 h12 ha (by simpa [Args.inputs, Args.outs] using hl) hok
  have hc : w₃.fs ciphertext = fs' output := by
    rw [hct, h23.kept hk, ho output (by simp [Args.outs])]
  obtain ⟨hy, hno⟩ := C77_cli_to_cli_exactly S w₀.fs fs' circuit sym input message output r symtab entries hfiles m hm (!noPub) ρ nonce hn
    (fun h => hj (by simpa using h)) he hwf hs hpriv hna w₃.fs circuit₂ witness ciphertext output₂ data wdata vals hdata hcirc hc hwd hwit
  exact alone_once S h34 h45 ha₂ (by simpa [Args.inputs, Args.outs] using hl₂) rfl (C50_decrypt S _ _ _ _) hy hno

/-- **C99** (a key survives) — the same for `zkenc encap …` and `zkenc decap …`: the key file that `encap` wrote may be deleted; `decap` writes the same 32 bytes. -/
theorem C99_kem (w₀ w₁ w₂ w₃ w₄ w₅ : World) (i j : Nat) (ρ ρ₂ : Rand Fr) (nonce nonce₂ : Bytes) (argv argv₂ : List Str)
    (circuit sym input ciphertext key : Path) (hne : ciphertext ≠ key) (ha : Asks argv (.encap circuit sym input ciphertext key))
    (r : R1csFile) (symtab : AMap Nat) (entries : List (Str × Json)) (hfiles : CliFiles S w₀.fs circuit sym input r symtab entries)
    (hwf : WellFormed r) (hpriv : r.nPubIn + 1 < r.nWires) (hna : NoAlias symtab (some r.nPubIn) entries)
    (h01 : Next S w₀ (.start i ρ nonce argv) w₁) (es : List Event) (h12 : Hist S w₁ es w₂)
    (hl : LeftTo i [circuit, sym, input, ciphertext, key] es) (hok : w₂.outcome i = some (.ok ()))
    (es₂ : List Event) (h23 : Hist S w₂ es₂ w₃) (hk : Kept ciphertext es₂)
    (circuit₂ witness ciphertext₂ key₂ : Path) (ha₂ : Asks argv₂ (.decap circuit₂ witness ciphertext₂ key₂))
    (data wdata : Bytes) (vals : List Fr) (hdata : w₃.fs circuit₂ = some data) (hcirc : cliParseR1cs S.lim data = .ok r)
    (hct : w₃.fs ciphertext₂ = w₃.fs ciphertext) (hwd : w₃.fs witness = some wdata) (hwit : CliWitness wdata vals)
    (h34 : Next S w₃ (.start j ρ₂ nonce₂ argv₂) w₄) (es₃ : List Event) (h45 : Hist S w₄ es₃ w₅)
    (hl₂ : LeftTo j [circuit₂, witness, ciphertext₂, key₂] es₃) :
    ∃ k, w₂.fs key = some k ∧ k.length = 32 ∧
    (w₅.outcome j = some (.ok ()) → (Accepted r vals ∧ CliEnforced symtab r.nPubIn entries vals) ∧ w₅.fs key₂ = some k) ∧
    (¬ (Accepted r vals ∧ CliEnforced symtab r.nPubIn entries vals) → w₅.fs key₂ = w₃.fs key₂) ∧
    (w₅.fs key₂ = w₃.fs key₂ ∨ ∃ n, w₅.fs key₂ = some (k.take n)) ∧
    (Accepted r vals ∧ CliEnforced symtab r.nPubIn entries vals → (∀ e ∈ es₃, ¬ FailedFor j e) → ∀ res, w₅.outcome j = some res → res = .ok ()) := by
  obtain ⟨fs', he, ho⟩ := alone_ok S h01 h12 ha (by simpa [Args.inputs, Args.outs] using hl) hok
  obtain ⟨ctB, k, hc1, hk1, hall, -⟩ := C77_cli_encap_exactly S w₀.fs fs' circuit sym input ciphertext key hne r symtab entries hfiles ρ he hwf hpriv hna
  have hc : w₃.fs ciphertext₂ = some ctB := by
    rw [hct, h23.kept hk, ho ciphertext (by simp [Args.outs]), hc1]
  have hlen : k.length = 32 := by
    obtain ⟨-, -, -, -, -, -, -, -, ct, key', -, -, -, -, -, -, -, -, -, hkk⟩ := encapPart_ok S (show (encapCommand S circuit sym input ciphertext key ρ).exec w₀.fs = (fs', .ok ()) from he)
    rw [exec_writeFile, exec_writeFile] at hkk
    simp only [Cmd.exec, Prod.mk.injEq, and_true] at hkk
    rw [← hkk, FS.set_same] at hk1
    cases hk1
    exact key'.len
  obtain ⟨hy, hno⟩ := hall w₃.fs circuit₂ witness ciphertext₂ key₂ data wdata vals hdata hcirc hc hwd hwit
  refine ⟨k, by rw [ho key (by simp [Args.outs]), hk1], hlen, ?_⟩
  exact alone_once S h34 h45 ha₂ (by simpa [Args.inputs, Args.outs] using hl₂) rfl (C50_decap S _ _ _ _) hy hno

end Zkenc.Props
