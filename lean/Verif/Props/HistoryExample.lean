import Verif.Props.History
import Verif.Props.AppliedCommands
/-!
# C99 applied

A history on the files of `Props/EndToEndExample.lean`: `zkenc encrypt` runs to its end; the message and the input file are deleted; a second `zkenc encrypt` to the same
output is started; `zkenc decrypt` is started; the second encryption meets a read error and ends; `zkenc decrypt` runs to its end.
-/

namespace Zkenc.Props

open Zkenc Zkenc.Spec Zkenc.InputSpec CmdSpec HistSpec

namespace Ex

/-- No process has been started. -/
def w0 : World := ⟨fun _ => none, fs⟩

/-- Start a process. -/
theorem started (w : World) (i : Nat) (hi : w.procs i = none) (argv : List Str) :
    ∃ w', Next S w (.start i ρ nonce argv) w' ∧ w'.procs i = some (cliProgram S false ρ nonce argv) ∧ w'.fs = w.fs ∧ ∀ j, j ≠ i → w'.procs j = w.procs j :=
  ⟨_, .start w i ρ nonce argv hi, World.put_same .., rfl, fun _ hj => World.put_other _ hj _ _⟩

/-- Let a process run to its end. -/
theorem ended (v : World) (i : Nat) (c : Cmd) (hi : v.procs i = some c) : ∃ es v', Hist S v es v' ∧ (∀ e ∈ es, By i e ∧ ¬ FailedFor i e) ∧
    v'.outcome i = some (c.exec v.fs).2 ∧ v'.fs = (c.exec v.fs).1 ∧ ∀ j, j ≠ i → v'.procs j = v.procs j := by
  obtain ⟨es, h1, h2⟩ := Hist.finish (S := S) v i c hi
  exact ⟨es, _, h1, h2, by simp only [World.outcome, World.put_same, Option.bind_some, Cmd.outcome], rfl, fun _ hj => World.put_other _ hj _ _⟩

/-- The files after the encryption, when the message and the input are gone. -/
def fsLater (b : Bytes) : FS := fun q => if q = ['i'] then none else if q = ['m'] then none else (fs.set ['o'] b) q

/-- The second encryption before and after its read error. -/
theorem second : ∃ k, cliProgram S false ρ nonce (encArgs true) = .read ['c'] k := by
  rw [C71_runs S ρ nonce _ _ (encArgs_ask true)]
  exact ⟨_, rfl⟩

theorem history : ∃ w₁ w₂ w₃ w₄ w₅ es es₂ es₃ b,
    Next S w0 (.start 0 ρ nonce (encArgs false)) w₁ ∧ Hist S w₁ es w₂ ∧ LeftTo 0 [['c'], ['s'], ['i'], ['m'], ['o']] es ∧ w₂.outcome 0 = some (.ok ()) ∧
    Hist S w₂ es₂ w₃ ∧ Kept ['o'] es₂ ∧ w₃.fs = fsLater b ∧ Event.other ['m'] none ∈ es₂ ∧ Event.start 1 ρ nonce (encArgs true) ∈ es₂ ∧
    Next S w₃ (.start 2 ρ nonce decArgs) w₄ ∧ Hist S w₄ es₃ w₅ ∧ LeftTo 2 [['c'], ['w'], ['o'], ['d']] es₃ ∧ Event.read 1 ['c'] true ∈ es₃ ∧
    (∀ e ∈ es₃, ¬ FailedFor 2 e) ∧ (∃ res, w₅.outcome 2 = some res) := by
  obtain ⟨symtab, b, -, -, -, -, -, hb, -⟩ := cli_encrypted true
  have he : (cliProgram S false ρ nonce (encArgs false)).exec fs = (fs.set ['o'] b, .ok ()) := by
    rw [C71_runs S ρ nonce _ _ (encArgs_ask false)]; exact hb
  obtain ⟨w₁, n1, p1, q1, r1⟩ := started w0 0 rfl (encArgs false)
  obtain ⟨es, w₂, h12, hes, o2, q2, r2⟩ := ended w₁ 0 _ p1
  have q1' : w₁.fs = fs := q1
  rw [q1', he] at o2 q2
  have p2 : ∀ j, j ≠ 0 → w₂.procs j = none := by intro j hj; rw [r2 j hj, r1 j hj]; rfl
  -- the message and the input are deleted, the second encryption is started
  have d1 := Next.other (S := S) w₂ ['m'] none
  have d2 := Next.other (S := S) ⟨w₂.procs, fun q => if q = ['m'] then none else w₂.fs q⟩ ['i'] none
  generalize hv : (⟨w₂.procs, fun q => if q = ['i'] then none else if q = ['m'] then none else w₂.fs q⟩ : World) = v at d2
  have pv : v.procs = w₂.procs := by rw [← hv]
  have qv : v.fs = fsLater b := by rw [← hv, q2]; rfl
  have s1 := Next.start (S := S) v 1 ρ nonce (encArgs true) (by rw [pv]; exact p2 1 (by decide))
  generalize hw3 : v.put 1 (cliProgram S false ρ nonce (encArgs true)) v.fs = w₃ at s1
  have p31 : w₃.procs 1 = some (cliProgram S false ρ nonce (encArgs true)) := by rw [← hw3, World.put_same]
  have p32 : w₃.procs 2 = none := by rw [← hw3, World.put_other _ (by decide), pv]; exact p2 2 (by decide)
  have q3 : w₃.fs = fsLater b := by rw [← hw3, ← qv]; rfl
  obtain ⟨w₄, n3, p4, q4, r4⟩ := started w₃ 2 p32 decArgs
  obtain ⟨k, hk⟩ := second
  have r1 := Next.readFailed (S := S) w₄ 1 ['c'] k (by rw [r4 1 (by decide), p31, hk])
  generalize hu : w₄.put 1 (k none) w₄.fs = u at r1
  have pu : u.procs 2 = some (cliProgram S false ρ nonce decArgs) := by rw [← hu, World.put_other _ (by decide), p4]
  obtain ⟨es₃, w₅, h45, hes₃, o5, -, -⟩ := ended u 2 _ pu
  refine ⟨w₁, w₂, w₃, w₄, w₅, es, _, _, b, n1, h12, fun e he hb => absurd (hes e he).1 hb, o2,
    ((Hist.single d1).append (Hist.single d2)).append (Hist.single s1), ?_, q3, by simp, by simp, n3, (Hist.single r1).append h45, ?_, by simp, ?_, _, o5⟩
  · intro e he
    simp only [List.cons_append, List.nil_append, List.mem_cons, List.not_mem_nil, or_false] at he
    rcases he with rfl | rfl | rfl
    · change ¬ (['m'] : Path) = ['o']; decide
    · change ¬ (['i'] : Path) = ['o']; decide
    · exact fun h => h
  · intro e he hb p hp
    rcases List.mem_append.1 he with he | he
    · rw [List.mem_singleton] at he; subst he; exact fun h => h
    · exact absurd (hes₃ e he).1 hb
  · intro e he
    rcases List.mem_append.1 he with he | he
    · rw [List.mem_singleton] at he; subst he; exact fun h => absurd h.1 (by decide)
    · exact (hes₃ e he).2

/-- The message arrives although the message and the input are deleted and another encryption to the same file has been started. -/
example : ∃ es w₅, Hist S w0 es w₅ ∧ Event.other ['m'] none ∈ es ∧ w₅.outcome 2 = some (.ok ()) ∧ w₅.fs ['d'] = some [1, 2, 3] := by
  obtain ⟨symtab, b', hf, hag, -, hna, hr, -, hj⟩ := cli_encrypted true
  obtain ⟨w₁, w₂, w₃, w₄, w₅, es, es₂, es₃, b, h01, h12, hl, hok, h23, hk, hfs, hm, -, h34, h45, hl₂, -, hnf, res, hres⟩ := history
  have hd : w₃.fs ['c'] = some sqData ∧ w₃.fs ['w'] = some wtns := by rw [hfs]; exact ⟨rfl, rfl⟩
  obtain ⟨c1, -, -, c4⟩ := C99_message S w0 w₁ w₂ w₃ w₄ w₅ 0 2 ρ ρ nonce nonce rfl (encArgs false) decArgs ['c'] ['s'] ['i'] ['m'] ['o'] false (encArgs_ask false)
    sq symtab entries hf [1, 2, 3] rfl (fun _ => hj rfl) sq_wf sq_ct sq_priv hna h01 es h12 hl hok es₂ h23 hk ['c'] ['w'] ['o'] ['d'] decArgs_ask sqData wtns vals
    hd.1 sqData_cli rfl hd.2 wtns_cli h34 es₃ h45 hl₂
  have h := c4 (cli_enforced hr hag).1 hnf res hres
  subst h
  refine ⟨_, w₅, ((((Hist.single h01).append h12).append h23).append (Hist.single h34)).append h45, ?_, hres, (c1 hres).2⟩
  simp [hm]

/-- What the processes of this history name, and the decryption alone: it is the error-free run on the files as they were at its start. -/
example : ∃ es w₅ b gs res, Hist S w0 es w₅ ∧
    (∀ i p f, Event.write i p f ∈ es → ∃ ρ nonce argv a, Event.start i ρ nonce argv ∈ es ∧ Asks argv a ∧ p ∈ a.outs) ∧
    (cliProgram S false ρ nonce decArgs).exec (fsLater b) = (gs, res) ∧ w₅.outcome 2 = some res ∧ w₅.fs ['d'] = gs ['d'] := by
  obtain ⟨w₁, w₂, w₃, w₄, w₅, es, es₂, es₃, b, h01, h12, hl, hok, h23, hk, hfs, hm, -, h34, h45, hl₂, -, hnf, res, hres⟩ := history
  have h := ((((Hist.single h01).append h12).append h23).append (Hist.single h34)).append h45
  obtain ⟨gs, -, g2, g3⟩ := C99_alone S w₃ w₄ w₅ 2 ρ nonce decArgs h34 es₃ h45 _ decArgs_ask (by simpa [Args.inputs, Args.outs] using hl₂)
  have g4 := g3 hnf res hres
  rw [hfs] at g4
  exact ⟨_, w₅, b, gs, res, h, (C99_names S w0 w₅ (fun _ => rfl) _ h).2, g4, hres, g2 ['d'] (by simp [Args.outs])⟩

/-- The witness file is kept, as no process has it as an output. -/
example : ∃ es w₁, Hist S w0 es w₁ ∧ es ≠ [] ∧ w₁.fs ['w'] = w0.fs ['w'] := by
  obtain ⟨w₁, n1, p1, q1, -⟩ := started w0 0 rfl (encArgs false)
  refine ⟨_, _, Hist.single n1, by simp, C99_kept S w0 _ (fun _ => rfl) _ (Hist.single n1) ['w'] (by simp) ?_⟩
  intro i ρ' nonce' argv' h a ha
  simp only [List.mem_singleton, Event.start.injEq] at h
  obtain ⟨-, -, -, rfl⟩ := h
  rw [C71_unambiguous _ _ _ ha (encArgs_ask false)]
  simp [Args.outs]

/-- A process that has been started finishes. -/
example : ∃ es w', Hist S w0 es w' ∧ w'.outcome 0 = some (.ok ()) := by
  obtain ⟨symtab, b, -, -, -, -, -, hb, -⟩ := cli_encrypted true
  obtain ⟨w₁, n1, p1, q1, -⟩ := started w0 0 rfl (encArgs false)
  obtain ⟨es', w'', g1, -, g3, -⟩ := C99_finishes S w0 _ _ (Hist.single n1) 0 _ p1
  refine ⟨_, w'', (Hist.single n1).append g1, ?_⟩
  have q1' : w₁.fs = fs := q1
  rw [g3, q1']
  rw [C71_runs S ρ nonce _ _ (encArgs_ask false)]
  have : (cliMain S ρ nonce (.encrypt ['c'] ['s'] ['i'] ['m'] ['o'] false)).exec fs = (fs.set ['o'] b, .ok ()) := hb
  exact congrArg (fun x => some x.2) this

/-- The same for keys: the key file is deleted, `decap` brings it back. -/
example : ∃ es w' k, k.length = 32 ∧ Hist S w0 es w' ∧ Event.other ['k'] none ∈ es ∧ w'.outcome 1 = some (.ok ()) ∧ w'.fs ['d'] = some k := by
  obtain ⟨symtab, b', hf, hag, -, hna, hr, -, hj⟩ := cli_encrypted true
  obtain ⟨ct, k, -, hb⟩ := cap_run
  have he : (cliProgram S false ρ nonce capArgs).exec fs = ((fs.set ['o'] ct).set ['k'] k, .ok ()) := by
    rw [C71_runs S ρ nonce _ _ capArgs_ask]; exact hb
  obtain ⟨w₁, n1, p1, q1, r1⟩ := started w0 0 rfl capArgs
  obtain ⟨es, w₂, h12, hes, o2, q2, r2⟩ := ended w₁ 0 _ p1
  have q1' : w₁.fs = fs := q1
  rw [q1', he] at o2 q2
  have d1 := Next.other (S := S) w₂ ['k'] none
  generalize hv : (⟨w₂.procs, fun q => if q = ['k'] then none else w₂.fs q⟩ : World) = w₃ at d1
  have p3 : w₃.procs 1 = none := by rw [← hv]; change w₂.procs 1 = none; rw [r2 1 (by decide), r1 1 (by decide)]; rfl
  have q3 : w₃.fs ['c'] = some sqData ∧ w₃.fs ['w'] = some wtns := by rw [← hv, q2]; exact ⟨rfl, rfl⟩
  obtain ⟨w₄, n3, p4, q4, r4⟩ := started w₃ 1 p3 uncapArgs
  obtain ⟨es₃, w₅, h45, hes₃, hres, -, -⟩ := ended w₄ 1 _ p4
  generalize ((cliProgram S false ρ nonce uncapArgs).exec w₄.fs).2 = res at hres
  obtain ⟨k', -, hlen, c1, -, -, c4⟩ := C99_kem S w0 w₁ w₂ w₃ w₄ w₅ 0 1 ρ ρ nonce nonce capArgs uncapArgs ['c'] ['s'] ['i'] ['o'] ['k'] (by decide) capArgs_ask
    sq symtab entries hf sq_wf sq_priv hna n1 es h12 (fun e he hb => absurd (hes e he).1 hb) o2 _ (Hist.single d1) (by
      intro e he
      rw [List.mem_singleton] at he; subst he
      change ¬ (['k'] : Path) = ['o']; decide) ['c'] ['w'] ['o'] ['d'] uncapArgs_ask sqData wtns vals q3.1 sqData_cli rfl q3.2 wtns_cli n3 es₃ h45
    (fun e he hb => absurd (hes₃ e he).1 hb)
  have h := c4 (cli_enforced hr hag).1 (fun e he => (hes₃ e he).2) res hres
  subst h
  exact ⟨_, w₅, k', hlen, ((((Hist.single n1).append h12).append (Hist.single d1)).append (Hist.single n3)).append h45, by simp, hres, (c1 hres).2⟩

end Ex

end Zkenc.Props
