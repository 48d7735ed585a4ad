import Verif.Proofs.Commands
/-!
# C50: what the CLI commands do to files, under every I/O error and crash

`Run c fs fs' o`: the command `c` can take the file system `fs` to `fs'` and end with result `o` (`none`: it was stopped), where reads may
fail, writes may fail or be cut after any number of bytes, and the process may stop at every point. `c.exec fs` is the run without
errors.
-/

namespace Zkenc.Props

open Zkenc

variable {G1 G2 GT : Type} [AddCommGroup G1] [Module Fr G1] [AddCommGroup G2] [Module Fr G2] [AddCommGroup GT] [Module Fr GT]
  (S : Sys G1 G2 GT)

/-- The claim for a command that writes one file `out`: every run, however it ends, either leaves all files as they were and does not
report success, or leaves them as they were except that `out` holds the first `n` bytes of the output that the error-free run writes;
and success is reported only if that is the whole output. -/
def WritesOnce (c : Cmd) (out : Path) : Prop :=
  ∀ fs fs' o, Run c fs fs' o →
    (fs' = fs ∧ o ≠ some (.ok ())) ∨
      ∃ b n, c.exec fs = (fs.set out b, .ok ()) ∧ fs' = fs.set out (b.take n) ∧ (o = some (.ok ()) → b.length ≤ n)

/-- **C50** (decap) — the key file is written last and once, only by runs that would succeed. -/
theorem C50_decap (circuit witness ciphertext key : Path) :
    WritesOnce (decapCommand S circuit witness ciphertext key) key := fun _ _ _ h => (lastWrite_decap S ..).runs h

/-- **C50** (encrypt). -/
theorem C50_encrypt (circuit sym input message output : Path) (incl : Bool) (ρ : Rand Fr) (nonce : Bytes) :
    WritesOnce (encryptCommand S circuit sym input message output incl ρ nonce) output := fun _ _ _ h => (lastWrite_encrypt S ..).runs h

/-- **C50** (decrypt). -/
theorem C50_decrypt (circuit witness ciphertext output : Path) :
    WritesOnce (decryptCommand S circuit witness ciphertext output) output := fun _ _ _ h => (lastWrite_decrypt S ..).runs h

/-- **C50** (encap) — two files, ciphertext first: every run leaves the files untouched, or a prefix of the ciphertext and no change of the
key file, or the whole ciphertext and a prefix of the key; success means both are complete. -/
theorem C50_encap (circuit sym input ciphertext key : Path) (ρ : Rand Fr) (fs fs' : FS) (o : Option (Res Unit))
    (h : Run (encapCommand S circuit sym input ciphertext key ρ) fs fs' o) :
    (fs' = fs ∧ o ≠ some (.ok ())) ∨
      ∃ ct k, (encapCommand S circuit sym input ciphertext key ρ).exec fs = ((fs.set ciphertext ct).set key k, .ok ()) ∧
        ((∃ n, fs' = fs.set ciphertext (ct.take n) ∧ o ≠ some (.ok ())) ∨
          ∃ n, fs' = (fs.set ciphertext ct).set key (k.take n) ∧ (o = some (.ok ()) → k.length ≤ n)) :=
  (lastTwo_encap S ..).runs h

/-- The files a command may write. -/
def outputs : Args → List Path
  | .encap _ _ _ ct k => [ct, k]
  | .decap _ _ _ k => [k]
  | .encrypt _ _ _ _ o _ => [o]
  | .decrypt _ _ _ o => [o]

/-- **C50** (no other path) — no run of any command changes a file other than its outputs. -/
theorem C50_only_outputs (a : Args) (ρ : Rand Fr) (nonce : Bytes) (fs fs' : FS) (o : Option (Res Unit))
    (h : Run (cliMain S ρ nonce a) fs fs' o) (q : Path) (hq : q ∉ outputs a) : fs' q = fs q := by
  have one : ∀ {c out}, WritesOnce c out → Run c fs fs' o → q ≠ out → fs' q = fs q := by
    intro c out hc hr hne
    rcases hc _ _ _ hr with ⟨rfl, -⟩ | ⟨b, n, -, rfl, -⟩
    · rfl
    · exact FS.set_other _ hne _
  cases a with
  | encap c s i ct k =>
    simp only [outputs, List.mem_cons, List.not_mem_nil, or_false, not_or] at hq
    rcases C50_encap S _ _ _ _ _ _ _ _ _ h with ⟨rfl, -⟩ | ⟨b, b', -, ⟨n, rfl, -⟩ | ⟨n, rfl, -⟩⟩
    · rfl
    · exact FS.set_other _ hq.1 _
    · rw [FS.set_other _ hq.2, FS.set_other _ hq.1]
  | decap c w ct k =>
    simp only [outputs, List.mem_cons, List.not_mem_nil, or_false] at hq
    exact one (C50_decap S _ _ _ _) h hq
  | encrypt c s i m out np =>
    simp only [outputs, List.mem_cons, List.not_mem_nil, or_false] at hq
    exact one (C50_encrypt S _ _ _ _ _ _ _ _) h hq
  | decrypt c w ct out =>
    simp only [outputs, List.mem_cons, List.not_mem_nil, or_false] at hq
    exact one (C50_decrypt S _ _ _ _) h hq

/-- **C50** (errors before the first write) — if the error-free run of a command fails, then no run of it, however it ends, changes any file
or reports success. -/
theorem C50_failure_changes_nothing (a : Args) (ρ : Rand Fr) (nonce : Bytes) (fs : FS) (e : Fault)
    (he : ((cliMain S ρ nonce a).exec fs).2 = .error e) (fs' : FS) (o : Option (Res Unit))
    (h : Run (cliMain S ρ nonce a) fs fs' o) : fs' = fs ∧ o ≠ some (.ok ()) := by
  have one : ∀ {c out}, WritesOnce c out → (c.exec fs).2 = .error e → Run c fs fs' o → fs' = fs ∧ o ≠ some (.ok ()) := by
    intro c out hc he hr
    rcases hc _ _ _ hr with h | ⟨b, n, hx, -, -⟩
    · exact h
    · rw [hx] at he; cases he
  cases a with
  | encap c s i ct k =>
    rcases C50_encap S _ _ _ _ _ _ _ _ _ h with h | ⟨b, b', hx, -⟩
    · exact h
    · rw [cliMain, hx] at he; cases he
  | decap c w ct k => exact one (C50_decap S _ _ _ _) he h
  | encrypt c s i m out np => exact one (C50_encrypt S _ _ _ _ _ _ _ _) he h
  | decrypt c w ct out => exact one (C50_decrypt S _ _ _ _) he h

/-- **C50** (the danger of encap) — whenever encap succeeds, there is a run of it that reports an error (the key file could not be written)
and leaves the complete ciphertext without its key, and one that is stopped there; the previous content of the key file, if any, is then
unrelated to the ciphertext. -/
theorem C50_encap_ciphertext_without_key (circuit sym input ciphertext key : Path) (ρ : Rand Fr) (fs fs' : FS)
    (h : (encapCommand S circuit sym input ciphertext key ρ).exec fs = (fs', .ok ())) :
    ∃ ct k, fs' = (fs.set ciphertext ct).set key k ∧
      Run (encapCommand S circuit sym input ciphertext key ρ) fs (fs.set ciphertext ct) none ∧
      ∃ e, Run (encapCommand S circuit sym input ciphertext key ρ) fs (fs.set ciphertext ct) (some (.error e)) := by
  have gen : ∀ c, LastTwo ciphertext key c → c.exec fs = (fs', .ok ()) → ∃ ct k, fs' = (fs.set ciphertext ct).set key k ∧
      Run c fs (fs.set ciphertext ct) none ∧ ∃ e, Run c fs (fs.set ciphertext ct) (some (.error e)) := by
    intro c hc h
    induction hc with
    | err e => simp [Cmd.exec] at h
    | read p k e h0 hk ih =>
      simp only [Cmd.exec] at h
      cases hp : fs p with
      | none => rw [hp, h0] at h; simp [Cmd.exec] at h
      | some b =>
        rw [hp] at h
        obtain ⟨ct, k', h1, h2, e, h3⟩ := ih b h
        rw [← hp] at h2 h3
        exact ⟨ct, k', h1, .read h2, e, .read h3⟩
    | write b b' k k' e e' h1 h0 h1' h0' =>
      simp only [Cmd.exec, h1, h1', Prod.mk.injEq, and_true] at h
      refine ⟨b, b', h.symm, .write (by rw [h1]; exact .crash _ _), e', .write ?_⟩
      rw [h1]
      refine .writeError ?_
      rw [h0']
      exact .done _ _
  exact gen _ (lastTwo_encap S ..) h

/-- **C50** (same output path twice) — encap accepts one path for both outputs; then the successful run keeps only the 32-byte key and the
ciphertext is lost. -/
theorem C50_encap_same_path (circuit sym input out : Path) (ρ : Rand Fr) (fs fs' : FS)
    (h : (encapCommand S circuit sym input out out ρ).exec fs = (fs', .ok ())) :
    ∃ k, fs' = fs.set out k ∧ k.length = 32 := by
  obtain ⟨-, -, -, -, -, -, -, -, ct, key, -, -, -, -, -, -, -, -, -, hk⟩ := encapPart_ok S h
  rw [exec_writeFile, exec_writeFile] at hk
  simp only [Cmd.exec, Prod.mk.injEq, and_true] at hk
  exact ⟨key.bytes, by rw [← hk, FS.set_set], key.len⟩

/-- **C50** (the error-free run is possible) — it is one of the runs, so the theorems above speak about it too. -/
theorem C50_exec_is_run (a : Args) (ρ : Rand Fr) (nonce : Bytes) (fs : FS) :
    Run (cliMain S ρ nonce a) fs ((cliMain S ρ nonce a).exec fs).1 (some ((cliMain S ρ nonce a).exec fs).2) := run_exec _ _

/-- **C50** (reported success is the error-free result) — a run that reports success ended with the same files as the error-free run. -/
theorem C50_success_complete (a : Args) (ρ : Rand Fr) (nonce : Bytes) (fs fs' : FS)
    (h : Run (cliMain S ρ nonce a) fs fs' (some (.ok ()))) : (cliMain S ρ nonce a).exec fs = (fs', .ok ()) := by
  have one : ∀ {c out}, WritesOnce c out → Run c fs fs' (some (.ok ())) → c.exec fs = (fs', .ok ()) := by
    intro c out hc hr
    rcases hc _ _ _ hr with ⟨-, h⟩ | ⟨b, n, hx, rfl, hl⟩
    · exact absurd rfl h
    · rw [hx, List.take_of_length_le (hl rfl)]
  cases a with
  | encap c s i ct k =>
    rcases C50_encap S _ _ _ _ _ _ _ _ _ h with ⟨-, h⟩ | ⟨b, b', hx, ⟨n, rfl, hne⟩ | ⟨n, rfl, hl⟩⟩
    · exact absurd rfl h
    · exact absurd rfl hne
    · rw [cliMain, hx, List.take_of_length_le (hl rfl)]
  | decap c w ct k => exact one (C50_decap S _ _ _ _) h
  | encrypt c s i m out np => exact one (C50_encrypt S _ _ _ _ _ _ _ _) h
  | decrypt c w ct out => exact one (C50_decrypt S _ _ _ _) h

end Zkenc.Props
