import Verif.Props.CliErrors
import Verif.Props.EndToEndExactly
import Verif.Props.Commands
/-!
# Property theorems C104: what the receiver is told; runs with I/O errors
-/

namespace Zkenc.CliErrorSpec

open Zkenc

/-- The texts for I/O errors while reading. -/
def readTexts : Args → List String
  | .encap .. => ["Failed to load R1CS circuit", "Failed to read symbol file", "Failed to read input JSON file", "Failed to create circuit"]
  | .decap .. => ["Failed to load R1CS circuit", "Failed to load witness file", "Failed to read ciphertext file", "Failed to create circuit"]
  | .encrypt .. => ["Failed to load R1CS circuit", "Failed to read symbol file", "Failed to read input JSON file", "Failed to create circuit",
      "Failed to read message file"]
  | .decrypt .. => ["Failed to read ciphertext file", "Failed to load R1CS circuit", "Failed to load witness file", "Failed to create circuit"]

/-- The texts for I/O errors while writing. -/
def writeTexts : Args → List String
  | .encap .. => ["Failed to write ciphertext file", "Failed to write key file"]
  | .decap .. => ["Failed to write key file"]
  | .encrypt .. => ["Failed to write combined ciphertext"]
  | .decrypt .. => ["Failed to write decrypted file"]

/-- Both succeed, or both fail in the same way, whatever the texts. -/
def SameKind : Res Unit → Res Unit → Prop
  | .ok (), .ok () => True
  | .error (.err _), .error (.err _) => True
  | .error .panic, .error .panic => True
  | .error .hang, .error .hang => True
  | _, _ => False

end Zkenc.CliErrorSpec

namespace Zkenc.CliErr

open Zkenc CliErrorSpec

/-! ## The same commands up to the texts -/

inductive Same : Cmd → Cmd → Prop
  | done {r r'} : SameKind r r' → Same (.done r) (.done r')
  | read {p k k'} : (∀ o, Same (k o) (k' o)) → Same (.read p k) (.read p k')
  | write {p b k k'} : (∀ o, Same (k o) (k' o)) → Same (.write p b k) (.write p b k')

theorem SameKind.refl : ∀ r, SameKind r r
  | .ok () => trivial
  | .error (.err _) => trivial
  | .error .panic => trivial
  | .error .hang => trivial

theorem SameKind.symm : ∀ {r r'}, SameKind r r' → SameKind r' r
  | .ok (), .ok (), _ => trivial
  | .error (.err _), .error (.err _), _ => trivial
  | .error .panic, .error .panic, _ => trivial
  | .error .hang, .error .hang, _ => trivial

theorem Same.symm {c c' : Cmd} (h : Same c c') : Same c' c := by
  induction h with
  | done h => exact .done (SameKind.symm h)
  | read _ ih => exact .read ih
  | write _ ih => exact .write ih

theorem Same.runs {c c' : Cmd} (h : Same c c') {fs fs' : FS} {o : Option (Res Unit)} (hr : Run c fs fs' o) :
    ∃ o', Run c' fs fs' o' ∧ (∀ r, o = some r → ∃ r', o' = some r' ∧ SameKind r r') ∧ (o = none → o' = none) := by
  induction h generalizing fs fs' o with
  | done hk =>
    cases hr with
    | done => exact ⟨_, .done _ _, fun r h => by cases h; exact ⟨_, rfl, hk⟩, fun h => by cases h⟩
    | crash => exact ⟨_, .crash _ _, fun r h => (by cases h), fun _ => rfl⟩
  | read _ ih =>
    cases hr with
    | crash => exact ⟨_, .crash _ _, fun r h => (by cases h), fun _ => rfl⟩
    | read h => obtain ⟨o', h1, h2⟩ := ih _ h; exact ⟨o', .read h1, h2⟩
    | readError h => obtain ⟨o', h1, h2⟩ := ih _ h; exact ⟨o', .readError h1, h2⟩
  | write _ ih =>
    cases hr with
    | crash => exact ⟨_, .crash _ _, fun r h => (by cases h), fun _ => rfl⟩
    | write h => obtain ⟨o', h1, h2⟩ := ih _ h; exact ⟨o', .write h1, h2⟩
    | writeError h => obtain ⟨o', h1, h2⟩ := ih _ h; exact ⟨o', .writeError h1, h2⟩
    | writePartial n h => obtain ⟨o', h1, h2⟩ := ih _ h; exact ⟨o', .writePartial n h1, h2⟩
    | writeCrash n => exact ⟨_, .writeCrash n, fun r h => (by cases h), fun _ => rfl⟩

theorem Same.refl (c : Cmd) : Same c c := by
  induction c with
  | done r => exact .done (SameKind.refl r)
  | read p k ih => exact .read ih
  | write p b k ih => exact .write ih

/-- The same result up to the text of an error. -/
def SameRes {α : Type} (r r' : Res α) : Prop :=
  (∃ a, r = .ok a ∧ r' = .ok a) ∨ (∃ m m', r = .error (.err m) ∧ r' = .error (.err m')) ∨ (r = .error .panic ∧ r' = .error .panic) ∨
    (r = .error .hang ∧ r' = .error .hang)

theorem SameRes.refl {α : Type} (r : Res α) : SameRes r r := by
  rcases r with (m | _ | _) | a
  · exact .inr (.inl ⟨m, m, rfl, rfl⟩)
  · exact .inr (.inr (.inl ⟨rfl, rfl⟩))
  · exact .inr (.inr (.inr ⟨rfl, rfl⟩))
  · exact .inl ⟨a, rfl, rfl⟩

theorem SameRes.context {α : Type} (r : Res α) (m : String) : SameRes (r.context m) r := by
  rcases r with (m' | _ | _) | a
  · exact .inr (.inl ⟨m, m', rfl, rfl⟩)
  · exact .inr (.inr (.inl ⟨rfl, rfl⟩))
  · exact .inr (.inr (.inr ⟨rfl, rfl⟩))
  · exact .inl ⟨a, rfl, rfl⟩

theorem SameRes.contextDebug {α : Type} (r : Res α) (m : String) : SameRes (r.contextDebug m) r := by
  rcases r with (m' | _ | _) | a
  · exact .inr (.inl ⟨_, m', rfl, rfl⟩)
  · exact .inr (.inr (.inl ⟨rfl, rfl⟩))
  · exact .inr (.inr (.inr ⟨rfl, rfl⟩))
  · exact .inl ⟨a, rfl, rfl⟩

theorem SameRes.ofOption {α : Type} (o : Option α) (m m' : String) : SameRes (Res.ofOption o m) (Res.ofOption o m') := by
  cases o with
  | none => exact .inr (.inl ⟨m, m', rfl, rfl⟩)
  | some a => exact .inl ⟨a, rfl, rfl⟩

theorem SameRes.bind {α β : Type} {r r' : Res α} (h : SameRes r r') (f : α → Res β) : SameRes (r >>= f) (r' >>= f) := by
  rcases h with ⟨a, rfl, rfl⟩ | ⟨m, m', rfl, rfl⟩ | ⟨rfl, rfl⟩ | ⟨rfl, rfl⟩
  · exact SameRes.refl _
  · exact .inr (.inl ⟨m, m', rfl, rfl⟩)
  · exact .inr (.inr (.inl ⟨rfl, rfl⟩))
  · exact .inr (.inr (.inr ⟨rfl, rfl⟩))

theorem SameRes.trans {α : Type} {r r' r'' : Res α} (h : SameRes r r') (h' : SameRes r' r'') : SameRes r r'' := by
  rcases h with ⟨a, rfl, rfl⟩ | ⟨m, m', rfl, rfl⟩ | ⟨rfl, rfl⟩ | ⟨rfl, rfl⟩
  · exact h'
  · rcases h' with ⟨a, h, -⟩ | ⟨m1, m2, -, rfl⟩ | ⟨h, -⟩ | ⟨h, -⟩
    · cases h
    · exact .inr (.inl ⟨m, m2, rfl, rfl⟩)
    · cases h
    · cases h
  · exact h'
  · exact h'

theorem Same.lift {α : Type} {r r' : Res α} {k k' : α → Cmd} (h : SameRes r r') (hk : ∀ a, Same (k a) (k' a)) : Same (Cmd.lift r k) (Cmd.lift r' k') := by
  rcases h with ⟨a, rfl, rfl⟩ | ⟨m, m', rfl, rfl⟩ | ⟨rfl, rfl⟩ | ⟨rfl, rfl⟩
  · exact hk a
  all_goals exact .done trivial

theorem Same.readFile {p : Path} {m m' : String} {k k' : Bytes → Cmd} (hk : ∀ b, Same (k b) (k' b)) : Same (Cmd.readFile p m k) (Cmd.readFile p m' k') := by
  apply Same.read
  intro o
  cases o with
  | none => exact .done trivial
  | some b => exact hk b

theorem Same.readText {p : Path} {m m' : String} {k k' : Bytes → Str → Cmd} (hk : ∀ b s, Same (k b s) (k' b s)) :
    Same (Cmd.readText p m k) (Cmd.readText p m' k') :=
  .readFile fun b => .lift (.ofOption _ _ _) fun _ => hk b _

theorem Same.writeFile {p : Path} {b : Bytes} {m m' : String} {k k' : Cmd} (hk : Same k k') : Same (Cmd.writeFile p b m k) (Cmd.writeFile p b m' k') := by
  apply Same.write
  intro o
  cases o with
  | false => exact .done trivial
  | true => exact hk

/-! ## Runs with I/O errors -/

/-- Only writes are left, with these texts. -/
inductive Writes (W : List String) : Cmd → Prop
  | done (r : Res Unit) : Writes W (.done r)
  | write {p b k} (m : String) (hm : m ∈ W) : k false = .done (Res.fail m) → Writes W (k true) → Writes W (.write p b k)

/-- First reads, then writes. -/
inductive Reads (R W : List String) : Cmd → Prop
  | writes {c} : Writes W c → Reads R W c
  | read {p k} (m : String) (hm : m ∈ R) : k none = .done (Res.fail m) → (∀ b, Reads R W (k (some b))) → Reads R W (.read p k)

theorem Writes.runs {W : List String} {c : Cmd} (h : Writes W c) {fs fs' : FS} {r : Res Unit} (hr : Run c fs fs' (some r)) :
    c.exec fs = (fs', r) ∨ ∃ m ∈ W, r = .error (.err m) := by
  induction h generalizing fs fs' r with
  | done r0 =>
    obtain ⟨rfl, ho⟩ := run_done hr
    rcases ho with ho | ho
    · cases ho
      exact .inl rfl
    · cases ho
  | write m hm hk _ ih =>
    cases hr with
    | write h => exact ih h
    | writeError h =>
      rw [hk] at h
      obtain ⟨rfl, ho⟩ := run_done h
      rcases ho with ho | ho
      · cases ho
        exact .inr ⟨m, hm, rfl⟩
      · cases ho
    | writePartial n h =>
      rw [hk] at h
      obtain ⟨rfl, ho⟩ := run_done h
      rcases ho with ho | ho
      · cases ho
        exact .inr ⟨m, hm, rfl⟩
      · cases ho

theorem Reads.runs {R W : List String} {c : Cmd} (h : Reads R W c) {fs fs' : FS} {r : Res Unit} (hr : Run c fs fs' (some r)) :
    c.exec fs = (fs', r) ∨ (∃ m ∈ R, r = .error (.err m) ∧ fs' = fs) ∨ ∃ m ∈ W, r = .error (.err m) := by
  induction h generalizing fs fs' r with
  | writes h =>
    rcases h.runs hr with h | h
    · exact .inl h
    · exact .inr (.inr h)
  | @read p k m hm hk _ ih =>
    have hnone : Run (k none) fs fs' (some r) → (∃ m ∈ R, r = .error (.err m) ∧ fs' = fs) := by
      intro h
      rw [hk] at h
      obtain ⟨rfl, ho⟩ := run_done h
      rcases ho with ho | ho
      · cases ho
        exact ⟨m, hm, rfl, rfl⟩
      · cases ho
    cases hr with
    | read h =>
      cases hp : fs p with
      | none =>
        rw [hp] at h
        exact .inr (.inl (hnone h))
      | some b =>
        rw [hp] at h
        simp only [Cmd.exec, hp]
        exact ih b h
    | readError h => exact .inr (.inl (hnone h))

theorem Reads.lift {R W : List String} {α : Type} {r : Res α} {k : α → Cmd} (h : ∀ a, Reads R W (k a)) : Reads R W (Cmd.lift r k) := by
  cases r with
  | ok a => exact h a
  | error e => exact .writes (.done _)

theorem Reads.readFile {R W : List String} {p : Path} {m : String} {k : Bytes → Cmd} (hm : m ∈ R) (h : ∀ b, Reads R W (k b)) :
    Reads R W (Cmd.readFile p m k) := .read m hm rfl h

theorem Reads.readText {R W : List String} {p : Path} {m : String} {k : Bytes → Str → Cmd} (hm : m ∈ R) (h : ∀ b s, Reads R W (k b s)) :
    Reads R W (Cmd.readText p m k) := .readFile hm fun b => .lift fun _ => h b _

theorem Writes.writeFile {W : List String} {p : Path} {b : Bytes} {m : String} {k : Cmd} (hm : m ∈ W) (h : Writes W k) :
    Writes W (Cmd.writeFile p b m k) := .write m hm rfl h

end Zkenc.CliErr

namespace Zkenc.Props

open Zkenc Spec InputSpec ContainerSpec CliErrorSpec CliErr

variable {G1 G2 GT : Type} [AddCommGroup G1] [Module Fr G1] [AddCommGroup G2] [Module Fr G2] [AddCommGroup GT] [Module Fr GT]
  (S : Sys G1 G2 GT)

variable {S} in
theorem same_encap {circuit sym input : Path} {ρ : Rand Fr} {k k' : Bytes → Key → Bytes → Cmd} (h : ∀ a b c, Same (k a b c) (k' a b c)) :
    Same (cliEncapPartE S circuit sym input ρ k) (cliEncapPart S circuit sym input ρ k') := by
  unfold cliEncapPartE cliEncapPart
  refine .readFile fun _ => .lift (SameRes.context _ _) fun _ => .readText fun _ _ => .lift (SameRes.context _ _) fun _ => .readText fun _ _ => ?_
  refine .lift ((SameRes.context _ _).trans ((SameRes.ofOption _ _ _).bind _)) fun _ => ?_
  refine .readFile fun _ => .lift (SameRes.context _ _) fun _ => ?_
  refine .lift (SameRes.contextDebug _ _) fun _ => ?_
  exact h _ _ _

variable {S} in
theorem same_decap {circuit witness : Path} {g : (Bytes → Cmd) → Cmd} {m : String} {k k' : Key → Cmd}
    (hg : ∀ k k', (∀ b, Same (k b) (k' b)) → Same (g k) (g k')) (h : ∀ a, Same (k a) (k' a)) :
    Same (cliDecapPartE S circuit witness g m k) (cliDecapPart S circuit witness g k') := by
  unfold cliDecapPartE cliDecapPart
  refine .readFile fun _ => .lift (SameRes.context _ _) fun _ => .readFile fun _ => .lift (SameRes.context _ _) fun _ => ?_
  refine .lift (SameRes.context _ _) fun _ => hg _ _ fun _ => .lift (SameRes.ofOption _ _ _) fun _ => ?_
  refine .readFile fun _ => .lift (SameRes.context _ _) fun _ => ?_
  exact .lift (SameRes.contextDebug _ _) h

theorem same_main (a : Args) (ρ : Rand Fr) (nonce : Bytes) : Same (cliMainE S ρ nonce a) (cliMain S ρ nonce a) := by
  cases a with
  | encap c s i ct k =>
    simp only [cliMainE, cliMain]
    unfold encapCommandE encapCommand
    exact same_encap fun _ _ _ => .writeFile (.writeFile (.refl _))
  | decap c w ct k =>
    simp only [cliMainE, cliMain]
    unfold decapCommandE decapCommand
    exact same_decap (fun _ _ h => .readFile h) fun _ => .writeFile (.refl _)
  | encrypt c s i m o n =>
    simp only [cliMainE, cliMain]
    unfold encryptCommandE encryptCommand
    refine same_encap fun _ _ _ => .readFile fun _ => ?_
    exact .lift (SameRes.context _ _) fun _ => .writeFile (.refl _)
  | decrypt c w ct o =>
    simp only [cliMainE, cliMain]
    unfold decryptCommandE decryptCommand
    refine .readFile fun _ => .lift (SameRes.refl _) fun _ => same_decap (fun _ _ h => h _) fun _ => ?_
    exact .lift (SameRes.context _ _) fun _ => .writeFile (.refl _)

/-- **C104** — the texts are all that is added to the commands of the other properties: the same runs, with the same files and the same kind of end. -/
theorem C104_same (a : Args) (ρ : Rand Fr) (nonce : Bytes) (fs fs' : FS) :
    (∀ r, Run (cliMainE S ρ nonce a) fs fs' (some r) → ∃ r', Run (cliMain S ρ nonce a) fs fs' (some r') ∧ SameKind r r') ∧
    (∀ r, Run (cliMain S ρ nonce a) fs fs' (some r) → ∃ r', Run (cliMainE S ρ nonce a) fs fs' (some r') ∧ SameKind r r') ∧
    (Run (cliMainE S ρ nonce a) fs fs' none ↔ Run (cliMain S ρ nonce a) fs fs' none) := by
  have h := same_main S a ρ nonce
  refine ⟨fun r hr => ?_, fun r hr => ?_, fun hr => ?_, fun hr => ?_⟩
  · obtain ⟨o, h1, h2, -⟩ := h.runs hr
    obtain ⟨r', rfl, h3⟩ := h2 r rfl
    exact ⟨r', h1, h3⟩
  · obtain ⟨o, h1, h2, -⟩ := h.symm.runs hr
    obtain ⟨r', rfl, h3⟩ := h2 r rfl
    exact ⟨r', h1, h3⟩
  · obtain ⟨o, h1, -, h2⟩ := h.runs hr
    rw [h2 rfl] at h1
    exact h1
  · obtain ⟨o, h1, -, h2⟩ := h.symm.runs hr
    rw [h2 rfl] at h1
    exact h1

variable {S} in
theorem reads_encap {R W : List String} {circuit sym input : Path} {ρ : Rand Fr} {k : Bytes → Key → Bytes → Cmd} (h1 : "Failed to load R1CS circuit" ∈ R)
    (h2 : "Failed to read symbol file" ∈ R) (h3 : "Failed to read input JSON file" ∈ R) (h4 : "Failed to create circuit" ∈ R)
    (h : ∀ a b c, Reads R W (k a b c)) : Reads R W (cliEncapPartE S circuit sym input ρ k) := by
  unfold cliEncapPartE
  refine .readFile h1 fun _ => .lift fun _ => .readText h2 fun _ _ => .lift fun _ => ?_
  refine .readText h3 fun _ _ => .lift fun _ => .readFile h4 fun _ => .lift fun _ => .lift fun _ => ?_
  exact h _ _ _

variable {S} in
theorem reads_decap {R W : List String} {circuit witness : Path} {g : (Bytes → Cmd) → Cmd} {m : String} {k : Key → Cmd}
    (h1 : "Failed to load R1CS circuit" ∈ R) (h2 : "Failed to load witness file" ∈ R) (h3 : "Failed to create circuit" ∈ R)
    (hg : ∀ k, (∀ b, Reads R W (k b)) → Reads R W (g k)) (h : ∀ a, Reads R W (k a)) : Reads R W (cliDecapPartE S circuit witness g m k) := by
  unfold cliDecapPartE
  refine .readFile h1 fun _ => .lift fun _ => .readFile h2 fun _ => .lift fun _ => .lift fun _ => hg _ fun _ => ?_
  exact .lift fun _ => .readFile h3 fun _ => .lift fun _ => .lift h

theorem reads_main (a : Args) (ρ : Rand Fr) (nonce : Bytes) : Reads (readTexts a) (writeTexts a) (cliMainE S ρ nonce a) := by
  cases a with
  | encap c s i ct k =>
    simp only [cliMainE]
    unfold encapCommandE
    refine reads_encap ?_ ?_ ?_ ?_ fun _ _ _ => .writes (.writeFile ?_ (.writeFile ?_ (.done _)))
    all_goals simp [readTexts, writeTexts]
  | decap c w ct k =>
    simp only [cliMainE]
    unfold decapCommandE
    refine reads_decap ?_ ?_ ?_ (fun _ h => .readFile ?_ h) fun _ => .writes (.writeFile ?_ (.done _))
    all_goals simp [readTexts, writeTexts]
  | encrypt c s i m o n =>
    simp only [cliMainE]
    unfold encryptCommandE
    refine reads_encap ?_ ?_ ?_ ?_ fun _ _ _ => .readFile ?_ fun _ => .lift fun _ => .writes (.writeFile ?_ (.done _))
    all_goals simp [readTexts, writeTexts]
  | decrypt c w ct o =>
    simp only [cliMainE]
    unfold decryptCommandE
    refine .readFile ?_ fun _ => .lift fun _ => reads_decap ?_ ?_ ?_ (fun _ h => h _) fun _ => .lift fun _ => .writes (.writeFile ?_ (.done _))
    all_goals simp [readTexts, writeTexts]

/-- **C104** (I/O errors) — a run that ends by itself ends like the undisturbed run, with the same files; or with exit status 1 and a text for reading, and no
file was changed; or with exit status 1 and a text for writing. So any other report, and exit status 0, mean what they mean without I/O errors. -/
theorem C104_io (a : Args) (ρ : Rand Fr) (nonce : Bytes) (fs fs' : FS) (r : Res Unit) (hr : Run (cliMainE S ρ nonce a) fs fs' (some r)) :
    (cliMainE S ρ nonce a).exec fs = (fs', r) ∨ (∃ m ∈ readTexts a, ending r = some (reports m) ∧ fs' = fs) ∨
      ∃ m ∈ writeTexts a, ending r = some (reports m) := by
  rcases (reads_main S a ρ nonce).runs hr with h | ⟨m, hm, rfl, h⟩ | ⟨m, hm, rfl⟩
  · exact .inl h
  · exact .inr (.inl ⟨m, hm, rfl, h⟩)
  · exact .inr (.inr ⟨m, hm, rfl⟩)

end Zkenc.Props
