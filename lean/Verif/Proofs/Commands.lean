import Verif.Model.Commands
/-!
# Lemmas about command programs
-/

namespace Zkenc

/-- Reads, then at most one write, to `out`, as the last action. -/
inductive LastWrite (out : Path) : Cmd → Prop
  | err (e : Fault) : LastWrite out (.done (.error e))
  | read (p : Path) (k : Option Bytes → Cmd) (e : Fault) (h0 : k none = .done (.error e)) (h : ∀ b, LastWrite out (k (some b))) :
      LastWrite out (.read p k)
  | write (b : Bytes) (k : Bool → Cmd) (e : Fault) (h1 : k true = .done (.ok ())) (h0 : k false = .done (.error e)) :
      LastWrite out (.write out b k)

/-- Reads, then at most two writes, to `o1` and then `o2`, as the last actions. -/
inductive LastTwo (o1 o2 : Path) : Cmd → Prop
  | err (e : Fault) : LastTwo o1 o2 (.done (.error e))
  | read (p : Path) (k : Option Bytes → Cmd) (e : Fault) (h0 : k none = .done (.error e)) (h : ∀ b, LastTwo o1 o2 (k (some b))) :
      LastTwo o1 o2 (.read p k)
  | write (b b' : Bytes) (k k' : Bool → Cmd) (e e' : Fault) (h1 : k true = .write o2 b' k') (h0 : k false = .done (.error e))
      (h1' : k' true = .done (.ok ())) (h0' : k' false = .done (.error e')) : LastTwo o1 o2 (.write o1 b k)

theorem LastWrite.lift {out : Path} {α : Type} {r : Res α} {k : α → Cmd} (h : ∀ a, r = .ok a → LastWrite out (k a)) :
    LastWrite out (Cmd.lift r k) := by
  cases r with
  | ok a => exact h a rfl
  | error e => exact .err e

theorem LastWrite.readFile {out p : Path} {msg : String} {k : Bytes → Cmd} (h : ∀ b, LastWrite out (k b)) :
    LastWrite out (Cmd.readFile p msg k) := .read _ _ _ rfl h

theorem LastWrite.readText {out p : Path} {msg : String} {k : Bytes → Str → Cmd} (h : ∀ b s, LastWrite out (k b s)) :
    LastWrite out (Cmd.readText p msg k) := .readFile fun _ => .lift fun _ _ => h _ _

theorem LastWrite.writeFile {out : Path} {b : Bytes} {msg : String} :
    LastWrite out (Cmd.writeFile out b msg (.done (.ok ()))) := .write _ _ _ rfl rfl

theorem LastTwo.lift {o1 o2 : Path} {α : Type} {r : Res α} {k : α → Cmd} (h : ∀ a, r = .ok a → LastTwo o1 o2 (k a)) :
    LastTwo o1 o2 (Cmd.lift r k) := by
  cases r with
  | ok a => exact h a rfl
  | error e => exact .err e

theorem LastTwo.readFile {o1 o2 p : Path} {msg : String} {k : Bytes → Cmd} (h : ∀ b, LastTwo o1 o2 (k b)) :
    LastTwo o1 o2 (Cmd.readFile p msg k) := .read _ _ _ rfl h

theorem LastTwo.readText {o1 o2 p : Path} {msg : String} {k : Bytes → Str → Cmd} (h : ∀ b s, LastTwo o1 o2 (k b s)) :
    LastTwo o1 o2 (Cmd.readText p msg k) := .readFile fun _ => .lift fun _ _ => h _ _

theorem LastTwo.writeFile {o1 o2 : Path} {b b' : Bytes} {msg msg' : String} :
    LastTwo o1 o2 (Cmd.writeFile o1 b msg (Cmd.writeFile o2 b' msg' (.done (.ok ())))) := .write _ _ _ _ _ _ rfl rfl rfl rfl

theorem run_done {r : Res Unit} {fs fs' : FS} {o : Option (Res Unit)} (h : Run (.done r) fs fs' o) :
    fs' = fs ∧ (o = some r ∨ o = none) := by
  cases h with
  | done => exact ⟨rfl, Or.inl rfl⟩
  | crash => exact ⟨rfl, Or.inr rfl⟩

theorem run_error {e : Fault} {fs fs' : FS} {o : Option (Res Unit)} (h : Run (.done (.error e)) fs fs' o) :
    fs' = fs ∧ o ≠ some (.ok ()) := by
  obtain ⟨h1, rfl | rfl⟩ := run_done h <;> exact ⟨h1, by simp⟩

theorem take_all (b : Bytes) : b.take b.length = b := List.take_length

theorem LastWrite.runs {out : Path} {c : Cmd} (hc : LastWrite out c) {fs fs' : FS} {o : Option (Res Unit)} (h : Run c fs fs' o) :
    (fs' = fs ∧ o ≠ some (.ok ())) ∨
      ∃ b n, c.exec fs = (fs.set out b, .ok ()) ∧ fs' = fs.set out (b.take n) ∧ (o = some (.ok ()) → b.length ≤ n) := by
  induction hc with
  | err e => exact Or.inl (run_error h)
  | read p k e h0 hk ih =>
    cases h with
    | crash => exact Or.inl ⟨rfl, by simp⟩
    | read h =>
      cases hp : fs p with
      | none => rw [hp, h0] at h; exact Or.inl (run_error h)
      | some b =>
        rw [hp] at h
        have := ih b h
        simpa only [Cmd.exec, hp] using this
    | readError h => rw [h0] at h; exact Or.inl (run_error h)
  | write b k e h1 h0 =>
    have hx : (Cmd.write out b k).exec fs = (fs.set out b, .ok ()) := by simp only [Cmd.exec, h1]
    cases h with
    | crash => exact Or.inl ⟨rfl, by simp⟩
    | write h =>
      rw [h1] at h
      obtain ⟨rfl, -⟩ := run_done h
      exact Or.inr ⟨b, b.length, hx, by rw [take_all], fun _ => Nat.le_refl _⟩
    | writeError h => rw [h0] at h; exact Or.inl (run_error h)
    | writePartial n h =>
      rw [h0] at h
      obtain ⟨rfl, ho⟩ := run_error h
      exact Or.inr ⟨b, n, hx, rfl, fun h => absurd h ho⟩
    | writeCrash n => exact Or.inr ⟨b, n, hx, rfl, by simp⟩

theorem LastTwo.runs {o1 o2 : Path} {c : Cmd} (hc : LastTwo o1 o2 c) {fs fs' : FS} {o : Option (Res Unit)} (h : Run c fs fs' o) :
    (fs' = fs ∧ o ≠ some (.ok ())) ∨
      ∃ b b', c.exec fs = ((fs.set o1 b).set o2 b', .ok ()) ∧
        ((∃ n, fs' = fs.set o1 (b.take n) ∧ o ≠ some (.ok ())) ∨
          ∃ n, fs' = (fs.set o1 b).set o2 (b'.take n) ∧ (o = some (.ok ()) → b'.length ≤ n)) := by
  induction hc with
  | err e => exact Or.inl (run_error h)
  | read p k e h0 hk ih =>
    cases h with
    | crash => exact Or.inl ⟨rfl, by simp⟩
    | read h =>
      cases hp : fs p with
      | none => rw [hp, h0] at h; exact Or.inl (run_error h)
      | some b =>
        rw [hp] at h
        have := ih b h
        simpa only [Cmd.exec, hp] using this
    | readError h => rw [h0] at h; exact Or.inl (run_error h)
  | write b b' k k' e e' h1 h0 h1' h0' =>
    have hx : (Cmd.write o1 b k).exec fs = ((fs.set o1 b).set o2 b', .ok ()) := by simp only [Cmd.exec, h1, h1']
    cases h with
    | crash => exact Or.inl ⟨rfl, by simp⟩
    | writeError h => rw [h0] at h; exact Or.inl (run_error h)
    | writePartial n h =>
      rw [h0] at h
      obtain ⟨rfl, ho⟩ := run_error h
      exact Or.inr ⟨b, b', hx, Or.inl ⟨n, rfl, ho⟩⟩
    | writeCrash n => exact Or.inr ⟨b, b', hx, Or.inl ⟨n, rfl, by simp⟩⟩
    | write h =>
      rw [h1] at h
      refine Or.inr ⟨b, b', hx, ?_⟩
      cases h with
      | crash => exact Or.inl ⟨b.length, by rw [take_all], by simp⟩
      | write h =>
        rw [h1'] at h
        obtain ⟨rfl, -⟩ := run_done h
        exact Or.inr ⟨b'.length, by rw [take_all], fun _ => Nat.le_refl _⟩
      | writeError h =>
        rw [h0'] at h
        obtain ⟨rfl, ho⟩ := run_error h
        exact Or.inl ⟨b.length, by rw [take_all], ho⟩
      | writePartial n h =>
        rw [h0'] at h
        obtain ⟨rfl, ho⟩ := run_error h
        exact Or.inr ⟨n, rfl, fun h => absurd h ho⟩
      | writeCrash n => exact Or.inr ⟨n, rfl, by simp⟩

/-- The error-free run is one of the runs. -/
theorem run_exec (c : Cmd) (fs : FS) : Run c fs (c.exec fs).1 (some (c.exec fs).2) := by
  induction c generalizing fs with
  | done r => exact .done r fs
  | read p k ih => exact .read (ih (fs p) fs)
  | write p b k ih => exact .write (ih true _)

theorem FS.set_set (fs : FS) (p : Path) (b b' : Bytes) : (fs.set p b).set p b' = fs.set p b' := by
  funext q; unfold FS.set; split <;> rfl

theorem FS.set_same (fs : FS) (p : Path) (b : Bytes) : (fs.set p b) p = some b := by simp [FS.set]

theorem FS.set_other (fs : FS) {p q : Path} (h : q ≠ p) (b : Bytes) : (fs.set p b) q = fs q := by simp [FS.set, h]

/-! ## Execution of the pieces -/

theorem exec_lift_ok {α : Type} {r : Res α} {k : α → Cmd} {fs fs' : FS} :
    (Cmd.lift r k).exec fs = (fs', .ok ()) ↔ ∃ a, r = .ok a ∧ (k a).exec fs = (fs', .ok ()) := by
  cases r with
  | ok a => simp [Cmd.lift]
  | error e => simp [Cmd.lift, Cmd.exec]

theorem exec_readFile_ok {p : Path} {msg : String} {k : Bytes → Cmd} {fs fs' : FS} :
    (Cmd.readFile p msg k).exec fs = (fs', .ok ()) ↔ ∃ b, fs p = some b ∧ (k b).exec fs = (fs', .ok ()) := by
  unfold Cmd.readFile
  simp only [Cmd.exec]
  cases fs p with
  | none => simp [Cmd.exec, Res.fail]
  | some b => simp

theorem ofOption_eq_ok {α : Type} {o : Option α} {m : String} {a : α} : Res.ofOption o m = .ok a ↔ o = some a := by
  cases o <;> simp [Res.ofOption, Res.fail]

theorem exec_readText_ok {p : Path} {msg : String} {k : Bytes → Str → Cmd} {fs fs' : FS} :
    (Cmd.readText p msg k).exec fs = (fs', .ok ()) ↔
      ∃ b s, fs p = some b ∧ utf8Dec b = some s ∧ (k b s.toList).exec fs = (fs', .ok ()) := by
  unfold Cmd.readText
  simp only [exec_readFile_ok, exec_lift_ok, ofOption_eq_ok]
  constructor
  · rintro ⟨b, h1, s, h2, h3⟩; exact ⟨b, s, h1, h2, h3⟩
  · rintro ⟨b, s, h1, h2, h3⟩; exact ⟨b, h1, s, h2, h3⟩

theorem exec_writeFile {p : Path} {b : Bytes} {msg : String} {k : Cmd} {fs : FS} :
    (Cmd.writeFile p b msg k).exec fs = k.exec (fs.set p b) := by
  simp [Cmd.writeFile, Cmd.exec]

section
variable {G1 G2 GT : Type} [AddCommGroup G1] [Module Fr G1] [AddCommGroup G2] [Module Fr G2] [AddCommGroup GT] [Module Fr GT]
  (S : Sys G1 G2 GT)

theorem LastWrite.encapPart {out circuit sym input : Path} {ρ : Rand Fr} {k : Bytes → Key → Bytes → Cmd}
    (h : ∀ a b c, LastWrite out (k a b c)) : LastWrite out (cliEncapPart S circuit sym input ρ k) :=
  .readFile fun _ => .lift fun _ _ => .readText fun _ _ => .lift fun _ _ => .readText fun _ _ => .lift fun _ _ =>
    .readFile fun _ => .lift fun _ _ => .lift fun _ _ => h _ _ _

theorem LastTwo.encapPart {o1 o2 circuit sym input : Path} {ρ : Rand Fr} {k : Bytes → Key → Bytes → Cmd}
    (h : ∀ a b c, LastTwo o1 o2 (k a b c)) : LastTwo o1 o2 (cliEncapPart S circuit sym input ρ k) :=
  .readFile fun _ => .lift fun _ _ => .readText fun _ _ => .lift fun _ _ => .readText fun _ _ => .lift fun _ _ =>
    .readFile fun _ => .lift fun _ _ => .lift fun _ _ => h _ _ _

theorem LastWrite.decapPart {out circuit witness : Path} {getCt : (Bytes → Cmd) → Cmd} {k : Key → Cmd}
    (hg : ∀ k, (∀ b, LastWrite out (k b)) → LastWrite out (getCt k)) (h : ∀ a, LastWrite out (k a)) :
    LastWrite out (cliDecapPart S circuit witness getCt k) :=
  .readFile fun _ => .lift fun _ _ => .readFile fun _ => .lift fun _ _ => .lift fun _ _ => hg _ fun _ => .lift fun _ _ =>
    .readFile fun _ => .lift fun _ _ => .lift fun _ _ => h _

theorem lastTwo_encap (circuit sym input ciphertext key : Path) (ρ : Rand Fr) :
    LastTwo ciphertext key (encapCommand S circuit sym input ciphertext key ρ) :=
  .encapPart S fun _ _ _ => .writeFile

theorem lastWrite_decap (circuit witness ciphertext key : Path) : LastWrite key (decapCommand S circuit witness ciphertext key) :=
  .decapPart S (fun _ h => .readFile h) fun _ => .writeFile

theorem lastWrite_encrypt (circuit sym input message output : Path) (incl : Bool) (ρ : Rand Fr) (nonce : Bytes) :
    LastWrite output (encryptCommand S circuit sym input message output incl ρ nonce) :=
  .encapPart S fun _ _ _ => .readFile fun _ => .lift fun _ _ => .writeFile

theorem lastWrite_decrypt (circuit witness ciphertext output : Path) :
    LastWrite output (decryptCommand S circuit witness ciphertext output) :=
  .readFile fun _ => .lift fun _ _ => .decapPart S (fun _ h => h _) fun _ => .lift fun _ _ => .writeFile

/-- What a successful encapsulation prefix of a command did. -/
theorem encapPart_ok {circuit sym input : Path} {ρ : Rand Fr} {k : Bytes → Key → Bytes → Cmd} {fs fs' : FS}
    (h : (cliEncapPart S circuit sym input ρ k).exec fs = (fs', .ok ())) :
    ∃ data r symB symText jsonB jsonText json w ct key, fs circuit = some data ∧ cliParseR1cs S.lim data = .ok r ∧
      fs sym = some symB ∧ utf8Dec symB = some symText ∧ fs input = some jsonB ∧ utf8Dec jsonB = some jsonText ∧
      S.serdeParse jsonText.toList = some json ∧ cliAssign S.hash r.nPubIn symText.toList json = .ok w ∧
      encap S.P S.dom (cliCircuit r w) ρ = .ok (ct, key) ∧ (k (encCiphertext S.c1 S.c2 ct) key jsonB).exec fs = (fs', .ok ()) := by
  unfold cliEncapPart at h
  simp only [exec_readFile_ok, exec_lift_ok, exec_readText_ok, Res.bind_eq_ok, ofOption_eq_ok] at h
  obtain ⟨data, h1, r, h2, symB, symText, h3, h4, wm, h5, jsonB, jsonText, h6, h7, inputs, ⟨json, h8, h9⟩, data', h10, r', h11,
    ⟨ct, key⟩, h12, h13⟩ := h
  rw [h1] at h10
  cases h10
  rw [h2] at h11
  cases h11
  refine ⟨data, r, symB, symText, jsonB, jsonText, json, _, ct, key, h1, h2, h3, h4, h6, h7, h8, ?_, h12, h13⟩
  simp only [cliAssign, h5, h9, Res.ok_bind]

/-- Conversely. -/
theorem encapPart_of {circuit sym input : Path} {ρ : Rand Fr} {k : Bytes → Key → Bytes → Cmd} {fs : FS} {data : Bytes} {r : R1csFile}
    {symB jsonB : Bytes} {symText jsonText : String} {json : Json} {w : WireMap} {ct : Ciphertext Fr G1 G2} {key : Key}
    (h1 : fs circuit = some data) (h2 : cliParseR1cs S.lim data = .ok r) (h3 : fs sym = some symB) (h4 : utf8Dec symB = some symText)
    (h5 : fs input = some jsonB) (h6 : utf8Dec jsonB = some jsonText) (h7 : S.serdeParse jsonText.toList = some json)
    (h8 : cliAssign S.hash r.nPubIn symText.toList json = .ok w) (h9 : encap S.P S.dom (cliCircuit r w) ρ = .ok (ct, key)) :
    (cliEncapPart S circuit sym input ρ k).exec fs = (k (encCiphertext S.c1 S.c2 ct) key jsonB).exec fs := by
  unfold cliAssign at h8
  obtain ⟨wm, h10, h11⟩ := Res.bind_eq_ok.1 h8
  obtain ⟨inputs, h12, h13⟩ := Res.bind_eq_ok.1 h11
  cases h13
  simp only [cliEncapPart, Cmd.readFile, Cmd.readText, Cmd.exec, h1, h2, h3, h4, h5, h6, h7, h10, h12, Cmd.lift, Res.ofOption, Res.ok_bind]
  simp only [h9]

/-- What a successful decapsulation did. -/
theorem decapPart_exec {circuit witness : Path} {getCt : (Bytes → Cmd) → Cmd} {k : Key → Cmd} {fs : FS} {data wdata ctB : Bytes}
    {r : R1csFile} {wf : WitnessFile} {vals : List Fr} {ct : Ciphertext Fr G1 G2} {key : Key}
    (h1 : fs circuit = some data) (h2 : cliParseR1cs S.lim data = .ok r) (h3 : fs witness = some wdata)
    (h4 : cliParseWtns wdata = .ok wf) (h5 : wf.toFieldElements = .ok vals) (h6 : ∀ k, (getCt k).exec fs = (k ctB).exec fs)
    (h7 : decCiphertext S.c1 S.c2 ctB = some ct) (h8 : decap S.P (cliCircuit r (fullWires vals)) ct = .ok key) :
    (cliDecapPart S circuit witness getCt k).exec fs = (k key).exec fs := by
  simp only [cliDecapPart, Cmd.readFile, Cmd.exec, h1, h2, h3, h4, h5, h6, h7, h8, Cmd.lift, Res.ofOption]

theorem decapPart_ok {circuit witness : Path} {getCt : (Bytes → Cmd) → Cmd} {k : Key → Cmd} {fs fs' : FS} {ctB : Bytes}
    (hg : ∀ k, (getCt k).exec fs = (k ctB).exec fs)
    (h : (cliDecapPart S circuit witness getCt k).exec fs = (fs', .ok ())) :
    ∃ data r wdata wf vals ct key, fs circuit = some data ∧ cliParseR1cs S.lim data = .ok r ∧ fs witness = some wdata ∧
      cliParseWtns wdata = .ok wf ∧ wf.toFieldElements = .ok vals ∧
      decCiphertext S.c1 S.c2 ctB = some ct ∧ decap S.P (cliCircuit r (fullWires vals)) ct = .ok key ∧ (k key).exec fs = (fs', .ok ()) := by
  unfold cliDecapPart at h
  simp only [exec_readFile_ok, exec_lift_ok, hg, ofOption_eq_ok] at h
  obtain ⟨data, h1, r, h2, wdata, h3, wf, h4, vals, h5, ct, h7, data', h8, r', h9, key, h10, h11⟩ := h
  rw [h1] at h8
  cases h8
  rw [h2] at h9
  cases h9
  exact ⟨data, r, wdata, wf, vals, ct, key, h1, h2, h3, h4, h5, h7, h10, h11⟩

end

end Zkenc
