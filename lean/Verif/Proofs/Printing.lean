import Verif.Model.Printing
import Verif.Proofs.Commands
/-!
# Lemmas about printing commands
-/

namespace Zkenc

@[simp] theorem silent_done (r : Res Unit) : (PCmd.done r).silent = .done r := rfl
@[simp] theorem silent_println (s : Str) (k : PCmd) : (PCmd.println s k).silent = k.silent := rfl

@[simp] theorem silent_lift {α : Type} (r : Res α) (k : α → PCmd) : (PCmd.lift r k).silent = Cmd.lift r fun a => (k a).silent := by
  cases r <;> rfl

@[simp] theorem silent_readFile (p : Path) (msg : String) (k : Bytes → PCmd) :
    (PCmd.readFile p msg k).silent = Cmd.readFile p msg fun b => (k b).silent := by
  simp only [PCmd.readFile, Cmd.readFile, PCmd.silent]
  congr 1
  funext o
  cases o <;> rfl

@[simp] theorem silent_readText (p : Path) (msg : String) (k : Bytes → Str → PCmd) :
    (PCmd.readText p msg k).silent = Cmd.readText p msg fun b s => (k b s).silent := by
  simp [PCmd.readText, Cmd.readText]

@[simp] theorem silent_writeFile (p : Path) (b : Bytes) (msg : String) (k : PCmd) :
    (PCmd.writeFile p b msg k).silent = Cmd.writeFile p b msg k.silent := by
  simp only [PCmd.writeFile, Cmd.writeFile, PCmd.silent]
  congr 1
  funext o
  cases o <;> rfl

theorem lift_ok {α : Type} (a : α) (k : α → Cmd) : Cmd.lift (.ok a) k = k a := rfl

theorem lift_bind {α β : Type} (r : Res α) (f : α → Res β) (k : β → Cmd) :
    Cmd.lift (r >>= f) k = Cmd.lift r fun a => Cmd.lift (f a) k := by
  cases r <;> rfl

section
variable {G1 G2 GT : Type} [AddCommGroup G1] [Module Fr G1] [AddCommGroup G2] [Module Fr G2] [AddCommGroup GT] [Module Fr GT]
  (S : Sys G1 G2 GT)

theorem silent_encap (circuit sym input ciphertext key : Path) (ρ : Rand Fr) :
    (pEncap S circuit sym input ciphertext key ρ).silent = encapCommand S circuit sym input ciphertext key ρ := by
  simp only [pEncap, pLoad, encapCommand, cliEncapPart, silent_println, silent_readFile, silent_readText, silent_lift, silent_writeFile, silent_done]

theorem silent_decap (circuit witness ciphertext key : Path) :
    (pDecap S circuit witness ciphertext key).silent = decapCommand S circuit witness ciphertext key := by
  simp only [pDecap, decapCommand, cliDecapPart, silent_println, silent_readFile, silent_readText, silent_lift, silent_writeFile, silent_done]

theorem silent_encrypt (circuit sym input message output : Path) (incl : Bool) (ρ : Rand Fr) (nonce : Bytes) :
    (pEncrypt S circuit sym input message output incl ρ nonce).silent = encryptCommand S circuit sym input message output incl ρ nonce := by
  simp only [pEncrypt, pLoad, encryptCommand, cliEncapPart, silent_println, silent_readFile, silent_readText, silent_lift, silent_writeFile, silent_done]

theorem splitCli_eq (b : Bytes) : splitCli b = (splitHead b >>= fun h => if h.1 = 1 then
      splitPublic b h.2.1 >>= fun p => idxRange b (5 + h.2.1 + 4 + p.1) b.length >>= fun m => .ok ⟨h.1, h.2.2, some p.2, m⟩
    else idxRange b (5 + h.2.1) b.length >>= fun m => .ok ⟨h.1, h.2.2, none, m⟩) := by
  unfold splitCli splitHead splitPublic
  split
  · rfl
  · cases idx b 0 with
    | error e => rfl
    | ok f =>
      cases idxU32 b 1 with
      | error e => rfl
      | ok n =>
        simp only [Res.ok_bind]
        split
        · rfl
        · cases idxRange b 5 (5 + n) with
          | error e => rfl
          | ok w =>
            simp only [Res.ok_bind]
            split
            · split
              · rfl
              · cases idxU32 b (5 + n) with
                | error e => rfl
                | ok q =>
                  simp only [Res.ok_bind]
                  split
                  · rfl
                  · cases idxRange b (5 + n + 4) (5 + n + 4 + q) with
                    | error e => rfl
                    | ok p => rfl
            · rfl

theorem silent_decrypt (circuit witness ciphertext output : Path) :
    (pDecrypt S circuit witness ciphertext output).silent = decryptCommand S circuit witness ciphertext output := by
  unfold pDecrypt decryptCommand
  simp only [silent_println, silent_readFile, silent_lift, splitCli_eq, lift_bind]
  congr 1
  funext b
  congr 1
  funext h
  split
  · simp only [lift_bind, silent_lift, silent_println, silent_readFile, silent_writeFile, silent_done, pDecryptRest, cliDecapPart, lift_ok]
  · simp only [lift_bind, silent_lift, silent_println, silent_readFile, silent_writeFile, silent_done, pDecryptRest, cliDecapPart, lift_ok]

theorem silent_main (ρ : Rand Fr) (nonce : Bytes) (a : Args) : (pMain S ρ nonce a).silent = cliMain S ρ nonce a := by
  cases a with
  | encap c s i ct k => exact silent_encap S ..
  | decap c w ct k => exact silent_decap S ..
  | encrypt c s i m o np => exact silent_encrypt S ..
  | decrypt c w ct o => exact silent_decrypt S ..

end

theorem exec_silent (c : PCmd) (fs : FS) : c.silent.exec fs = ((c.exec fs).1, (c.exec fs).2.2) := by
  induction c generalizing fs with
  | done r => rfl
  | print s k ih => simp only [PCmd.silent, PCmd.exec, ih]
  | read p k ih => simp only [PCmd.silent, PCmd.exec, Cmd.exec, ih]
  | write p b k ih => simp only [PCmd.silent, PCmd.exec, Cmd.exec, ih]

theorem PRun.toRun {c : PCmd} {fs fs' : FS} {out : Str} {o : Option (Res Unit)} (h : PRun c fs fs' out o) : Run c.silent fs fs' o := by
  induction h with
  | done r fs => exact .done r fs
  | crash c fs => exact .crash _ _
  | print _ ih => exact ih
  | printFails n => exact .crash _ _
  | read _ ih => exact .read ih
  | readError _ ih => exact .readError ih
  | write _ ih => exact .write ih
  | writeError _ ih => exact .writeError ih
  | writePartial n _ ih => exact .writePartial n ih
  | writeCrash n => exact .writeCrash n

theorem Run.toPRun {c : PCmd} : ∀ {fs fs' : FS} {o : Option (Res Unit)}, Run c.silent fs fs' o → ∃ out, PRun c fs fs' out o := by
  induction c with
  | done r =>
    intro fs fs' o h
    cases h with
    | done => exact ⟨_, .done _ _⟩
    | crash => exact ⟨_, .crash _ _⟩
  | print s k ih =>
    intro fs fs' o h
    obtain ⟨out, h⟩ := ih h
    exact ⟨_, .print h⟩
  | read p k ih =>
    intro fs fs' o h
    cases h with
    | crash => exact ⟨_, .crash _ _⟩
    | read h => obtain ⟨out, h⟩ := ih _ h; exact ⟨_, .read h⟩
    | readError h => obtain ⟨out, h⟩ := ih _ h; exact ⟨_, .readError h⟩
  | write p b k ih =>
    intro fs fs' o h
    cases h with
    | crash => exact ⟨_, .crash _ _⟩
    | write h => obtain ⟨out, h⟩ := ih _ h; exact ⟨_, .write h⟩
    | writeError h => obtain ⟨out, h⟩ := ih _ h; exact ⟨_, .writeError h⟩
    | writePartial n h => obtain ⟨out, h⟩ := ih _ h; exact ⟨_, .writePartial n h⟩
    | writeCrash n => exact ⟨_, .writeCrash n⟩

theorem prun_exec (c : PCmd) (fs : FS) : PRun c fs (c.exec fs).1 (c.exec fs).2.1 (some (c.exec fs).2.2) := by
  induction c generalizing fs with
  | done r => exact .done r fs
  | print s k ih => exact .print (ih fs)
  | read p k ih => exact .read (ih (fs p) fs)
  | write p b k ih => exact .write (ih true _)

/-- A command that stops at the first file operation that fails. -/
inductive FailStops : PCmd → Prop
  | done (r : Res Unit) : FailStops (.done r)
  | print (s : Str) (k : PCmd) (h : FailStops k) : FailStops (.print s k)
  | read (p : Path) (k : Option Bytes → PCmd) (e : Fault) (h0 : k none = .done (.error e)) (h : ∀ b, FailStops (k (some b))) : FailStops (.read p k)
  | write (p : Path) (b : Bytes) (k : Bool → PCmd) (e : Fault) (h0 : k false = .done (.error e)) (h : FailStops (k true)) : FailStops (.write p b k)

theorem FailStops.lift {α : Type} {r : Res α} {k : α → PCmd} (h : ∀ a, FailStops (k a)) : FailStops (PCmd.lift r k) := by
  cases r with
  | ok a => exact h a
  | error e => exact .done _

theorem FailStops.readFile {p : Path} {msg : String} {k : Bytes → PCmd} (h : ∀ b, FailStops (k b)) : FailStops (PCmd.readFile p msg k) := .read _ _ _ rfl h

theorem FailStops.readText {p : Path} {msg : String} {k : Bytes → Str → PCmd} (h : ∀ b s, FailStops (k b s)) : FailStops (PCmd.readText p msg k) :=
  .readFile fun _ => .lift fun _ => h _ _

theorem FailStops.writeFile {p : Path} {b : Bytes} {msg : String} {k : PCmd} (h : FailStops k) : FailStops (PCmd.writeFile p b msg k) := .write _ _ _ _ rfl h

theorem FailStops.println {s : Str} {k : PCmd} (h : FailStops k) : FailStops (PCmd.println s k) := .print _ _ h

theorem prun_error {e : Fault} {fs fs' : FS} {out : Str} {o : Option (Res Unit)} (h : PRun (.done (.error e)) fs fs' out o) :
    fs' = fs ∧ out = [] ∧ o ≠ some (.ok ()) := by
  cases h <;> simp

theorem FailStops.runs {c : PCmd} (hc : FailStops c) : ∀ {fs fs' : FS} {out : Str} {o : Option (Res Unit)}, PRun c fs fs' out o →
    out <+: (c.exec fs).2.1 ∧ (o = some (.ok ()) → out = (c.exec fs).2.1) := by
  induction hc with
  | done r =>
    intro fs fs' out o h
    cases h <;> simp [PCmd.exec]
  | print s k _ ih =>
    intro fs fs' out o h
    cases h with
    | crash => simp [PCmd.exec]
    | print h =>
      obtain ⟨h1, h2⟩ := ih h
      simp only [PCmd.exec]
      exact ⟨(List.prefix_append_right_inj s).2 h1, fun ho => by rw [h2 ho]⟩
    | printFails n => exact ⟨(List.take_prefix n s).trans (List.prefix_append _ _), by simp⟩
  | read p k e h0 _ ih =>
    intro fs fs' out o h
    cases h with
    | crash => simp
    | read h =>
      simp only [PCmd.exec]
      cases hp : fs p with
      | none =>
        rw [hp, h0] at h
        obtain ⟨-, rfl, ho⟩ := prun_error h
        exact ⟨List.nil_prefix, fun h => absurd h ho⟩
      | some b => rw [hp] at h; exact ih b h
    | readError h =>
      rw [h0] at h
      obtain ⟨-, rfl, ho⟩ := prun_error h
      exact ⟨List.nil_prefix, fun h => absurd h ho⟩
  | write p b k e h0 _ ih =>
    intro fs fs' out o h
    cases h with
    | crash => simp
    | write h => exact ih h
    | writeError h =>
      rw [h0] at h
      obtain ⟨-, rfl, ho⟩ := prun_error h
      exact ⟨List.nil_prefix, fun h => absurd h ho⟩
    | writePartial n h =>
      rw [h0] at h
      obtain ⟨-, rfl, ho⟩ := prun_error h
      exact ⟨List.nil_prefix, fun h => absurd h ho⟩
    | writeCrash n => simp

section
variable {G1 G2 GT : Type} [AddCommGroup G1] [Module Fr G1] [AddCommGroup G2] [Module Fr G2] [AddCommGroup GT] [Module Fr GT]
  (S : Sys G1 G2 GT)

macro "stops" : tactic => `(tactic| repeat first
  | exact FailStops.done _
  | apply FailStops.println
  | apply FailStops.writeFile
  | (apply FailStops.readFile; intro _)
  | (apply FailStops.readText; intro _ _)
  | (apply FailStops.lift; intro _))

theorem stops_load {circuit sym input : Path} {k : R1csFile → AMap Nat → AMap Fr → Bytes → PCmd} (h : ∀ a b c d, FailStops (k a b c d)) :
    FailStops (pLoad S circuit sym input k) := by
  unfold pLoad
  stops
  exact h _ _ _ _

theorem stops_rest (circuit witness output : Path) (w enc : Bytes) : FailStops (pDecryptRest S circuit witness output w enc) := by
  unfold pDecryptRest
  stops

theorem stops_main (ρ : Rand Fr) (nonce : Bytes) (a : Args) : FailStops (pMain S ρ nonce a) := by
  cases a with
  | encap c s i ct k =>
    unfold pMain pEncap
    apply stops_load
    intro _ _ _ _
    stops
  | decap c w ct k =>
    unfold pMain pDecap
    stops
  | encrypt c s i m o np =>
    unfold pMain pEncrypt
    apply FailStops.println
    apply stops_load
    intro _ _ _ _
    stops
  | decrypt c w ct o =>
    unfold pMain pDecrypt
    stops
    split
    · stops
    · stops

end

end Zkenc
