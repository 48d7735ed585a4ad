import Verif.Proofs.Printing
import Verif.Spec.Printing
/-!
# Lemmas about printing commands: comparing outputs, marks, last prints
-/

namespace Zkenc

open PrintSpec

/-! ## Exact output -/

theorem pexec_println_ok {s : Str} {k : PCmd} {fs fs' : FS} {out : Str} :
    (PCmd.println s k).exec fs = (fs', out, .ok ()) ↔ ∃ t, k.exec fs = (fs', t, .ok ()) ∧ out = s ++ '\n' :: t := by
  simp only [PCmd.println, PCmd.exec, Prod.mk.injEq]
  constructor
  · rintro ⟨h1, h2, h3⟩
    exact ⟨(k.exec fs).2.1, Prod.ext h1 (Prod.ext rfl h3), by rw [← h2]; simp⟩
  · rintro ⟨t, h, rfl⟩
    rw [h]
    exact ⟨rfl, by simp, rfl⟩

theorem pexec_lift_ok {α : Type} {r : Res α} {k : α → PCmd} {fs fs' : FS} {out : Str} :
    (PCmd.lift r k).exec fs = (fs', out, .ok ()) ↔ ∃ a, r = .ok a ∧ (k a).exec fs = (fs', out, .ok ()) := by
  cases r with
  | ok a => simp [PCmd.lift]
  | error e => simp [PCmd.lift, PCmd.exec]

theorem pexec_readFile_ok {p : Path} {msg : String} {k : Bytes → PCmd} {fs fs' : FS} {out : Str} :
    (PCmd.readFile p msg k).exec fs = (fs', out, .ok ()) ↔ ∃ b, fs p = some b ∧ (k b).exec fs = (fs', out, .ok ()) := by
  unfold PCmd.readFile
  simp only [PCmd.exec]
  cases fs p with
  | none => simp [PCmd.exec, Res.fail]
  | some b => simp

theorem pexec_readText_ok {p : Path} {msg : String} {k : Bytes → Str → PCmd} {fs fs' : FS} {out : Str} :
    (PCmd.readText p msg k).exec fs = (fs', out, .ok ()) ↔
      ∃ b s, fs p = some b ∧ utf8Dec b = some s ∧ (k b s.toList).exec fs = (fs', out, .ok ()) := by
  unfold PCmd.readText
  simp only [pexec_readFile_ok, pexec_lift_ok, ofOption_eq_ok]
  constructor
  · rintro ⟨b, h1, s, h2, h3⟩; exact ⟨b, s, h1, h2, h3⟩
  · rintro ⟨b, s, h1, h2, h3⟩; exact ⟨b, h1, s, h2, h3⟩

theorem pexec_writeFile {p : Path} {b : Bytes} {msg : String} {k : PCmd} {fs : FS} :
    (PCmd.writeFile p b msg k).exec fs = k.exec (fs.set p b) := by
  simp [PCmd.writeFile, PCmd.exec]

theorem pexec_done_ok {fs fs' : FS} {out : Str} : (PCmd.done (.ok ())).exec fs = (fs', out, .ok ()) ↔ fs' = fs ∧ out = [] := by
  simp only [PCmd.exec, Prod.mk.injEq, and_true]
  constructor
  · rintro ⟨rfl, rfl⟩; exact ⟨rfl, rfl⟩
  · rintro ⟨rfl, rfl⟩; exact ⟨rfl, rfl⟩

theorem text_nil : text [] = [] := rfl
theorem text_cons (l : Str) (ls : List Str) : text (l :: ls) = l ++ '\n' :: text ls := by simp [text]

/-! ## Comparing two runs -/

/-- The outputs of two error-free runs are the same up to where they end. -/
def CmpOut (c₁ : PCmd) (fs₁ : FS) (c₂ : PCmd) (fs₂ : FS) : Prop := SameUpToEnd (c₁.exec fs₁).2.1 (c₂.exec fs₂).2.1

theorem CmpOut.println {s₁ s₂ : Str} {k₁ k₂ : PCmd} {fs₁ fs₂ : FS} (hs : s₁ = s₂) (h : CmpOut k₁ fs₁ k₂ fs₂) :
    CmpOut (.println s₁ k₁) fs₁ (.println s₂ k₂) fs₂ := by
  subst hs
  unfold CmpOut SameUpToEnd at h ⊢
  simp only [PCmd.println, PCmd.exec, List.prefix_append_right_inj]
  exact h

theorem CmpOut.nil_left {c₁ c₂ : PCmd} {fs₁ fs₂ : FS} (h : (c₁.exec fs₁).2.1 = []) : CmpOut c₁ fs₁ c₂ fs₂ := by
  unfold CmpOut SameUpToEnd
  rw [h]
  exact .inl List.nil_prefix

theorem CmpOut.nil_right {c₁ c₂ : PCmd} {fs₁ fs₂ : FS} (h : (c₂.exec fs₂).2.1 = []) : CmpOut c₁ fs₁ c₂ fs₂ := by
  unfold CmpOut SameUpToEnd
  rw [h]
  exact .inr List.nil_prefix

theorem CmpOut.done {r₁ r₂ : Res Unit} {fs₁ fs₂ : FS} : CmpOut (.done r₁) fs₁ (.done r₂) fs₂ := .nil_left rfl

theorem CmpOut.lift {α β : Type} {r₁ : Res α} {r₂ : Res β} {k₁ : α → PCmd} {k₂ : β → PCmd} {fs₁ fs₂ : FS}
    (h : ∀ a₁ a₂, r₁ = .ok a₁ → r₂ = .ok a₂ → CmpOut (k₁ a₁) fs₁ (k₂ a₂) fs₂) : CmpOut (PCmd.lift r₁ k₁) fs₁ (PCmd.lift r₂ k₂) fs₂ := by
  cases r₁ with
  | error e => exact .nil_left rfl
  | ok a₁ =>
    cases r₂ with
    | error e => exact .nil_right rfl
    | ok a₂ => exact h a₁ a₂ rfl rfl

theorem CmpOut.readFile {p₁ p₂ : Path} {m₁ m₂ : String} {k₁ k₂ : Bytes → PCmd} {fs₁ fs₂ : FS}
    (h : ∀ b₁ b₂, fs₁ p₁ = some b₁ → fs₂ p₂ = some b₂ → CmpOut (k₁ b₁) fs₁ (k₂ b₂) fs₂) :
    CmpOut (PCmd.readFile p₁ m₁ k₁) fs₁ (PCmd.readFile p₂ m₂ k₂) fs₂ := by
  cases h1 : fs₁ p₁ with
  | none => exact .nil_left (by simp only [PCmd.readFile, PCmd.exec, h1])
  | some b₁ =>
    cases h2 : fs₂ p₂ with
    | none => exact .nil_right (by simp only [PCmd.readFile, PCmd.exec, h2])
    | some b₂ =>
      have := h b₁ b₂ h1 h2
      unfold CmpOut at this ⊢
      simpa only [PCmd.readFile, PCmd.exec, h1, h2] using this

theorem CmpOut.readText {p₁ p₂ : Path} {m₁ m₂ : String} {k₁ k₂ : Bytes → Str → PCmd} {fs₁ fs₂ : FS}
    (h : ∀ b₁ b₂ s₁ s₂, fs₁ p₁ = some b₁ → fs₂ p₂ = some b₂ → utf8Dec b₁ = some s₁ → utf8Dec b₂ = some s₂ →
      CmpOut (k₁ b₁ s₁.toList) fs₁ (k₂ b₂ s₂.toList) fs₂) :
    CmpOut (PCmd.readText p₁ m₁ k₁) fs₁ (PCmd.readText p₂ m₂ k₂) fs₂ :=
  .readFile fun b₁ b₂ h1 h2 => .lift fun s₁ s₂ h3 h4 => h b₁ b₂ s₁ s₂ h1 h2 (ofOption_eq_ok.1 h3) (ofOption_eq_ok.1 h4)

theorem CmpOut.writeFile {p₁ p₂ : Path} {c₁ c₂ : Bytes} {m₁ m₂ : String} {k₁ k₂ : PCmd} {fs₁ fs₂ : FS}
    (h : CmpOut k₁ (fs₁.set p₁ c₁) k₂ (fs₂.set p₂ c₂)) : CmpOut (PCmd.writeFile p₁ c₁ m₁ k₁) fs₁ (PCmd.writeFile p₂ c₂ m₂ k₂) fs₂ := by
  unfold CmpOut at h ⊢
  rw [pexec_writeFile, pexec_writeFile]
  exact h

/-- From error-free runs to all runs. -/
theorem CmpOut.runs {c₁ c₂ : PCmd} (h₁ : FailStops c₁) (h₂ : FailStops c₂) {fs₁ fs₂ fs₁' fs₂' : FS} {out₁ out₂ : Str} {o₁ o₂ : Option (Res Unit)}
    (h : CmpOut c₁ fs₁ c₂ fs₂) (r₁ : PRun c₁ fs₁ fs₁' out₁ o₁) (r₂ : PRun c₂ fs₂ fs₂' out₂ o₂) : SameUpToEnd out₁ out₂ := by
  have p₁ := (h₁.runs r₁).1
  have p₂ := (h₂.runs r₂).1
  rcases h with h | h
  · exact List.prefix_or_prefix_of_prefix (p₁.trans h) p₂
  · exact List.prefix_or_prefix_of_prefix p₁ (p₂.trans h)

/-! ## Marks printed only after the output is written -/

/-- Only prints, then success. -/
inductive PrintTail : PCmd → Prop
  | done : PrintTail (.done (.ok ()))
  | print (s : Str) (k : PCmd) (h : PrintTail k) : PrintTail (.print s k)

theorem PrintTail.exec {c : PCmd} (h : PrintTail c) (fs : FS) : (c.exec fs).1 = fs ∧ (c.exec fs).2.2 = .ok () := by
  induction h with
  | done => exact ⟨rfl, rfl⟩
  | print s k _ ih => exact ih

theorem PrintTail.run {c : PCmd} (h : PrintTail c) : ∀ {fs fs' : FS} {out : Str} {o : Option (Res Unit)}, PRun c fs fs' out o → fs' = fs := by
  induction h with
  | done => intro fs fs' out o r; cases r <;> rfl
  | print s k _ ih =>
    intro fs fs' out o r
    cases r with
    | crash => rfl
    | print r => exact ih r
    | printFails n => rfl

/-- The character `ch` is not printed before the only write, to `p`, if the files are as in `fs`. -/
inductive LateMark (ch : Char) (p : Path) (fs : FS) : PCmd → Prop
  | err (e : Fault) : LateMark ch p fs (.done (.error e))
  | print (s : Str) (k : PCmd) (hs : ch ∉ s) (h : LateMark ch p fs k) : LateMark ch p fs (.print s k)
  | read (q : Path) (k : Option Bytes → PCmd) (e : Fault) (h0 : k none = .done (.error e)) (h : ∀ b, fs q = some b → LateMark ch p fs (k (some b))) : LateMark ch p fs (.read q k)
  | write (b : Bytes) (k : Bool → PCmd) (e : Fault) (h0 : k false = .done (.error e)) (h : PrintTail (k true)) : LateMark ch p fs (.write p b k)

theorem LateMark.runs {ch : Char} {p : Path} {fs : FS} {c : PCmd} (hc : LateMark ch p fs c) : ∀ {fs' : FS} {out : Str} {o : Option (Res Unit)},
    PRun c fs fs' out o → ch ∈ out → ∃ b, (c.exec fs).1 = fs.set p b ∧ (c.exec fs).2.2 = .ok () ∧ fs' = fs.set p b := by
  induction hc with
  | err e =>
    intro fs' out o r hm
    obtain ⟨-, rfl, -⟩ := prun_error r
    cases hm
  | print s k hs _ ih =>
    intro fs' out o r hm
    cases r with
    | crash => cases hm
    | print r =>
      rcases List.mem_append.1 hm with h | h
      · exact absurd h hs
      · exact ih r h
    | printFails n => exact absurd (List.mem_of_mem_take hm) hs
  | read q k e h0 _ ih =>
    intro fs' out o r hm
    cases r with
    | crash => cases hm
    | read r =>
      simp only [PCmd.exec]
      cases hq : fs q with
      | none =>
        rw [hq, h0] at r
        obtain ⟨-, rfl, -⟩ := prun_error r
        cases hm
      | some b => rw [hq] at r; exact ih b hq r hm
    | readError r =>
      rw [h0] at r
      obtain ⟨-, rfl, -⟩ := prun_error r
      cases hm
  | write b k e h0 ht =>
    intro fs' out o r hm
    cases r with
    | crash => cases hm
    | write r => exact ⟨b, (ht.exec _).1, (ht.exec _).2, ht.run r⟩
    | writeError r =>
      rw [h0] at r
      obtain ⟨-, rfl, -⟩ := prun_error r
      cases hm
    | writePartial n r =>
      rw [h0] at r
      obtain ⟨-, rfl, -⟩ := prun_error r
      cases hm
    | writeCrash n => cases hm

theorem LateMark.lift {ch : Char} {p : Path} {fs : FS} {α : Type} {r : Res α} {k : α → PCmd} (h : ∀ a, r = .ok a → LateMark ch p fs (k a)) : LateMark ch p fs (PCmd.lift r k) := by
  cases r with
  | ok a => exact h a rfl
  | error e => exact .err _

theorem LateMark.readFile {ch : Char} {p q : Path} {fs : FS} {msg : String} {k : Bytes → PCmd} (h : ∀ b, fs q = some b → LateMark ch p fs (k b)) : LateMark ch p fs (PCmd.readFile q msg k) :=
  .read _ _ _ rfl h

theorem LateMark.readText {ch : Char} {p q : Path} {fs : FS} {msg : String} {k : Bytes → Str → PCmd} (h : ∀ b s, LateMark ch p fs (k b s)) :
    LateMark ch p fs (PCmd.readText q msg k) := .readFile fun _ _ => .lift fun _ _ => h _ _

theorem LateMark.println {ch : Char} {p : Path} {fs : FS} {s : Str} {k : PCmd} (hs : ch ∉ s) (hn : ch ≠ '\n') (h : LateMark ch p fs k) : LateMark ch p fs (PCmd.println s k) :=
  .print _ _ (by simp [hs, hn]) h

theorem LateMark.writeFile {ch : Char} {p : Path} {fs : FS} {b : Bytes} {msg : String} {k : PCmd} (h : PrintTail k) : LateMark ch p fs (PCmd.writeFile p b msg k) :=
  .write _ _ _ rfl h

/-! ## The last action is a print -/

/-- A command that, if it succeeds, prints something as its last action. -/
inductive EndsPrinted : PCmd → Prop
  | err (e : Fault) : EndsPrinted (.done (.error e))
  | last (s : Str) (h : s ≠ []) : EndsPrinted (.print s (.done (.ok ())))
  | print (s : Str) (k : PCmd) (h : EndsPrinted k) : EndsPrinted (.print s k)
  | read (p : Path) (k : Option Bytes → PCmd) (e : Fault) (h0 : k none = .done (.error e)) (h : ∀ b, EndsPrinted (k (some b))) : EndsPrinted (.read p k)
  | write (p : Path) (b : Bytes) (k : Bool → PCmd) (e : Fault) (h0 : k false = .done (.error e)) (h : EndsPrinted (k true)) : EndsPrinted (.write p b k)

theorem EndsPrinted.ne_nil {c : PCmd} (hc : EndsPrinted c) : ∀ {fs : FS}, (c.exec fs).2.2 = .ok () → (c.exec fs).2.1 ≠ [] := by
  induction hc with
  | err e => intro fs h; cases h
  | last s hs => intro fs _; simpa [PCmd.exec] using hs
  | print s k _ ih =>
    intro fs h
    simp only [PCmd.exec] at h ⊢
    simp [ih h]
  | read p k e h0 _ ih =>
    intro fs h
    simp only [PCmd.exec] at h ⊢
    cases hp : fs p with
    | none => rw [hp, h0] at h; cases h
    | some b => rw [hp] at h; exact ih b h
  | write p b k e h0 _ ih =>
    intro fs h
    exact ih h

theorem EndsPrinted.runs {c : PCmd} (hc : EndsPrinted c) : ∀ {fs fs' : FS} {out : Str} {o : Option (Res Unit)}, PRun c fs fs' out o →
    (c.exec fs).2.2 = .ok () → out = (c.exec fs).2.1 → fs' = (c.exec fs).1 := by
  induction hc with
  | err e => intro fs fs' out o r h; cases h
  | last s hs =>
    intro fs fs' out o r _ _
    cases r with
    | crash => rfl
    | print r => cases r <;> rfl
    | printFails n => rfl
  | print s k hk ih =>
    intro fs fs' out o r h he
    have hne := hk.ne_nil (fs := fs) h
    simp only [PCmd.exec] at h he ⊢
    cases r with
    | crash => simp [hne] at he
    | print r => exact ih r h (List.append_cancel_left he)
    | printFails n =>
      exfalso
      have := congrArg List.length he
      simp only [List.length_take, List.length_append] at this
      have : (k.exec fs).2.1.length = 0 := by omega
      exact hne (List.length_eq_zero_iff.1 this)
  | read p k e h0 hk ih =>
    intro fs fs' out o r h he
    have hne := (EndsPrinted.read p k e h0 hk).ne_nil (fs := fs) h
    cases r with
    | crash => exact absurd he.symm hne
    | read r =>
      simp only [PCmd.exec] at h he ⊢
      cases hp : fs p with
      | none => rw [hp, h0] at h; cases h
      | some b => rw [hp] at r h he; exact ih b r h he
    | readError r =>
      rw [h0] at r
      obtain ⟨-, rfl, -⟩ := prun_error r
      exact absurd he.symm hne
  | write p b k e h0 hk ih =>
    intro fs fs' out o r h he
    have hne := (EndsPrinted.write p b k e h0 hk).ne_nil (fs := fs) h
    cases r with
    | crash => exact absurd he.symm hne
    | write r => exact ih r h he
    | writeError r =>
      rw [h0] at r
      obtain ⟨-, rfl, -⟩ := prun_error r
      exact absurd he.symm hne
    | writePartial n r =>
      rw [h0] at r
      obtain ⟨-, rfl, -⟩ := prun_error r
      exact absurd he.symm hne
    | writeCrash n => exact absurd he.symm hne

theorem EndsPrinted.lift {α : Type} {r : Res α} {k : α → PCmd} (h : ∀ a, EndsPrinted (k a)) : EndsPrinted (PCmd.lift r k) := by
  cases r with
  | ok a => exact h a
  | error e => exact .err _

theorem EndsPrinted.readFile {p : Path} {msg : String} {k : Bytes → PCmd} (h : ∀ b, EndsPrinted (k b)) : EndsPrinted (PCmd.readFile p msg k) :=
  .read _ _ _ rfl h

theorem EndsPrinted.readText {p : Path} {msg : String} {k : Bytes → Str → PCmd} (h : ∀ b s, EndsPrinted (k b s)) : EndsPrinted (PCmd.readText p msg k) :=
  .readFile fun _ => .lift fun _ => h _ _

theorem EndsPrinted.writeFile {p : Path} {b : Bytes} {msg : String} {k : PCmd} (h : EndsPrinted k) : EndsPrinted (PCmd.writeFile p b msg k) :=
  .write _ _ _ _ rfl h

theorem EndsPrinted.println {s : Str} {k : PCmd} (h : EndsPrinted k) : EndsPrinted (PCmd.println s k) := .print _ _ h

theorem EndsPrinted.lastLine {s : Str} : EndsPrinted (PCmd.println s (.done (.ok ()))) := .last _ (by simp)

end Zkenc
