import Verif.Props.Sym
import Verif.Props.R1csParseJs
/-!
# More on C25 and C36: the JS circuit parser ends on every byte string; what JS reads in the wire field of a symbol file
-/

namespace Zkenc.Props

open Zkenc

/-! ## C25 -/

/-- A parser that always ends. -/
def Ends {α : Type} (p : PP α) : Prop := ∀ pos, p pos ≠ .error .hang

theorem Ends.bind {α β : Type} {p : PP α} {f : α → PP β} (hp : Ends p) (hf : ∀ a, Ends (f a)) : Ends (PP.bind p f) := by
  intro pos h
  unfold PP.bind at h
  cases hq : p pos with
  | error e =>
    rw [hq] at h
    cases h
    exact hp pos hq
  | ok x =>
    rw [hq] at h
    exact hf _ _ h

theorem Ends.pure {α : Type} (a : α) : Ends (PP.pure a) := by
  intro pos h
  cases h

theorem Ends.many {α : Type} {p : PP α} (hp : Ends p) : ∀ n, Ends (PP.many p n)
  | 0 => Ends.pure _
  | n + 1 => hp.bind fun _ => (Ends.many hp n).bind fun _ => Ends.pure _

theorem ends_jsRead (data : Bytes) (n : Nat) : Ends (jsRead data n) := by
  intro pos h
  unfold jsRead at h
  split at h
  · cases h
  · split at h <;> cases h

theorem ends_jsU32 (data : Bytes) : Ends (jsU32 data) := (ends_jsRead data 4).bind fun _ => Ends.pure _
theorem ends_jsU64 (data : Bytes) : Ends (jsU64 data) := (ends_jsRead data 8).bind fun _ => Ends.pure _

theorem ends_jsSection (data : Bytes) : Ends (jsSection data) :=
  (ends_jsU32 data).bind fun _ => (ends_jsU64 data).bind fun _ => Ends.bind (by intro pos h; cases h) fun _ =>
    Ends.bind (by intro pos h; cases h) fun _ => Ends.pure _

theorem ends_jsHeader (data : Bytes) : Ends (jsHeader data) :=
  (ends_jsU32 data).bind fun n => Ends.bind (by intro pos h; unfold jsSkip at h; split at h <;> cases h) fun _ =>
    (ends_jsU32 data).bind fun _ => (ends_jsU32 data).bind fun _ => (ends_jsU32 data).bind fun _ => (ends_jsU32 data).bind fun _ =>
    (ends_jsU64 data).bind fun _ => (ends_jsU32 data).bind fun _ => Ends.pure _

theorem ends_jsCstr (data : Bytes) (fs : Nat) : Ends (jsCstr data fs) := by
  have h : Ends (jsParseLc data fs) := (ends_jsU32 data).bind fun n =>
    Ends.many ((ends_jsU32 data).bind fun _ => (ends_jsRead data fs).bind fun _ => Ends.pure _) n
  exact h.bind fun _ => h.bind fun _ => h.bind fun _ => Ends.pure _

theorem res_ends {α β : Type} {x : Res α} {f : α → Res β} (hx : x ≠ .error .hang) (hf : ∀ a, f a ≠ .error .hang) : (x >>= f) ≠ .error .hang := by
  cases x with
  | error e => intro h; cases h; exact hx rfl
  | ok a => exact hf a

/-- **C25** (termination) — the JS circuit parser ends on every byte string, whatever sizes the file declares. -/
theorem C25_js_ends (data : Bytes) : jsParseR1cs data ≠ .error .hang := by
  have hopt : ∀ {α : Type} (o : Option α) (m : String), Res.ofOption o m ≠ .error .hang := by
    intro α o m
    cases o <;> intro h <;> cases h
  unfold jsParseR1cs
  split
  · intro h; cases h
  refine res_ends (ends_jsU32 data 4) fun ⟨v, p⟩ => ?_
  dsimp only
  split
  · intro h; cases h
  refine res_ends (ends_jsU32 data p) fun ⟨n, p⟩ => ?_
  refine res_ends ((ends_jsSection data).many n p) fun ⟨secs, p⟩ => ?_
  refine res_ends (hopt _ _) fun hs => ?_
  refine res_ends (ends_jsHeader data _) fun ⟨h, p⟩ => ?_
  refine res_ends (hopt _ _) fun cs => ?_
  exact res_ends ((ends_jsCstr data _).many _ _) fun _ h => by cases h

/-! ## C36 -/

/-- The value of a wire field in JS: white space, perhaps a sign, digits, and then anything that does not start with a digit. -/
def JsWireField (p : Str) (z : Int) : Prop :=
  ∃ pre sign ds t, p = pre ++ (sign ++ (ds ++ t)) ∧ (∀ x ∈ pre, jsWs x = true) ∧ ds ≠ [] ∧ (∀ x ∈ ds, isDig x = true) ∧ (∀ x ∈ t.head?, isDig x = false) ∧
    ((sign = [] ∨ sign = ['+']) ∧ z = decVal ds ∨ sign = ['-'] ∧ z = -(decVal ds : Int))

theorem digits_split (s : Str) : ∃ t, s = s.takeWhile isDig ++ t ∧ (∀ x ∈ s.takeWhile isDig, isDig x = true) ∧ ∀ x ∈ t.head?, isDig x = false := by
  refine ⟨s.dropWhile isDig, (List.takeWhile_append_dropWhile).symm, fun x hx => List.mem_takeWhile_imp hx, fun x hx => ?_⟩
  cases hd : s.dropWhile isDig with
  | nil => rw [hd] at hx; cases hx
  | cons y l =>
    have := List.head?_dropWhile_not isDig s
    rw [hd] at this hx
    simp at this hx
    subst hx
    exact this

theorem parseInt_iff (p : Str) (z : Int) : parseInt p = some z ↔ JsWireField p z := by
  constructor
  · intro h
    have hp : p = p.takeWhile jsWs ++ p.dropWhile jsWs := (List.takeWhile_append_dropWhile).symm
    have hpre : ∀ x ∈ p.takeWhile jsWs, jsWs x = true := fun x hx => List.mem_takeWhile_imp hx
    unfold parseInt at h
    split at h
    · rename_i ds he
      split at h
      · cases h
      · rename_i hne
        obtain ⟨t, h1, h2, h3⟩ := digits_split ds
        cases h
        refine ⟨p.takeWhile jsWs, ['-'], ds.takeWhile isDig, t, ?_, hpre, hne, h2, h3, .inr ⟨rfl, rfl⟩⟩
        rw [← h1]
        exact hp.trans (by rw [he]; rfl)
    · rename_i ds he
      split at h
      · cases h
      · rename_i hne
        obtain ⟨t, h1, h2, h3⟩ := digits_split ds
        cases h
        refine ⟨p.takeWhile jsWs, ['+'], ds.takeWhile isDig, t, ?_, hpre, hne, h2, h3, .inl ⟨.inr rfl, rfl⟩⟩
        rw [← h1]
        exact hp.trans (by rw [he]; rfl)
    · split at h
      · cases h
      · rename_i hne
        obtain ⟨t, h1, h2, h3⟩ := digits_split (p.dropWhile jsWs)
        cases h
        refine ⟨p.takeWhile jsWs, [], (p.dropWhile jsWs).takeWhile isDig, t, ?_, hpre, hne, h2, h3, .inl ⟨.inl rfl, rfl⟩⟩
        rw [← h1]
        exact hp
  · rintro ⟨pre, sign, ds, t, rfl, hp, hne, hd, ht, hz⟩
    obtain ⟨h1, h2, h3⟩ := parseInt_prefix pre ds t hp (List.all_eq_true.2 hd) hne ht
    rcases hz with ⟨rfl | rfl, rfl⟩ | ⟨rfl, rfl⟩
    · exact h1
    · exact h3
    · exact h2

/-- **C36** (JS, exactly) — what JS makes of a line with four fields: it reads the signal with wire `w` exactly if the wire field is white space, perhaps a sign, digits
with value `w` (zero after a minus sign), and then anything that does not start with a digit; every other line is skipped, without an error. -/
theorem C36_js_line (a p b c : Str) {line : Str} (hl : splitOn ',' line = [a, p, b, c]) :
    (∀ name w, jsSymLine line = some (name, w) ↔ name = trim jsWs c ∧ JsWireField p (w : Int)) ∧
    (jsSymLine line = none ↔ ∀ w : Nat, ¬ JsWireField p (w : Int)) := by
  have key : ∀ name w, jsSymLine line = some (name, w) ↔ name = trim jsWs c ∧ JsWireField p (w : Int) := by
    intro name w
    unfold jsSymLine
    rw [hl, ← parseInt_iff]
    simp only
    cases parseInt p with
    | none => simp
    | some z =>
      simp only [Option.some.injEq]
      split
      · rename_i h0
        simp only [Option.some.injEq, Prod.mk.injEq]
        constructor
        · rintro ⟨rfl, rfl⟩; exact ⟨rfl, by omega⟩
        · rintro ⟨rfl, rfl⟩; exact ⟨rfl, by omega⟩
      · rename_i h0
        constructor
        · intro h; cases h
        · rintro ⟨-, rfl⟩; omega
  refine ⟨key, ?_⟩
  constructor
  · intro h w hw
    have := (key (trim jsWs c) w).2 ⟨rfl, hw⟩
    rw [h] at this
    cases this
  · intro h
    cases hj : jsSymLine line with
    | none => rfl
    | some x => exact absurd ((key x.1 x.2).1 hj).2 (h x.2)

/-- Some wire fields: `+7x` is wire 7, `-0` is wire 0, `-1` and `x7` are skipped; the CLI refuses `+7x`, and with it the file. -/
example : jsSymLine "1, +7x,0,main.a".toList = some ("main.a".toList, 7) ∧ jsSymLine "1,-0,0,main.a".toList = some ("main.a".toList, 0) ∧
    jsSymLine "1,-1,0,main.a".toList = none ∧ jsSymLine "1,x7,0,main.a".toList = none ∧
    parseSymFile "1, +7x,0,main.a".toList = Res.fail "Failed to parse wire_id" := by
  refine ⟨by rfl, by rfl, by rfl, by rfl, by rfl⟩

end Zkenc.Props
