import Verif.Basic.Bytes
/-!
# Sequential readers (`ark_serialize::Read`, bincode): consume a prefix, return the rest
-/

namespace Zkenc

/-- A reader: value and remaining bytes, or failure. -/
def Reader (α : Type) := Bytes → Option (α × Bytes)

namespace Reader

/-- Success without reading. -/
def pure {α : Type} (a : α) : Reader α := fun b => some (a, b)

/-- Sequencing. -/
def bind {α β : Type} (r : Reader α) (f : α → Reader β) : Reader β := fun b =>
  match r b with
  | none => none
  | some (a, b') => f a b'

instance : Monad Reader where
  pure := Reader.pure
  bind := Reader.bind

/-- `read_exact` of `n` bytes. -/
def take (n : Nat) : Reader Bytes := fun b => if b.length < n then none else some (b.take n, b.drop n)

/-- Failure. -/
def fail {α : Type} : Reader α := fun _ => none

/-- Fail on `none`. -/
def lift {α : Type} (o : Option α) : Reader α := fun b => o.map (·, b)

/-- `n` times the same reader. -/
def many {α : Type} (r : Reader α) : Nat → Reader (List α)
  | 0 => Reader.pure []
  | n + 1 => Reader.bind r fun a => Reader.bind (many r n) fun as => Reader.pure (a :: as)

/-- The reader's result does not depend on bytes beyond what it consumed. -/
def Mono {α : Type} (r : Reader α) : Prop :=
  ∀ b a rest t, r b = some (a, rest) → r (b ++ t) = some (a, rest ++ t)

/-- `r` reads exactly the bytes `e` and returns `a`, whatever follows. -/
def Reads {α : Type} (r : Reader α) (e : Bytes) (a : α) : Prop := ∀ t, r (e ++ t) = some (a, t)

theorem Mono.pure {α : Type} (a : α) : Mono (Reader.pure a) := by
  intro b a' rest t h
  simp only [Reader.pure, Option.some.injEq, Prod.mk.injEq] at h ⊢
  obtain ⟨rfl, rfl⟩ := h
  exact ⟨rfl, rfl⟩

theorem Mono.bind {α β : Type} {r : Reader α} {f : α → Reader β} (hr : Mono r) (hf : ∀ a, Mono (f a)) :
    Mono (Reader.bind r f) := by
  intro b c rest t h
  unfold Reader.bind at h ⊢
  cases hb : r b with
  | none => rw [hb] at h; simp at h
  | some p =>
    obtain ⟨a, b'⟩ := p
    rw [hb] at h
    simp only at h
    rw [hr b a b' t hb]
    exact hf a b' c rest t h

theorem Mono.take (n : Nat) : Mono (Reader.take n) := by
  intro b a rest t h
  unfold Reader.take at h ⊢
  split at h
  · simp at h
  · rename_i hl
    simp only [Option.some.injEq, Prod.mk.injEq] at h
    obtain ⟨rfl, rfl⟩ := h
    have hle : n ≤ b.length := by omega
    rw [if_neg (by simp; omega), List.take_append_of_le_length hle, List.drop_append_of_le_length hle]

theorem Mono.fail {α : Type} : Mono (Reader.fail : Reader α) := by
  intro b a rest t h; simp [Reader.fail] at h

theorem Mono.lift {α : Type} (o : Option α) : Mono (Reader.lift o) := by
  intro b a rest t h
  cases o with
  | none => simp [Reader.lift] at h
  | some x =>
    simp only [Reader.lift, Option.map_some, Option.some.injEq, Prod.mk.injEq] at h ⊢
    obtain ⟨rfl, rfl⟩ := h
    exact ⟨rfl, rfl⟩

theorem Mono.many {α : Type} {r : Reader α} (hr : Mono r) (n : Nat) : Mono (Reader.many r n) := by
  induction n with
  | zero => exact Mono.pure _
  | succ n ih => exact Mono.bind hr fun a => Mono.bind ih fun as => Mono.pure _

theorem Reads.pure {α : Type} (a : α) : Reads (Reader.pure a) [] a := fun _ => rfl

theorem Reads.bind {α β : Type} {r : Reader α} {f : α → Reader β} {e e' : Bytes} {a : α} {b : β}
    (h : Reads r e a) (h' : Reads (f a) e' b) : Reads (Reader.bind r f) (e ++ e') b := by
  intro t
  simp only [Reader.bind]
  rw [List.append_assoc, h]
  exact h' t

theorem Reads.take (e : Bytes) {n : Nat} (h : e.length = n) : Reads (Reader.take n) e e := by
  intro t
  subst h
  simp [Reader.take]

theorem Reads.lift {α : Type} {o : Option α} {a : α} (h : o = some a) : Reads (Reader.lift o) [] a := by
  intro t; simp [Reader.lift, h]

theorem Reads.many {α : Type} {r : Reader α} {enc : α → Bytes} (as : List α) (h : ∀ a ∈ as, Reads r (enc a) a) :
    Reads (Reader.many r as.length) (as.map enc).flatten as := by
  induction as with
  | nil => exact Reads.pure []
  | cons a as ih =>
    have h1 := h a (by simp)
    have h2 := ih (fun x hx => h x (by simp [hx]))
    have := Reads.bind (f := fun a => Reader.bind (Reader.many r as.length) fun as => Reader.pure (a :: as)) h1
      (Reads.bind (f := fun as => Reader.pure (a :: as)) h2 (Reads.pure (a :: as)))
    simpa [Reader.many] using this

theorem Reads.map {α β : Type} {r : Reader α} {e : Bytes} {a : α} (h : Reads r e a) (g : α → β) :
    Reads (Reader.bind r fun a => Reader.pure (g a)) e (g a) := by
  intro t
  simp only [Reader.bind]
  rw [h]
  rfl

theorem Reads.cast {α : Type} {r : Reader α} {e e' : Bytes} {a : α} (h : Reads r e a) (he : e = e') : Reads r e' a :=
  he ▸ h

/-- A reader that reads `e` rejects every strict prefix of `e`. -/
theorem Reads.strict_prefix {α : Type} {r : Reader α} {e : Bytes} {a : α} (h : Reads r e a) (hm : Mono r)
    (p s : Bytes) (hps : p ++ s = e) (hs : s ≠ []) : r p = none := by
  cases hp : r p with
  | none => rfl
  | some q =>
    obtain ⟨x, rest⟩ := q
    have h1 := hm p x rest s hp
    have h2 := h []
    rw [List.append_nil, ← hps, h1] at h2
    simp only [Option.some.injEq, Prod.mk.injEq, List.append_eq_nil_iff] at h2
    exact absurd h2.2.2 hs

end Reader

end Zkenc
