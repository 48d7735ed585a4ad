import Verif.Basic.Pos
/-!
# Lemmas about position parsers
-/

namespace Zkenc

/-- The bytes `e` stand at position `pos` of `data`. -/
def At (data : Bytes) (pos : Nat) (e : Bytes) : Prop := pos + e.length ≤ data.length ∧ slice data pos e.length = e

theorem slice_length {data : Bytes} {pos n : Nat} (h : pos + n ≤ data.length) : (slice data pos n).length = n := by
  simp [slice]; omega

theorem slice_append_left {data t : Bytes} {pos n : Nat} (h : pos + n ≤ data.length) :
    slice (data ++ t) pos n = slice data pos n := by
  unfold slice
  rw [List.drop_append_of_le_length (by omega), List.take_append_of_le_length (by simp; omega)]

theorem slice_take {data : Bytes} {k pos n : Nat} (h : pos + n ≤ k) : slice (data.take k) pos n = slice data pos n := by
  unfold slice
  rw [List.drop_take, List.take_take, Nat.min_eq_left (by omega)]

theorem slice_zero (data : Bytes) (pos : Nat) : slice data pos 0 = [] := by simp [slice]

theorem slice_add (data : Bytes) (pos m n : Nat) : slice data pos (m + n) = slice data pos m ++ slice data (pos + m) n := by
  unfold slice
  rw [List.take_add, List.drop_drop]

theorem At.append {data : Bytes} {pos : Nat} {a b : Bytes} :
    At data pos (a ++ b) ↔ At data pos a ∧ At data (pos + a.length) b := by
  unfold At
  rw [List.length_append, slice_add]
  constructor
  · rintro ⟨h1, h2⟩
    have := List.append_inj h2 (slice_length (by omega))
    exact ⟨⟨by omega, this.1⟩, by omega, this.2⟩
  · rintro ⟨⟨h1, h2⟩, h3, h4⟩
    exact ⟨by omega, by rw [h2, h4]⟩

theorem At.nil {data : Bytes} {pos : Nat} (h : pos ≤ data.length) : At data pos [] := ⟨by simpa using h, slice_zero _ _⟩

theorem At.self (pre e post : Bytes) : At (pre ++ (e ++ post)) pre.length e := by
  constructor
  · simp
  · simp [slice]

theorem At.take_iff {data : Bytes} {pos k : Nat} {e : Bytes} (h : At data pos e) (hk : k ≤ data.length) :
    At (data.take k) pos e ↔ pos + e.length ≤ k := by
  unfold At
  constructor
  · rintro ⟨h1, -⟩
    simpa [Nat.min_eq_left hk] using h1
  · intro hle
    exact ⟨by simpa [Nat.min_eq_left hk] using hle, by rw [slice_take hle, h.2]⟩

namespace PP

theorem bind_ok {α β : Type} {p : PP α} {f : α → PP β} {pos : Nat} {x : β × Nat} :
    PP.bind p f pos = .ok x ↔ ∃ a pos', p pos = .ok (a, pos') ∧ f a pos' = .ok x := by
  unfold PP.bind
  cases h : p pos with
  | error e => simp
  | ok y => obtain ⟨a, q⟩ := y; simp

theorem bind_of_ok {α β : Type} {p : PP α} {f : α → PP β} {pos pos' : Nat} {a : α} (h : p pos = .ok (a, pos')) :
    PP.bind p f pos = f a pos' := by
  unfold PP.bind; rw [h]

/-- No panic or hang from any position. -/
def Total {α : Type} (p : PP α) : Prop := ∀ pos, Graceful (p pos)

theorem Total.pure {α : Type} (a : α) : Total (PP.pure a) := fun _ => Graceful.ok _

theorem Total.bind {α β : Type} {p : PP α} {f : α → PP β} (hp : Total p) (hf : ∀ a, Total (f a)) : Total (PP.bind p f) := by
  intro pos
  unfold PP.bind
  have := hp pos
  cases h : p pos with
  | error e => rw [h] at this; simpa [Graceful] using this
  | ok y => obtain ⟨a, q⟩ := y; exact hf a q

theorem Total.many {α : Type} {p : PP α} (hp : Total p) (n : Nat) : Total (PP.many p n) := by
  induction n with
  | zero => exact Total.pure _
  | succ n ih => exact Total.bind hp fun _ => Total.bind ih fun _ => Total.pure _

/-- `p` reads the bytes `e` and returns `a`, in every array that has `e` at the current position. -/
def Reads {α : Type} (p : Bytes → PP α) (e : Bytes) (a : α) : Prop :=
  ∀ data pos, At data pos e → p data pos = .ok (a, pos + e.length)

theorem Reads.pure {α : Type} (a : α) : Reads (fun _ => PP.pure a) [] a := fun _ _ _ => rfl

theorem Reads.bind {α β : Type} {p : Bytes → PP α} {f : Bytes → α → PP β} {e e' : Bytes} {a : α} {b : β}
    (h : Reads p e a) (h' : Reads (fun d => f d a) e' b) : Reads (fun d => PP.bind (p d) (f d)) (e ++ e') b := by
  intro data pos hat
  obtain ⟨h1, h2⟩ := At.append.1 hat
  change PP.bind (p data) (f data) pos = _
  rw [bind_of_ok (h data pos h1)]
  have := h' data _ h2
  simp only at this
  rw [this, List.length_append, Nat.add_assoc]

theorem Reads.map {α β : Type} {p : Bytes → PP α} {e : Bytes} {a : α} (g : α → β) (h : Reads p e a) :
    Reads (fun d => PP.bind (p d) fun x => PP.pure (g x)) e (g a) := by
  intro data pos hat
  change PP.bind (p data) _ pos = _
  rw [bind_of_ok (h data pos hat)]; rfl

theorem Reads.many {α : Type} {p : Bytes → PP α} {enc : α → Bytes} (as : List α) (h : ∀ a ∈ as, Reads p (enc a) a) :
    Reads (fun d => PP.many (p d) as.length) (as.map enc).flatten as := by
  induction as with
  | nil => exact Reads.pure []
  | cons a as ih =>
    have h1 := h a (by simp)
    have h2 := Reads.map (fun l => a :: l) (ih fun x hx => h x (by simp [hx]))
    exact Reads.bind (f := fun d x => PP.bind (PP.many (p d) as.length) fun l => PP.pure (x :: l)) h1 h2

/-- Success on `data` is success with the same result on every extension of `data`, and the parser ends inside `data`
(or does not move). -/
def Mono {α : Type} (p : Bytes → PP α) : Prop :=
  ∀ data pos a pos' t, p data pos = .ok (a, pos') →
    p (data ++ t) pos = .ok (a, pos') ∧ (pos' = pos ∨ pos' ≤ data.length)

theorem Mono.pure {α : Type} (a : α) : Mono (fun _ => PP.pure a) := by
  intro data pos a' pos' t h
  simp only [PP.pure, Except.ok.injEq, Prod.mk.injEq] at h ⊢
  exact ⟨h, Or.inl h.2.symm⟩

theorem Mono.bind {α β : Type} {p : Bytes → PP α} {f : Bytes → α → PP β} (h : Mono p) (h' : ∀ a, Mono fun d => f d a) :
    Mono (fun d => PP.bind (p d) (f d)) := by
  intro data pos b pos' t hb
  obtain ⟨a, q, h1, h2⟩ := bind_ok.1 hb
  obtain ⟨h3, h4⟩ := h data pos a q t h1
  obtain ⟨h5, h6⟩ := h' a data q b pos' t h2
  refine ⟨bind_ok.2 ⟨a, q, h3, h5⟩, ?_⟩
  rcases h6 with rfl | h6
  · exact h4
  · exact Or.inr h6

theorem Mono.many {α : Type} {p : Bytes → PP α} (h : Mono p) (n : Nat) : Mono (fun d => PP.many (p d) n) := by
  induction n with
  | zero => exact Mono.pure _
  | succ n ih =>
    exact Mono.bind (f := fun d a => PP.bind (PP.many (p d) n) fun as => PP.pure (a :: as)) h fun a =>
      Mono.bind (f := fun _ as => PP.pure (a :: as)) ih fun as => Mono.pure _

/-- Whenever `p` succeeds from a position inside the array, `q` succeeds with the image of the result and both end inside. -/
def Sim {α β : Type} (data : Bytes) (g : α → β) (p : PP α) (q : PP β) : Prop :=
  ∀ pos a pos', pos ≤ data.length → p pos = .ok (a, pos') → q pos = .ok (g a, pos') ∧ pos' ≤ data.length

theorem Sim.pure {α β : Type} (data : Bytes) (g : α → β) (a : α) : Sim data g (PP.pure a) (PP.pure (g a)) := by
  intro pos a' pos' hle h
  simp only [PP.pure, Except.ok.injEq, Prod.mk.injEq] at h ⊢
  obtain ⟨rfl, rfl⟩ := h
  exact ⟨⟨rfl, rfl⟩, hle⟩

theorem Sim.bind {α β γ δ : Type} {data : Bytes} {g : α → β} {g' : γ → δ} {p : PP α} {q : PP β} {f : α → PP γ} {f' : β → PP δ}
    (h : Sim data g p q) (h' : ∀ a, Sim data g' (f a) (f' (g a))) : Sim data g' (PP.bind p f) (PP.bind q f') := by
  intro pos c pos' hle hc
  obtain ⟨a, r, h1, h2⟩ := bind_ok.1 hc
  obtain ⟨h3, h4⟩ := h pos a r hle h1
  obtain ⟨h5, h6⟩ := h' a r c pos' h4 h2
  exact ⟨bind_ok.2 ⟨g a, r, h3, h5⟩, h6⟩

theorem Sim.many {α : Type} {data : Bytes} {p : PP α} {q : PP α} (h : Sim data id p q) (n : Nat) :
    Sim data id (PP.many p n) (PP.many q n) := by
  induction n with
  | zero => exact Sim.pure data id []
  | succ n ih =>
    exact Sim.bind h fun a => Sim.bind ih fun as => Sim.pure data id (a :: as)

/-- Graceful from every position inside the array, ending inside the array. -/
def Safe {α : Type} (data : Bytes) (p : PP α) : Prop :=
  ∀ pos, pos ≤ data.length → Graceful (p pos) ∧ ∀ a pos', p pos = .ok (a, pos') → pos' ≤ data.length

theorem Safe.pure {α : Type} (data : Bytes) (a : α) : Safe data (PP.pure a) := by
  intro pos hle
  refine ⟨Graceful.ok _, ?_⟩
  intro a' pos' h
  simp only [PP.pure, Except.ok.injEq, Prod.mk.injEq] at h
  omega

theorem Safe.bind {α β : Type} {data : Bytes} {p : PP α} {f : α → PP β} (h : Safe data p) (h' : ∀ a, Safe data (f a)) :
    Safe data (PP.bind p f) := by
  intro pos hle
  obtain ⟨h1, h2⟩ := h pos hle
  cases hp : p pos with
  | error e =>
    constructor
    · rw [hp] at h1
      simpa [PP.bind, hp, Graceful] using h1
    · intro a pos' h; simp [PP.bind, hp] at h
  | ok y =>
    obtain ⟨a, q⟩ := y
    rw [bind_of_ok hp]
    exact h' a q (h2 a q hp)

theorem Safe.many {α : Type} {data : Bytes} {p : PP α} (h : Safe data p) (n : Nat) : Safe data (PP.many p n) := by
  induction n with
  | zero => exact Safe.pure data []
  | succ n ih => exact Safe.bind h fun _ => Safe.bind ih fun _ => Safe.pure data _

end PP

end Zkenc
