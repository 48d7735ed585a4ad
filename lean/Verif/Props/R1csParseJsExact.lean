import Verif.Spec.R1csPanic
import Verif.Props.R1csParseJs
/-!
# C25: exactly when the wasm32 `.r1cs` parser panics
-/

namespace Zkenc.Props

open Zkenc R1csFormat

theorem sectionAt_unique {data : Bytes} {k q q' : Nat} (h : SectionAt32 data k q) (h' : SectionAt32 data k q') : q = q' := by
  induction h generalizing q' with
  | first => cases h'; rfl
  | next _ _ ih =>
    cases h' with
    | next h1 _ => rw [ih h1]

theorem jsSection_inside {data : Bytes} (hd : data.length < 2 ^ 31) {pos : Nat} (hle : pos + 12 ≤ data.length) :
    jsSection data pos = .ok ((at32 data pos, leNat (slice data (pos + 4) 8) % 2 ^ 32, pos + 12),
      (pos + 12 + leNat (slice data (pos + 4) 8)) % 2 ^ 32) := by
  unfold jsSection
  rw [PP.bind_of_ok (jsU32_inside hd (by omega)), PP.bind_of_ok (jsU64_inside hd (by omega)),
    PP.bind_of_ok (p := PP.here) (rfl : PP.here (pos + 4 + 8) = .ok (pos + 4 + 8, pos + 4 + 8))]
  have hj : jsJump (leNat (slice data (pos + 4) 8) % 2 ^ 32) (pos + 4 + 8) =
      .ok ((), (pos + 12 + leNat (slice data (pos + 4) 8)) % 2 ^ 32) := by
    unfold jsJump
    congr 2
    omega
  rw [PP.bind_of_ok hj]
  rfl

theorem sections_through {data : Bytes} (hd : data.length < 2 ^ 31) {n k pos : Nat} (hat : SectionAt32 data k pos)
    (h : ∀ j < n, ∃ q, SectionAt32 data (k + j) q ∧ q + 12 ≤ data.length) :
    ∃ r, PP.many (jsSection data) n pos = .ok r := by
  induction n generalizing k pos with
  | zero => exact ⟨_, rfl⟩
  | succ n ih =>
    obtain ⟨q, h1, h2⟩ := h 0 (by omega)
    obtain rfl := sectionAt_unique hat h1
    obtain ⟨r, hr⟩ := ih (SectionAt32.next hat h2) fun j hj => by
      obtain ⟨q, h3, h4⟩ := h (j + 1) (by omega)
      exact ⟨q, by rw [show k + 1 + j = k + (j + 1) by omega]; exact h3, h4⟩
    simp only [PP.many]
    rw [PP.bind_of_ok (jsSection_inside hd h2), PP.bind_of_ok hr]
    exact ⟨_, rfl⟩

theorem sections_list {data : Bytes} {n k pos : Nat} (hat : SectionAt32 data k pos) {secs : List (Nat × Nat × Nat)} {p : Nat}
    (h : PP.many (jsSection data) n pos = .ok (secs, p)) :
    secs.length = n ∧ ∀ i < n, ∃ q l, SectionAt32 data (k + i) q ∧ q + 12 ≤ data.length ∧ secs[i]? = some (at32 data q, l, q + 12) := by
  induction n generalizing k pos secs p with
  | zero =>
    simp only [PP.many, PP.pure, Except.ok.injEq, Prod.mk.injEq] at h
    rw [← h.1]
    exact ⟨rfl, fun i hi => absurd hi (by omega)⟩
  | succ n ih =>
    simp only [PP.many] at h
    obtain ⟨s, p1, h1, h⟩ := PP.bind_ok.1 h
    obtain ⟨ss, p2, h2, h⟩ := PP.bind_ok.1 h
    simp only [PP.pure, Except.ok.injEq, Prod.mk.injEq] at h
    obtain ⟨rfl, -⟩ := h
    obtain ⟨f1, f2, f3, f4⟩ := jsSection_ok h1
    obtain ⟨i1, i2⟩ := ih (k := k + 1) (by rw [f2]; exact SectionAt32.next hat f1) h2
    refine ⟨by rw [List.length_cons, i1], fun i hi => ?_⟩
    cases i with
    | zero => exact ⟨pos, s.2.1, hat, f1, by rw [List.getElem?_cons_zero]; congr 1; exact Prod.ext f3 (Prod.ext rfl f4)⟩
    | succ i =>
      obtain ⟨q, l, g1, g2, g3⟩ := i2 i (by omega)
      exact ⟨q, l, by rw [show k + (i + 1) = k + 1 + i by omega]; exact g1, g2, by rw [List.getElem?_cons_succ]; exact g3⟩

theorem find_first {data : Bytes} {secs : List (Nat × Nat × Nat)} {p : Nat}
    (h : PP.many (jsSection data) (at32 data 8) 12 = .ok (secs, p)) (ty q : Nat) :
    FirstOfType data ty q ↔ ∃ s, findSection ty secs = some s ∧ s.2.2 = q + 12 := by
  obtain ⟨hl, hi⟩ := sections_list SectionAt32.first h
  simp only [Nat.zero_add] at hi
  constructor
  · rintro ⟨j, hj, h1, h2, h3⟩
    obtain ⟨q', l, g1, g2, g3⟩ := hi j hj
    obtain rfl := sectionAt_unique h1 g1
    refine ⟨(ty, l, q + 12), ?_, rfl⟩
    · unfold findSection
      rw [List.find?_eq_some_iff_getElem]
      obtain ⟨gl, g3⟩ := List.getElem?_eq_some_iff.1 g3
      refine ⟨by simp [h2], j, gl, by rw [g3, h2], fun i hij => ?_⟩
      obtain ⟨q', l', k1, k2, k3⟩ := hi i (by omega)
      obtain ⟨kl, k3⟩ := List.getElem?_eq_some_iff.1 k3
      rw [k3]
      simpa using h3 i hij q' k1
  · rintro ⟨s, hs, hq⟩
    unfold findSection at hs
    rw [List.find?_eq_some_iff_getElem] at hs
    obtain ⟨ht, j, hj, he, hb⟩ := hs
    obtain ⟨q', l, g1, g2, g3⟩ := hi j (by omega)
    rw [List.getElem?_eq_getElem hj, he] at g3
    cases g3
    have hqq : q' = q := by simpa using hq
    subst hqq
    refine ⟨j, by omega, g1, by simpa using ht, fun i hij q₂ hat => ?_⟩
    obtain ⟨q₃, l', k1, k2, k3⟩ := hi i (by omega)
    obtain rfl := sectionAt_unique hat k1
    have := hb i hij
    obtain ⟨kl, k3⟩ := List.getElem?_eq_some_iff.1 k3
    rw [k3] at this
    simpa using this

/-- The header block either is read as declared or fails. -/
theorem header_ok {data : Bytes} (hd : data.length < 2 ^ 31) {q : Nat} {f m : Nat} (h : Declares data q f m) :
    ∃ hd' p, jsHeader data (q + 12) = .ok (hd', p) ∧ hd'.fieldSize = f ∧ hd'.nConstraints = m := by
  obtain ⟨h1, h2, h3, h4⟩ := h
  have hs : jsSkip data f (q + 12 + 4) = .ok ((), (q + 16 + f) % 2 ^ 32) := by
    unfold jsSkip
    rw [if_neg (by omega)]
  generalize he : (q + 16 + f) % 2 ^ 32 = e at hs h3 h4
  unfold jsHeader
  have h0 := jsU32_inside hd (pos := q + 12) (by omega)
  change at32 data (q + 12) = f at h2
  unfold at32 at h2 h4
  rw [h2] at h0
  rw [PP.bind_of_ok h0, PP.bind_of_ok hs, PP.bind_of_ok (jsU32_inside hd (by omega)), PP.bind_of_ok (jsU32_inside hd (by omega)),
    PP.bind_of_ok (jsU32_inside hd (by omega)), PP.bind_of_ok (jsU32_inside hd (by omega)), PP.bind_of_ok (jsU64_inside hd (by omega)),
    PP.bind_of_ok (jsU32_inside hd (by omega))]
  exact ⟨_, _, rfl, rfl, h4⟩

theorem header_declares {data : Bytes} {q : Nat} {hd' : JsHeader} {p : Nat} (h : jsHeader data (q + 12) = .ok (hd', p)) :
    Declares data q hd'.fieldSize hd'.nConstraints := by
  unfold jsHeader at h
  obtain ⟨fs, r1, g1, h⟩ := PP.bind_ok.1 h
  obtain ⟨_, r2, g2, h⟩ := PP.bind_ok.1 h
  obtain ⟨_, r3, g3, h⟩ := PP.bind_ok.1 h
  obtain ⟨_, r4, g4, h⟩ := PP.bind_ok.1 h
  obtain ⟨_, r5, g5, h⟩ := PP.bind_ok.1 h
  obtain ⟨_, r6, g6, h⟩ := PP.bind_ok.1 h
  obtain ⟨_, r7, g7, h⟩ := PP.bind_ok.1 h
  obtain ⟨_, r8, g8, hfin⟩ := PP.bind_ok.1 h
  simp only [PP.pure, Except.ok.injEq, Prod.mk.injEq] at hfin
  obtain ⟨rfl, -⟩ := hfin
  obtain ⟨a1, a2, rfl⟩ := jsU32_ok g1
  obtain ⟨_, _, rfl⟩ := jsU32_ok g3
  obtain ⟨_, _, rfl⟩ := jsU32_ok g4
  obtain ⟨_, _, rfl⟩ := jsU32_ok g5
  obtain ⟨_, _, rfl⟩ := jsU32_ok g6
  obtain ⟨_, _, rfl⟩ := jsU64_ok g7
  obtain ⟨b1, b2, rfl⟩ := jsU32_ok g8
  unfold jsSkip at g2
  split at g2
  · simp [Res.fail] at g2
  · simp only [Except.ok.injEq, Prod.mk.injEq, true_and] at g2
    subst g2
    refine ⟨by omega, a2.symm, by simp only; omega, ?_⟩
    unfold at32
    rw [b2]
    

/-- What the constraint pass does with a coefficient size that reaches the end of the address space. -/
def Off (data : Bytes) (f n p : Nat) : Prop :=
  ∃ k < n, (∀ i < k, at32 data (p + 4 * i) = 0) ∧ at32 data (p + 4 * k) ≠ 0 ∧ p + 4 * k + 8 ≤ data.length ∧ 2 ^ 32 ≤ p + 4 * k + 8 + f

theorem off_succ (data : Bytes) (f n p : Nat) : Off data f (n + 1) p ↔
    (at32 data p ≠ 0 ∧ p + 8 ≤ data.length ∧ 2 ^ 32 ≤ p + 8 + f) ∨ (at32 data p = 0 ∧ Off data f n (p + 4)) := by
  constructor
  · rintro ⟨k, hk, h1, h2, h3, h4⟩
    cases k with
    | zero => exact .inl ⟨by simpa using h2, by simpa using h3, by simpa using h4⟩
    | succ k =>
      refine .inr ⟨by simpa using h1 0 (by omega), k, by omega, fun i hi => ?_, ?_, by omega, by omega⟩
      · rw [← h1 (i + 1) (by omega)]; congr 1; omega
      · rw [show p + 4 + 4 * k = p + 4 * (k + 1) by omega]; exact h2
  · rintro (⟨h1, h2, h3⟩ | ⟨h0, k, hk, h1, h2, h3, h4⟩)
    · exact ⟨0, by omega, fun i hi => absurd hi (by omega), by simpa using h1, by simpa using h2, by simpa using h3⟩
    · refine ⟨k + 1, by omega, fun i hi => ?_, ?_, by omega, by omega⟩
      · cases i with
        | zero => simpa using h0
        | succ i => rw [← h1 i (by omega)]; congr 1; omega
      · rw [show p + 4 * (k + 1) = p + 4 + 4 * k by omega]; exact h2

theorem not_off_zero (data : Bytes) (f p : Nat) : ¬ Off data f 0 p := by rintro ⟨k, hk, -⟩; omega

/-- A parser's result, as far as panics are concerned. -/
theorem bind_panic {α β : Type} {p : PP α} {g : α → PP β} {pos : Nat} : PP.bind p g pos = .error .panic ↔
    p pos = .error .panic ∨ ∃ a q, p pos = .ok (a, q) ∧ g a q = .error .panic := by
  unfold PP.bind
  cases h : p pos with
  | error e => simp
  | ok x => obtain ⟨a, q⟩ := x; simp

/-- A linear combination, if coefficients are longer than the file. -/
theorem lc_big {data : Bytes} (hd : data.length < 2 ^ 31) {f : Nat} (hf : 2 ^ 31 ≤ f) (hf' : f < 2 ^ 32) {p : Nat} (hp : p ≤ data.length) :
    (jsParseLc data f p = .error .panic ↔ at32 data p ≠ 0 ∧ p + 8 ≤ data.length ∧ 2 ^ 32 ≤ p + 8 + f) ∧
    (∀ a q, jsParseLc data f p = .ok (a, q) ↔ at32 data p = 0 ∧ p + 4 ≤ data.length ∧ a = [] ∧ q = p + 4) := by
  unfold jsParseLc
  by_cases h4 : p + 4 ≤ data.length
  · rw [PP.bind_of_ok (jsU32_inside hd h4)]
    change (PP.many _ (at32 data p) _ = _ ↔ _) ∧ ∀ a q, PP.many _ (at32 data p) _ = _ ↔ _
    cases hn : at32 data p with
    | zero =>
      simp only [PP.many, PP.pure]
      refine ⟨by simp, fun a q => ?_⟩
      simp only [Except.ok.injEq, Prod.mk.injEq]
      constructor
      · rintro ⟨rfl, rfl⟩; exact ⟨trivial, h4, rfl, rfl⟩
      · rintro ⟨-, -, rfl, rfl⟩; exact ⟨rfl, rfl⟩
    | succ n =>
      simp only [PP.many]
      have key : ∃ e, jsFactor data f (p + 4) = .error e ∧ (e = .panic ↔ p + 8 ≤ data.length ∧ 2 ^ 32 ≤ p + 8 + f) := by
        unfold jsFactor
        by_cases h8 : p + 8 ≤ data.length
        · rw [PP.bind_of_ok (jsU32_inside hd (by omega))]
          unfold PP.bind jsRead
          by_cases ho : 2 ^ 32 ≤ p + 8 + f
          · rw [if_neg (by omega), if_neg (by omega)]
            exact ⟨_, rfl, by simp [h8]; omega⟩
          · rw [if_pos (by omega)]
            exact ⟨_, rfl, by simp; omega⟩
        · have : jsU32 data (p + 4) = .error (.err "Unexpected end of data") := by
            unfold jsU32 PP.bind jsRead
            rw [if_pos (by omega)]
            rfl
          unfold PP.bind
          rw [this]
          exact ⟨_, rfl, by simp [h8]⟩
      obtain ⟨e, k1, k2⟩ := key
      unfold PP.bind
      rw [k1]
      refine ⟨?_, fun a q => ?_⟩
      · simp [k2]
      · simp
  · have : jsU32 data p = .error (.err "Unexpected end of data") := by
      unfold jsU32 PP.bind jsRead
      rw [if_pos (by omega)]
      rfl
    unfold PP.bind
    rw [this]
    refine ⟨?_, fun a q => ?_⟩
    · simp; omega
    · simp; omega

theorem cstrs_big {data : Bytes} (hd : data.length < 2 ^ 31) {f : Nat} (hf : 2 ^ 31 ≤ f) (hf' : f < 2 ^ 32) {n p : Nat} (hp : p ≤ data.length) :
    PP.many (jsCstr data f) n p = .error .panic ↔ Off data f (3 * n) p := by
  induction n generalizing p with
  | zero => simp [PP.many, PP.pure, not_off_zero]
  | succ n ih =>
    have hstep : ∀ {β : Type} (g : Factors → PP β) (k p : Nat), p ≤ data.length →
        (p + 4 ≤ data.length → (g [] (p + 4) = .error .panic ↔ Off data f k (p + 4))) →
        (PP.bind (jsParseLc data f) g p = .error .panic ↔ Off data f (k + 1) p) := by
      intro β g k p hp hg
      obtain ⟨l1, l2⟩ := lc_big hd hf hf' hp
      rw [bind_panic, off_succ, l1]
      refine or_congr Iff.rfl ?_
      constructor
      · rintro ⟨a, q, h, h'⟩
        obtain ⟨z, h4, rfl, rfl⟩ := (l2 a q).1 h
        exact ⟨z, (hg h4).1 h'⟩
      · rintro ⟨z, ho⟩
        have h4 : p + 4 ≤ data.length := by
          obtain ⟨k', -, -, -, h, -⟩ := ho
          omega
        exact ⟨[], p + 4, (l2 _ _).2 ⟨z, h4, rfl, rfl⟩, (hg h4).2 ho⟩
    rw [show 3 * (n + 1) = 3 * n + 1 + 1 + 1 by omega]
    simp only [PP.many]
    have hassoc : PP.bind (jsCstr data f) (fun a => PP.bind (PP.many (jsCstr data f) n) fun l => PP.pure (a :: l)) p =
        PP.bind (jsParseLc data f) (fun a => PP.bind (jsParseLc data f) fun b => PP.bind (jsParseLc data f) fun c =>
          PP.bind (PP.many (jsCstr data f) n) fun l => PP.pure (⟨a, b, c⟩ :: l)) p := by
      unfold jsCstr PP.bind
      cases jsParseLc data f p with
      | error e => rfl
      | ok x =>
        obtain ⟨a, q⟩ := x
        dsimp only
        cases jsParseLc data f q with
        | error e => rfl
        | ok x =>
          obtain ⟨b, q⟩ := x
          dsimp only
          cases jsParseLc data f q with
          | error e => rfl
          | ok x => rfl
    rw [hassoc]
    refine hstep _ _ _ hp fun h1 => hstep _ _ _ h1 fun h2 => hstep _ _ _ h2 fun h3 => ?_
    rw [bind_panic, ih h3]
    simp [PP.pure]

/-- The constraint pass panics exactly at such a coefficient, whatever the declared size. -/
theorem cstrs_panic {data : Bytes} (hd : data.length < 2 ^ 31) {f : Nat} (hf' : f < 2 ^ 32) {n p : Nat} (hp : p ≤ data.length) :
    PP.many (jsCstr data f) n p = .error .panic ↔ Off data f (3 * n) p := by
  by_cases hf : 2 ^ 31 ≤ f
  · exact cstrs_big hd hf hf' hp
  · constructor
    · intro h
      have := (PP.Safe.many (jsCstr_safe hd (fs := f) (by omega)) n p hp).1
      rw [h] at this
      exact absurd this (by simp [Graceful])
    · rintro ⟨k, -, -, -, h1, h2⟩
      omega

theorem at32_lt (data : Bytes) (q : Nat) : at32 data q < 2 ^ 32 := by
  unfold at32
  have h := leNat_lt (slice data q 4)
  have hl : (slice data q 4).length ≤ 4 := by simp [slice]
  have h2 : 256 ^ (slice data q 4).length ≤ 256 ^ 4 := Nat.pow_le_pow_right (by norm_num) hl
  have h3 : 256 ^ 4 = 2 ^ 32 := by norm_num
  omega

/-- **C25** (exactly) — on every byte string that fits into wasm32 memory: the reader panics exactly on the files of `JsPanics`. -/
theorem C25_js_panic_iff {data : Bytes} (hd : data.length < 2 ^ 31) : jsParseR1cs data = .error .panic ↔ JsPanics data := by
  by_cases hpre : Preamble data
  · obtain ⟨hlen, hmagic, hver⟩ := hpre
    by_cases hoff : WalksOff data
    · obtain ⟨j, q, h1, h2, h3⟩ := hoff
      exact iff_of_true (C25_js_panics hd hmagic hver hlen h1 h2 h3) ⟨⟨hlen, hmagic, hver⟩, .inl ⟨j, q, h1, h2, h3⟩⟩
    · have hsafe := (jsSections_safe hd (n := at32 data 8) SectionAt32.first (by
        intro j q hj hat
        by_contra hq
        exact hoff ⟨j, q, by omega, hat, by omega⟩)).1
      have r1 : jsU32 data 4 = .ok (1, 8) := by rw [jsU32_inside hd (by omega)]; unfold at32 at hver; rw [hver]
      have r2 : jsU32 data 8 = .ok (at32 data 8, 12) := by rw [jsU32_inside hd (by omega)]; rfl
      have hj : JsPanics data ↔ WalksThrough data ∧ ∃ q₁ q₂ f m, FirstOfType data 1 q₁ ∧ Declares data q₁ f m ∧ FirstOfType data 2 q₂ ∧
          CoefficientOff data q₂ f m := by
        unfold JsPanics
        constructor
        · rintro ⟨-, h | h⟩
          · exact absurd h hoff
          · exact h
        · exact fun h => ⟨⟨hlen, hmagic, hver⟩, .inr h⟩
      rw [hj]
      unfold jsParseR1cs
      rw [if_neg (by rw [show slice data 0 4 = data.take 4 from rfl, hmagic]; simp; omega)]
      simp only [r1, r2, Res.ok_bind, ne_eq, not_true_eq_false, if_false]
      cases hsec : PP.many (jsSection data) (at32 data 8) 12 with
      | error e =>
        rw [hsec] at hsafe
        refine iff_of_false ?_ ?_
        · cases e with
          | err m => simp [Res.error_bind]
          | panic => exact absurd hsafe (by simp [Graceful])
          | hang => simp [Res.error_bind]
        · rintro ⟨h, -⟩
          obtain ⟨r, hr⟩ := sections_through hd SectionAt32.first (fun j hj => by rw [Nat.zero_add]; exact h j hj)
          rw [hsec] at hr
          cases hr
      | ok x =>
        obtain ⟨secs, p⟩ := x
        have hwt : WalksThrough data := fun j hj => by
          obtain ⟨q, l, g1, g2, -⟩ := (sections_list SectionAt32.first hsec).2 j hj
          exact ⟨q, by rw [Nat.zero_add] at g1; exact g1, g2⟩
        have hend : ∀ {s ty}, findSection ty secs = some s → ∃ q, s.2.2 = q + 12 ∧ q + 12 ≤ data.length := by
          intro s ty hs
          obtain ⟨i, hi, he⟩ := List.getElem_of_mem (List.mem_of_find?_eq_some hs)
          obtain ⟨hl, hx⟩ := sections_list SectionAt32.first hsec
          obtain ⟨q, l, -, g2, g3⟩ := hx i (by omega)
          rw [List.getElem?_eq_getElem hi, he] at g3
          cases g3
          exact ⟨q, rfl, g2⟩
        simp only [Res.ok_bind, hwt, true_and]
        cases h1 : findSection 1 secs with
        | none =>
          refine iff_of_false (by simp [Res.ofOption, Res.fail, Res.error_bind]) ?_
          rintro ⟨q₁, q₂, f, m, hf, -⟩
          obtain ⟨s, hs, -⟩ := (find_first hsec 1 q₁).1 hf
          rw [h1] at hs
          cases hs
        | some hs =>
          obtain ⟨q₁, e1, l1⟩ := hend h1
          have hu : ∀ q, FirstOfType data 1 q → q = q₁ := fun q hq => by
            obtain ⟨s, hs', he⟩ := (find_first hsec 1 q).1 hq
            rw [h1] at hs'
            cases hs'
            omega
          simp only [Res.ofOption, Res.ok_bind, e1]
          have hsf := (jsHeader_safe hd (q₁ + 12) l1).1
          cases h2 : jsHeader data (q₁ + 12) with
          | error e =>
            rw [h2] at hsf
            refine iff_of_false ?_ ?_
            · cases e with
              | err m => simp [Res.error_bind]
              | panic => exact absurd hsf (by simp [Graceful])
              | hang => simp [Res.error_bind]
            · rintro ⟨q, q₂, f, m, hf, hdec, -⟩
              obtain rfl := hu q hf
              obtain ⟨h', p', hh, -⟩ := header_ok hd hdec
              rw [h2] at hh
              cases hh
          | ok y =>
            obtain ⟨h, p1⟩ := y
            have hdec := header_declares h2
            have hdu : ∀ f m, Declares data q₁ f m → f = h.fieldSize ∧ m = h.nConstraints := by
              intro f m hd'
              obtain ⟨h', p', hh, rfl, rfl⟩ := header_ok hd hd'
              rw [h2] at hh
              cases hh
              exact ⟨rfl, rfl⟩
            simp only [Res.ok_bind]
            cases h3 : findSection 2 secs with
            | none =>
              refine iff_of_false (by simp [Res.fail, Res.error_bind]) ?_
              rintro ⟨q, q₂, f, m, -, -, hf, -⟩
              obtain ⟨s, hs, -⟩ := (find_first hsec 2 q₂).1 hf
              rw [h3] at hs
              cases hs
            | some cs =>
              obtain ⟨q₂, e2, l2⟩ := hend h3
              have hp := cstrs_panic hd (f := h.fieldSize) (by rw [← hdec.2.1]; exact at32_lt _ _) (n := h.nConstraints) l2
              simp only [Res.ok_bind, e2]
              have hres : (∃ q₁ q₂ f m, FirstOfType data 1 q₁ ∧ Declares data q₁ f m ∧ FirstOfType data 2 q₂ ∧ CoefficientOff data q₂ f m) ↔
                  Off data h.fieldSize (3 * h.nConstraints) (q₂ + 12) := by
                constructor
                · rintro ⟨q, q', f, m, g1, g2, g3, g4⟩
                  obtain rfl := hu q g1
                  obtain ⟨rfl, rfl⟩ := hdu f m g2
                  obtain ⟨s, hs', he⟩ := (find_first hsec 2 q').1 g3
                  rw [h3] at hs'
                  cases hs'
                  obtain rfl : q' = q₂ := by omega
                  exact g4
                · intro ho
                  exact ⟨q₁, q₂, _, _, (find_first hsec 1 q₁).2 ⟨hs, h1, e1⟩, hdec, (find_first hsec 2 q₂).2 ⟨cs, h3, e2⟩, ho⟩
              rw [hres, ← hp]
              cases PP.many (jsCstr data h.fieldSize) h.nConstraints (q₂ + 12) with
              | error e => simp [Res.error_bind]
              | ok z => simp [Res.ok_bind]
  · refine iff_of_false ?_ (fun h => hpre h.1)
    intro hpanic
    unfold jsParseR1cs at hpanic
    split at hpanic
    · simp [Res.fail] at hpanic
    rename_i hm
    simp only [not_or, not_lt, gt_iff_lt, ne_eq, not_not] at hm
    have s4 := (jsU32_safe hd 4 hm.1).1
    cases h4 : jsU32 data 4 with
    | error e =>
      rw [h4] at s4 hpanic
      rw [Res.error_bind] at hpanic
      cases hpanic
      exact absurd s4 (by simp [Graceful])
    | ok x =>
      obtain ⟨v, q⟩ := x
      obtain ⟨l4, rfl, rfl⟩ := jsU32_ok h4
      rw [h4, Res.ok_bind] at hpanic
      dsimp only at hpanic
      split at hpanic
      · simp [Res.fail] at hpanic
      rename_i hv
      rw [not_not] at hv
      have s8 := (jsU32_safe hd 8 l4).1
      cases h8 : jsU32 data 8 with
      | error e =>
        rw [h8] at s8 hpanic
        rw [Res.error_bind] at hpanic
        cases hpanic
        exact absurd s8 (by simp [Graceful])
      | ok x =>
        obtain ⟨v', q'⟩ := x
        have := (jsU32_ok h8).1
        exact hpre ⟨by omega, hm.2, hv⟩

/-- A 48-byte file whose header declares coefficients of `2^32 - 28` bytes, with one term announced. -/
def coefficientFile : Bytes := [114, 49, 99, 115] ++ (u32le 1 ++ (u32le 2 ++ (u32le 1 ++ (u64le 4 ++ (u32le (2 ^ 32 - 28) ++
  (u32le 2 ++ (u64le 8 ++ (u32le 1 ++ u32le 0))))))))

/-- **C25** — the second kind is real too: a concrete file; the CLI reports an error for the same bytes. -/
theorem C25_js_coefficient_example (lim : Nat) :
    jsParseR1cs coefficientFile = .error .panic ∧ ∃ m, cliParseR1cs lim coefficientFile = .error (.err m) := by
  have s1 : SectionAt32 coefficientFile 1 28 := by
    have := SectionAt32.next (data := coefficientFile) SectionAt32.first (by decide)
    have e : (12 + 12 + leNat (slice coefficientFile (12 + 4) 8)) % 2 ^ 32 = 28 := by decide
    rw [e] at this
    exact this
  have h8 : at32 coefficientFile 8 = 2 := by decide
  have hp : jsParseR1cs coefficientFile = .error .panic := by
    rw [C25_js_panic_iff (by decide)]
    refine ⟨by unfold Preamble; decide, .inr ⟨?_, 12, 28, 2 ^ 32 - 28, 2 ^ 32 - 28, ⟨0, by omega, SectionAt32.first, by decide, fun i hi => absurd hi (by omega)⟩,
      by unfold Declares; decide, ⟨1, by omega, s1, by decide, ?_⟩, ⟨0, by norm_num, fun i hi => absurd hi (by omega), by decide, by decide, by omega⟩⟩⟩
    · intro j hj
      have : j = 0 ∨ j = 1 := by omega
      rcases this with rfl | rfl
      · exact ⟨12, SectionAt32.first, by decide⟩
      · exact ⟨28, s1, by decide⟩
    · intro i hi q hq
      obtain rfl : i = 0 := by omega
      cases hq
      decide
  refine ⟨hp, not_ok_err (cliParse_graceful lim _) fun r hr => ?_⟩
  rw [C23_js_agrees (by decide) hr] at hp
  simp at hp

end Zkenc.Props
