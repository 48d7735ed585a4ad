import Verif.Proofs.Pos
import Verif.Model.R1csParse
import Verif.Spec.R1csFormat
/-!
# Lemmas about the `.r1cs` parsers
-/

namespace Zkenc

open R1csFormat

/-! ## CLI primitives -/

theorem cliRead_reads {e : Bytes} {n : Nat} (h : e.length = n) : PP.Reads (fun d => cliRead d n) e e := by
  intro data pos hat
  subst h
  simp only [cliRead, if_pos (Or.inr hat.1), hat.2]

theorem cliRead_mono (n : Nat) : PP.Mono (fun d => cliRead d n) := by
  intro data pos a pos' t h
  simp only [cliRead] at h ⊢
  split at h
  · rename_i hc
    simp only [Except.ok.injEq, Prod.mk.injEq] at h
    obtain ⟨rfl, rfl⟩ := h
    rcases hc with rfl | hc
    · simp [slice_zero]
    · rw [if_pos (Or.inr (by simp; omega)), slice_append_left hc]
      exact ⟨rfl, Or.inr hc⟩
  · simp [Res.fail] at h

theorem cliRead_total (data : Bytes) (n : Nat) : PP.Total (cliRead data n) := by
  intro pos
  simp only [cliRead]
  split
  · exact Graceful.ok _
  · exact Graceful.fail _

theorem cliRead_ok {data : Bytes} {n pos : Nat} {x : Bytes × Nat} (hn : n ≠ 0) (h : cliRead data n pos = .ok x) :
    pos + n ≤ data.length ∧ x = (slice data pos n, pos + n) := by
  simp only [cliRead] at h
  split at h
  · rename_i hc
    simp only [Except.ok.injEq] at h
    exact ⟨by omega, h.symm⟩
  · simp [Res.fail] at h

theorem cliU32_reads {v : Nat} (h : v < 2 ^ 32) : PP.Reads cliU32 (u32le v) v := by
  have := PP.Reads.map leNat (cliRead_reads (e := u32le v) (n := 4) (by simp))
  rwa [leNat_u32le h] at this

theorem cliU64_reads {v : Nat} (h : v < 2 ^ 64) : PP.Reads cliU64 (u64le v) v := by
  have := PP.Reads.map leNat (cliRead_reads (e := u64le v) (n := 8) (by simp))
  rwa [leNat_u64le h] at this

theorem cliU32_mono : PP.Mono cliU32 := PP.Mono.bind (f := fun _ b => PP.pure (leNat b)) (cliRead_mono 4) fun _ => PP.Mono.pure _
theorem cliU64_mono : PP.Mono cliU64 := PP.Mono.bind (f := fun _ b => PP.pure (leNat b)) (cliRead_mono 8) fun _ => PP.Mono.pure _
theorem cliU32_total (data : Bytes) : PP.Total (cliU32 data) := PP.Total.bind (cliRead_total _ _) fun _ => PP.Total.pure _
theorem cliU64_total (data : Bytes) : PP.Total (cliU64 data) := PP.Total.bind (cliRead_total _ _) fun _ => PP.Total.pure _

theorem cliU32_ok {data : Bytes} {pos v pos' : Nat} (h : cliU32 data pos = .ok (v, pos')) :
    pos + 4 ≤ data.length ∧ v = leNat (slice data pos 4) ∧ pos' = pos + 4 := by
  obtain ⟨a, q, h1, h2⟩ := PP.bind_ok.1 h
  obtain ⟨h3, h4⟩ := cliRead_ok (by decide) h1
  simp only [Prod.mk.injEq] at h4
  simp only [PP.pure, Except.ok.injEq, Prod.mk.injEq] at h2
  obtain ⟨rfl, rfl⟩ := h4
  exact ⟨h3, h2.1.symm, h2.2.symm⟩

theorem cliU64_ok {data : Bytes} {pos v pos' : Nat} (h : cliU64 data pos = .ok (v, pos')) :
    pos + 8 ≤ data.length ∧ v = leNat (slice data pos 8) ∧ pos' = pos + 8 := by
  obtain ⟨a, q, h1, h2⟩ := PP.bind_ok.1 h
  obtain ⟨h3, h4⟩ := cliRead_ok (by decide) h1
  simp only [Prod.mk.injEq] at h4
  simp only [PP.pure, Except.ok.injEq, Prod.mk.injEq] at h2
  obtain ⟨rfl, rfl⟩ := h4
  exact ⟨h3, h2.1.symm, h2.2.symm⟩

/-! ## CLI composite readers -/

theorem cliFactor_reads {fs : Nat} {x : Nat × Bytes} (h : x.1 < 2 ^ 32 ∧ x.2.length = fs) :
    PP.Reads (fun d => cliFactor d fs) (u32le x.1 ++ x.2) x :=
  PP.Reads.bind (f := fun d w => PP.bind (cliRead d fs) fun v => PP.pure (w, v)) (cliU32_reads h.1)
    (PP.Reads.map (fun v => (x.1, v)) (cliRead_reads h.2))

theorem cliParseLc_reads {fs : Nat} {f : Factors} (h : LcOk fs f) : PP.Reads (fun d => cliParseLc d fs) (lcBytes f) f :=
  PP.Reads.bind (f := fun d n => PP.many (cliFactor d fs) n) (cliU32_reads h.1)
    (PP.Reads.many (enc := fun x => u32le x.1 ++ x.2) f fun x hx => cliFactor_reads (h.2 x hx))

theorem cliCstr_reads {fs : Nat} {c : FileCstr} (h : LcOk fs c.a ∧ LcOk fs c.b ∧ LcOk fs c.c) :
    PP.Reads (fun d => cliCstr d fs) (cstrBytes c) c := by
  have h3 := PP.Reads.map (fun z => (⟨c.a, c.b, z⟩ : FileCstr)) (cliParseLc_reads h.2.2)
  have h2 := PP.Reads.bind (f := fun d y => PP.bind (cliParseLc d fs) fun z => PP.pure (⟨c.a, y, z⟩ : FileCstr)) (cliParseLc_reads h.2.1) h3
  exact PP.Reads.bind (f := fun d x => PP.bind (cliParseLc d fs) fun y => PP.bind (cliParseLc d fs) fun z => PP.pure (⟨x, y, z⟩ : FileCstr))
    (cliParseLc_reads h.1) h2

/-- The header record that the CLI keeps of `r`. -/
def R1csFile.hdr (r : R1csFile) : CliHeader :=
  ⟨r.fieldSize, r.prime, r.nWires, r.nPubOut, r.nPubIn, r.nPrvIn, r.nLabels, r.nConstraints⟩

theorem cliHeader_reads {r : R1csFile} (h : Fits r) : PP.Reads cliHeader (headerBytes r) r.hdr := by
  have h8 := PP.Reads.map (fun nc => (⟨r.fieldSize, r.prime, r.nWires, r.nPubOut, r.nPubIn, r.nPrvIn, r.nLabels, nc⟩ : CliHeader))
    (cliU32_reads h.nConstraints)
  have h7 := PP.Reads.bind (f := fun d nl => PP.bind (cliU32 d) fun nc =>
    PP.pure (⟨r.fieldSize, r.prime, r.nWires, r.nPubOut, r.nPubIn, r.nPrvIn, nl, nc⟩ : CliHeader)) (cliU64_reads h.nLabels) h8
  have h6 := PP.Reads.bind (f := fun d np => PP.bind (cliU64 d) fun nl => PP.bind (cliU32 d) fun nc =>
    PP.pure (⟨r.fieldSize, r.prime, r.nWires, r.nPubOut, r.nPubIn, np, nl, nc⟩ : CliHeader)) (cliU32_reads h.nPrvIn) h7
  have h5 := PP.Reads.bind (f := fun d ni => PP.bind (cliU32 d) fun np => PP.bind (cliU64 d) fun nl => PP.bind (cliU32 d) fun nc =>
    PP.pure (⟨r.fieldSize, r.prime, r.nWires, r.nPubOut, ni, np, nl, nc⟩ : CliHeader)) (cliU32_reads h.nPubIn) h6
  have h4 := PP.Reads.bind (f := fun d no => PP.bind (cliU32 d) fun ni => PP.bind (cliU32 d) fun np => PP.bind (cliU64 d) fun nl =>
    PP.bind (cliU32 d) fun nc =>
    PP.pure (⟨r.fieldSize, r.prime, r.nWires, no, ni, np, nl, nc⟩ : CliHeader)) (cliU32_reads h.nPubOut) h5
  have h3 := PP.Reads.bind (f := fun d nw => PP.bind (cliU32 d) fun no => PP.bind (cliU32 d) fun ni => PP.bind (cliU32 d) fun np =>
    PP.bind (cliU64 d) fun nl => PP.bind (cliU32 d) fun nc =>
    PP.pure (⟨r.fieldSize, r.prime, nw, no, ni, np, nl, nc⟩ : CliHeader)) (cliU32_reads h.nWires) h4
  have h2 := PP.Reads.bind (f := fun d p => PP.bind (cliU32 d) fun nw => PP.bind (cliU32 d) fun no => PP.bind (cliU32 d) fun ni =>
    PP.bind (cliU32 d) fun np => PP.bind (cliU64 d) fun nl => PP.bind (cliU32 d) fun nc =>
    PP.pure (⟨r.fieldSize, p, nw, no, ni, np, nl, nc⟩ : CliHeader)) (cliRead_reads h.prime) h3
  exact PP.Reads.bind (f := fun d fs => PP.bind (cliRead d fs) fun p => PP.bind (cliU32 d) fun nw => PP.bind (cliU32 d) fun no =>
    PP.bind (cliU32 d) fun ni => PP.bind (cliU32 d) fun np => PP.bind (cliU64 d) fun nl => PP.bind (cliU32 d) fun nc =>
    PP.pure (⟨fs, p, nw, no, ni, np, nl, nc⟩ : CliHeader)) (cliU32_reads h.fieldSize) h2

theorem cliConstraints_reads {r : R1csFile} (h : Fits r) :
    PP.Reads (fun d => PP.many (cliCstr d r.fieldSize) r.nConstraints) (constraintsBytes r) r.constraints := by
  rw [← h.constraints]
  exact PP.Reads.many r.constraints fun c hc => cliCstr_reads (h.lcs c hc)

theorem cliLabels_reads {r : R1csFile} (h : Fits r) :
    PP.Reads (fun d => PP.many (cliU64 d) r.nWires) (labelsBytes r) r.wire2label := by
  rw [← h.labels]
  exact PP.Reads.many r.wire2label fun c hc => cliU64_reads (h.label c hc)

theorem cliFactor_mono (fs : Nat) : PP.Mono (fun d => cliFactor d fs) :=
  PP.Mono.bind (f := fun d w => PP.bind (cliRead d fs) fun v => PP.pure (w, v)) cliU32_mono fun w =>
    PP.Mono.bind (f := fun _ v => PP.pure (w, v)) (cliRead_mono fs) fun _ => PP.Mono.pure _

theorem cliParseLc_mono (fs : Nat) : PP.Mono (fun d => cliParseLc d fs) :=
  PP.Mono.bind (f := fun d n => PP.many (cliFactor d fs) n) cliU32_mono fun n => PP.Mono.many (cliFactor_mono fs) n

theorem cliCstr_mono (fs : Nat) : PP.Mono (fun d => cliCstr d fs) :=
  PP.Mono.bind (f := fun d x => PP.bind (cliParseLc d fs) fun y => PP.bind (cliParseLc d fs) fun z => PP.pure (⟨x, y, z⟩ : FileCstr))
    (cliParseLc_mono fs) fun x =>
    PP.Mono.bind (f := fun d y => PP.bind (cliParseLc d fs) fun z => PP.pure (⟨x, y, z⟩ : FileCstr)) (cliParseLc_mono fs) fun y =>
    PP.Mono.bind (f := fun _ z => PP.pure (⟨x, y, z⟩ : FileCstr)) (cliParseLc_mono fs) fun _ => PP.Mono.pure _

theorem cliHeader_mono : PP.Mono cliHeader := by
  refine PP.Mono.bind (f := fun d fs => PP.bind (cliRead d fs) fun p => PP.bind (cliU32 d) fun nw => PP.bind (cliU32 d) fun no =>
    PP.bind (cliU32 d) fun ni => PP.bind (cliU32 d) fun np => PP.bind (cliU64 d) fun nl => PP.bind (cliU32 d) fun nc =>
    PP.pure (⟨fs, p, nw, no, ni, np, nl, nc⟩ : CliHeader)) cliU32_mono fun fs => ?_
  refine PP.Mono.bind (f := fun d p => PP.bind (cliU32 d) fun nw => PP.bind (cliU32 d) fun no =>
    PP.bind (cliU32 d) fun ni => PP.bind (cliU32 d) fun np => PP.bind (cliU64 d) fun nl => PP.bind (cliU32 d) fun nc =>
    PP.pure (⟨fs, p, nw, no, ni, np, nl, nc⟩ : CliHeader)) (cliRead_mono fs) fun p => ?_
  refine PP.Mono.bind (f := fun d nw => PP.bind (cliU32 d) fun no =>
    PP.bind (cliU32 d) fun ni => PP.bind (cliU32 d) fun np => PP.bind (cliU64 d) fun nl => PP.bind (cliU32 d) fun nc =>
    PP.pure (⟨fs, p, nw, no, ni, np, nl, nc⟩ : CliHeader)) cliU32_mono fun nw => ?_
  refine PP.Mono.bind (f := fun d no =>
    PP.bind (cliU32 d) fun ni => PP.bind (cliU32 d) fun np => PP.bind (cliU64 d) fun nl => PP.bind (cliU32 d) fun nc =>
    PP.pure (⟨fs, p, nw, no, ni, np, nl, nc⟩ : CliHeader)) cliU32_mono fun no => ?_
  refine PP.Mono.bind (f := fun d ni =>
    PP.bind (cliU32 d) fun np => PP.bind (cliU64 d) fun nl => PP.bind (cliU32 d) fun nc =>
    PP.pure (⟨fs, p, nw, no, ni, np, nl, nc⟩ : CliHeader)) cliU32_mono fun ni => ?_
  refine PP.Mono.bind (f := fun d np => PP.bind (cliU64 d) fun nl => PP.bind (cliU32 d) fun nc =>
    PP.pure (⟨fs, p, nw, no, ni, np, nl, nc⟩ : CliHeader)) cliU32_mono fun np => ?_
  refine PP.Mono.bind (f := fun d nl => PP.bind (cliU32 d) fun nc =>
    PP.pure (⟨fs, p, nw, no, ni, np, nl, nc⟩ : CliHeader)) cliU64_mono fun nl => ?_
  exact PP.Mono.bind (f := fun _ nc => PP.pure (⟨fs, p, nw, no, ni, np, nl, nc⟩ : CliHeader)) cliU32_mono fun nc => PP.Mono.pure _

theorem cliSeekRel_total (lim size : Nat) : PP.Total (cliSeekRel lim size) := by
  intro pos
  unfold cliSeekRel
  dsimp only
  generalize (pos : Int) + (if size < 2 ^ 63 then (size : Int) else (size : Int) - 2 ^ 64) = target
  split
  · exact Graceful.fail _
  · exact Graceful.ok _

theorem cliSection_total (lim : Nat) (data : Bytes) : PP.Total (cliSection lim data) :=
  PP.Total.bind (cliU32_total _) fun _ => PP.Total.bind (cliU64_total _) fun _ =>
    PP.Total.bind (fun _ => Graceful.ok _) fun _ => PP.Total.bind (cliSeekRel_total _ _) fun _ => PP.Total.pure _

theorem cliFactor_total (data : Bytes) (fs : Nat) : PP.Total (cliFactor data fs) :=
  PP.Total.bind (cliU32_total _) fun _ => PP.Total.bind (cliRead_total _ _) fun _ => PP.Total.pure _

theorem cliParseLc_total (data : Bytes) (fs : Nat) : PP.Total (cliParseLc data fs) :=
  PP.Total.bind (cliU32_total _) fun _ => PP.Total.many (cliFactor_total _ _) _

theorem cliCstr_total (data : Bytes) (fs : Nat) : PP.Total (cliCstr data fs) :=
  PP.Total.bind (cliParseLc_total _ _) fun _ => PP.Total.bind (cliParseLc_total _ _) fun _ =>
    PP.Total.bind (cliParseLc_total _ _) fun _ => PP.Total.pure _

theorem cliHeader_total (data : Bytes) : PP.Total (cliHeader data) :=
  PP.Total.bind (cliU32_total _) fun _ => PP.Total.bind (cliRead_total _ _) fun _ => PP.Total.bind (cliU32_total _) fun _ =>
    PP.Total.bind (cliU32_total _) fun _ => PP.Total.bind (cliU32_total _) fun _ => PP.Total.bind (cliU32_total _) fun _ =>
    PP.Total.bind (cliU64_total _) fun _ => PP.Total.bind (cliU32_total _) fun _ => PP.Total.pure _

/-! ## The section pass -/

/-- Total encoded size of a list of sections. -/
def secsSize (secs : List (Nat × Bytes)) : Nat := ((secs.map secBytes).flatten).length

@[simp] theorem secsSize_nil : secsSize [] = 0 := rfl
@[simp] theorem secsSize_cons (s : Nat × Bytes) (secs : List (Nat × Bytes)) :
    secsSize (s :: secs) = 12 + s.2.length + secsSize secs := by
  simp [secsSize, secBytes]; omega
@[simp] theorem secsSize_append (a b : List (Nat × Bytes)) : secsSize (a ++ b) = secsSize a + secsSize b := by
  simp [secsSize]

/-- What the section pass collects. -/
def locate : Nat → List (Nat × Bytes) → List (Nat × Nat × Nat)
  | _, [] => []
  | pos, s :: secs => (s.1, s.2.length, pos + 12) :: locate (pos + (12 + s.2.length)) secs

/-- All section headers stand where they should. -/
def HeadersAt (data : Bytes) : Nat → List (Nat × Bytes) → Prop
  | _, [] => True
  | pos, s :: secs => At data pos (u32le s.1 ++ u64le s.2.length) ∧ HeadersAt data (pos + (12 + s.2.length)) secs

theorem findSection_locate_split {ty : Nat} {pl : Bytes} {pre post : List (Nat × Bytes)} (pos : Nat)
    (h : ty ∉ pre.map Prod.fst) :
    findSection ty (locate pos (pre ++ (ty, pl) :: post)) = some (ty, pl.length, pos + secsSize pre + 12) := by
  induction pre generalizing pos with
  | nil => simp [findSection, locate]
  | cons s pre ih =>
    simp only [List.map_cons, List.mem_cons, not_or] at h
    have h1 : (s.1 == ty) = false := by simpa using fun e => h.1 e.symm
    simp only [findSection, List.cons_append, locate, List.find?_cons, h1]
    have := ih (pos + (12 + s.2.length)) h.2
    simp only [findSection] at this
    rw [this]
    simp; omega

theorem findSection_locate_none {ty : Nat} {secs : List (Nat × Bytes)} (pos : Nat)
    (h : secs.lookup ty = none) : findSection ty (locate pos secs) = none := by
  induction secs generalizing pos with
  | nil => rfl
  | cons s secs ih =>
    obtain ⟨t, pl⟩ := s
    rw [List.lookup_cons] at h
    by_cases ht : ty = t
    · subst ht; simp at h
    · have h1 : (ty == t) = false := by simpa using ht
      rw [h1] at h
      have h2 : (t == ty) = false := by simpa using fun e => ht e.symm
      simp only [findSection, locate, List.find?_cons, h2]
      exact ih _ h

theorem lookup_split {ty : Nat} {pl : Bytes} {secs : List (Nat × Bytes)} :
    secs.lookup ty = some pl ↔ ∃ pre post, secs = pre ++ (ty, pl) :: post ∧ ty ∉ pre.map Prod.fst := by
  induction secs with
  | nil => simp
  | cons s secs ih =>
    obtain ⟨t, q⟩ := s
    rw [List.lookup_cons]
    by_cases ht : ty = t
    · subst ht
      simp only [beq_self_eq_true]
      constructor
      · intro h
        simp only [Option.some.injEq] at h
        subst h
        exact ⟨[], secs, rfl, by simp⟩
      · rintro ⟨pre, post, h1, h2⟩
        cases pre with
        | nil => simp only [List.nil_append, List.cons.injEq, Prod.mk.injEq] at h1; simp [h1.1.2]
        | cons x xs =>
          simp only [List.cons_append, List.cons.injEq] at h1
          exfalso; apply h2
          simp [← h1.1]
    · have h1 : (ty == t) = false := by simpa using ht
      simp only [h1]
      rw [ih]
      constructor
      · rintro ⟨pre, post, rfl, h2⟩
        exact ⟨(t, q) :: pre, post, rfl, by simp [ht, h2]⟩
      · rintro ⟨pre, post, h2, h3⟩
        cases pre with
        | nil =>
          simp only [List.nil_append, List.cons.injEq, Prod.mk.injEq] at h2
          exact absurd h2.1.1.symm ht
        | cons x xs =>
          simp only [List.cons_append, List.cons.injEq] at h2
          refine ⟨xs, post, h2.2, ?_⟩
          simp only [List.map_cons, List.mem_cons, not_or] at h3
          exact h3.2

theorem cliSection_reads {lim : Nat} {data : Bytes} {pos : Nat} {s : Nat × Bytes} (hs : s.1 < 2 ^ 32 ∧ s.2.length < 2 ^ 63)
    (hat : At data pos (u32le s.1 ++ u64le s.2.length)) (hlim : pos + (12 + s.2.length) ≤ lim) :
    cliSection lim data pos = .ok ((s.1, s.2.length, pos + 12), pos + (12 + s.2.length)) := by
  obtain ⟨h1, h2⟩ := At.append.1 hat
  rw [u32le_length] at h2
  unfold cliSection
  have e1 := cliU32_reads hs.1 data pos h1
  have e2 := cliU64_reads (v := s.2.length) (by omega) data _ h2
  simp only [u32le_length, u64le_length] at e1 e2
  rw [PP.bind_of_ok e1, PP.bind_of_ok e2, PP.bind_of_ok (p := PP.here) (rfl : PP.here (pos + 4 + 8) = .ok (pos + 4 + 8, pos + 4 + 8))]
  have e3 : cliSeekRel lim s.2.length (pos + 4 + 8) = .ok ((), pos + (12 + s.2.length)) := by
    simp only [cliSeekRel, if_pos hs.2]
    rw [if_neg (by omega)]
    congr 2
    omega
  rw [PP.bind_of_ok e3]
  simp [PP.pure]

theorem cliSections_read {lim : Nat} {data : Bytes} {pos : Nat} {secs : List (Nat × Bytes)}
    (hs : ∀ s ∈ secs, s.1 < 2 ^ 32 ∧ s.2.length < 2 ^ 63) (hat : HeadersAt data pos secs) (hlim : pos + secsSize secs ≤ lim) :
    PP.many (cliSection lim data) secs.length pos = .ok (locate pos secs, pos + secsSize secs) := by
  induction secs generalizing pos with
  | nil => rfl
  | cons s secs ih =>
    rw [secsSize_cons] at hlim
    have e1 := cliSection_reads (hs s (by simp)) hat.1 (lim := lim) (by omega)
    have e2 := ih (fun x hx => hs x (by simp [hx])) hat.2 (by omega)
    simp only [List.length_cons, PP.many]
    rw [PP.bind_of_ok e1, PP.bind_of_ok e2]
    simp only [PP.pure, locate, secsSize_cons]
    congr 2
    omega

theorem HeadersAt.of_flatten {data : Bytes} {pos : Nat} {secs : List (Nat × Bytes)}
    (h : At data pos (secs.map secBytes).flatten) : HeadersAt data pos secs := by
  induction secs generalizing pos with
  | nil => trivial
  | cons s secs ih =>
    simp only [List.map_cons, List.flatten_cons] at h
    obtain ⟨h1, h2⟩ := At.append.1 h
    constructor
    · unfold secBytes at h1
      rw [← List.append_assoc] at h1
      exact (At.append.1 h1).1
    · have : (secBytes s).length = 12 + s.2.length := by simp [secBytes]; omega
      rw [this] at h2
      exact ih h2

/-- Success of the section pass on a prefix of the file means all section headers are in the prefix. -/
theorem HeadersAt.of_prefix {lim : Nat} {data : Bytes} {k pos : Nat} {secs : List (Nat × Bytes)} {x : List (Nat × Nat × Nat) × Nat}
    (hk : k ≤ data.length) (hs : ∀ s ∈ secs, s.1 < 2 ^ 32 ∧ s.2.length < 2 ^ 63) (hat : HeadersAt data pos secs)
    (hlim : pos + secsSize secs ≤ lim)
    (h : PP.many (cliSection lim (data.take k)) secs.length pos = .ok x) : HeadersAt (data.take k) pos secs := by
  induction secs generalizing pos x with
  | nil => trivial
  | cons s secs ih =>
    rw [secsSize_cons] at hlim
    simp only [List.length_cons, PP.many] at h
    obtain ⟨a, q, h1, h2⟩ := PP.bind_ok.1 h
    obtain ⟨as, q', h3, -⟩ := PP.bind_ok.1 h2
    have hle : pos + 12 ≤ k := by
      unfold cliSection at h1
      obtain ⟨t, p1, g1, g2⟩ := PP.bind_ok.1 h1
      obtain ⟨sz, p2, g3, -⟩ := PP.bind_ok.1 g2
      have := cliU32_ok g1
      have g4 := cliU64_ok g3
      rw [List.length_take, Nat.min_eq_left hk] at g4
      omega
    have hat1 : At (data.take k) pos (u32le s.1 ++ u64le s.2.length) :=
      (hat.1.take_iff hk).2 (by simpa using hle)
    refine ⟨hat1, ?_⟩
    have e1 := cliSection_reads (hs s (by simp)) hat1 (lim := lim) (by omega)
    rw [e1] at h1
    simp only [Except.ok.injEq, Prod.mk.injEq] at h1
    rw [← h1.2] at h3
    exact ih (fun x hx => hs x (by simp [hx])) hat.2 (by omega) h3

/-- `HeadersAt` at the section in the middle. -/
theorem HeadersAt.split {data : Bytes} {pos : Nat} {secs pre post : List (Nat × Bytes)} {s : Nat × Bytes}
    (h : HeadersAt data pos secs) (hsp : secs = pre ++ s :: post) : pos + secsSize pre + 12 ≤ data.length := by
  subst hsp
  induction pre generalizing pos with
  | nil =>
    have := h.1.1
    simp at this
    simp; omega
  | cons x pre ih =>
    have := ih h.2
    rw [secsSize_cons]
    omega

theorem HeadersAt.of_split {data : Bytes} {k pos : Nat} {secs : List (Nat × Bytes)} (hk : k ≤ data.length)
    (hat : HeadersAt data pos secs)
    (h : ∀ pre s post, secs = pre ++ s :: post → pos + secsSize pre + 12 ≤ k) : HeadersAt (data.take k) pos secs := by
  induction secs generalizing pos with
  | nil => trivial
  | cons s secs ih =>
    refine ⟨(hat.1.take_iff hk).2 ?_, ih hat.2 ?_⟩
    · simpa using h [] s secs rfl
    · intro pre s' post e
      have := h (s :: pre) s' post (by rw [e]; rfl)
      rw [secsSize_cons] at this
      omega

/-- Payload of the section in the middle. -/
theorem At.payload {data : Bytes} {pos : Nat} {pre post : List (Nat × Bytes)} {s : Nat × Bytes}
    (h : At data pos ((pre ++ s :: post).map secBytes).flatten) : At data (pos + secsSize pre + 12) s.2 := by
  simp only [List.map_append, List.map_cons, List.flatten_append, List.flatten_cons] at h
  have h1 := (At.append.1 h).2
  have h2 := (At.append.1 h1).1
  unfold secBytes at h2
  rw [← List.append_assoc] at h2
  have h3 := (At.append.1 h2).2
  simp only [List.length_append, u32le_length, u64le_length] at h3
  exact h3

end Zkenc
