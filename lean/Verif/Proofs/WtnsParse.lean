import Verif.Proofs.R1csParse
import Verif.Model.WtnsParse
import Verif.Spec.WtnsFormat
/-!
# Lemmas about the CLI `.wtns` parser
-/

namespace Zkenc

open WtnsFormat

/-- Effect of a section on the parser state. -/
def applySec (c : Content) (st : WtnsState) : Sec → WtnsState
  | .header => { st with prime := c.prime, nWitness := c.values.length }
  | .data => { st with data := c.values.flatten }
  | .other _ _ => st

theorem cliAlloc_reads {n : Nat} (h : n < 2 ^ 63) : PP.Reads (fun _ => cliAlloc n) [] () := by
  intro data pos _
  simp only [cliAlloc]
  rw [if_pos h]
  rfl

theorem cliAlloc_mono (n : Nat) : PP.Mono (fun _ => cliAlloc n) := by
  intro data pos a pos' t h
  refine ⟨h, ?_⟩
  simp only [cliAlloc] at h
  split at h
  · simp only [Except.ok.injEq, Prod.mk.injEq] at h
    exact Or.inl h.2.symm
  · simp [Res.panic] at h

theorem cliWtnsSection_reads {c : Content} (hf : Fits c) (st : WtnsState) (s : Sec)
    (ho : ∀ t p, s = Sec.other t p → t < 2 ^ 32 ∧ t ≠ 1 ∧ t ≠ 2 ∧ p.length < 2 ^ 63)
    (hd : c.values.flatten.length < 2 ^ 63) :
    PP.Reads (fun d => cliWtnsSection d st) (s.bytes c) (applySec c st s) := by
  have hfield := hf.field
  have hcount := hf.count
  cases s with
  | header =>
    refine PP.Reads.bind (f := fun d ty => PP.bind (cliU64 d) fun size => _) (cliU32_reads (v := 1) (by decide)) ?_
    refine PP.Reads.bind (f := fun d size => _) (cliU64_reads ?_) ?_
    · simp [Sec.payload]; omega
    · simp only [if_true]
      refine PP.Reads.bind (f := fun d fs => PP.bind (cliRead d fs) fun prime => PP.bind (cliU32 d) fun n => _) (cliU32_reads hf.field) ?_
      refine PP.Reads.bind (f := fun d prime => PP.bind (cliU32 d) fun n => _) (cliRead_reads rfl) ?_
      exact PP.Reads.map (fun n => ({ st with prime := c.prime, nWitness := n } : WtnsState)) (cliU32_reads hf.count)
  | data =>
    refine PP.Reads.bind (f := fun d ty => PP.bind (cliU64 d) fun size => _) (cliU32_reads (v := 2) (by decide)) ?_
    refine PP.Reads.bind (f := fun d size => _) (cliU64_reads ?_) ?_
    · simp only [Sec.payload]; omega
    · simp only [Sec.payload]
      have := PP.Reads.bind (e := []) (f := fun d (_ : Unit) => PP.bind (cliRead d c.values.flatten.length) fun x =>
        PP.pure ({ st with data := x } : WtnsState)) (cliAlloc_reads hd)
        (PP.Reads.map (fun x => ({ st with data := x } : WtnsState)) (cliRead_reads rfl))
      exact this
  | other t p =>
    obtain ⟨h1, h2, h3, h4⟩ := ho t p rfl
    refine PP.Reads.bind (f := fun d ty => PP.bind (cliU64 d) fun size => _) (cliU32_reads h1) ?_
    refine PP.Reads.bind (f := fun d size => _) (cliU64_reads ?_) ?_
    · simp only [Sec.payload]; omega
    · have h2' : ¬ (Sec.other t p).ty = 1 := h2
      have h3' : ¬ (Sec.other t p).ty = 2 := h3
      simp only [if_neg h2', if_neg h3']
      have := PP.Reads.bind (e := []) (f := fun d (_ : Unit) => PP.bind (cliRead d p.length) fun _ =>
        PP.pure st) (cliAlloc_reads h4)
        (PP.Reads.map (fun _ => st) (cliRead_reads (e := p) rfl))
      exact this

theorem cliWtnsSections_reads {c : Content} (hf : Fits c) (st : WtnsState) (secs : List Sec)
    (ho : ∀ t p, Sec.other t p ∈ secs → t < 2 ^ 32 ∧ t ≠ 1 ∧ t ≠ 2 ∧ p.length < 2 ^ 63)
    (hd : c.values.flatten.length < 2 ^ 63) :
    PP.Reads (fun d => cliWtnsSections d secs.length st) (secs.map (Sec.bytes c)).flatten (secs.foldl (applySec c) st) := by
  induction secs generalizing st with
  | nil => exact PP.Reads.pure st
  | cons s secs ih =>
    exact PP.Reads.bind (f := fun d st' => cliWtnsSections d secs.length st')
      (cliWtnsSection_reads hf st s (fun t p e => ho t p (by simp [e])) hd)
      (ih (applySec c st s) (fun t p h => ho t p (by simp [h])))

theorem cliWtnsSection_mono (st : WtnsState) : PP.Mono (fun d => cliWtnsSection d st) := by
  refine PP.Mono.bind (f := fun d ty => PP.bind (cliU64 d) fun size => _) cliU32_mono fun ty => ?_
  refine PP.Mono.bind (f := fun d size => _) cliU64_mono fun size => ?_
  by_cases h1 : ty = 1
  · simp only [if_pos h1]
    refine PP.Mono.bind (f := fun d fs => PP.bind (cliRead d fs) fun prime => PP.bind (cliU32 d) fun n => _) cliU32_mono fun fs => ?_
    refine PP.Mono.bind (f := fun d prime => PP.bind (cliU32 d) fun n => _) (cliRead_mono fs) fun p => ?_
    exact PP.Mono.bind (f := fun _ n => PP.pure ({ st with prime := p, nWitness := n } : WtnsState)) cliU32_mono fun _ => PP.Mono.pure _
  · by_cases h2 : ty = 2
    · simp only [if_neg h1, if_pos h2]
      refine PP.Mono.bind (f := fun d (_ : Unit) => PP.bind (cliRead d size) fun x =>
        PP.pure ({ st with data := x } : WtnsState)) (cliAlloc_mono size) fun _ => ?_
      exact PP.Mono.bind (f := fun _ x => PP.pure ({ st with data := x } : WtnsState)) (cliRead_mono size) fun _ => PP.Mono.pure _
    · simp only [if_neg h1, if_neg h2]
      refine PP.Mono.bind (f := fun d (_ : Unit) => PP.bind (cliRead d size) fun _ => PP.pure st) (cliAlloc_mono size) fun _ => ?_
      exact PP.Mono.bind (f := fun _ _ => PP.pure st) (cliRead_mono size) fun _ => PP.Mono.pure _

theorem cliWtnsSections_mono (n : Nat) (st : WtnsState) : PP.Mono (fun d => cliWtnsSections d n st) := by
  induction n generalizing st with
  | zero => exact PP.Mono.pure st
  | succ n ih =>
    exact PP.Mono.bind (f := fun d st' => cliWtnsSections d n st') (cliWtnsSection_mono st) fun st' => ih st'

/-- The checks after the section loop (witness.rs 89-119). -/
def cliWtnsFinish (st : WtnsState) : Res WitnessFile :=
  if st.prime = [] then Res.fail "Missing header section in wtns file" else
  if st.data = [] then Res.fail "Missing witness data section in wtns file" else
  if st.data.length ≠ st.nWitness * st.prime.length then Res.fail "Witness data size mismatch" else
  pure ⟨st.prime, st.nWitness, (List.range st.nWitness).map fun i => slice st.data (i * st.prime.length) st.prime.length⟩

theorem cliWtnsFinish_graceful (st : WtnsState) : Graceful (cliWtnsFinish st) := by
  unfold cliWtnsFinish
  split
  · exact Graceful.fail _
  split
  · exact Graceful.fail _
  split
  · exact Graceful.fail _
  exact Graceful.ok _

/-- The preamble. -/
def wtnsPreamble (data : Bytes) : Prop :=
  12 ≤ data.length ∧ slice data 0 4 = [119, 116, 110, 115] ∧ leNat (slice data 4 4) = 2

theorem cliU32_inside {data : Bytes} {pos : Nat} (h : pos + 4 ≤ data.length) :
    cliU32 data pos = .ok (leNat (slice data pos 4), pos + 4) := by
  have r1 : cliRead data 4 pos = .ok (slice data pos 4, pos + 4) := by
    unfold cliRead
    rw [if_pos (Or.inr h)]
  unfold cliU32
  rw [PP.bind_of_ok r1]; rfl

theorem cliU64_inside {data : Bytes} {pos : Nat} (h : pos + 8 ≤ data.length) :
    cliU64 data pos = .ok (leNat (slice data pos 8), pos + 8) := by
  have r1 : cliRead data 8 pos = .ok (slice data pos 8, pos + 8) := by
    unfold cliRead
    rw [if_pos (Or.inr h)]
  unfold cliU64
  rw [PP.bind_of_ok r1]; rfl

theorem cliU32_outside {data : Bytes} {pos : Nat} (h : ¬ pos + 4 ≤ data.length) :
    cliU32 data pos = Res.fail "failed to fill whole buffer" := by
  unfold cliU32 PP.bind cliRead
  rw [if_neg (by omega)]
  rfl

theorem cliU64_outside {data : Bytes} {pos : Nat} (h : ¬ pos + 8 ≤ data.length) :
    cliU64 data pos = Res.fail "failed to fill whole buffer" := by
  unfold cliU64 PP.bind cliRead
  rw [if_neg (by omega)]
  rfl

/-- The parser is: preamble, section loop, final checks; without the preamble it is an ordinary error. -/
theorem cliParseWtns_eq (data : Bytes) (h : wtnsPreamble data) :
    cliParseWtns data = (do
      let (st, _) ← cliWtnsSections data (leNat (slice data 8 4)) ⟨[], 0, []⟩ 12
      cliWtnsFinish st) := by
  obtain ⟨h1, h2, h3⟩ := h
  have e0 : cliRead data 4 0 = .ok ([119, 116, 110, 115], 4) := by
    unfold cliRead
    rw [if_pos (by omega), h2]
  have e1 := cliU32_inside (data := data) (pos := 4) (by omega)
  have e2 := cliU32_inside (data := data) (pos := 8) (by omega)
  rw [h3] at e1
  unfold cliParseWtns
  simp only [e0, e1, e2, Res.ok_bind, ne_eq, not_true_eq_false, if_false, Nat.reduceAdd]
  rfl

theorem cliParseWtns_no_preamble (data : Bytes) (h : ¬ wtnsPreamble data) : ∃ m, cliParseWtns data = .error (.err m) := by
  unfold cliParseWtns
  by_cases h4 : 4 ≤ data.length
  · have e0 : cliRead data 4 0 = .ok (slice data 0 4, 4) := by
      unfold cliRead
      rw [if_pos (by omega)]
    simp only [e0, Res.ok_bind]
    by_cases hm : slice data 0 4 = [119, 116, 110, 115]
    · rw [if_neg (by simp [hm])]
      by_cases h8 : 8 ≤ data.length
      · rw [cliU32_inside (by omega)]
        simp only [Res.ok_bind]
        by_cases hv : leNat (slice data 4 4) = 2
        · rw [if_neg (by simp [hv])]
          have h12 : ¬ 12 ≤ data.length := fun hh => h ⟨hh, hm, hv⟩
          rw [cliU32_outside (by omega)]
          exact ⟨_, rfl⟩
        · rw [if_pos hv]
          exact ⟨_, rfl⟩
      · rw [cliU32_outside (by omega)]
        exact ⟨_, rfl⟩
    · rw [if_pos hm]
      exact ⟨_, rfl⟩
  · have e0 : cliRead data 4 0 = Res.fail "failed to fill whole buffer" := by
      unfold cliRead
      rw [if_neg (by omega)]
    simp only [e0, Res.fail_bind]
    exact ⟨_, rfl⟩

/-- Chunks of the concatenation are the pieces. -/
theorem chunks_flatten (l : List Bytes) (n : Nat) (h : ∀ v ∈ l, v.length = n) :
    ((List.range l.length).map fun i => slice l.flatten (i * n) n) = l := by
  induction l with
  | nil => rfl
  | cons v l ih =>
    have hv := h v (by simp)
    have hl := ih (fun x hx => h x (by simp [hx]))
    rw [List.length_cons, List.range_succ_eq_map, List.map_cons, List.map_map]
    congr 1
    · simp [slice, ← hv]
    · rw [← hl]
      conv_lhs => rw [hl]
      apply List.map_congr_left
      intro i _
      simp only [Function.comp, slice, List.flatten_cons]
      have : (i + 1) * n = v.length + i * n := by rw [hv]; ring
      rw [Nat.succ_eq_add_one, this, ← List.drop_drop, List.drop_left]

theorem foldl_applySec (c : Content) (secs : List Sec) (st : WtnsState)
    (h1 : st.prime = c.prime ∧ st.nWitness = c.values.length ∨ Sec.header ∈ secs)
    (h2 : st.data = c.values.flatten ∨ Sec.data ∈ secs) :
    secs.foldl (applySec c) st = ⟨c.prime, c.values.length, c.values.flatten⟩ := by
  induction secs generalizing st with
  | nil =>
    simp only [List.not_mem_nil, or_false] at h1 h2
    obtain ⟨p, n, d⟩ := st
    simp only at h1 h2
    simp [h1, h2]
  | cons s secs ih =>
    rw [List.foldl_cons]
    apply ih
    · cases s with
      | header => left; simp [applySec]
      | data =>
        rcases h1 with h1 | h1
        · left; simpa [applySec] using h1
        · right; simpa using h1
      | other t p =>
        rcases h1 with h1 | h1
        · left; simpa [applySec] using h1
        · right; simpa using h1
    · cases s with
      | data => left; simp [applySec]
      | header =>
        rcases h2 with h1 | h1
        · left; simpa [applySec] using h1
        · right; simpa using h1
      | other t p =>
        rcases h2 with h1 | h1
        · left; simpa [applySec] using h1
        · right; simpa using h1

end Zkenc
