import Verif.Proofs.WtnsParse
import Verif.Props.R1csParse
/-!
# C24 (`.wtns` part) and C26: the CLI witness parser
-/

namespace Zkenc.Props

open Zkenc WtnsFormat

theorem wtns_fileBytes_length (c : Content) (secs : List Sec) :
    (fileBytes c secs).length = 12 + ((secs.map (Sec.bytes c)).flatten).length := by
  simp only [fileBytes, List.length_append, u32le_length, List.length_cons, List.length_nil]; omega

theorem wtns_file_pieces (c : Content) (secs : List Sec) (hs : secs.length < 2 ^ 32) (tail : Bytes) :
    wtnsPreamble (fileBytes c secs ++ tail) ∧ leNat (slice (fileBytes c secs ++ tail) 8 4) = secs.length ∧
      At (fileBytes c secs ++ tail) 12 (secs.map (Sec.bytes c)).flatten := by
  have hfull : At (fileBytes c secs ++ tail) 0 (fileBytes c secs) := by
    have := At.self [] (fileBytes c secs) tail
    simpa using this
  have hlen := wtns_fileBytes_length c secs
  unfold fileBytes at hfull
  obtain ⟨a0, a1⟩ := At.append.1 hfull
  obtain ⟨a1, a2⟩ := At.append.1 a1
  obtain ⟨a2, a3⟩ := At.append.1 a2
  change At (fileBytes c secs ++ tail) _ _ at a0 a1 a2 a3
  simp only [List.length_cons, List.length_nil, u32le_length, Nat.zero_add, Nat.reduceAdd] at a1 a2 a3
  refine ⟨⟨?_, a0.2, ?_⟩, ?_, a3⟩
  · rw [List.length_append]; omega
  · have := a1.2
    rw [u32le_length] at this
    rw [this, leNat_u32le (by decide)]
  · have := a2.2
    rw [u32le_length] at this
    rw [this, leNat_u32le hs]

/-! ## C26 -/

/-- **C26** — for every well-formed `.wtns` file (header and data section present, in any order, unknown sections anywhere, bytes
after the end) with at least one value, the CLI parser returns the prime, the number of values and, for wire `i`, the `i`-th value. -/
theorem C26_cli_inverts_format {c : Content} {secs : List Sec} (tail : Bytes) (hf : Fits c) (hs : SecsFit c secs)
    (hh : Sec.header ∈ secs) (hd : Sec.data ∈ secs) (hne : c.values ≠ []) :
    cliParseWtns (fileBytes c secs ++ tail) = .ok ⟨c.prime, c.values.length, c.values⟩ := by
  obtain ⟨hp, hn, ha⟩ := wtns_file_pieces c secs hs.count tail
  have hread := cliWtnsSections_reads hf ⟨[], 0, []⟩ secs hs.other hs.dataLen _ _ ha
  simp only at hread
  rw [cliParseWtns_eq _ hp, hn, hread]
  simp only [Res.ok_bind]
  rw [foldl_applySec c secs _ (Or.inr hh) (Or.inr hd)]
  have hpos := hf.fieldPos
  have hp' : c.prime ≠ [] := by intro e; rw [e] at hpos; simp at hpos
  have hlen : c.values.flatten.length = c.values.length * c.prime.length := by
    rw [List.length_flatten, List.map_congr_left (g := fun _ => c.prime.length) (fun v hv => hf.len v hv)]
    simp
  have hv' : c.values.flatten ≠ [] := by
    intro e
    rw [e] at hlen
    simp only [List.length_nil] at hlen
    rcases Nat.mul_eq_zero.1 hlen.symm with h | h
    · exact hne (List.length_eq_zero_iff.1 h)
    · omega
  unfold cliWtnsFinish
  simp only [if_neg hp', if_neg hv', hlen, ne_eq, not_true_eq_false, if_false, Res.pure_eq]
  rw [chunks_flatten c.values c.prime.length hf.len]

/-- The value of a 32-byte-or-longer little-endian field element: its first 32 bytes. -/
theorem allFr_some (vs : List Bytes) (xs : List Fr) :
    allFr vs = some xs ↔ vs.length = xs.length ∧ ∀ p ∈ vs.zip xs, 32 ≤ p.1.length ∧ leNat (p.1.take 32) = p.2.val := by
  induction vs generalizing xs with
  | nil =>
    cases xs with
    | nil => simp [allFr]
    | cons x xs => simp [allFr]
  | cons v vs ih =>
    have hkey : ∀ x : Fr, frRead v = some x ↔ 32 ≤ v.length ∧ leNat (v.take 32) = x.val := by
      intro x
      unfold frRead frDec
      constructor
      · intro h
        split at h
        · rename_i hc
          simp only [Option.some.injEq] at h
          refine ⟨?_, ?_⟩
          · have := hc.1; simp at this; exact this
          · rw [← h, ZMod.val_natCast, Nat.mod_eq_of_lt hc.2]
        · simp at h
      · rintro ⟨h1, h2⟩
        rw [if_pos ⟨by simp; omega, by rw [h2]; exact ZMod.val_lt x⟩, h2, ZMod.natCast_zmod_val]
    cases xs with
    | nil =>
      simp only [allFr, List.length_cons, List.length_nil, Nat.add_one_ne_zero, false_and, iff_false]
      cases frRead v with
      | none => simp
      | some y => cases allFr vs <;> simp
    | cons x xs =>
      simp only [allFr, List.zip_cons_cons, List.mem_cons, forall_eq_or_imp, List.length_cons, Nat.add_right_cancel_iff]
      cases hv : frRead v with
      | none =>
        simp only [reduceCtorEq, false_iff]
        intro h
        have := (hkey x).2 h.2.1
        rw [hv] at this; simp at this
      | some y =>
        have hy := (hkey y).1 hv
        cases ha : allFr vs with
        | none =>
          simp only [reduceCtorEq, false_iff]
          intro h
          have := (ih xs).2 ⟨h.1, h.2.2⟩
          rw [ha] at this; simp at this
        | some ys =>
          simp only [Option.some.injEq, List.cons.injEq]
          constructor
          · rintro ⟨rfl, rfl⟩
            have := (ih ys).1 ha
            exact ⟨this.1, hy, this.2⟩
          · rintro ⟨h1, h2, h3⟩
            have e1 := (hkey x).2 h2
            have e2 := (ih xs).2 ⟨h1, h3⟩
            rw [hv] at e1
            rw [ha] at e2
            simp only [Option.some.injEq] at e1 e2
            exact ⟨e1, e2⟩

/-- **C26** — conversion to field elements: it succeeds with `xs` exactly when every value has at least 32 bytes and its first 32
bytes are the canonical (below the modulus) little-endian form of the corresponding element; otherwise it is an error. -/
theorem C26_to_field_elements (w : WitnessFile) (xs : List Fr) :
    w.toFieldElements = .ok xs ↔
      w.assignments.length = xs.length ∧
        ∀ p ∈ w.assignments.zip xs, 32 ≤ p.1.length ∧ leNat (p.1.take 32) = p.2.val := by
  rw [← allFr_some]
  unfold WitnessFile.toFieldElements Res.ofOption Res.fail
  cases allFr w.assignments <;> simp

/-- **C26** — one value at or above the modulus (or shorter than 32 bytes) makes the whole conversion an error. -/
theorem C26_noncanonical_rejected (w : WitnessFile) (v : Bytes) (hv : v ∈ w.assignments)
    (h : v.length < 32 ∨ frModulus ≤ leNat (v.take 32)) : ∃ m, w.toFieldElements = .error (.err m) := by
  refine not_ok_err (Graceful.ofOption _ _) fun xs hx => ?_
  obtain ⟨hl, hz⟩ := (C26_to_field_elements w xs).1 hx
  obtain ⟨i, hi, rfl⟩ := List.mem_iff_getElem.1 hv
  have hm : (w.assignments[i], xs[i]'(by omega)) ∈ w.assignments.zip xs := by
    rw [List.mem_iff_getElem]
    exact ⟨i, by simp; omega, by simp⟩
  obtain ⟨h1, h2⟩ := hz _ hm
  rcases h with h | h
  · simp only at h1; omega
  · have := ZMod.val_lt (xs[i]'(by omega))
    simp only at h2
    omega

/-- **C26** — end to end: a well-formed file holding the 32-byte canonical encodings of `xs` gives wire `i` the value `xs[i]`. -/
theorem C26_roundtrip {prime : Bytes} {xs : List Fr} {secs : List Sec} (tail : Bytes) (hprime : prime.length = 32)
    (hx : xs ≠ []) (hlen : xs.length < 2 ^ 32) (hs : SecsFit ⟨prime, xs.map frEnc⟩ secs)
    (hh : Sec.header ∈ secs) (hd : Sec.data ∈ secs) :
    (do let w ← cliParseWtns (fileBytes ⟨prime, xs.map frEnc⟩ secs ++ tail); w.toFieldElements) = .ok xs := by
  have hf : Fits ⟨prime, xs.map frEnc⟩ := by
    refine ⟨by simp [hprime], by simp [hprime], by simpa using hlen, ?_⟩
    intro v hv
    simp only [List.mem_map] at hv
    obtain ⟨x, -, rfl⟩ := hv
    simp [frEnc, hprime]
  rw [C26_cli_inverts_format tail hf hs hh hd (by simpa using hx)]
  rw [Res.ok_bind, C26_to_field_elements]
  refine ⟨by simp, ?_⟩
  intro p hp
  rw [List.mem_iff_getElem] at hp
  obtain ⟨i, hi, rfl⟩ := hp
  simp only [List.getElem_zip, List.getElem_map]
  have : (frEnc (xs[i]'(by simp at hi; omega))).length = 32 := by simp [frEnc]
  refine ⟨by omega, ?_⟩
  rw [List.take_of_length_le (by omega)]
  exact leNat_leBytes_of_lt (Nat.lt_trans (ZMod.val_lt _) frModulus_lt)

/-- Example: an unknown section, data before header. -/
example : (do let w ← cliParseWtns (fileBytes ⟨leBytes 32 frModulus, [(1 : Fr), 5, 25].map frEnc⟩
      [Sec.data, Sec.other 7 [1, 2], Sec.header] ++ [9]); w.toFieldElements) = .ok [(1 : Fr), 5, 25] := by
  refine C26_roundtrip [9] (by simp) (by simp) (by simp) ⟨by simp, ?_, by simp [frEnc]⟩ (by simp) (by simp)
  intro t p h
  simp only [List.mem_cons, reduceCtorEq, Sec.other.injEq, List.not_mem_nil, or_false, false_or] at h
  obtain ⟨rfl, rfl⟩ := h
  simp

/-! ## C24 for `.wtns` -/

/-- Panicking section loop, exactly. -/
theorem cliWtns_panic_iff (data : Bytes) (n k pos : Nat) (st : WtnsState) (hat : SectionAt data k pos) :
    (cliWtnsSections data n st pos ≠ .error .hang) ∧
    (cliWtnsSections data n st pos = .error .panic →
      ∃ j q, j < k + n ∧ SectionAt data j q ∧ q + 12 ≤ data.length ∧ typeAt data q ≠ 1 ∧ 2 ^ 63 ≤ sizeAt data q) := by
  induction n generalizing k pos st with
  | zero => simp [cliWtnsSections, PP.pure]
  | succ n ih =>
    unfold cliWtnsSections
    by_cases h4 : pos + 4 ≤ data.length
    swap
    · simp [PP.bind, cliWtnsSection, cliU32_outside h4, Res.fail]
    by_cases h12 : pos + 12 ≤ data.length
    swap
    · simp [PP.bind, cliWtnsSection, cliU32_inside h4, cliU64_outside (data := data) (pos := pos + 4) (by omega), Res.fail]
    have e1 := cliU32_inside (data := data) (pos := pos) (by omega)
    have e2 := cliU64_inside (data := data) (pos := pos + 4) (by omega)
    have hstep : ∀ st' pos', cliWtnsSection data st pos = .ok (st', pos') → SectionAt data (k + 1) pos' →
        (PP.bind (cliWtnsSection data st) (fun st' => cliWtnsSections data n st') pos ≠ .error .hang) ∧
        (PP.bind (cliWtnsSection data st) (fun st' => cliWtnsSections data n st') pos = .error .panic →
          ∃ j q, j < k + (n + 1) ∧ SectionAt data j q ∧ q + 12 ≤ data.length ∧ typeAt data q ≠ 1 ∧ 2 ^ 63 ≤ sizeAt data q) := by
      intro st' pos' h hat'
      rw [PP.bind_of_ok h]
      obtain ⟨i1, i2⟩ := ih (k + 1) pos' st' hat'
      refine ⟨i1, fun hp => ?_⟩
      obtain ⟨j, q, hj, hr⟩ := i2 hp
      exact ⟨j, q, by omega, hr⟩
    have herr : ∀ m, cliWtnsSection data st pos = .error (.err m) →
        (PP.bind (cliWtnsSection data st) (fun st' => cliWtnsSections data n st') pos ≠ .error .hang) ∧
        (PP.bind (cliWtnsSection data st) (fun st' => cliWtnsSections data n st') pos = .error .panic →
          ∃ j q, j < k + (n + 1) ∧ SectionAt data j q ∧ q + 12 ≤ data.length ∧ typeAt data q ≠ 1 ∧ 2 ^ 63 ≤ sizeAt data q) := by
      intro m h
      simp [PP.bind, h]
    by_cases ht : leNat (slice data pos 4) = 1
    · -- header
      have hsec : cliWtnsSection data st pos = PP.bind (cliU32 data) (fun fs => PP.bind (cliRead data fs) fun prime =>
          PP.bind (cliU32 data) fun n => PP.pure { st with prime := prime, nWitness := n }) (pos + 4 + 8) := by
        unfold cliWtnsSection
        rw [PP.bind_of_ok e1, PP.bind_of_ok e2, if_pos ht]
      have e12 : pos + 4 + 8 = pos + 12 := by omega
      rw [e12] at hsec
      by_cases h16 : pos + 12 + 4 ≤ data.length
      swap
      · exact herr _ (by rw [hsec]; unfold PP.bind; rw [cliU32_outside h16]; rfl)
      have e3 := cliU32_inside h16
      rw [PP.bind_of_ok e3] at hsec
      by_cases hfs : leNat (slice data (pos + 12) 4) = 0 ∨ pos + 12 + 4 + leNat (slice data (pos + 12) 4) ≤ data.length
      swap
      · exact herr "failed to fill whole buffer" (by rw [hsec]; unfold PP.bind cliRead; rw [if_neg hfs]; rfl)
      have e4 : cliRead data (leNat (slice data (pos + 12) 4)) (pos + 12 + 4) =
          .ok (slice data (pos + 12 + 4) (leNat (slice data (pos + 12) 4)), pos + 12 + 4 + leNat (slice data (pos + 12) 4)) := by
        unfold cliRead; rw [if_pos hfs]
      rw [PP.bind_of_ok e4] at hsec
      by_cases hl : pos + 12 + 4 + leNat (slice data (pos + 12) 4) + 4 ≤ data.length
      swap
      · exact herr _ (by rw [hsec]; unfold PP.bind; rw [cliU32_outside hl]; rfl)
      rw [PP.bind_of_ok (cliU32_inside hl)] at hsec
      exact hstep _ _ hsec (SectionAt.header hat ht hl)
    · -- other
      have hsz : sizeAt data pos = leNat (slice data (pos + 4) 8) := rfl
      have e12 : pos + 4 + 8 = pos + 12 := by omega
      by_cases hbig : leNat (slice data (pos + 4) 8) < 2 ^ 63
      · by_cases hr : leNat (slice data (pos + 4) 8) = 0 ∨ pos + 12 + leNat (slice data (pos + 4) 8) ≤ data.length
        · have e3 : cliAlloc (leNat (slice data (pos + 4) 8)) (pos + 12) = .ok ((), pos + 12) := by
            unfold cliAlloc; rw [if_pos hbig]
          have e4 : cliRead data (leNat (slice data (pos + 4) 8)) (pos + 12) =
              .ok (slice data (pos + 12) (leNat (slice data (pos + 4) 8)), pos + 12 + leNat (slice data (pos + 4) 8)) := by
            unfold cliRead; rw [if_pos hr]
          have hnext := SectionAt.other hat ht (by rw [hsz]; omega) (by rw [hsz]; exact hbig)
          rw [hsz] at hnext
          by_cases ht2 : leNat (slice data pos 4) = 2
          · refine hstep { st with data := slice data (pos + 12) (leNat (slice data (pos + 4) 8)) } _ ?_ hnext
            · unfold cliWtnsSection
              rw [PP.bind_of_ok e1, PP.bind_of_ok e2, if_neg ht, if_pos ht2, e12, PP.bind_of_ok e3, PP.bind_of_ok e4]
              rfl
          · refine hstep st _ ?_ hnext
            unfold cliWtnsSection
            rw [PP.bind_of_ok e1, PP.bind_of_ok e2, if_neg ht, if_neg ht2, e12, PP.bind_of_ok e3, PP.bind_of_ok e4]
            rfl
        · have e3 : cliAlloc (leNat (slice data (pos + 4) 8)) (pos + 12) = .ok ((), pos + 12) := by
            unfold cliAlloc; rw [if_pos hbig]
          have e4 : cliRead data (leNat (slice data (pos + 4) 8)) (pos + 12) = Res.fail "failed to fill whole buffer" := by
            unfold cliRead; rw [if_neg hr]
          refine herr "failed to fill whole buffer" ?_
          unfold cliWtnsSection
          rw [PP.bind_of_ok e1, PP.bind_of_ok e2, if_neg ht, e12]
          by_cases ht2 : leNat (slice data pos 4) = 2
          · rw [if_pos ht2, PP.bind_of_ok e3]; unfold PP.bind; rw [e4]; rfl
          · rw [if_neg ht2, PP.bind_of_ok e3]; unfold PP.bind; rw [e4]; rfl
      · have e3 : cliAlloc (leNat (slice data (pos + 4) 8)) (pos + 12) = .error .panic := by
          unfold cliAlloc; rw [if_neg hbig]; rfl
        have hp : cliWtnsSection data st pos = .error .panic := by
          unfold cliWtnsSection
          rw [PP.bind_of_ok e1, PP.bind_of_ok e2, if_neg ht, e12]
          by_cases ht2 : leNat (slice data pos 4) = 2
          · rw [if_pos ht2]; unfold PP.bind; rw [e3]
          · rw [if_neg ht2]; unfold PP.bind; rw [e3]
        have : PP.bind (cliWtnsSection data st) (fun st' => cliWtnsSections data n st') pos = .error .panic := by
          unfold PP.bind; rw [hp]
        rw [this]
        exact ⟨by simp, fun _ => ⟨k, pos, by omega, hat, h12, ht, by rw [hsz]; omega⟩⟩

/-- **C24** — the CLI `.wtns` parser never loops, and it panics only when the sequential walk over the sections meets a
non-header section that announces `2^63` bytes or more; in every other case the outcome is a value or an error. -/
theorem C24_wtns_total (data : Bytes) :
    cliParseWtns data ≠ .error .hang ∧
    (cliParseWtns data = .error .panic →
      ∃ k pos, k < leNat (slice data 8 4) ∧ SectionAt data k pos ∧ pos + 12 ≤ data.length ∧ typeAt data pos ≠ 1 ∧
        2 ^ 63 ≤ sizeAt data pos) := by
  by_cases hp : wtnsPreamble data
  · rw [cliParseWtns_eq data hp]
    obtain ⟨h1, h2⟩ := cliWtns_panic_iff data (leNat (slice data 8 4)) 0 12 ⟨[], 0, []⟩ SectionAt.first
    cases h : cliWtnsSections data (leNat (slice data 8 4)) ⟨[], 0, []⟩ 12 with
    | error e =>
      rw [h] at h1 h2
      simp only [Res.error_bind]
      refine ⟨by simpa using h1, fun hpan => ?_⟩
      obtain ⟨j, q, hj, hr⟩ := h2 (by simpa using hpan)
      exact ⟨j, q, by omega, hr⟩
    | ok x =>
      obtain ⟨st, p⟩ := x
      have hg := cliWtnsFinish_graceful st
      simp only [Res.ok_bind]
      exact ⟨hg.2, fun h => absurd h hg.1⟩
  · obtain ⟨m, hm⟩ := cliParseWtns_no_preamble data hp
    rw [hm]
    simp

/-- A section that a sequential reader passes is passed by the parser. -/
theorem cliWtnsSection_next {data : Bytes} {pos : Nat} (h12 : pos + 12 ≤ data.length) :
    (typeAt data pos = 1 → pos + 12 + 4 + leNat (slice data (pos + 12) 4) + 4 ≤ data.length →
      ∀ st, ∃ st', cliWtnsSection data st pos = .ok (st', pos + 12 + 4 + leNat (slice data (pos + 12) 4) + 4)) ∧
    (typeAt data pos ≠ 1 → pos + 12 + sizeAt data pos ≤ data.length → sizeAt data pos < 2 ^ 63 →
      ∀ st, ∃ st', cliWtnsSection data st pos = .ok (st', pos + 12 + sizeAt data pos)) := by
  have e1 := cliU32_inside (data := data) (pos := pos) (by omega)
  have e2 := cliU64_inside (data := data) (pos := pos + 4) (by omega)
  have e12 : pos + 4 + 8 = pos + 12 := by omega
  constructor
  · intro ht hl st
    unfold typeAt at ht
    unfold cliWtnsSection
    rw [PP.bind_of_ok e1, PP.bind_of_ok e2, if_pos ht, e12, PP.bind_of_ok (cliU32_inside (by omega))]
    have e4 : cliRead data (leNat (slice data (pos + 12) 4)) (pos + 12 + 4) =
        .ok (slice data (pos + 12 + 4) (leNat (slice data (pos + 12) 4)), pos + 12 + 4 + leNat (slice data (pos + 12) 4)) := by
      unfold cliRead; rw [if_pos (by omega)]
    rw [PP.bind_of_ok e4, PP.bind_of_ok (cliU32_inside hl)]
    exact ⟨_, rfl⟩
  · intro ht hl hb st
    have e3 : cliAlloc (sizeAt data pos) (pos + 12) = .ok ((), pos + 12) := by
      unfold cliAlloc; rw [if_pos hb]
    have e4 : cliRead data (sizeAt data pos) (pos + 12) = .ok (slice data (pos + 12) (sizeAt data pos), pos + 12 + sizeAt data pos) := by
      unfold cliRead; rw [if_pos (by omega)]
    unfold cliWtnsSection
    have ht' : ¬ leNat (slice data pos 4) = 1 := ht
    rw [PP.bind_of_ok e1, PP.bind_of_ok e2, if_neg ht', e12]
    change ∃ st', (if typeAt data pos = 2 then PP.bind (cliAlloc (sizeAt data pos)) fun _ =>
        PP.bind (cliRead data (sizeAt data pos)) fun d => PP.pure ({ st with data := d } : WtnsState)
      else PP.bind (cliAlloc (sizeAt data pos)) fun _ => PP.bind (cliRead data (sizeAt data pos)) fun _ => PP.pure st) (pos + 12) = _
    split
    · rw [PP.bind_of_ok e3, PP.bind_of_ok e4]; exact ⟨_, rfl⟩
    · rw [PP.bind_of_ok e3, PP.bind_of_ok e4]; exact ⟨_, rfl⟩

theorem cliWtns_walk_error {data : Bytes} {j q : Nat} (hat : SectionAt data j q) (n : Nat) (e : Fault)
    (h : ∀ st, cliWtnsSections data n st q = .error e) : ∀ st, cliWtnsSections data (j + n) st 12 = .error e := by
  induction hat generalizing n with
  | first => simpa using h
  | @header k pos hat ht hl ih =>
    intro st
    have := ih (n + 1) (by
      intro st
      obtain ⟨st', hs⟩ := (cliWtnsSection_next (by omega)).1 ht hl st
      unfold cliWtnsSections
      rw [PP.bind_of_ok hs]
      exact h st') st
    rw [← this]; congr 1; omega
  | @other k pos hat ht hl hb ih =>
    intro st
    have := ih (n + 1) (by
      intro st
      obtain ⟨st', hs⟩ := (cliWtnsSection_next (by omega)).2 ht hl hb st
      unfold cliWtnsSections
      rw [PP.bind_of_ok hs]
      exact h st') st
    rw [← this]; congr 1; omega

/-- **C24** — and this is exactly when it panics (given a valid 12-byte preamble; without one it is an error). -/
theorem C24_wtns_panic_iff (data : Bytes) (hlen : 12 ≤ data.length) (hmagic : data.take 4 = [119, 116, 110, 115])
    (hver : leNat ((data.drop 4).take 4) = 2) :
    cliParseWtns data = .error .panic ↔
      ∃ k pos, k < leNat (slice data 8 4) ∧ SectionAt data k pos ∧ pos + 12 ≤ data.length ∧ typeAt data pos ≠ 1 ∧
        2 ^ 63 ≤ sizeAt data pos := by
  refine ⟨(C24_wtns_total data).2, ?_⟩
  rintro ⟨k, pos, hk, hat, h12, ht, hb⟩
  rw [cliParseWtns_eq data ⟨hlen, hmagic, hver⟩]
  obtain ⟨n, hn⟩ : ∃ n, leNat (slice data 8 4) = k + (n + 1) := ⟨leNat (slice data 8 4) - k - 1, by omega⟩
  rw [hn, cliWtns_walk_error hat (n + 1) .panic ?_ _]
  · rfl
  · intro st
    have e1 := cliU32_inside (data := data) (pos := pos) (by omega)
    have e2 := cliU64_inside (data := data) (pos := pos + 4) (by omega)
    have e12 : pos + 4 + 8 = pos + 12 := by omega
    have e3 : cliAlloc (leNat (slice data (pos + 4) 8)) (pos + 12) = .error .panic := by
      unfold cliAlloc; rw [if_neg (by have : sizeAt data pos = leNat (slice data (pos + 4) 8) := rfl; omega)]; rfl
    have hp : cliWtnsSection data st pos = .error .panic := by
      unfold cliWtnsSection
      have ht' : ¬ leNat (slice data pos 4) = 1 := ht
      rw [PP.bind_of_ok e1, PP.bind_of_ok e2, if_neg ht', e12]
      split
      · unfold PP.bind; rw [e3]
      · unfold PP.bind; rw [e3]
    unfold cliWtnsSections PP.bind
    rw [hp]

/-- A 24-byte file with one unknown section that announces `2^63` bytes. -/
def wtnsPanicFile : Bytes := [119, 116, 110, 115] ++ (u32le 2 ++ (u32le 1 ++ (u32le 5 ++ u64le (2 ^ 63))))

/-- **C24** — the panic is real: a 24-byte file triggers it. -/
theorem C24_wtns_panic_example : cliParseWtns wtnsPanicFile = .error .panic :=
  (C24_wtns_panic_iff wtnsPanicFile (by decide) (by decide) (by decide)).2
    ⟨0, 12, by decide, SectionAt.first, by decide, by decide, by decide⟩

/-- **C24** — wrong magic, wrong version or a file too short for the 12-byte preamble is an error. -/
theorem C24_wtns_bad_preamble (data : Bytes)
    (h : data.take 4 ≠ [119, 116, 110, 115] ∨ leNat ((data.drop 4).take 4) ≠ 2 ∨ data.length < 12) :
    ∃ m, cliParseWtns data = .error (.err m) := by
  refine cliParseWtns_no_preamble data ?_
  rintro ⟨h1, h2, h3⟩
  rcases h with h | h | h
  · exact h h2
  · exact h h3
  · omega

example : (([119, 116, 110, 115, 1, 0, 0, 0] : Bytes).drop 4).take 4 = [1, 0, 0, 0] := rfl

/-- **C24** — no strict prefix of a well-formed `.wtns` file is accepted: every cut gives an error. -/
theorem C24_wtns_strict_prefix {c : Content} {secs : List Sec} {k : Nat} (hf : Fits c) (hs : SecsFit c secs)
    (hk : k < (fileBytes c secs).length) : ∃ m, cliParseWtns ((fileBytes c secs).take k) = .error (.err m) := by
  by_cases hp : wtnsPreamble ((fileBytes c secs).take k)
  swap
  · exact cliParseWtns_no_preamble _ hp
  obtain ⟨-, hn, ha⟩ := wtns_file_pieces c secs hs.count []
  rw [List.append_nil] at hn ha
  have hlen : ((fileBytes c secs).take k).length = k := by rw [List.length_take]; omega
  have h12 := hp.1
  rw [hlen] at h12
  have hn' : leNat (slice ((fileBytes c secs).take k) 8 4) = secs.length := by rw [slice_take (by omega), hn]
  -- the loop cannot succeed
  have hnot : ∀ x, cliWtnsSections ((fileBytes c secs).take k) secs.length ⟨[], 0, []⟩ 12 ≠ .ok x := by
    rintro ⟨st, p⟩ hx
    obtain ⟨h1, h2⟩ := cliWtnsSections_mono secs.length ⟨[], 0, []⟩ _ _ _ _ ((fileBytes c secs).drop k) hx
    rw [List.take_append_drop, cliWtnsSections_reads hf _ secs hs.other hs.dataLen _ _ ha] at h1
    simp only [Except.ok.injEq, Prod.mk.injEq] at h1
    have := wtns_fileBytes_length c secs
    rw [hlen] at h2
    omega
  -- and it cannot panic: all announced sizes are those of the file
  have hnp : cliWtnsSections ((fileBytes c secs).take k) secs.length ⟨[], 0, []⟩ 12 ≠ .error .panic := by
    have hgen : ∀ (ss : List Sec) (st : WtnsState) (pos : Nat),
        (∀ t p, Sec.other t p ∈ ss → t < 2 ^ 32 ∧ t ≠ 1 ∧ t ≠ 2 ∧ p.length < 2 ^ 63) →
        At (fileBytes c secs) pos (ss.map (Sec.bytes c)).flatten →
        cliWtnsSections ((fileBytes c secs).take k) ss.length st pos ≠ .error .panic := by
      intro ss
      induction ss with
      | nil => intro st pos _ _; simp [cliWtnsSections, PP.pure]
      | cons s ss ih =>
        intro st pos ho hat
        simp only [List.map_cons, List.flatten_cons] at hat
        obtain ⟨hat1, hat2⟩ := At.append.1 hat
        by_cases hfit : pos + (s.bytes c).length ≤ k
        · have hr := cliWtnsSection_reads hf st s (fun t p e => ho t p (by simp [e])) hs.dataLen _ _
            ((hat1.take_iff (by omega)).2 hfit)
          simp only [List.length_cons, cliWtnsSections]
          rw [PP.bind_of_ok hr]
          exact ih _ _ (fun t p h => ho t p (by simp [h])) hat2
        · -- the section is cut: an error
          simp only [List.length_cons, cliWtnsSections]
          have hsec : ∃ m, cliWtnsSection ((fileBytes c secs).take k) st pos = .error (.err m) := by
            refine not_ok_err ?_ ?_
            · by_cases h12' : pos + 12 ≤ k
              · have hty : leNat (slice ((fileBytes c secs).take k) pos 4) = s.ty ∧
                    leNat (slice ((fileBytes c secs).take k) (pos + 4) 8) = (s.payload c).length := by
                  unfold Sec.bytes at hat1
                  obtain ⟨b1, b2⟩ := At.append.1 hat1
                  obtain ⟨b2, -⟩ := At.append.1 b2
                  have c1 := b1.2
                  have c2 := b2.2
                  simp only [u32le_length, u64le_length] at c1 c2
                  rw [slice_take (by omega), slice_take (by omega), c1, c2]
                  have hfield := hf.field
                  cases s with
                  | header =>
                    exact ⟨leNat_u32le (by decide), leNat_u64le (by simp [Sec.payload]; omega)⟩
                  | data =>
                    exact ⟨leNat_u32le (by decide), leNat_u64le (by have := hs.dataLen; simp only [Sec.payload]; omega)⟩
                  | other t p =>
                    obtain ⟨o1, -, -, o4⟩ := ho t p (by simp)
                    exact ⟨leNat_u32le o1, leNat_u64le (by simp only [Sec.payload]; omega)⟩
                have e1 := cliU32_inside (data := (fileBytes c secs).take k) (pos := pos) (by rw [hlen]; omega)
                have e2 := cliU64_inside (data := (fileBytes c secs).take k) (pos := pos + 4) (by rw [hlen]; omega)
                rw [hty.1] at e1
                rw [hty.2] at e2
                unfold cliWtnsSection
                rw [PP.bind_of_ok e1, PP.bind_of_ok e2]
                have halloc : s.ty ≠ 1 → PP.Total (cliAlloc (s.payload c).length) := by
                  intro hne q
                  unfold cliAlloc
                  rw [if_pos ?_]
                  · exact Graceful.ok _
                  · cases s with
                    | header => simp [Sec.ty] at hne
                    | data => exact hs.dataLen
                    | other t p => exact (ho t p (by simp)).2.2.2
                by_cases ht : s.ty = 1
                · rw [if_pos ht]
                  exact PP.Total.bind (cliU32_total _) (fun _ => PP.Total.bind (cliRead_total _ _) fun _ =>
                    PP.Total.bind (cliU32_total _) fun _ => PP.Total.pure _) _
                · rw [if_neg ht]
                  split
                  · exact PP.Total.bind (halloc ht) (fun _ => PP.Total.bind (cliRead_total _ _) fun _ => PP.Total.pure _) _
                  · exact PP.Total.bind (halloc ht) (fun _ => PP.Total.bind (cliRead_total _ _) fun _ => PP.Total.pure _) _
              · unfold cliWtnsSection
                by_cases h4 : pos + 4 ≤ k
                · rw [PP.bind_of_ok (cliU32_inside (by rw [hlen]; exact h4))]
                  unfold PP.bind
                  rw [cliU64_outside (by rw [hlen]; omega)]
                  exact Graceful.err _
                · unfold PP.bind
                  rw [cliU32_outside (by rw [hlen]; omega)]
                  exact Graceful.err _
            · rintro ⟨st', p⟩ hx
              obtain ⟨h1, h2⟩ := cliWtnsSection_mono st _ _ _ _ ((fileBytes c secs).drop k) hx
              rw [List.take_append_drop, cliWtnsSection_reads hf st s (fun t p e => ho t p (by simp [e])) hs.dataLen _ _ hat1] at h1
              simp only [Except.ok.injEq, Prod.mk.injEq] at h1
              have : 12 ≤ (s.bytes c).length := by simp [Sec.bytes]; omega
              rw [hlen] at h2
              omega
          obtain ⟨m, hm⟩ := hsec
          simp [PP.bind, hm]
    exact hgen secs _ 12 hs.other ha
  have hnh := (cliWtns_panic_iff ((fileBytes c secs).take k) secs.length 0 12 ⟨[], 0, []⟩ SectionAt.first).1
  rw [cliParseWtns_eq _ hp, hn']
  obtain ⟨m, hm⟩ := not_ok_err ⟨hnp, hnh⟩ hnot
  rw [hm]
  exact ⟨m, rfl⟩

example : ∃ m, cliParseWtns ((fileBytes ⟨[7], [[1], [2]]⟩ [Sec.data, Sec.header]).take 30) = .error (.err m) :=
  C24_wtns_strict_prefix ⟨by simp, by simp, by simp, by simp⟩ ⟨by simp, by simp, by simp⟩
    (by simp [fileBytes, Sec.bytes, Sec.payload])

/-- **C24** — a well-formed section list without header or without (non-empty) data is an error. -/
theorem C24_wtns_missing_section {c : Content} {secs : List Sec} (tail : Bytes) (hf : Fits c) (hs : SecsFit c secs)
    (h : Sec.header ∉ secs ∨ Sec.data ∉ secs ∨ c.values = []) :
    ∃ m, cliParseWtns (fileBytes c secs ++ tail) = .error (.err m) := by
  obtain ⟨hp, hn, ha⟩ := wtns_file_pieces c secs hs.count tail
  have hread := cliWtnsSections_reads hf ⟨[], 0, []⟩ secs hs.other hs.dataLen _ _ ha
  simp only at hread
  rw [cliParseWtns_eq _ hp, hn, hread]
  simp only [Res.ok_bind]
  have h1 : Sec.header ∉ secs → (secs.foldl (applySec c) ⟨[], 0, []⟩).prime = [] := by
    intro hno
    have : ∀ (l : List Sec) (st : WtnsState), Sec.header ∉ l → st.prime = [] → (l.foldl (applySec c) st).prime = [] := by
      intro l
      induction l with
      | nil => intro st _ h; exact h
      | cons s l ih =>
        intro st hn hp
        rw [List.foldl_cons]
        simp only [List.mem_cons, not_or] at hn
        refine ih _ hn.2 ?_
        cases s with
        | header => exact absurd rfl hn.1
        | data => exact hp
        | other t p => exact hp
    exact this secs _ hno rfl
  have h2 : (Sec.data ∉ secs ∨ c.values = []) → (secs.foldl (applySec c) ⟨[], 0, []⟩).data = [] := by
    intro hno
    have : ∀ (l : List Sec) (st : WtnsState), (Sec.data ∉ l ∨ c.values = []) → st.data = [] →
        (l.foldl (applySec c) st).data = [] := by
      intro l
      induction l with
      | nil => intro st _ h; exact h
      | cons s l ih =>
        intro st hn hp
        rw [List.foldl_cons]
        refine ih _ ?_ ?_
        · rcases hn with hn | hn
          · simp only [List.mem_cons, not_or] at hn; exact Or.inl hn.2
          · exact Or.inr hn
        · cases s with
          | header => exact hp
          | data =>
            rcases hn with hn | hn
            · simp at hn
            · simp [applySec, hn]
          | other t p => exact hp
    exact this secs _ hno rfl
  unfold cliWtnsFinish
  by_cases hh : Sec.header ∈ secs
  · have := h2 (by rcases h with h | h; exacts [absurd hh h, h])
    split
    · exact ⟨_, rfl⟩
    · exact ⟨_, rfl⟩
  · rw [if_pos (h1 hh)]; exact ⟨_, rfl⟩

end Zkenc.Props
