import Verif.Spec.WtnsPanic
import Verif.Props.WtnsParseJs
/-!
# C28: exactly when the wasm32 `.wtns` parser reports an error, panics or does not end
-/

namespace Zkenc.Props

open Zkenc WtnsFormat

theorem valueAt_succ (start m j : Nat) : valueAt ((start + m) % 2 ^ 32) m j = valueAt start m (j + 1) := by
  unfold valueAt
  rw [Nat.mod_add_mod]
  congr 1
  ring

theorem missing_step {data : Bytes} {m pos e : Nat} (hp : pos < 2 ^ 32) : ValueMissing data m pos e ↔
    (pos + m) % 2 ^ 32 ≤ e ∧ (data.length < pos + min m 32 ∨ pos + min m 32 ≤ data.length ∧ ValueMissing data m ((pos + m) % 2 ^ 32) e) := by
  have h0 : valueAt pos m 0 = pos := by simp only [valueAt, Nat.zero_mul, Nat.add_zero]; exact Nat.mod_eq_of_lt hp
  have h1 : valueAt pos m 1 = (pos + m) % 2 ^ 32 := by simp [valueAt]
  constructor
  · rintro ⟨j, hb, h2, h3⟩
    cases j with
    | zero => exact ⟨by rw [← h1]; exact h2, .inl (by rw [h0] at h3; exact h3)⟩
    | succ j =>
      have := hb 0 (by omega)
      rw [Nat.zero_add, h0, h1] at this
      refine ⟨this.1, .inr ⟨this.2, j, fun i hi => ?_, ?_, ?_⟩⟩
      · rw [valueAt_succ, valueAt_succ]; exact hb (i + 1) (by omega)
      · rw [valueAt_succ]; exact h2
      · rw [valueAt_succ]; exact h3
  · rintro ⟨h2, h | ⟨h3, j, hb, h4, h5⟩⟩
    · exact ⟨0, fun i hi => absurd hi (by omega), by rw [Nat.zero_add, h1]; exact h2, by rw [h0]; exact h⟩
    · refine ⟨j + 1, fun i hi => ?_, by rw [← valueAt_succ]; exact h4, by rw [← valueAt_succ]; exact h5⟩
      cases i with
      | zero => rw [Nat.zero_add, h0, h1]; exact ⟨h2, h3⟩
      | succ i =>
        have := hb i (by omega)
        rw [valueAt_succ, valueAt_succ] at this
        exact this

theorem values_cases {data : Bytes} (hl : data.length < 2 ^ 31) {m e : Nat} (fuel pos : Nat) (acc : List Fr) (hp : pos < 2 ^ 32) :
    jsWtnsValues data m e fuel pos acc = .error .hang ∨
    (jsWtnsValues data m e fuel pos acc = .error .panic ∧ ValueMissing data m pos e) ∨
    ((∃ r, jsWtnsValues data m e fuel pos acc = .ok r) ∧ ¬ ValueMissing data m pos e) := by
  induction fuel generalizing pos acc with
  | zero => exact .inl rfl
  | succ fuel ih =>
    rw [missing_step hp]
    simp only [jsWtnsValues]
    by_cases h1 : (pos + m) % 2 ^ 32 ≤ e
    · rw [if_pos h1]
      by_cases h2 : pos + min m 32 ≤ data.length
      · rw [jsSliceAt_inside h2 hl, Res.ok_bind]
        rcases ih ((pos + m) % 2 ^ 32) (acc ++ [((leNat (slice data pos (min m 32)) : Nat) : Fr)]) (Nat.mod_lt _ (by norm_num)) with h | ⟨h, h'⟩ | ⟨h, h'⟩
        · exact .inl h
        · exact .inr (.inl ⟨h, h1, .inr ⟨h2, h'⟩⟩)
        · refine .inr (.inr ⟨h, ?_⟩)
          rintro ⟨-, h | ⟨-, h⟩⟩
          · omega
          · exact h' h
      · rw [jsSliceAt_outside h2 (by omega) hp]
        exact .inr (.inl ⟨rfl, h1, .inl (by omega)⟩)
    · rw [if_neg h1]
      exact .inr (.inr ⟨⟨_, rfl⟩, fun h => h1 h.1⟩)

theorem jsSectionAt_unique {data : Bytes} {k p m p' m' : Nat} (h : JsSectionAt data k p m) (h' : JsSectionAt data k p' m') : p = p' ∧ m = m' := by
  induction h generalizing p' m' with
  | first => cases h'; exact ⟨rfl, rfl⟩
  | header _ ht _ ih =>
    cases h' with
    | header h1 _ _ => obtain ⟨rfl, rfl⟩ := ih h1; exact ⟨rfl, rfl⟩
    | other h1 ht' _ => obtain ⟨rfl, rfl⟩ := ih h1; exact absurd ht ht'
  | other _ ht _ ih =>
    cases h' with
    | header h1 ht' _ => obtain ⟨rfl, rfl⟩ := ih h1; exact absurd ht' ht
    | other h1 _ _ => obtain ⟨rfl, rfl⟩ := ih h1; exact ⟨rfl, rfl⟩

theorem not_cut_and_endless {data : Bytes} {pos m : Nat} : ¬ (CutAt data pos m ∧ EndlessAt data pos m) := by
  rintro ⟨h | ⟨h, -⟩ | ⟨-, h⟩, h1, h2, h3, h4⟩
  · omega
  · omega
  · subst h3
    obtain ⟨j, -, -, h⟩ := h
    have : valueAt (pos + 12) 0 j ≤ pos + 12 := by unfold valueAt; exact le_trans (Nat.mod_le _ _) (by omega)
    omega

/-- One section. -/
theorem section_step {data : Bytes} (hl : data.length < 2 ^ 31) {n k pos m : Nat} (acc : List Fr) (hat : JsSectionAt data k pos m)
    (hm : m < 2 ^ 32) :
    (CutAt data pos m → jsWtnsSections (2 ^ 32 + 1) data (n + 1) pos m acc = .error .panic) ∧
    (EndlessAt data pos m → jsWtnsSections (2 ^ 32 + 1) data (n + 1) pos m acc = .error .hang) ∧
    (¬ CutAt data pos m → ¬ EndlessAt data pos m → ∃ pos' m' acc', JsSectionAt data (k + 1) pos' m' ∧ m' < 2 ^ 32 ∧
      jsWtnsSections (2 ^ 32 + 1) data (n + 1) pos m acc = jsWtnsSections (2 ^ 32 + 1) data n pos' m' acc') := by
  by_cases h12 : pos + 12 ≤ data.length
  · have e1 : jsAt32 data pos = .ok (typeAt data pos) := by unfold jsAt32; rw [if_pos (by omega)]; rfl
    have e2 : jsAt64 data (pos + 4) = .ok (sizeAt data pos) := by unfold jsAt64; rw [if_pos (by omega)]; rfl
    simp only [jsWtnsSections, e1, e2, Res.ok_bind, sectionEnd_mod]
    by_cases t1 : typeAt data pos = 1
    · rw [if_pos t1]
      have hne : ¬ EndlessAt data pos m := fun h => by have := h.2.1; omega
      by_cases h16 : pos + 16 ≤ data.length
      · have e3 : jsAt32 data (pos + 12) = .ok (leNat (slice data (pos + 12) 4)) := by unfold jsAt32; rw [if_pos (by omega)]
        rw [e3, Res.ok_bind]
        refine ⟨?_, fun h => absurd h hne, fun _ _ => ⟨_, _, _, .header hat t1 h16, ?_, rfl⟩⟩
        · rintro (h | ⟨-, h⟩ | ⟨h, -⟩) <;> omega
        · have h := leNat_lt (slice data (pos + 12) 4)
          have hl' : (slice data (pos + 12) 4).length ≤ 4 := by simp [slice]
          have h2 : 256 ^ (slice data (pos + 12) 4).length ≤ 256 ^ 4 := Nat.pow_le_pow_right (by norm_num) hl'
          have h3 : 256 ^ 4 = 2 ^ 32 := by norm_num
          omega
      · have e3 : jsAt32 data (pos + 12) = .error .panic := by unfold jsAt32; rw [if_neg (by omega)]; rfl
        rw [e3, Res.error_bind]
        exact ⟨fun _ => rfl, fun h => absurd h hne, fun h => absurd (.inr (.inl ⟨t1, by omega⟩)) h⟩
    · rw [if_neg t1]
      have hnext : JsSectionAt data (k + 1) ((pos + 12 + sizeAt data pos) % 2 ^ 32) m := .other hat t1 h12
      by_cases t2 : typeAt data pos = 2
      · rw [if_pos t2]
        have hc : CutAt data pos m ↔ ValueMissing data m (pos + 12) (endAt data pos) := by
          unfold CutAt
          constructor
          · rintro (h | ⟨h, -⟩ | ⟨-, h⟩)
            · omega
            · exact absurd h t1
            · exact h
          · exact fun h => .inr (.inr ⟨t2, h⟩)
        have hv := values_cases hl (m := m) (e := endAt data pos) (2 ^ 32 + 1) (pos + 12) acc (by omega)
        change _ ∧ _ ∧ _
        by_cases he : EndlessAt data pos m
        · obtain ⟨-, -, rfl, h4⟩ := he
          have hz := jsWtnsValues_zero (data := data) h4 h12 (by omega) (2 ^ 32 + 1) acc
          unfold endAt at hz
          rw [hz, Res.error_bind]
          exact ⟨fun h => absurd ⟨h, h12, t2, rfl, h4⟩ not_cut_and_endless, fun _ => rfl, fun _ h => absurd ⟨h12, t2, rfl, h4⟩ h⟩
        · have hnh : jsWtnsValues data m (endAt data pos) (2 ^ 32 + 1) (pos + 12) acc ≠ .error .hang := by
            by_cases h0 : m = 0
            · subst h0
              have : ¬ pos + 12 ≤ endAt data pos := fun h => he ⟨h12, t2, rfl, h⟩
              simp only [jsWtnsValues]
              rw [if_neg (by rw [Nat.add_zero, Nat.mod_eq_of_lt (by omega)]; exact this)]
              simp
            · exact jsWtnsValues_no_hang hl h0 hm _ _ (by omega)
          rw [hc]
          unfold endAt at hv hnh ⊢
          rcases hv with h | ⟨h, h'⟩ | ⟨⟨r, h⟩, h'⟩
          · exact absurd h hnh
          · rw [h, Res.error_bind]
            exact ⟨fun _ => rfl, fun h => absurd h he, fun h => absurd h' h⟩
          · rw [h, Res.ok_bind]
            exact ⟨fun h => absurd h h', fun h => absurd h he, fun _ _ => ⟨_, _, _, hnext, hm, rfl⟩⟩
      · rw [if_neg t2]
        refine ⟨?_, fun h => absurd h.2.1 t2, fun _ _ => ⟨_, _, _, hnext, hm, rfl⟩⟩
        rintro (h | ⟨h, -⟩ | ⟨h, -⟩)
        · omega
        · exact absurd h t1
        · exact absurd h t2
  · have hpanic : jsWtnsSections (2 ^ 32 + 1) data (n + 1) pos m acc = .error .panic := by
      simp only [jsWtnsSections]
      unfold jsAt32 jsAt64
      by_cases h4 : pos + 4 ≤ data.length
      · rw [if_pos h4, if_neg (by omega)]; rfl
      · rw [if_neg h4]; rfl
    exact ⟨fun _ => hpanic, fun h => absurd h.1 h12, fun h => absurd (.inl (by omega)) h⟩

/-- The section loop from section `k` on. -/
theorem sections_exact {data : Bytes} (hl : data.length < 2 ^ 31) {n k pos m : Nat} (acc : List Fr) (hat : JsSectionAt data k pos m)
    (hm : m < 2 ^ 32) (hbefore : ∀ j < k, ∀ p m', JsSectionAt data j p m' → ¬ CutAt data p m' ∧ ¬ EndlessAt data p m')
    (hn : leNat (slice data 8 4) = k + n) :
    (jsWtnsSections (2 ^ 32 + 1) data n pos m acc = .error .panic ∧ ∃ k p m, FirstBad data k p m ∧ CutAt data p m) ∨
    (jsWtnsSections (2 ^ 32 + 1) data n pos m acc = .error .hang ∧ ∃ k p m, FirstBad data k p m ∧ EndlessAt data p m) ∨
    ((∃ r, jsWtnsSections (2 ^ 32 + 1) data n pos m acc = .ok r) ∧ ∀ k p m, ¬ FirstBad data k p m) := by
  induction n generalizing k pos m acc with
  | zero =>
    refine .inr (.inr ⟨⟨_, rfl⟩, ?_⟩)
    rintro k' p m' ⟨h1, h2, h3 | h3, -⟩
    · exact (hbefore k' (by omega) p m' h2).1 h3
    · exact (hbefore k' (by omega) p m' h2).2 h3
  | succ n ih =>
    obtain ⟨s1, s2, s3⟩ := section_step hl (n := n) acc hat hm
    by_cases hc : CutAt data pos m
    · exact .inl ⟨s1 hc, k, pos, m, ⟨by omega, hat, .inl hc, hbefore⟩, hc⟩
    by_cases he : EndlessAt data pos m
    · exact .inr (.inl ⟨s2 he, k, pos, m, ⟨by omega, hat, .inr he, hbefore⟩, he⟩)
    obtain ⟨pos', m', acc', hat', hm', heq⟩ := s3 hc he
    rw [heq]
    refine ih acc' hat' hm' ?_ (by omega)
    intro j hj p m'' hjat
    by_cases hjk : j = k
    · subst hjk
      obtain ⟨rfl, rfl⟩ := jsSectionAt_unique hat hjat
      exact ⟨hc, he⟩
    · exact hbefore j (by omega) p m'' hjat

theorem firstBad_unique {data : Bytes} {k p m k' p' m' : Nat} (h : FirstBad data k p m) (h' : FirstBad data k' p' m') : p = p' ∧ m = m' := by
  obtain ⟨-, a1, a2, a3⟩ := h
  obtain ⟨-, b1, b2, b3⟩ := h'
  obtain rfl : k = k' := by
    rcases Nat.lt_trichotomy k k' with hlt | he | hlt
    · have := b3 k hlt p m a1
      exact absurd a2 (by rw [not_or]; exact this)
    · exact he
    · have := a3 k' hlt p' m' b1
      exact absurd b2 (by rw [not_or]; exact this)
  exact jsSectionAt_unique a1 b1

/-- **C28** (exactly) — what the JS witness reader does with every byte string that fits into wasm32 memory: it reports an error exactly for a wrong magic or version, does
not end exactly if the first bad section is an endless one, and panics exactly if the file is cut inside its preamble or the first bad section is cut off. -/
theorem C28_outcome (data : Bytes) (hl : data.length < 2 ^ 31) :
    ((∃ e, jsParseWtns data = .error (.err e)) ↔ ¬ Magic data ∨ OtherVersion data) ∧
    (jsParseWtns data = .error .panic ↔ Magic data ∧ ¬ OtherVersion data ∧
      (data.length < 12 ∨ ∃ k pos m, FirstBad data k pos m ∧ CutAt data pos m)) ∧
    (jsParseWtns data = .error .hang ↔ Magic data ∧ ¬ OtherVersion data ∧ 12 ≤ data.length ∧ ∃ k pos m, FirstBad data k pos m ∧ EndlessAt data pos m) ∧
    ((∃ vals, jsParseWtns data = .ok vals) ↔ Magic data ∧ ¬ OtherVersion data ∧ 12 ≤ data.length ∧ ∀ k pos m, ¬ FirstBad data k pos m) := by
  by_cases hmag : Magic data
  · have hl4 : 4 ≤ data.length := by
      by_contra h
      have := congrArg List.length hmag
      simp at this
      omega
    by_cases hver : OtherVersion data
    · have : jsParseWtns data = .error (.err "Unsupported witness version") := by
        unfold jsParseWtns jsParseWtnsFuel
        rw [if_neg (by rw [show slice data 0 4 = data.take 4 from rfl, hmag]; simp; omega)]
        unfold jsAt32
        rw [if_pos (by have := hver.1; omega), Res.ok_bind, if_pos hver.2]
        rfl
      rw [this]
      simp [hmag, hver]
    · by_cases h12 : 12 ≤ data.length
      · have hv : leNat (slice data 4 4) = 2 := by
          by_contra h
          exact hver ⟨by omega, h⟩
        have heq : jsParseWtns data = jsWtnsSections (2 ^ 32 + 1) data (leNat (slice data 8 4)) 12 0 [] := by
          unfold jsParseWtns
          exact jsParseWtnsFuel_eq _ ⟨h12, hmag, hv⟩
        rw [heq]
        have hlt : ¬ data.length < 12 := by omega
        rcases sections_exact hl [] JsSectionAt.first (by norm_num) (fun j hj => absurd hj (by omega)) (Nat.zero_add _).symm with
          ⟨h, k, p, m, h1, h2⟩ | ⟨h, k, p, m, h1, h2⟩ | ⟨⟨r, h⟩, h'⟩
        · have hno : ¬ ∃ k p m, FirstBad data k p m ∧ EndlessAt data p m := by
            rintro ⟨k', p', m', g1, g2⟩
            obtain ⟨rfl, rfl⟩ := firstBad_unique h1 g1
            exact not_cut_and_endless ⟨h2, g2⟩
          have hex : ¬ ∀ k p m, ¬ FirstBad data k p m := fun hh => hh k p m h1
          have hyes : ∃ k p m, FirstBad data k p m ∧ CutAt data p m := ⟨k, p, m, h1, h2⟩
          rw [h]
          simp only [hmag, hver, h12, hno, hex, hyes]
          simp
        · have hno : ¬ ∃ k p m, FirstBad data k p m ∧ CutAt data p m := by
            rintro ⟨k', p', m', g1, g2⟩
            obtain ⟨rfl, rfl⟩ := firstBad_unique h1 g1
            exact not_cut_and_endless ⟨g2, h2⟩
          have hex : ¬ ∀ k p m, ¬ FirstBad data k p m := fun hh => hh k p m h1
          have hyes : ∃ k p m, FirstBad data k p m ∧ EndlessAt data p m := ⟨k, p, m, h1, h2⟩
          rw [h]
          simp only [hmag, hver, h12, hlt, hno, hex, hyes]
          simp
        · have hno : ¬ ∃ k p m, FirstBad data k p m ∧ CutAt data p m := fun ⟨k, p, m, g, _⟩ => h' k p m g
          have hno' : ¬ ∃ k p m, FirstBad data k p m ∧ EndlessAt data p m := fun ⟨k, p, m, g, _⟩ => h' k p m g
          rw [h]
          simp only [hmag, hver, h12, hlt, hno, hno']
          simp [h']
      · have hp : jsParseWtns data = .error .panic := by
          refine C28_preamble_cut_panics data hmag (by omega) fun h8 => ?_
          have hv : leNat (slice data 4 4) = 2 := by
            by_contra h
            exact hver ⟨h8, h⟩
          have hlen : (slice data 4 4).length = 4 := by simp [slice]; omega
          have := leBytes_leNat (slice data 4 4)
          rw [hv, hlen] at this
          exact this.symm
        rw [hp]
        have : data.length < 12 := by omega
        simp only [hmag, hver, h12, this]
        simp
  · have : jsParseWtns data = .error (.err "Invalid witness file: wrong magic") := C28_bad_magic data hmag
    rw [this]
    simp [hmag]

/-! Concrete files: an endless one after a section that is passed, one cut off, and one that is read. -/

/-- Two sections: one of type 3 without content, then a data section without a header before it. -/
def endlessFile : Bytes := [119, 116, 110, 115] ++ (u32le 2 ++ (u32le 2 ++ (u32le 3 ++ (u64le 0 ++ (u32le 2 ++ u64le 0)))))

theorem endless_at : JsSectionAt endlessFile 1 24 0 := by
  have := JsSectionAt.other (data := endlessFile) JsSectionAt.first (by decide) (by decide)
  have e : (12 + 12 + sizeAt endlessFile 12) % 2 ^ 32 = 24 := by decide
  rw [e] at this
  exact this

example : jsParseWtns endlessFile = .error .hang := by
  refine ((C28_outcome endlessFile (by decide)).2.2.1).2 ⟨by unfold Magic; decide, by unfold OtherVersion; decide, by decide, 1, 24, 0,
    ⟨by decide, endless_at, .inr (by unfold EndlessAt; decide), ?_⟩, by unfold EndlessAt; decide⟩
  intro j hj p m h
  obtain rfl : j = 0 := by omega
  cases h
  have ht : typeAt endlessFile 12 = 3 := by decide
  refine ⟨?_, fun h => by have := h.2.1; omega⟩
  rintro (h | ⟨h, -⟩ | ⟨h, -⟩)
  · revert h; decide
  · omega
  · omega

/-- The same file with its last byte missing. -/
example : jsParseWtns (endlessFile.take 35) = .error .panic := by
  refine ((C28_outcome (endlessFile.take 35) (by decide)).2.1).2 ⟨by unfold Magic; decide, by unfold OtherVersion; decide, .inr ⟨1, 24, 0,
    ⟨by decide, ?_, .inl (.inl (by decide)), ?_⟩, .inl (by decide)⟩⟩
  · have := JsSectionAt.other (data := endlessFile.take 35) JsSectionAt.first (by decide) (by decide)
    have e : (12 + 12 + sizeAt (endlessFile.take 35) 12) % 2 ^ 32 = 24 := by decide
    rw [e] at this
    exact this
  · intro j hj p m h
    obtain rfl : j = 0 := by omega
    cases h
    have ht : typeAt (endlessFile.take 35) 12 = 3 := by decide
    refine ⟨?_, fun h => by have := h.2.1; omega⟩
    rintro (h | ⟨h, -⟩ | ⟨h, -⟩)
    · revert h; decide
    · omega
    · omega

/-! ## The values that are read -/

theorem values_ok {data : Bytes} {m e : Nat} (fuel pos : Nat) (acc r : List Fr) (hp : pos < 2 ^ 32) (h : jsWtnsValues data m e fuel pos acc = .ok r) :
    ∃ n, (∀ i < n, valueAt pos m (i + 1) ≤ e) ∧ e < valueAt pos m (n + 1) ∧
      r = acc ++ (List.range n).map fun i => ((leNat (slice data (valueAt pos m i) (min m 32)) : Nat) : Fr) := by
  have h0 : valueAt pos m 0 = pos := by simp only [valueAt, Nat.zero_mul, Nat.add_zero]; exact Nat.mod_eq_of_lt hp
  have h1 : valueAt pos m 1 = (pos + m) % 2 ^ 32 := by simp [valueAt]
  induction fuel generalizing pos acc with
  | zero => simp [jsWtnsValues] at h
  | succ fuel ih =>
    simp only [jsWtnsValues] at h
    by_cases hc : (pos + m) % 2 ^ 32 ≤ e
    · rw [if_pos hc] at h
      unfold jsSliceAt at h
      split at h
      · exact absurd h (by simp [Res.panic, Res.error_bind])
      · rw [Res.ok_bind] at h
        have hp' : (pos + m) % 2 ^ 32 < 2 ^ 32 := Nat.mod_lt _ (by norm_num)
        obtain ⟨n, g1, g2, g3⟩ := ih _ _ hp' h (by simp only [valueAt, Nat.zero_mul, Nat.add_zero]; exact Nat.mod_eq_of_lt hp') (by simp [valueAt])
        refine ⟨n + 1, fun i hi => ?_, by rw [← valueAt_succ]; exact g2, ?_⟩
        · cases i with
          | zero => rw [h1]; exact hc
          | succ i => rw [← valueAt_succ]; exact g1 i (by omega)
        · rw [g3, List.range_succ_eq_map, List.map_cons, List.map_map, h0, List.append_assoc]
          simp only [valueAt_succ]
          rfl
    · rw [if_neg hc] at h
      refine ⟨0, fun i hi => absurd hi (by omega), by rw [h1]; omega, ?_⟩
      have h' : (Except.ok acc : Res (List Fr)) = .ok r := h
      cases h'
      simp

theorem sections_ok {data : Bytes} (hl : data.length < 2 ^ 31) (fuel : Nat) {n k pos m : Nat} (acc r : List Fr) (hat : JsSectionAt data k pos m)
    (h : jsWtnsSections fuel data n pos m acc = .ok r) :
    ∃ chunks : List (List Fr), chunks.length = n ∧ r = acc ++ chunks.flatten ∧
      ∀ j (hj : j < chunks.length), ∃ p m', JsSectionAt data (k + j) p m' ∧ ValuesAt data p m' chunks[j] := by
  induction n generalizing k pos m acc with
  | zero =>
    have h' : (Except.ok acc : Res (List Fr)) = .ok r := h
    cases h'
    exact ⟨[], rfl, by simp, fun j hj => absurd hj (by simp)⟩
  | succ n ih =>
    have cons : ∀ (vs : List Fr) (acc' : List Fr) (p' m' : Nat), acc' = acc ++ vs → ValuesAt data pos m vs → JsSectionAt data (k + 1) p' m' →
        jsWtnsSections fuel data n p' m' acc' = .ok r → ∃ chunks : List (List Fr), chunks.length = n + 1 ∧ r = acc ++ chunks.flatten ∧
      ∀ j (hj : j < chunks.length), ∃ p m', JsSectionAt data (k + j) p m' ∧ ValuesAt data p m' chunks[j] := by
      intro vs acc' p' m' ha hv hs hr
      obtain ⟨cs, g1, g2, g3⟩ := ih _ hs hr
      refine ⟨vs :: cs, by simp [g1], by rw [g2, ha]; simp, fun j hj => ?_⟩
      cases j with
      | zero => exact ⟨pos, m, hat, hv⟩
      | succ j =>
        obtain ⟨p, m', a, b⟩ := g3 j (by simpa using hj)
        exact ⟨p, m', by rw [show k + (j + 1) = k + 1 + j by omega]; exact a, b⟩
    simp only [jsWtnsSections] at h
    by_cases h12 : pos + 12 ≤ data.length
    · have e1 : jsAt32 data pos = .ok (typeAt data pos) := by unfold jsAt32; rw [if_pos (by omega)]; rfl
      have e2 : jsAt64 data (pos + 4) = .ok (sizeAt data pos) := by unfold jsAt64; rw [if_pos (by omega)]; rfl
      simp only [e1, e2, Res.ok_bind, sectionEnd_mod] at h
      by_cases t1 : typeAt data pos = 1
      · rw [if_pos t1] at h
        by_cases h16 : pos + 16 ≤ data.length
        · have e3 : jsAt32 data (pos + 12) = .ok (leNat (slice data (pos + 12) 4)) := by unfold jsAt32; rw [if_pos (by omega)]
          rw [e3, Res.ok_bind] at h
          exact cons [] _ _ _ (by simp) (.inl ⟨by omega, rfl⟩) (.header hat t1 h16) h
        · have e3 : jsAt32 data (pos + 12) = .error .panic := by unfold jsAt32; rw [if_neg (by omega)]; rfl
          rw [e3, Res.error_bind] at h
          exact absurd h (by simp)
      · rw [if_neg t1] at h
        have hnext : JsSectionAt data (k + 1) ((pos + 12 + sizeAt data pos) % 2 ^ 32) m := .other hat t1 h12
        by_cases t2 : typeAt data pos = 2
        · rw [if_pos t2] at h
          rcases hv : jsWtnsValues data m ((pos + 12 + sizeAt data pos) % 2 ^ 32) fuel (pos + 12) acc with e | acc'
          · rw [hv, Res.error_bind] at h
            exact absurd h (by simp)
          · rw [hv, Res.ok_bind] at h
            obtain ⟨c, g1, g2, g3⟩ := values_ok _ _ _ _ (by omega) hv
            exact cons _ _ _ _ g3 (.inr ⟨t2, c, g1, g2, rfl⟩) hnext h
        · rw [if_neg t2] at h
          exact cons [] _ _ _ (by simp) (.inl ⟨t2, rfl⟩) hnext h
    · unfold jsAt32 jsAt64 at h
      by_cases h4 : pos + 4 ≤ data.length
      · rw [if_pos h4, if_neg (by omega)] at h
        exact absurd h (by simp [Res.panic, Res.error_bind, Res.ok_bind])
      · rw [if_neg h4] at h
        exact absurd h (by simp [Res.panic, Res.error_bind])

/-- **C28** (what is read) — whatever file the reader accepts, malformed or not: it takes from every announced section, in order, exactly the values that end within its
announced size, with the field size of the last header section before it, and returns them one section after the other. -/
theorem C28_values (data : Bytes) (hl : data.length < 2 ^ 31) (vals : List Fr) (h : jsParseWtns data = .ok vals) :
    ∃ chunks : List (List Fr), chunks.length = leNat (slice data 8 4) ∧ vals = chunks.flatten ∧
      ∀ k (hk : k < chunks.length), ∃ pos m, JsSectionAt data k pos m ∧ ValuesAt data pos m chunks[k] := by
  obtain ⟨hmag, hver, h12, -⟩ := (C28_outcome data hl).2.2.2.1 ⟨vals, h⟩
  have hv : leNat (slice data 4 4) = 2 := by
    by_contra h
    exact hver ⟨by omega, h⟩
  have heq : jsParseWtns data = jsWtnsSections (2 ^ 32 + 1) data (leNat (slice data 8 4)) 12 0 [] := by
    unfold jsParseWtns
    exact jsParseWtnsFuel_eq _ ⟨h12, hmag, hv⟩
  rw [heq] at h
  obtain ⟨cs, g1, g2, g3⟩ := sections_ok hl _ [] vals JsSectionAt.first h
  exact ⟨cs, g1, by simpa using g2, fun k hk => by simpa using g3 k hk⟩

/-- A file with two data sections of three bytes each and field size 2: one value is taken from each, the left-over bytes are ignored. -/
def twoDataFile : Bytes :=
  [119, 116, 110, 115] ++ (u32le 2 ++ (u32le 3 ++ (u32le 1 ++ (u64le 4 ++ (u32le 2 ++ (u32le 2 ++ (u64le 3 ++ ([7, 0, 9] ++ (u32le 2 ++ (u64le 3 ++ [1, 1, 5]))))))))))

theorem twoData_stop (f e pos : Nat) (acc : List Fr) (h : ¬ (pos + 2) % 2 ^ 32 ≤ e) : jsWtnsValues twoDataFile 2 e (f + 1) pos acc = .ok acc := by
  simp only [jsWtnsValues, if_neg h]; rfl

theorem twoData_step (f e pos : Nat) (acc : List Fr) (b : Bytes) (h : (pos + 2) % 2 ^ 32 ≤ e) (hb : jsSliceAt twoDataFile pos 2 = .ok b) :
    jsWtnsValues twoDataFile 2 e (f + 1) pos acc = jsWtnsValues twoDataFile 2 e f ((pos + 2) % 2 ^ 32) (acc ++ [((leNat b : Nat) : Fr)]) := by
  simp only [jsWtnsValues, if_pos h]
  rw [show min 2 32 = 2 from rfl, hb, Res.ok_bind]

theorem twoData_one (f e pos n : Nat) (acc : List Fr) (b : Bytes) (h : (pos + 2) % 2 ^ 32 ≤ e) (h' : ¬ ((pos + 2) % 2 ^ 32 + 2) % 2 ^ 32 ≤ e)
    (hb : jsSliceAt twoDataFile pos 2 = .ok b) (hn : leNat b = n) : jsWtnsValues twoDataFile 2 e (f + 2) pos acc = .ok (acc ++ [((n : Nat) : Fr)]) := by
  rw [twoData_step _ _ _ _ _ h hb, twoData_stop _ _ _ _ h', hn]

theorem twoData_sections (f : Nat) : jsWtnsSections (f + 2) twoDataFile 3 12 0 [] = .ok [((7 : Nat) : Fr), ((257 : Nat) : Fr)] := by
  have a1 : jsAt32 twoDataFile 12 = .ok 1 := by decide
  have a2 : jsAt64 twoDataFile (12 + 4) = .ok 4 := by decide
  have a3 : jsAt32 twoDataFile (12 + 12) = .ok 2 := by decide
  have b1 : jsAt32 twoDataFile 28 = .ok 2 := by decide
  have b2 : jsAt64 twoDataFile (28 + 4) = .ok 3 := by decide
  have c1 : jsAt32 twoDataFile 43 = .ok 2 := by decide
  have c2 : jsAt64 twoDataFile (43 + 4) = .ok 3 := by decide
  have e1 : (12 + 12 + 4 % 2 ^ 32) % 2 ^ 32 = 28 := by norm_num
  have e2 : (28 + 12 + 3 % 2 ^ 32) % 2 ^ 32 = 43 := by norm_num
  have e3 : (43 + 12 + 3 % 2 ^ 32) % 2 ^ 32 = 58 := by norm_num
  have d1 := twoData_one f 43 (28 + 12) 7 [] [7, 0] (by decide) (by decide) (by decide) (by decide)
  have d2 := twoData_one f 58 (43 + 12) 257 ([] ++ [((7 : Nat) : Fr)]) [1, 1] (by decide) (by decide) (by decide) (by decide)
  rw [jsWtnsSections, a1, Res.ok_bind, a2, Res.ok_bind, if_pos rfl, a3, Res.ok_bind, e1, jsWtnsSections, b1, Res.ok_bind, b2, Res.ok_bind,
    if_neg (by decide), if_pos rfl, e2, d1, Res.ok_bind, jsWtnsSections, c1, Res.ok_bind, c2, Res.ok_bind, if_neg (by decide), if_pos rfl, e3, d2,
    Res.ok_bind, jsWtnsSections, List.nil_append, List.singleton_append]
  rfl

example : jsParseWtns twoDataFile = .ok [((7 : Nat) : Fr), ((257 : Nat) : Fr)] := by
  unfold jsParseWtns
  obtain ⟨f, hf⟩ : ∃ f, 2 ^ 32 + 1 = f + 2 := ⟨2 ^ 32 - 1, by norm_num⟩
  rw [hf]
  have h := jsParseWtnsFuel_eq (data := twoDataFile) (f + 2) ⟨by decide, by decide, by decide⟩
  rw [show leNat (slice twoDataFile 8 4) = 3 by decide] at h
  rw [h]
  exact twoData_sections f

end Zkenc.Props
