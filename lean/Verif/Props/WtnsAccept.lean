import Verif.Spec.WtnsAccept
import Verif.Props.WtnsParse
/-!
# C24, C26: exactly which witness files the CLI accepts
-/

namespace Zkenc.Props

open Zkenc WtnsFormat

theorem wtnsSectionAt_unique {data : Bytes} {k p p' : Nat} (h : SectionAt data k p) (h' : SectionAt data k p') : p = p' := by
  induction h generalizing p' with
  | first => cases h'; rfl
  | header _ ht _ ih =>
    cases h' with
    | header h1 _ _ => obtain rfl := ih h1; rfl
    | other h1 ht' _ _ => obtain rfl := ih h1; exact absurd ht ht'
  | other _ ht _ _ ih =>
    cases h' with
    | header h1 ht' _ => obtain rfl := ih h1; exact absurd ht' ht
    | other h1 _ _ _ => obtain rfl := ih h1; rfl

theorem wtnsSectionAt_inside {data : Bytes} {k p : Nat} (h12 : 12 ≤ data.length) (h : SectionAt data k p) : p ≤ data.length := by
  cases h with
  | first => exact h12
  | header _ _ h => exact h
  | other _ _ h _ => exact h

theorem wtnsSectionAt_before {data : Bytes} {k p : Nat} (h : SectionAt data (k + 1) p) : ∃ q, SectionAt data k q := by
  cases h with
  | header h _ _ => exact ⟨_, h⟩
  | other h _ _ _ => exact ⟨_, h⟩

theorem wtnsSectionAt_le {data : Bytes} {k n e : Nat} (hk : k ≤ n) (h : SectionAt data n e) : ∃ q, SectionAt data k q := by
  induction n generalizing e with
  | zero => obtain rfl : k = 0 := by omega
            exact ⟨_, h⟩
  | succ n ih =>
    rcases Nat.lt_or_ge k (n + 1) with hlt | hge
    · obtain ⟨q, hq⟩ := wtnsSectionAt_before h
      exact ih (by omega) hq
    · obtain rfl : k = n + 1 := by omega
      exact ⟨_, h⟩

/-- The parser state after one section. -/
def nextState (data : Bytes) (st : WtnsState) (pos : Nat) : WtnsState :=
  if typeAt data pos = 1 then
    { st with prime := slice data (pos + 16) (leNat (slice data (pos + 12) 4)),
              nWitness := leNat (slice data (pos + 16 + leNat (slice data (pos + 12) 4)) 4) }
  else if typeAt data pos = 2 then { st with data := slice data (pos + 12) (sizeAt data pos) } else st

/-- One section: if it is complete it is passed, with the next state; otherwise the parser does not return a value. -/
theorem cliSection_exact {data : Bytes} {k pos : Nat} (st : WtnsState) (hat : SectionAt data k pos) :
    (∃ pos', SectionAt data (k + 1) pos' ∧ cliWtnsSection data st pos = .ok (nextState data st pos, pos')) ∨
    ((∀ q, ¬ SectionAt data (k + 1) q) ∧ ∃ e, cliWtnsSection data st pos = .error e) := by
  have hno : ∀ {q}, SectionAt data (k + 1) q →
      (typeAt data pos = 1 ∧ pos + 12 + 4 + leNat (slice data (pos + 12) 4) + 4 ≤ data.length) ∨
      (typeAt data pos ≠ 1 ∧ pos + 12 + sizeAt data pos ≤ data.length ∧ sizeAt data pos < 2 ^ 63) := by
    intro q h
    cases h with
    | header h1 h2 h3 => obtain rfl := wtnsSectionAt_unique hat h1; exact .inl ⟨h2, h3⟩
    | other h1 h2 h3 h4 => obtain rfl := wtnsSectionAt_unique hat h1; exact .inr ⟨h2, h3, h4⟩
  by_cases h4 : pos + 4 ≤ data.length
  swap
  · refine .inr ⟨fun q h => ?_, Fault.err "failed to fill whole buffer", ?_⟩
    · rcases hno h with ⟨-, h⟩ | ⟨-, h, -⟩ <;> omega
    · unfold cliWtnsSection PP.bind; rw [cliU32_outside h4]; rfl
  by_cases h12 : pos + 12 ≤ data.length
  swap
  · refine .inr ⟨fun q h => ?_, Fault.err "failed to fill whole buffer", ?_⟩
    · rcases hno h with ⟨-, h⟩ | ⟨-, h, -⟩ <;> omega
    · unfold cliWtnsSection
      rw [PP.bind_of_ok (cliU32_inside h4)]
      unfold PP.bind; rw [cliU64_outside (by omega)]; rfl
  have e1 := cliU32_inside (data := data) (pos := pos) (by omega)
  have e2 := cliU64_inside (data := data) (pos := pos + 4) (by omega)
  have e12 : pos + 4 + 8 = pos + 12 := by omega
  by_cases ht : typeAt data pos = 1
  · have ht' : leNat (slice data pos 4) = 1 := ht
    by_cases hc : pos + 12 + 4 + leNat (slice data (pos + 12) 4) + 4 ≤ data.length
    · refine .inl ⟨_, .header hat ht hc, ?_⟩
      have e4 : cliRead data (leNat (slice data (pos + 12) 4)) (pos + 12 + 4) =
          .ok (slice data (pos + 12 + 4) (leNat (slice data (pos + 12) 4)), pos + 12 + 4 + leNat (slice data (pos + 12) 4)) := by
        unfold cliRead; rw [if_pos (by omega)]
      unfold cliWtnsSection nextState
      rw [PP.bind_of_ok e1, PP.bind_of_ok e2, if_pos ht', e12, PP.bind_of_ok (cliU32_inside (by omega)), PP.bind_of_ok e4, PP.bind_of_ok (cliU32_inside hc), if_pos ht]
      rfl
    · refine .inr ⟨fun q h => ?_, ?_⟩
      · rcases hno h with ⟨-, h⟩ | ⟨h, -⟩
        · exact hc h
        · exact h ht
      · refine ⟨Fault.err "failed to fill whole buffer", ?_⟩
        unfold cliWtnsSection
        rw [PP.bind_of_ok e1, PP.bind_of_ok e2, if_pos ht', e12]
        by_cases h16 : pos + 12 + 4 ≤ data.length
        swap
        · unfold PP.bind; rw [cliU32_outside h16]; rfl
        rw [PP.bind_of_ok (cliU32_inside h16)]
        by_cases hfs : leNat (slice data (pos + 12) 4) = 0 ∨ pos + 12 + 4 + leNat (slice data (pos + 12) 4) ≤ data.length
        swap
        · unfold PP.bind cliRead; rw [if_neg hfs]; rfl
        have e4 : cliRead data (leNat (slice data (pos + 12) 4)) (pos + 12 + 4) =
            .ok (slice data (pos + 12 + 4) (leNat (slice data (pos + 12) 4)), pos + 12 + 4 + leNat (slice data (pos + 12) 4)) := by
          unfold cliRead; rw [if_pos hfs]
        rw [PP.bind_of_ok e4]
        unfold PP.bind; rw [cliU32_outside hc]; rfl
  · have ht' : ¬ leNat (slice data pos 4) = 1 := ht
    by_cases hbig : sizeAt data pos < 2 ^ 63
    · have e3 : cliAlloc (sizeAt data pos) (pos + 12) = .ok ((), pos + 12) := by
        unfold cliAlloc; rw [if_pos hbig]
      by_cases hc : pos + 12 + sizeAt data pos ≤ data.length
      · refine .inl ⟨_, .other hat ht hc hbig, ?_⟩
        have e4 : cliRead data (sizeAt data pos) (pos + 12) = .ok (slice data (pos + 12) (sizeAt data pos), pos + 12 + sizeAt data pos) := by
          unfold cliRead; rw [if_pos (by omega)]
        unfold cliWtnsSection nextState
        rw [PP.bind_of_ok e1, PP.bind_of_ok e2, if_neg ht', e12, if_neg ht]
        change (if typeAt data pos = 2 then PP.bind (cliAlloc (sizeAt data pos)) fun _ => PP.bind (cliRead data (sizeAt data pos)) fun d => PP.pure { st with data := d }
          else PP.bind (cliAlloc (sizeAt data pos)) fun _ => PP.bind (cliRead data (sizeAt data pos)) fun _ => PP.pure st) (pos + 12) = _
        by_cases ht2 : typeAt data pos = 2
        · rw [if_pos ht2, if_pos ht2, PP.bind_of_ok e3, PP.bind_of_ok e4]; rfl
        · rw [if_neg ht2, if_neg ht2, PP.bind_of_ok e3, PP.bind_of_ok e4]; rfl
      · refine .inr ⟨fun q h => ?_, ?_⟩
        · rcases hno h with ⟨h, -⟩ | ⟨-, h, -⟩
          · exact ht h
          · exact hc h
        · refine ⟨Fault.err "failed to fill whole buffer", ?_⟩
          have e4 : cliRead data (sizeAt data pos) (pos + 12) = Res.fail "failed to fill whole buffer" := by
            unfold cliRead; rw [if_neg (by omega)]
          unfold cliWtnsSection
          rw [PP.bind_of_ok e1, PP.bind_of_ok e2, if_neg ht', e12]
          change (if typeAt data pos = 2 then PP.bind (cliAlloc (sizeAt data pos)) fun _ => PP.bind (cliRead data (sizeAt data pos)) fun d => PP.pure { st with data := d }
            else PP.bind (cliAlloc (sizeAt data pos)) fun _ => PP.bind (cliRead data (sizeAt data pos)) fun _ => PP.pure st) (pos + 12) = _
          by_cases ht2 : typeAt data pos = 2
          · rw [if_pos ht2, PP.bind_of_ok e3]; unfold PP.bind; rw [e4]; rfl
          · rw [if_neg ht2, PP.bind_of_ok e3]; unfold PP.bind; rw [e4]; rfl
    · refine .inr ⟨fun q h => ?_, Fault.panic, ?_⟩
      · rcases hno h with ⟨h, -⟩ | ⟨-, -, h⟩
        · exact ht h
        · exact hbig h
      · have e3 : cliAlloc (sizeAt data pos) (pos + 12) = .error .panic := by
          unfold cliAlloc; rw [if_neg hbig]; rfl
        unfold cliWtnsSection
        rw [PP.bind_of_ok e1, PP.bind_of_ok e2, if_neg ht', e12]
        change (if typeAt data pos = 2 then PP.bind (cliAlloc (sizeAt data pos)) fun _ => PP.bind (cliRead data (sizeAt data pos)) fun d => PP.pure { st with data := d }
          else PP.bind (cliAlloc (sizeAt data pos)) fun _ => PP.bind (cliRead data (sizeAt data pos)) fun _ => PP.pure st) (pos + 12) = _
        by_cases ht2 : typeAt data pos = 2
        · rw [if_pos ht2]; unfold PP.bind; rw [e3]
        · rw [if_neg ht2]; unfold PP.bind; rw [e3]

/-- The state after the first `k` sections. -/
structure StateAfter (data : Bytes) (k : Nat) (st : WtnsState) : Prop where
  header : (st.prime = [] ∧ st.nWitness = 0 ∧ ∀ h, ¬ LastOfType data k 1 h) ∨
    ∃ h, LastOfType data k 1 h ∧ st.prime = slice data (h + 16) (leNat (slice data (h + 12) 4)) ∧
      st.nWitness = leNat (slice data (h + 16 + leNat (slice data (h + 12) 4)) 4)
  data : (st.data = [] ∧ ∀ d, ¬ LastOfType data k 2 d) ∨ ∃ d, LastOfType data k 2 d ∧ st.data = slice data (d + 12) (sizeAt data d)

theorem last_new {data : Bytes} {k pos : Nat} (hat : SectionAt data k pos) : LastOfType data (k + 1) (typeAt data pos) pos :=
  ⟨k, by omega, hat, rfl, fun i h1 h2 => absurd h1 (by omega)⟩

theorem last_old {data : Bytes} {k pos ty h : Nat} (hat : SectionAt data k pos) (hty : typeAt data pos ≠ ty) :
    LastOfType data (k + 1) ty h ↔ LastOfType data k ty h := by
  constructor
  · rintro ⟨j, h1, h2, h3, h4⟩
    have : j ≠ k := by
      rintro rfl
      obtain rfl := wtnsSectionAt_unique hat h2
      exact hty h3
    exact ⟨j, by omega, h2, h3, fun i a b => h4 i a (by omega)⟩
  · rintro ⟨j, h1, h2, h3, h4⟩
    refine ⟨j, by omega, h2, h3, fun i a b q hq => ?_⟩
    rcases Nat.lt_or_ge i k with hlt | hge
    · exact h4 i a hlt q hq
    · obtain rfl : i = k := by omega
      obtain rfl := wtnsSectionAt_unique hat hq
      exact hty

theorem last_unique {data : Bytes} {n ty a b : Nat} (ha : LastOfType data n ty a) (hb : LastOfType data n ty b) : a = b := by
  obtain ⟨i, a1, a2, a3, a4⟩ := ha
  obtain ⟨j, b1, b2, b3, b4⟩ := hb
  rcases Nat.lt_trichotomy i j with h | rfl | h
  · exact absurd b3 (a4 j h b1 b b2)
  · exact wtnsSectionAt_unique a2 b2
  · exact absurd a3 (b4 i h a1 a a2)

theorem stateAfter_next {data : Bytes} {k pos : Nat} {st : WtnsState} (hat : SectionAt data k pos) (h : StateAfter data k st) :
    StateAfter data (k + 1) (nextState data st pos) := by
  obtain ⟨h1, h2⟩ := h
  have keep1 : typeAt data pos ≠ 1 → (st.prime = [] ∧ st.nWitness = 0 ∧ ∀ h, ¬ LastOfType data (k + 1) 1 h) ∨
    ∃ h, LastOfType data (k + 1) 1 h ∧ st.prime = slice data (h + 16) (leNat (slice data (h + 12) 4)) ∧
      st.nWitness = leNat (slice data (h + 16 + leNat (slice data (h + 12) 4)) 4) := fun ht => by
    simp only [last_old hat ht]; exact h1
  have keep2 : typeAt data pos ≠ 2 → (st.data = [] ∧ ∀ d, ¬ LastOfType data (k + 1) 2 d) ∨
      ∃ d, LastOfType data (k + 1) 2 d ∧ st.data = slice data (d + 12) (sizeAt data d) := fun ht => by
    simp only [last_old hat ht]; exact h2
  unfold nextState
  by_cases t1 : typeAt data pos = 1
  · rw [if_pos t1]
    exact ⟨.inr ⟨pos, by have := last_new hat; rwa [t1] at this, rfl, rfl⟩, keep2 (by omega)⟩
  · rw [if_neg t1]
    by_cases t2 : typeAt data pos = 2
    · rw [if_pos t2]
      exact ⟨keep1 t1, .inr ⟨pos, by have := last_new hat; rwa [t2] at this, rfl⟩⟩
    · rw [if_neg t2]
      exact ⟨keep1 t1, keep2 t2⟩

theorem cliSections_exact {data : Bytes} (n : Nat) {k pos : Nat} {st : WtnsState} (hat : SectionAt data k pos) (h : StateAfter data k st) :
    (∃ e st', SectionAt data (k + n) e ∧ StateAfter data (k + n) st' ∧ cliWtnsSections data n st pos = .ok (st', e)) ∨
    ((∀ e, ¬ SectionAt data (k + n) e) ∧ ∃ x, cliWtnsSections data n st pos = .error x) := by
  induction n generalizing k pos st with
  | zero => exact .inl ⟨pos, st, hat, h, rfl⟩
  | succ n ih =>
    rcases cliSection_exact st hat with ⟨pos', h1, h2⟩ | ⟨h1, x, h2⟩
    · have e : cliWtnsSections data (n + 1) st pos = cliWtnsSections data n (nextState data st pos) pos' := by
        change PP.bind _ _ _ = _
        rw [PP.bind_of_ok h2]
      rw [e, show k + (n + 1) = k + 1 + n by omega]
      exact ih h1 (stateAfter_next hat h)
    · refine .inr ⟨fun e he => ?_, x, ?_⟩
      · obtain ⟨q, hq⟩ := wtnsSectionAt_le (show k + 1 ≤ k + (n + 1) by omega) he
        exact h1 q hq
      · change PP.bind _ _ _ = _
        unfold PP.bind
        rw [h2]

theorem slice_ne_nil {data : Bytes} {p n : Nat} (h : p + n ≤ data.length) : (slice data p n).length = n := by
  simp [slice]; omega

/-- **C24/C26** (exactly) — the files which the CLI accepts, and what it takes from them: from the last header and the last data section. -/
theorem C24_wtns_accepts (data : Bytes) (w : WitnessFile) :
    cliParseWtns data = .ok w ↔
      ∃ h d fieldSize count, Accepted data h d fieldSize count ∧
        w = ⟨slice data (h + 16) fieldSize, count, (List.range count).map fun i => slice data (d + 12 + i * fieldSize) fieldSize⟩ := by
  by_cases hp : wtnsPreamble data
  swap
  · obtain ⟨m, hm⟩ := cliParseWtns_no_preamble data hp
    rw [hm]
    constructor
    · intro h; cases h
    · rintro ⟨h, d, fs, c, ⟨n, ⟨a1, a2, a3, a4⟩, -⟩, -⟩
      exact absurd ⟨a1, a2, a3⟩ hp
  have h12 := hp.1
  rw [cliParseWtns_eq data hp]
  have hinside : ∀ {n e ty q}, SectionAt data n e → LastOfType data n ty q →
      (ty = 1 → q + 16 + leNat (slice data (q + 12) 4) + 4 ≤ data.length) ∧ (ty = 2 → q + 12 + sizeAt data q ≤ data.length) := by
    rintro n e ty q he ⟨j, j1, j2, j3, -⟩
    obtain ⟨q', hq'⟩ := wtnsSectionAt_le (show j + 1 ≤ n by omega) he
    cases hq' with
    | header g1 g2 g3 => obtain rfl := wtnsSectionAt_unique j2 g1; exact ⟨fun _ => g3, fun h => by omega⟩
    | other g1 g2 g3 g4 => obtain rfl := wtnsSectionAt_unique j2 g1; exact ⟨fun h => by omega, fun _ => g3⟩
  have h0 : StateAfter data 0 ⟨[], 0, []⟩ := ⟨.inl ⟨rfl, rfl, fun h ⟨j, hj, _⟩ => absurd hj (by omega)⟩, .inl ⟨rfl, fun h ⟨j, hj, _⟩ => absurd hj (by omega)⟩⟩
  rcases cliSections_exact (leNat (slice data 8 4)) SectionAt.first h0 with ⟨e, st, g1, g2, g3⟩ | ⟨g1, x, g2⟩
  swap
  · rw [g2, Res.error_bind]
    constructor
    · intro h; cases h
    · rintro ⟨h, d, fs, c, ⟨n, ⟨-, -, -, rfl⟩, ⟨e, he⟩, -⟩, -⟩
      exact absurd (by rw [Nat.zero_add]; exact he) (g1 e)
  rw [Nat.zero_add] at g1 g2
  rw [g3, Res.ok_bind]
  change cliWtnsFinish st = _ ↔ _
  obtain ⟨gh, gd⟩ := g2
  rcases gh with ⟨p1, -, p2⟩ | ⟨h, hl, hpr, hnw⟩
  · unfold cliWtnsFinish
    rw [if_pos p1]
    constructor
    · intro h; cases h
    · rintro ⟨h, d, fs, c, ⟨n, ⟨-, -, -, rfl⟩, -, hh, -⟩, -⟩
      exact absurd hh (p2 h)
  have ih := (hinside g1 hl).1 rfl
  have lp : st.prime.length = leNat (slice data (h + 12) 4) := by rw [hpr]; exact slice_ne_nil (by omega)
  rcases gd with ⟨p1, p2⟩ | ⟨d, dl, hda⟩
  · unfold cliWtnsFinish
    by_cases hpn : st.prime = []
    · rw [if_pos hpn]
      constructor
      · intro h; cases h
      · rintro ⟨h, d, fs, c, ⟨n, ⟨-, -, -, rfl⟩, -, -, hh, -⟩, -⟩
        exact absurd hh (p2 d)
    · rw [if_neg hpn, if_pos p1]
      constructor
      · intro h; cases h
      · rintro ⟨h, d, fs, c, ⟨n, ⟨-, -, -, rfl⟩, -, -, hh, -⟩, -⟩
        exact absurd hh (p2 d)
  have id := (hinside g1 dl).2 rfl
  have ld : st.data.length = sizeAt data d := by rw [hda]; exact slice_ne_nil (by omega)
  have key : (∃ h' d' fs c, Accepted data h' d' fs c ∧
        w = ⟨slice data (h' + 16) fs, c, (List.range c).map fun i => slice data (d' + 12 + i * fs) fs⟩) ↔
      (st.prime ≠ [] ∧ st.data ≠ [] ∧ st.data.length = st.nWitness * st.prime.length ∧
        w = ⟨st.prime, st.nWitness, (List.range st.nWitness).map fun i => slice data (d + 12 + i * st.prime.length) st.prime.length⟩) := by
    constructor
    · rintro ⟨h', d', fs, c, ⟨n, ⟨-, -, -, rfl⟩, -, k1, k2, rfl, rfl, k5, k6, k7⟩, hw⟩
      obtain rfl := last_unique hl k1
      obtain rfl := last_unique dl k2
      refine ⟨fun e => ?_, fun e => ?_, by rw [ld, lp, hnw]; exact k7, by rw [hw, hnw, lp, hpr]⟩
      · rw [e] at lp; exact k5 lp.symm
      · rw [e] at ld; exact k6 ld.symm
    · rintro ⟨k1, k2, k3, hw⟩
      refine ⟨h, d, _, _, ⟨_, ⟨hp.1, hp.2.1, hp.2.2, rfl⟩, ⟨e, g1⟩, hl, dl, rfl, rfl, fun e => ?_, fun e => ?_, ?_⟩, by rw [hw, hnw, lp, hpr]⟩
      · exact k1 (List.length_eq_zero_iff.1 (by omega))
      · exact k2 (List.length_eq_zero_iff.1 (by omega))
      · rw [← ld, k3, lp, hnw]
  rw [key]
  unfold cliWtnsFinish
  by_cases c1 : st.prime = []
  · rw [if_pos c1]; simp [c1, Res.fail]
  by_cases c2 : st.data = []
  · rw [if_neg c1, if_pos c2]; simp [c2, Res.fail]
  by_cases c3 : st.data.length = st.nWitness * st.prime.length
  swap
  · rw [if_neg c1, if_neg c2, if_pos c3]; simp [c3, Res.fail]
  rw [if_neg c1, if_neg c2, if_neg (not_not.2 c3), Res.pure_eq]
  have hmap : ((List.range st.nWitness).map fun i => slice st.data (i * st.prime.length) st.prime.length) =
      (List.range st.nWitness).map fun i => slice data (d + 12 + i * st.prime.length) st.prime.length := by
    refine List.map_congr_left fun i hi => ?_
    rw [List.mem_range] at hi
    have hle : i * st.prime.length + st.prime.length ≤ sizeAt data d := by
      rw [← ld, c3, ← Nat.succ_mul]
      exact Nat.mul_le_mul_right _ hi
    rw [hda]
    unfold slice
    rw [List.drop_take, List.take_take, List.drop_drop, Nat.min_eq_left (by omega)]
  rw [hmap]
  simp only [Except.ok.injEq, c1, c2, c3, ne_eq, not_false_eq_true, true_and]
  exact eq_comm

/-- Two headers and two data sections, field size 2: the last header announces one value, the last data section holds it. -/
def lastOnesFile : Bytes :=
  [119, 116, 110, 115] ++ (u32le 2 ++ (u32le 4 ++ (u32le 1 ++ (u64le 8 ++ (u32le 2 ++ ([5, 0] ++ (u32le 9 ++
    (u32le 2 ++ (u64le 2 ++ ([8, 0] ++ (u32le 1 ++ (u64le 8 ++ (u32le 2 ++ ([3, 0] ++ (u32le 1 ++ (u32le 2 ++ (u64le 2 ++ [7, 0])))))))))))))))))

example : cliParseWtns lastOnesFile = .ok ⟨[3, 0], 1, [[7, 0]]⟩ := by decide

example : Accepted lastOnesFile 48 70 2 1 := by
  have s0 : SectionAt lastOnesFile 0 12 := .first
  have s1 : SectionAt lastOnesFile 1 34 := SectionAt.header s0 (by decide) (by decide)
  have s2 : SectionAt lastOnesFile 2 48 := SectionAt.other s1 (by decide) (by decide) (by decide)
  have s3 : SectionAt lastOnesFile 3 70 := SectionAt.header s2 (by decide) (by decide)
  have s4 : SectionAt lastOnesFile 4 84 := SectionAt.other s3 (by decide) (by decide) (by decide)
  refine ⟨4, ⟨by decide, by decide, by decide, by decide⟩, ⟨84, s4⟩, ⟨2, by decide, s2, by decide, ?_⟩, ⟨3, by decide, s3, by decide, ?_⟩, by decide, by decide,
    by decide, by decide, by decide⟩
  · intro i h1 h2 q hq
    obtain rfl : i = 3 := by omega
    obtain rfl := wtnsSectionAt_unique s3 hq
    decide
  · intro i h1 h2
    omega

end Zkenc.Props
