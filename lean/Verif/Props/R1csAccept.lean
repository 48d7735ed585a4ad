import Verif.Spec.R1csAccept
import Verif.Props.R1csParse
import Verif.Proofs.WtnsParse
/-!
# C21, C24: exactly which circuit files the CLI accepts
-/

namespace Zkenc

/-- Whatever `p` accepts from a position inside the array is valid and stands there in its encoding. -/
def PP.Inv {α : Type} (p : Bytes → PP α) (enc : α → Bytes) (valid : α → Prop) : Prop :=
  ∀ data pos a pos', pos ≤ data.length → p data pos = .ok (a, pos') → valid a ∧ At data pos (enc a) ∧ pos' = pos + (enc a).length

theorem res_bind_iff {α β : Type} {x : Res α} {f : α → Res β} {b : β} : (x >>= f) = .ok b ↔ ∃ a, x = .ok a ∧ f a = .ok b := by
  cases x with
  | error e => simp [Res.error_bind]
  | ok a => simp [Res.ok_bind]

theorem At.le {data : Bytes} {pos : Nat} {e : Bytes} (h : At data pos e) : pos + e.length ≤ data.length := h.1

theorem at_iff_prefix {data : Bytes} {pos : Nat} {e : Bytes} (h : pos ≤ data.length) : At data pos e ↔ e <+: data.drop pos := by
  unfold At slice
  rw [List.prefix_iff_eq_take]
  constructor
  · rintro ⟨-, h2⟩; exact h2.symm
  · intro h2
    refine ⟨?_, h2.symm⟩
    have := congrArg List.length h2
    rw [List.length_take, List.length_drop] at this
    omega

theorem PP.Inv.many {α : Type} {p : Bytes → PP α} {enc : α → Bytes} {valid : α → Prop} (h : PP.Inv p enc valid) (n : Nat) :
    PP.Inv (fun d => PP.many (p d) n) (fun as => (as.map enc).flatten) (fun as => as.length = n ∧ ∀ a ∈ as, valid a) := by
  induction n with
  | zero =>
    intro data pos a pos' hle ha
    simp only [PP.many, PP.pure, Except.ok.injEq, Prod.mk.injEq] at ha
    obtain ⟨rfl, rfl⟩ := ha
    exact ⟨⟨rfl, by simp⟩, by simpa using At.nil hle, by simp⟩
  | succ n ih =>
    intro data pos as pos' hle ha
    simp only [PP.many] at ha
    obtain ⟨x, p1, h1, ha⟩ := PP.bind_ok.1 ha
    obtain ⟨xs, p2, h2, ha⟩ := PP.bind_ok.1 ha
    simp only [PP.pure, Except.ok.injEq, Prod.mk.injEq] at ha
    obtain ⟨rfl, rfl⟩ := ha
    obtain ⟨v1, a1, rfl⟩ := h data pos x p1 hle h1
    obtain ⟨⟨v2, v3⟩, a2, rfl⟩ := ih data _ xs p2 a1.le h2
    simp only [List.map_cons, List.flatten_cons]
    refine ⟨⟨by simp [v2], by simp [v1]; exact v3⟩, At.append.2 ⟨a1, a2⟩, by rw [List.length_append]; omega⟩

theorem cliRead_inv (n : Nat) : PP.Inv (fun d => cliRead d n) id (fun b => b.length = n) := by
  intro data pos a pos' hle h
  simp only [cliRead] at h
  split at h
  · rename_i hc
    simp only [Except.ok.injEq, Prod.mk.injEq] at h
    obtain ⟨rfl, rfl⟩ := h
    have hl := slice_length (data := data) (pos := pos) (n := n) (by omega)
    simp only [id]
    exact ⟨hl, ⟨by omega, by rw [hl]⟩, by rw [hl]⟩
  · simp [Res.fail] at h

theorem cliU32_inv : PP.Inv cliU32 u32le (fun v => v < 2 ^ 32) := by
  intro data pos a pos' hle h
  obtain ⟨h1, rfl, rfl⟩ := cliU32_ok h
  have hl := slice_length (data := data) (pos := pos) (n := 4) h1
  have hb : u32le (leNat (slice data pos 4)) = slice data pos 4 := by
    have := leBytes_leNat (slice data pos 4)
    rw [hl] at this
    exact this
  refine ⟨?_, ?_, by simp⟩
  · have := leNat_lt (slice data pos 4)
    rw [hl] at this
    exact lt_of_lt_of_eq this (by norm_num)
  · rw [hb]; exact ⟨by rw [hl]; exact h1, by rw [hl]⟩

theorem cliU64_inv : PP.Inv cliU64 u64le (fun v => v < 2 ^ 64) := by
  intro data pos a pos' hle h
  obtain ⟨h1, rfl, rfl⟩ := cliU64_ok h
  have hl := slice_length (data := data) (pos := pos) (n := 8) h1
  have hb : u64le (leNat (slice data pos 8)) = slice data pos 8 := by
    have := leBytes_leNat (slice data pos 8)
    rw [hl] at this
    exact this
  refine ⟨?_, ?_, by simp⟩
  · have := leNat_lt (slice data pos 8)
    rw [hl] at this
    exact lt_of_lt_of_eq this (by norm_num)
  · rw [hb]; exact ⟨by rw [hl]; exact h1, by rw [hl]⟩

open R1csFormat

theorem cliFactor_inv (fs : Nat) : PP.Inv (fun d => cliFactor d fs) (fun x => u32le x.1 ++ x.2) (fun x => x.1 < 2 ^ 32 ∧ x.2.length = fs) := by
  intro data pos a pos' hle h
  obtain ⟨w, p1, h1, h⟩ := PP.bind_ok.1 h
  obtain ⟨v, p2, h2, h⟩ := PP.bind_ok.1 h
  simp only [PP.pure, Except.ok.injEq, Prod.mk.injEq] at h
  obtain ⟨rfl, rfl⟩ := h
  obtain ⟨v1, a1, rfl⟩ := cliU32_inv data pos _ _ hle h1
  obtain ⟨v2, a2, rfl⟩ := cliRead_inv fs data _ _ _ a1.le h2
  exact ⟨⟨v1, v2⟩, At.append.2 ⟨a1, a2⟩, by rw [List.length_append]; simp only [id]; omega⟩

theorem cliParseLc_inv (fs : Nat) : PP.Inv (fun d => cliParseLc d fs) lcBytes (LcOk fs) := by
  intro data pos a pos' hle h
  obtain ⟨n, p1, h1, h⟩ := PP.bind_ok.1 h
  obtain ⟨v1, a1, rfl⟩ := cliU32_inv data pos _ _ hle h1
  obtain ⟨⟨rfl, v3⟩, a2, rfl⟩ := (cliFactor_inv fs).many n data _ _ _ a1.le h
  refine ⟨⟨v1, v3⟩, At.append.2 ⟨a1, a2⟩, ?_⟩
  unfold lcBytes
  rw [List.length_append]
  exact Nat.add_assoc _ _ _

theorem cliCstr_inv (fs : Nat) : PP.Inv (fun d => cliCstr d fs) cstrBytes (fun c => LcOk fs c.a ∧ LcOk fs c.b ∧ LcOk fs c.c) := by
  intro data pos a pos' hle h
  obtain ⟨x, p1, h1, h⟩ := PP.bind_ok.1 h
  obtain ⟨y, p2, h2, h⟩ := PP.bind_ok.1 h
  obtain ⟨z, p3, h3, h⟩ := PP.bind_ok.1 h
  simp only [PP.pure, Except.ok.injEq, Prod.mk.injEq] at h
  obtain ⟨rfl, rfl⟩ := h
  obtain ⟨v1, a1, rfl⟩ := cliParseLc_inv fs data pos _ _ hle h1
  obtain ⟨v2, a2, rfl⟩ := cliParseLc_inv fs data _ _ _ a1.le h2
  obtain ⟨v3, a3, rfl⟩ := cliParseLc_inv fs data _ _ _ a2.le h3
  refine ⟨⟨v1, v2, v3⟩, At.append.2 ⟨a1, At.append.2 ⟨a2, a3⟩⟩, ?_⟩
  unfold cstrBytes
  rw [List.length_append, List.length_append]
  simp only
  omega

/-- The header block: what is read stands there. -/
theorem cliHeader_inv {data : Bytes} {pos pos' : Nat} {h : CliHeader} (hle : pos ≤ data.length) (hh : cliHeader data pos = .ok (h, pos')) :
    (h.fieldSize < 2 ^ 32 ∧ h.prime.length = h.fieldSize ∧ h.nWires < 2 ^ 32 ∧ h.nPubOut < 2 ^ 32 ∧ h.nPubIn < 2 ^ 32 ∧ h.nPrvIn < 2 ^ 32 ∧
      h.nLabels < 2 ^ 64 ∧ h.nConstraints < 2 ^ 32) ∧
    ∀ cs ls, At data pos (headerBytes ⟨h.fieldSize, h.prime, h.nWires, h.nPubOut, h.nPubIn, h.nPrvIn, h.nLabels, h.nConstraints, cs, ls⟩) := by
  unfold cliHeader at hh
  obtain ⟨fs, p1, h1, hh⟩ := PP.bind_ok.1 hh
  obtain ⟨pr, p2, h2, hh⟩ := PP.bind_ok.1 hh
  obtain ⟨nw, p3, h3, hh⟩ := PP.bind_ok.1 hh
  obtain ⟨no, p4, h4, hh⟩ := PP.bind_ok.1 hh
  obtain ⟨ni, p5, h5, hh⟩ := PP.bind_ok.1 hh
  obtain ⟨np, p6, h6, hh⟩ := PP.bind_ok.1 hh
  obtain ⟨nl, p7, h7, hh⟩ := PP.bind_ok.1 hh
  obtain ⟨nc, p8, h8, hh⟩ := PP.bind_ok.1 hh
  simp only [PP.pure, Except.ok.injEq, Prod.mk.injEq] at hh
  obtain ⟨rfl, -⟩ := hh
  obtain ⟨v1, a1, rfl⟩ := cliU32_inv data pos _ _ hle h1
  obtain ⟨v2, a2, rfl⟩ := cliRead_inv fs data _ _ _ a1.le h2
  obtain ⟨v3, a3, rfl⟩ := cliU32_inv data _ _ _ a2.le h3
  obtain ⟨v4, a4, rfl⟩ := cliU32_inv data _ _ _ a3.le h4
  obtain ⟨v5, a5, rfl⟩ := cliU32_inv data _ _ _ a4.le h5
  obtain ⟨v6, a6, rfl⟩ := cliU32_inv data _ _ _ a5.le h6
  obtain ⟨v7, a7, rfl⟩ := cliU64_inv data _ _ _ a6.le h7
  obtain ⟨v8, a8, rfl⟩ := cliU32_inv data _ _ _ a7.le h8
  exact ⟨⟨v1, v2, v3, v4, v5, v6, v7, v8⟩, fun cs ls => At.append.2 ⟨a1, At.append.2 ⟨a2, At.append.2 ⟨a3, At.append.2 ⟨a4, At.append.2 ⟨a5, At.append.2 ⟨a6,
    At.append.2 ⟨a7, a8⟩⟩⟩⟩⟩⟩⟩⟩

end Zkenc

namespace Zkenc.Props

open Zkenc R1csFormat

theorem sectionAtSeek_unique {lim : Nat} {data : Bytes} {k q q' : Nat} (h : SectionAtSeek lim data k q) (h' : SectionAtSeek lim data k q') : q = q' := by
  induction h generalizing q' with
  | first => cases h'; rfl
  | forward _ _ hs _ ih =>
    cases h' with
    | forward h1 _ _ _ => rw [ih h1]
    | backward h1 _ hs' _ _ => rw [ih h1] at hs; omega
  | backward _ _ hs _ _ ih =>
    cases h' with
    | forward h1 _ hs' _ => rw [ih h1] at hs; omega
    | backward h1 _ _ _ _ => rw [ih h1]

theorem sectionAtSeek_before {lim : Nat} {data : Bytes} {k e : Nat} (h : SectionAtSeek lim data (k + 1) e) :
    ∃ q, SectionAtSeek lim data k q ∧ q + 12 ≤ data.length := by
  cases h with
  | forward h h' _ _ => exact ⟨_, h, h'⟩
  | backward h h' _ _ _ => exact ⟨_, h, h'⟩

theorem seekRel_forward {lim z p e : Nat} (h3 : z < 2 ^ 63) : cliSeekRel lim z p = .ok ((), e) ↔ p + z ≤ lim ∧ e = p + z := by
  unfold cliSeekRel
  rw [if_pos h3]
  dsimp only
  split
  · rename_i h
    constructor
    · intro h; simp [Res.fail] at h
    · rintro ⟨h4, rfl⟩; omega
  · rename_i h
    constructor
    · intro h'
      injection h' with h'
      injection h' with _ h'
      omega
    · rintro ⟨h4, rfl⟩
      congr 2

theorem seekRel_backward' {lim z p e : Nat} : (2 ^ 63 ≤ z ∧ cliSeekRel lim z p = .ok ((), e)) ↔
    2 ^ 63 ≤ z ∧ 2 ^ 64 ≤ p + z ∧ p + z - 2 ^ 64 ≤ lim ∧ e = p + z - 2 ^ 64 := by
  refine and_congr_right fun h3 => ?_
  unfold cliSeekRel
  rw [if_neg (show ¬ z < 2 ^ 63 by omega)]
  dsimp only
  split
  · rename_i h
    constructor
    · intro h; simp [Res.fail] at h
    · rintro ⟨h4, h5, he⟩; exfalso; omega
  · rename_i h
    constructor
    · intro h'
      injection h' with h'
      injection h' with _ h'
      omega
    · rintro ⟨h4, h5, he⟩
      have ht : ((p : Int) + ((z : Int) - 2 ^ 64)).toNat = e := by omega
      rw [ht]

/-- One section, exactly. -/
theorem cliSection_iff {lim : Nat} {data : Bytes} {k pos e : Nat} {s : Nat × Nat × Nat} (hat : SectionAtSeek lim data k pos) :
    cliSection lim data pos = .ok (s, e) ↔
      SectionAtSeek lim data (k + 1) e ∧ s = (at32 data pos, leNat (slice data (pos + 4) 8), pos + 12) := by
  have hno : SectionAtSeek lim data (k + 1) e → pos + 12 ≤ data.length := by
    intro h
    obtain ⟨q, h1, h2⟩ := sectionAtSeek_before h
    obtain rfl := sectionAtSeek_unique hat h1
    exact h2
  by_cases h12 : pos + 12 ≤ data.length
  swap
  · constructor
    · intro h
      obtain ⟨t, p1, h1, h⟩ := PP.bind_ok.1 h
      obtain ⟨z, p2, h2, h⟩ := PP.bind_ok.1 h
      obtain ⟨-, -, rfl⟩ := cliU32_ok h1
      obtain ⟨g, -, -⟩ := cliU64_ok h2
      omega
    · intro h; exact absurd (hno h.1) h12
  have e12 : pos + 4 + 8 = pos + 12 := by omega
  have e1 : cliU32 data pos = .ok (at32 data pos, pos + 4) := by
    exact cliU32_inside (by omega)
  have e2 : cliU64 data (pos + 4) = .ok (leNat (slice data (pos + 4) 8), pos + 12) := by
    rw [← e12]; exact cliU64_inside (by omega)
  unfold cliSection
  rw [PP.bind_of_ok e1, PP.bind_of_ok e2, PP.bind_of_ok (p := PP.here) (rfl : PP.here (pos + 12) = .ok (pos + 12, pos + 12))]
  have hsec : SectionAtSeek lim data (k + 1) e ↔ cliSeekRel lim (leNat (slice data (pos + 4) 8)) (pos + 12) = .ok ((), e) := by
    have hz := leNat_lt (slice data (pos + 4) 8)
    rw [slice_length (by omega)] at hz
    have hz' : leNat (slice data (pos + 4) 8) < 2 ^ 64 := lt_of_lt_of_eq hz (by norm_num)
    constructor
    · intro h
      cases h with
      | forward h1 _ h3 h4 =>
        obtain rfl := sectionAtSeek_unique hat h1
        exact (seekRel_forward h3).2 ⟨h4, rfl⟩
      | backward h1 _ h3 h4 h5 =>
        obtain rfl := sectionAtSeek_unique hat h1
        exact (seekRel_backward'.2 ⟨h3, h4, h5, by generalize (2 : Nat) ^ 64 = m; trivial⟩).2
    · intro h
      by_cases h3 : leNat (slice data (pos + 4) 8) < 2 ^ 63
      · obtain ⟨h4, rfl⟩ := (seekRel_forward h3).1 h
        exact SectionAtSeek.forward hat h12 h3 h4
      · obtain ⟨-, h4, h5, he⟩ := seekRel_backward'.1 ⟨by omega, h⟩
        rw [he]
        exact SectionAtSeek.backward hat h12 (by omega) h4 h5
  rw [hsec]
  constructor
  · intro h
    obtain ⟨u, p1, h1, h⟩ := PP.bind_ok.1 h
    simp only [PP.pure, Except.ok.injEq, Prod.mk.injEq] at h
    obtain ⟨rfl, rfl⟩ := h
    exact ⟨h1, rfl⟩
  · rintro ⟨h1, rfl⟩
    rw [PP.bind_of_ok h1]
    rfl

theorem seekSections_list {lim : Nat} {data : Bytes} {n k pos e : Nat} (hat : SectionAtSeek lim data k pos) {secs : List (Nat × Nat × Nat)}
    (h : PP.many (cliSection lim data) n pos = .ok (secs, e)) :
    SectionAtSeek lim data (k + n) e ∧ secs.length = n ∧ ∀ i < n, ∃ q l, SectionAtSeek lim data (k + i) q ∧ q + 12 ≤ data.length ∧
      secs[i]? = some (at32 data q, l, q + 12) := by
  induction n generalizing k pos secs e with
  | zero =>
    simp only [PP.many, PP.pure, Except.ok.injEq, Prod.mk.injEq] at h
    obtain ⟨rfl, rfl⟩ := h
    exact ⟨hat, rfl, fun i hi => absurd hi (by omega)⟩
  | succ n ih =>
    simp only [PP.many] at h
    obtain ⟨s, p1, h1, h⟩ := PP.bind_ok.1 h
    obtain ⟨ss, p2, h2, h⟩ := PP.bind_ok.1 h
    simp only [PP.pure, Except.ok.injEq, Prod.mk.injEq] at h
    obtain ⟨rfl, rfl⟩ := h
    obtain ⟨f1, rfl⟩ := (cliSection_iff hat).1 h1
    obtain ⟨i0, i1, i2⟩ := ih f1 h2
    refine ⟨by rw [show k + (n + 1) = k + 1 + n by omega]; exact i0, by rw [List.length_cons, i1], fun i hi => ?_⟩
    cases i with
    | zero =>
      obtain ⟨q, g1, g2⟩ := sectionAtSeek_before f1
      obtain rfl := sectionAtSeek_unique hat g1
      exact ⟨pos, _, hat, g2, by rw [List.getElem?_cons_zero]⟩
    | succ i =>
      obtain ⟨q, l, g1, g2, g3⟩ := i2 i (by omega)
      exact ⟨q, l, by rw [show k + (i + 1) = k + 1 + i by omega]; exact g1, g2, by rw [List.getElem?_cons_succ]; exact g3⟩

theorem sectionAtSeek_le {lim : Nat} {data : Bytes} {k n e : Nat} (hk : k ≤ n) (h : SectionAtSeek lim data n e) : ∃ q, SectionAtSeek lim data k q := by
  induction n generalizing e with
  | zero => obtain rfl : k = 0 := by omega
            exact ⟨_, h⟩
  | succ n ih =>
    rcases Nat.lt_or_ge k (n + 1) with hlt | hge
    · obtain ⟨q, hq, -⟩ := sectionAtSeek_before h
      exact ih (by omega) hq
    · obtain rfl : k = n + 1 := by omega
      exact ⟨_, h⟩

theorem seekSections_through {lim : Nat} {data : Bytes} {n k pos e : Nat} (hat : SectionAtSeek lim data k pos) (h : SectionAtSeek lim data (k + n) e) :
    ∃ r, PP.many (cliSection lim data) n pos = .ok r := by
  induction n generalizing k pos with
  | zero => exact ⟨_, rfl⟩
  | succ n ih =>
    obtain ⟨q, hq⟩ := sectionAtSeek_le (show k + 1 ≤ k + (n + 1) by omega) h
    obtain ⟨r, hr⟩ := ih hq (by rw [show k + 1 + n = k + (n + 1) by omega]; exact h)
    simp only [PP.many]
    rw [PP.bind_of_ok ((cliSection_iff hat).2 ⟨hq, rfl⟩), PP.bind_of_ok hr]
    exact ⟨_, rfl⟩

theorem find_firstBySeek {lim : Nat} {data : Bytes} {secs : List (Nat × Nat × Nat)} {e : Nat}
    (h : PP.many (cliSection lim data) (at32 data 8) 12 = .ok (secs, e)) (ty q : Nat) :
    FirstBySeek lim data ty q ↔ ∃ s, findSection ty secs = some s ∧ s.2.2 = q + 12 := by
  obtain ⟨-, hl, hi⟩ := seekSections_list SectionAtSeek.first h
  simp only [Nat.zero_add] at hi
  constructor
  · rintro ⟨j, hj, h1, h2, h3⟩
    obtain ⟨q', l, g1, g2, g3⟩ := hi j hj
    obtain rfl := sectionAtSeek_unique h1 g1
    refine ⟨(ty, l, q + 12), ?_, rfl⟩
    · unfold findSection
      rw [List.find?_eq_some_iff_getElem]
      obtain ⟨gl, g3⟩ := List.getElem?_eq_some_iff.1 g3
      refine ⟨by simp, j, gl, by rw [g3, h2], fun i hij => ?_⟩
      obtain ⟨q', l', k1, k2, k3⟩ := hi i (by omega)
      obtain ⟨kl, k3⟩ := List.getElem?_eq_some_iff.1 k3
      rw [k3]
      simpa using h3 i hij q' k1
  · rintro ⟨s, hs, hq⟩
    unfold findSection at hs
    rw [List.find?_eq_some_iff_getElem] at hs
    obtain ⟨ht, j, hj, he, hb⟩ := hs
    obtain ⟨q', l, g1, g2, g3⟩ := hi j (by omega)
    rw [List.getElem?_eq_getElem hj, he] at g3
    cases g3
    have hqq : q' = q := by simpa using hq
    subst hqq
    refine ⟨j, by omega, g1, by simpa using ht, fun i hij q₂ hat => ?_⟩
    obtain ⟨q₃, l', k1, k2, k3⟩ := hi i (by omega)
    obtain rfl := sectionAtSeek_unique hat k1
    have := hb i hij
    obtain ⟨kl, k3⟩ := List.getElem?_eq_some_iff.1 k3
    rw [k3] at this
    simpa using this

theorem firstBySeek_inside {lim : Nat} {data : Bytes} {ty q e : Nat} (he : SectionAtSeek lim data (at32 data 8) e) (h : FirstBySeek lim data ty q) :
    q + 12 ≤ data.length := by
  obtain ⟨j, hj, h1, -⟩ := h
  obtain ⟨q', hq'⟩ := sectionAtSeek_le (show j + 1 ≤ at32 data 8 by omega) he
  obtain ⟨q'', g1, g2⟩ := sectionAtSeek_before hq'
  obtain rfl := sectionAtSeek_unique h1 g1
  exact g2

/-- **C24/C21** (exactly) — the circuit files which the CLI accepts, well-formed or not, and what it takes from them: all section headers announced can be reached, and the first
sections of the types 1, 2 and 3 begin with the bytes which the format prescribes for the result (declared sizes serve only to find the next section). -/
theorem C24_r1cs_accepts (lim : Nat) (data : Bytes) (r : R1csFile) :
    cliParseR1cs lim data = .ok r ↔
      Preamble data ∧ (∃ e, SectionAtSeek lim data (at32 data 8) e) ∧ Fits r ∧ DescribesBySeek lim data r := by
  constructor
  · intro h
    unfold cliParseR1cs at h
    obtain ⟨⟨magic, p1⟩, h1, h⟩ := res_bind_iff.1 h
    simp only at h
    obtain ⟨m1, m2⟩ := cliRead_ok (by decide) h1
    cases m2
    split at h
    · simp [Res.fail] at h
    rename_i hmag
    obtain ⟨⟨version, p2⟩, h2, h⟩ := res_bind_iff.1 h
    simp only at h
    obtain ⟨v1, rfl, rfl⟩ := cliU32_ok h2
    split at h
    · simp [Res.fail] at h
    rename_i hver
    obtain ⟨⟨nSections, p3⟩, h3, h⟩ := res_bind_iff.1 h
    simp only at h
    obtain ⟨w1, rfl, rfl⟩ := cliU32_ok h3
    obtain ⟨⟨secs, e⟩, h4, h⟩ := res_bind_iff.1 h
    simp only at h
    have h4' : PP.many (cliSection lim data) (at32 data 8) 12 = .ok (secs, e) := h4
    obtain ⟨s1, s2, s3⟩ := seekSections_list SectionAtSeek.first h4'
    rw [Nat.zero_add] at s1
    have hsec : ∀ {ty s}, findSection ty secs = some s → ∃ q, FirstBySeek lim data ty q ∧ s.2.2 = q + 12 := by
      intro ty s hs
      have hs' := hs
      unfold findSection at hs'
      rw [List.find?_eq_some_iff_getElem] at hs'
      obtain ⟨ht, j, hj, he, hb⟩ := hs'
      obtain ⟨q, l, g1, g2, g3⟩ := s3 j (by omega)
      rw [List.getElem?_eq_getElem hj, he] at g3
      cases g3
      exact ⟨q, (find_firstBySeek h4' ty q).2 ⟨_, hs, rfl⟩, rfl⟩
    obtain ⟨hs, h5, h⟩ := res_bind_iff.1 h
    obtain ⟨⟨hd, p6⟩, h6, h⟩ := res_bind_iff.1 h
    simp only at h
    obtain ⟨cs, h7, h⟩ := res_bind_iff.1 h
    obtain ⟨⟨constraints, p8⟩, h8, h⟩ := res_bind_iff.1 h
    simp only at h
    obtain ⟨labels, h9, h⟩ := res_bind_iff.1 h
    have of : ∀ {α : Type} {o : Option α} {m : String} {x : α}, Res.ofOption o m = .ok x → o = some x := by
      intro α o m x hx
      cases o with
      | none => simp [Res.ofOption, Res.fail] at hx
      | some y => simp only [Res.ofOption, Except.ok.injEq] at hx; rw [hx]
    obtain ⟨q1, f1, e1⟩ := hsec (of h5)
    obtain ⟨q2, f2, e2⟩ := hsec (of h7)
    rw [e1] at h6
    rw [e2] at h8
    have i1 := firstBySeek_inside s1 f1
    have i2 := firstBySeek_inside s1 f2
    obtain ⟨⟨b1, b2, b3, b4, b5, b6, b7, b8⟩, a1⟩ := cliHeader_inv i1 h6
    obtain ⟨⟨c1, c2⟩, a2, -⟩ := (cliCstr_inv hd.fieldSize).many _ data _ _ _ i2 h8
    have hl : (labels.length = hd.nWires ∧ ∀ l ∈ labels, l < 2 ^ 64) ∧
        ((∃ q, FirstBySeek lim data 3 q ∧ (labels.map u64le).flatten <+: data.drop (q + 12)) ∨
          ((∀ q, ¬ FirstBySeek lim data 3 q) ∧ labels = List.range hd.nWires)) := by
      unfold cliLabels at h9
      cases hf : findSection 3 secs with
      | none =>
        rw [hf] at h9
        have h9' : (Except.ok (List.range hd.nWires) : Res (List Nat)) = .ok labels := h9
        cases h9'
        refine ⟨⟨by simp, fun l hl => ?_⟩, .inr ⟨fun q hq => ?_, rfl⟩⟩
        · rw [List.mem_range] at hl; omega
        · obtain ⟨s, g, -⟩ := (find_firstBySeek h4' 3 q).1 hq
          rw [hf] at g
          cases g
      | some ws =>
        rw [hf] at h9
        obtain ⟨⟨l, p⟩, g1, g2⟩ := res_bind_iff.1 h9
        have g2' : (Except.ok l : Res (List Nat)) = .ok labels := g2
        cases g2'
        obtain ⟨q3, f3, e3⟩ := hsec hf
        rw [e3] at g1
        have i3 := firstBySeek_inside s1 f3
        obtain ⟨⟨d1, d2⟩, a3, -⟩ := cliU64_inv.many _ data _ _ _ i3 g1
        exact ⟨⟨d1, d2⟩, .inl ⟨q3, f3, (at_iff_prefix i3).1 a3⟩⟩
    have h' : (Except.ok _ : Res R1csFile) = .ok r := h
    cases h'
    refine ⟨⟨by omega, ?_, ?_⟩, ⟨e, s1⟩, ⟨b1, b2, b3, b4, b5, b6, b7, b8, c1, c2, hl.1.1, hl.1.2⟩,
      ⟨⟨q1, f1, (at_iff_prefix i1).1 (a1 _ _)⟩, ⟨q2, f2, (at_iff_prefix i2).1 a2⟩, hl.2⟩⟩
    · simpa [slice] using hmag
    · have hv : leNat (slice data 4 4) = 1 := by simpa using hver
      exact hv
  · rintro ⟨⟨p1, p2, p3⟩, ⟨e, he⟩, hf, ⟨q1, f1, d1⟩, ⟨q2, f2, d2⟩, d3⟩
    obtain ⟨⟨secs, e'⟩, hs⟩ := seekSections_through SectionAtSeek.first (by rw [Nat.zero_add]; exact he)
    have i1 := firstBySeek_inside he f1
    have i2 := firstBySeek_inside he f2
    obtain ⟨s1, g1, g1'⟩ := (find_firstBySeek hs 1 q1).1 f1
    obtain ⟨s2, g2, g2'⟩ := (find_firstBySeek hs 2 q2).1 f2
    have r1 := cliHeader_reads hf data _ ((at_iff_prefix i1).2 d1)
    have r2 := cliConstraints_reads hf data _ ((at_iff_prefix i2).2 d2)
    simp only at r2
    have e0 : cliRead data 4 0 = .ok ([114, 49, 99, 115], 4) := by
      unfold cliRead
      rw [if_pos (by omega)]
      congr 2
    have e1 : cliU32 data 4 = .ok (1, 8) := by
      have p3' : leNat (slice data 4 4) = 1 := p3
      rw [← p3']
      exact cliU32_inside (by omega)
    have e2 : cliU32 data 8 = .ok (at32 data 8, 12) := by
      exact cliU32_inside (by omega)
    have hlab : cliLabels data secs r.nWires = .ok r.wire2label := by
      unfold cliLabels
      rcases d3 with ⟨q3, f3, d3⟩ | ⟨d3, d4⟩
      · have i3 := firstBySeek_inside he f3
        obtain ⟨s3, g3, g3'⟩ := (find_firstBySeek hs 3 q3).1 f3
        have r3 := cliLabels_reads hf data _ ((at_iff_prefix i3).2 d3)
        simp only at r3
        rw [g3]
        simp only
        rw [g3', r3]
        rfl
      · cases hfs : findSection 3 secs with
        | none => simp only; rw [d4]; rfl
        | some s =>
          exfalso
          obtain ⟨-, hl, hi⟩ := seekSections_list SectionAtSeek.first hs
          have hs' := hfs
          unfold findSection at hs'
          rw [List.find?_eq_some_iff_getElem] at hs'
          obtain ⟨ht, j, hj, hee, hb⟩ := hs'
          obtain ⟨q, l, k1, k2, k3⟩ := hi j (by omega)
          rw [List.getElem?_eq_getElem hj, hee] at k3
          cases k3
          exact d3 q ((find_firstBySeek hs 3 q).2 ⟨_, hfs, rfl⟩)
    unfold cliParseR1cs
    rw [e0, Res.ok_bind]
    simp only [ne_eq, not_true_eq_false, if_false]
    rw [e1, Res.ok_bind]
    simp only [ne_eq, not_true_eq_false, if_false]
    rw [e2, Res.ok_bind]
    simp only
    rw [hs, Res.ok_bind, g1]
    simp only [Res.ofOption, Res.ok_bind]
    rw [g1', r1, Res.ok_bind, g2]
    simp only [Res.ok_bind, R1csFile.hdr]
    rw [g2', r2, Res.ok_bind]
    simp only
    rw [hlab, Res.ok_bind]
    rfl

/-- A circuit file without labels. -/
def backR1cs : R1csFile := { exR1cs with wire2label := [0, 1, 2] }

/-- Constraints, then a header whose announced size (negative) leads back to the constraints; three sections are announced. -/
def backFile : Bytes :=
  [114, 49, 99, 115] ++ (u32le 1 ++ (u32le 3 ++ (u32le 2 ++ (u64le (constraintsBytes backR1cs).length ++ (constraintsBytes backR1cs ++
    (u32le 1 ++ (u64le (2 ^ 64 - 24 - (constraintsBytes backR1cs).length) ++ headerBytes backR1cs)))))))

theorem backFile_accepted : cliParseR1cs (2 ^ 62) backFile = .ok backR1cs := by decide +kernel

theorem backFile_length : (constraintsBytes backR1cs).length = 36 := by decide

theorem backFile_size0 : leNat (slice backFile (12 + 4) 8) = 36 := by decide +kernel

theorem backFile_size1 : leNat (slice backFile (60 + 4) 8) = 2 ^ 64 - 60 := by decide +kernel

theorem backFile_bytes : backFile.length = 106 := by decide +kernel

theorem backFile_header : FirstBySeek (2 ^ 62) backFile 1 60 ∧ SectionAtSeek (2 ^ 62) backFile 2 12 := by
  have s1 := SectionAtSeek.forward (lim := 2 ^ 62) (data := backFile) .first (by rw [backFile_bytes]; omega) (by rw [backFile_size0]; omega)
    (by rw [backFile_size0]; omega)
  rw [backFile_size0, Nat.zero_add] at s1
  have s2 := SectionAtSeek.backward s1 (by rw [backFile_bytes]; omega) (by rw [backFile_size1]; omega) (by rw [backFile_size1]; omega)
    (by rw [backFile_size1]; omega)
  rw [backFile_size1, show 12 + 12 + 36 + 12 + (2 ^ 64 - 60) - 2 ^ 64 = 12 by omega] at s2
  refine ⟨⟨1, by decide +kernel, s1, by decide +kernel, ?_⟩, s2⟩
  intro i hi q hq
  obtain rfl : i = 0 := by omega
  obtain rfl := sectionAtSeek_unique .first hq
  decide +kernel

/-- The theorem on this file: it is accepted, and what it describes is described by no other circuit. -/
example : DescribesBySeek (2 ^ 62) backFile backR1cs ∧ ∀ r, Fits r → DescribesBySeek (2 ^ 62) backFile r → r = backR1cs := by
  obtain ⟨h1, h2, -, h4⟩ := (C24_r1cs_accepts _ _ _).1 backFile_accepted
  refine ⟨h4, fun r hf hd => ?_⟩
  have := (C24_r1cs_accepts _ _ _).2 ⟨h1, h2, hf, hd⟩
  rw [backFile_accepted] at this
  injection this with this
  exact this.symm

end Zkenc.Props
