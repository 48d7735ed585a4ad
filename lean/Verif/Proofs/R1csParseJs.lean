import Verif.Proofs.R1csParse
/-!
# Lemmas about the wasm32 `.r1cs` parser
-/

namespace Zkenc

open R1csFormat

/-! ## Simulation: a successful CLI step is a successful JS step -/

theorem read_sim {data : Bytes} (hd : data.length < 2 ^ 31) (n : Nat) : PP.Sim data id (cliRead data n) (jsRead data n) := by
  intro pos a pos' hle h
  simp only [cliRead] at h
  split at h
  · rename_i hc
    simp only [Except.ok.injEq, Prod.mk.injEq] at h
    obtain ⟨rfl, rfl⟩ := h
    have hpn : pos + n ≤ data.length := by omega
    have h1 : (pos + n) % 2 ^ 32 = pos + n := Nat.mod_eq_of_lt (by omega)
    simp only [jsRead, h1]
    rw [if_neg (by omega), if_pos hpn]
    exact ⟨rfl, hpn⟩
  · simp [Res.fail] at h

theorem u32_sim {data : Bytes} (hd : data.length < 2 ^ 31) : PP.Sim data id (cliU32 data) (jsU32 data) :=
  PP.Sim.bind (read_sim hd 4) fun b => PP.Sim.pure data id (leNat b)

theorem u64_sim {data : Bytes} (hd : data.length < 2 ^ 31) : PP.Sim data id (cliU64 data) (jsU64 data) :=
  PP.Sim.bind (read_sim hd 8) fun b => PP.Sim.pure data id (leNat b)

theorem factor_sim {data : Bytes} (hd : data.length < 2 ^ 31) (fs : Nat) :
    PP.Sim data id (cliFactor data fs) (jsFactor data fs) :=
  PP.Sim.bind (u32_sim hd) fun w => PP.Sim.bind (read_sim hd fs) fun v => PP.Sim.pure data id (w, v)

theorem lc_sim {data : Bytes} (hd : data.length < 2 ^ 31) (fs : Nat) : PP.Sim data id (cliParseLc data fs) (jsParseLc data fs) :=
  PP.Sim.bind (u32_sim hd) fun n => PP.Sim.many (factor_sim hd fs) n

theorem cstr_sim {data : Bytes} (hd : data.length < 2 ^ 31) (fs : Nat) : PP.Sim data id (cliCstr data fs) (jsCstr data fs) :=
  PP.Sim.bind (lc_sim hd fs) fun a => PP.Sim.bind (lc_sim hd fs) fun b => PP.Sim.bind (lc_sim hd fs) fun c =>
    PP.Sim.pure data id (⟨a, b, c⟩ : FileCstr)

theorem skip_sim {data : Bytes} (hd : data.length < 2 ^ 31) (n : Nat) :
    PP.Sim data (fun _ => ()) (cliRead data n) (jsSkip data n) := by
  intro pos a pos' hle h
  simp only [cliRead] at h
  split at h
  · rename_i hc
    simp only [Except.ok.injEq, Prod.mk.injEq] at h
    obtain ⟨rfl, rfl⟩ := h
    have hpn : pos + n ≤ data.length := by omega
    have h1 : (pos + n) % 2 ^ 32 = pos + n := Nat.mod_eq_of_lt (by omega)
    simp only [jsSkip, h1]
    rw [if_neg (by omega)]
    exact ⟨rfl, hpn⟩
  · simp [Res.fail] at h

/-- The part of the CLI header that JS keeps. -/
def CliHeader.toJs (h : CliHeader) : JsHeader := ⟨h.fieldSize, h.nWires, h.nPubOut, h.nPubIn, h.nConstraints⟩

theorem header_sim {data : Bytes} (hd : data.length < 2 ^ 31) : PP.Sim data CliHeader.toJs (cliHeader data) (jsHeader data) :=
  PP.Sim.bind (u32_sim hd) fun fs => PP.Sim.bind (skip_sim hd fs) fun p => PP.Sim.bind (u32_sim hd) fun nw =>
    PP.Sim.bind (u32_sim hd) fun no => PP.Sim.bind (u32_sim hd) fun ni => PP.Sim.bind (u32_sim hd) fun np =>
    PP.Sim.bind (u64_sim hd) fun nl => PP.Sim.bind (u32_sim hd) fun nc =>
    PP.Sim.pure data CliHeader.toJs (⟨fs, p, nw, no, ni, np, nl, nc⟩ : CliHeader)

/-- The JS section table: same types and positions, 32-bit sizes. -/
def toJsSec (s : Nat × Nat × Nat) : Nat × Nat × Nat := (s.1, s.2.1 % 2 ^ 32, s.2.2)

theorem section_sim {lim : Nat} {data : Bytes} (hd : data.length < 2 ^ 31) {pos pos' : Nat} {s : Nat × Nat × Nat}
    (h : cliSection lim data pos = .ok (s, pos')) :
    jsSection data pos = .ok (toJsSec s, pos' % 2 ^ 32) ∧ pos + 12 ≤ data.length ∧ s.2.2 = pos + 12 := by
  unfold cliSection at h
  obtain ⟨t, p1, e1, h⟩ := PP.bind_ok.1 h
  obtain ⟨sz, p2, e2, h⟩ := PP.bind_ok.1 h
  obtain ⟨st, p3, e3, h⟩ := PP.bind_ok.1 h
  obtain ⟨u, p4, e4, hfin⟩ := PP.bind_ok.1 h
  cases e3
  simp only [PP.pure, Except.ok.injEq, Prod.mk.injEq] at hfin
  obtain ⟨rfl, rfl⟩ := hfin
  obtain ⟨f1, f1', rfl⟩ := cliU32_ok e1
  obtain ⟨f2, f2', rfl⟩ := cliU64_ok e2
  have j1 := (u32_sim hd _ _ _ (by omega) e1).1
  have j2 := (u64_sim hd _ _ _ (by omega) e2).1
  have hsz : sz < 2 ^ 64 := by
    have := leNat_lt (slice data (pos + 4) 8)
    rw [slice_length f2] at this
    rw [f2']
    norm_num at this ⊢
    exact this
  refine ⟨?_, by omega, by simp⟩
  unfold jsSection
  rw [PP.bind_of_ok j1, PP.bind_of_ok j2,
    PP.bind_of_ok (p := PP.here) (rfl : PP.here (pos + 4 + 8) = .ok (pos + 4 + 8, pos + 4 + 8))]
  have hj : jsJump (id sz % 2 ^ 32) (pos + 4 + 8) = .ok ((), p4 % 2 ^ 32) := by
    simp only [jsJump, id]
    congr 2
    unfold cliSeekRel at e4
    dsimp only at e4
    generalize htg : (((pos + 4 + 8 : Nat) : Int) + (if sz < 2 ^ 63 then (sz : Int) else (sz : Int) - 2 ^ 64)) = target at e4
    split at e4
    · simp [Res.fail] at e4
    · rename_i hc
      simp only [Except.ok.injEq, Prod.mk.injEq] at e4
      have e5 := e4.2
      split at htg <;> omega
  rw [PP.bind_of_ok hj]
  rfl

theorem sections_sim {lim : Nat} {data : Bytes} (hd : data.length < 2 ^ 31) {n pos : Nat} {secs : List (Nat × Nat × Nat)} {p : Nat}
    (h : PP.many (cliSection lim data) n pos = .ok (secs, p)) :
    PP.many (jsSection data) n (pos % 2 ^ 32) = .ok (secs.map toJsSec, p % 2 ^ 32) ∧ ∀ s ∈ secs, s.2.2 ≤ data.length := by
  induction n generalizing pos secs with
  | zero =>
    simp only [PP.many, PP.pure, Except.ok.injEq, Prod.mk.injEq] at h ⊢
    obtain ⟨rfl, rfl⟩ := h
    simp
  | succ n ih =>
    simp only [PP.many] at h ⊢
    obtain ⟨s, p1, h1, h⟩ := PP.bind_ok.1 h
    obtain ⟨ss, p2, h2, h⟩ := PP.bind_ok.1 h
    simp only [PP.pure, Except.ok.injEq, Prod.mk.injEq] at h
    obtain ⟨rfl, rfl⟩ := h
    obtain ⟨g1, g2, g3⟩ := section_sim hd h1
    obtain ⟨i1, i2⟩ := ih h2
    have hmod : pos % 2 ^ 32 = pos := Nat.mod_eq_of_lt (by omega)
    rw [hmod, PP.bind_of_ok g1, PP.bind_of_ok i1]
    refine ⟨rfl, ?_⟩
    intro x hx
    simp only [List.mem_cons] at hx
    rcases hx with rfl | hx
    · omega
    · exact i2 x hx

theorem findSection_map (ty : Nat) (secs : List (Nat × Nat × Nat)) :
    findSection ty (secs.map toJsSec) = (findSection ty secs).map toJsSec := by
  induction secs with
  | nil => rfl
  | cons s secs ih =>
    simp only [findSection, List.map_cons, List.find?_cons] at ih ⊢
    have : ((toJsSec s).1 == ty) = (s.1 == ty) := rfl
    rw [this]
    cases h : s.1 == ty with
    | true => rfl
    | false => exact ih

/-! ## Robustness -/

theorem jsRead_safe {data : Bytes} {n : Nat} (hn : data.length + n < 2 ^ 32) : PP.Safe data (jsRead data n) := by
  intro pos hle
  have h1 : (pos + n) % 2 ^ 32 = pos + n := Nat.mod_eq_of_lt (by omega)
  simp only [jsRead, h1]
  constructor
  · split
    · exact Graceful.fail _
    · rw [if_pos (by omega)]; exact Graceful.ok _
  · intro a pos' h
    split at h
    · simp [Res.fail] at h
    · rw [if_pos (by omega)] at h
      simp only [Except.ok.injEq, Prod.mk.injEq] at h
      omega

theorem jsU32_safe {data : Bytes} (hd : data.length < 2 ^ 31) : PP.Safe data (jsU32 data) :=
  PP.Safe.bind (jsRead_safe (by omega)) fun _ => PP.Safe.pure data _

theorem jsU64_safe {data : Bytes} (hd : data.length < 2 ^ 31) : PP.Safe data (jsU64 data) :=
  PP.Safe.bind (jsRead_safe (by omega)) fun _ => PP.Safe.pure data _

theorem jsSkip_safe (data : Bytes) (n : Nat) : PP.Safe data (jsSkip data n) := by
  intro pos _
  simp only [jsSkip]
  constructor
  · split
    · exact Graceful.fail _
    · exact Graceful.ok _
  · intro a pos' h
    split at h
    · simp [Res.fail] at h
    · simp only [Except.ok.injEq, Prod.mk.injEq] at h
      omega

theorem jsHeader_safe {data : Bytes} (hd : data.length < 2 ^ 31) : PP.Safe data (jsHeader data) :=
  PP.Safe.bind (jsU32_safe hd) fun _ => PP.Safe.bind (jsSkip_safe data _) fun _ => PP.Safe.bind (jsU32_safe hd) fun _ =>
    PP.Safe.bind (jsU32_safe hd) fun _ => PP.Safe.bind (jsU32_safe hd) fun _ => PP.Safe.bind (jsU32_safe hd) fun _ =>
    PP.Safe.bind (jsU64_safe hd) fun _ => PP.Safe.bind (jsU32_safe hd) fun _ => PP.Safe.pure data _

theorem jsCstr_safe {data : Bytes} (hd : data.length < 2 ^ 31) {fs : Nat} (hfs : data.length + fs < 2 ^ 32) :
    PP.Safe data (jsCstr data fs) := by
  have hf : PP.Safe data (jsFactor data fs) :=
    PP.Safe.bind (jsU32_safe hd) fun _ => PP.Safe.bind (jsRead_safe hfs) fun _ => PP.Safe.pure data _
  have hl : PP.Safe data (jsParseLc data fs) := PP.Safe.bind (jsU32_safe hd) fun n => PP.Safe.many hf n
  exact PP.Safe.bind hl fun _ => PP.Safe.bind hl fun _ => PP.Safe.bind hl fun _ => PP.Safe.pure data _

theorem jsU32_ok {data : Bytes} {pos v pos' : Nat} (h : jsU32 data pos = .ok (v, pos')) :
    pos + 4 ≤ data.length ∧ v = leNat (slice data pos 4) ∧ pos' = pos + 4 := by
  obtain ⟨a, q, h1, h2⟩ := PP.bind_ok.1 h
  simp only [PP.pure, Except.ok.injEq, Prod.mk.injEq] at h2
  simp only [jsRead] at h1
  split at h1
  · simp [Res.fail] at h1
  · split at h1
    · simp only [Except.ok.injEq, Prod.mk.injEq] at h1
      obtain ⟨rfl, rfl⟩ := h1
      exact ⟨by assumption, h2.1.symm, h2.2.symm⟩
    · simp [Res.panic] at h1

theorem jsU64_ok {data : Bytes} {pos v pos' : Nat} (h : jsU64 data pos = .ok (v, pos')) :
    pos + 8 ≤ data.length ∧ v = leNat (slice data pos 8) ∧ pos' = pos + 8 := by
  obtain ⟨a, q, h1, h2⟩ := PP.bind_ok.1 h
  simp only [PP.pure, Except.ok.injEq, Prod.mk.injEq] at h2
  simp only [jsRead] at h1
  split at h1
  · simp [Res.fail] at h1
  · split at h1
    · simp only [Except.ok.injEq, Prod.mk.injEq] at h1
      obtain ⟨rfl, rfl⟩ := h1
      exact ⟨by assumption, h2.1.symm, h2.2.symm⟩
    · simp [Res.panic] at h1

theorem jsU32_graceful {data : Bytes} {pos : Nat} (hp : pos < 2 ^ 32 - 4) : Graceful (jsU32 data pos) := by
  unfold jsU32 PP.bind jsRead
  rw [Nat.mod_eq_of_lt (by omega : pos + 4 < 2 ^ 32)]
  by_cases h : data.length < pos + 4
  · rw [if_pos h]
    exact Graceful.err _
  · rw [if_neg h, if_pos (by omega)]; exact Graceful.ok _

theorem jsU32_panic {data : Bytes} (hd : data.length < 2 ^ 31) (h4 : 4 ≤ data.length) {pos : Nat} (hp : 2 ^ 32 - 4 ≤ pos)
    (hp' : pos < 2 ^ 32) : jsU32 data pos = .error .panic := by
  unfold jsU32 PP.bind jsRead
  rw [if_neg (by omega), if_neg (by omega)]
  rfl

/-- One step of the section pass. -/
theorem jsSection_ok {data : Bytes} {pos : Nat} {s : Nat × Nat × Nat} {pos' : Nat}
    (h : jsSection data pos = .ok (s, pos')) :
    pos + 12 ≤ data.length ∧ pos' = (pos + 12 + leNat (slice data (pos + 4) 8)) % 2 ^ 32 ∧
      s.1 = leNat (slice data pos 4) ∧ s.2.2 = pos + 12 := by
  unfold jsSection at h
  obtain ⟨t, p1, e1, h⟩ := PP.bind_ok.1 h
  obtain ⟨sz, p2, e2, h⟩ := PP.bind_ok.1 h
  obtain ⟨st, p3, e3, h⟩ := PP.bind_ok.1 h
  obtain ⟨u, p4, e4, hfin⟩ := PP.bind_ok.1 h
  cases e3
  simp only [jsJump, Except.ok.injEq, Prod.mk.injEq, true_and] at e4
  simp only [PP.pure, Except.ok.injEq, Prod.mk.injEq] at hfin
  obtain ⟨rfl, rfl⟩ := hfin
  obtain ⟨f1, f1', rfl⟩ := jsU32_ok e1
  obtain ⟨f2, f2', rfl⟩ := jsU64_ok e2
  refine ⟨by omega, ?_, f1', rfl⟩
  rw [← e4, f2']
  omega

theorem jsSection_graceful {data : Bytes} (hd : data.length < 2 ^ 31) {pos : Nat} (hp : pos < 2 ^ 32 - 4) :
    Graceful (jsSection data pos) := by
  unfold jsSection
  have h0 := jsU32_graceful (data := data) hp
  cases h : jsU32 data pos with
  | error e => simpa [PP.bind, h, Graceful] using h0
  | ok x =>
    obtain ⟨t, p1⟩ := x
    rw [PP.bind_of_ok h]
    obtain ⟨f1, -, rfl⟩ := jsU32_ok h
    have h1 := (jsU64_safe hd (pos + 4) (by omega)).1
    cases h' : jsU64 data (pos + 4) with
    | error e => rw [h'] at h1; simpa [PP.bind, h', Graceful] using h1
    | ok y =>
      obtain ⟨sz, p2⟩ := y
      rw [PP.bind_of_ok h']
      exact Graceful.ok _

/-- The section pass is graceful if no section header is looked for in the last four positions of the address space, and
every section it reports lies at a position reached by the walk. -/
theorem jsSections_safe {data : Bytes} (hd : data.length < 2 ^ 31) {n k pos : Nat} (hat : SectionAt32 data k pos)
    (hw : ∀ j q, j < k + n → SectionAt32 data j q → q < 2 ^ 32 - 4) :
    Graceful (PP.many (jsSection data) n pos) ∧
      ∀ secs p, PP.many (jsSection data) n pos = .ok (secs, p) →
        ∀ s ∈ secs, ∃ j q, j < k + n ∧ SectionAt32 data j q ∧ q + 12 ≤ data.length ∧ s.1 = leNat (slice data q 4) ∧ s.2.2 = q + 12 := by
  induction n generalizing k pos with
  | zero =>
    refine ⟨Graceful.ok _, ?_⟩
    intro secs p h
    simp only [PP.many, PP.pure, Except.ok.injEq, Prod.mk.injEq] at h
    simp [← h.1]
  | succ n ih =>
    have h0 := jsSection_graceful hd (hw k pos (by omega) hat)
    simp only [PP.many]
    cases h : jsSection data pos with
    | error e =>
      rw [h] at h0
      refine ⟨by simpa [PP.bind, h, Graceful] using h0, ?_⟩
      intro secs p hh
      simp [PP.bind, h] at hh
    | ok x =>
      obtain ⟨s, p1⟩ := x
      obtain ⟨f1, f2, f3, f4⟩ := jsSection_ok h
      rw [PP.bind_of_ok h]
      have hat' : SectionAt32 data (k + 1) p1 := by rw [f2]; exact SectionAt32.next hat f1
      obtain ⟨i1, i2⟩ := ih hat' (fun j q hj => hw j q (by omega))
      constructor
      · cases hm : PP.many (jsSection data) n p1 with
        | error e => rw [hm] at i1; simpa [PP.bind, hm, Graceful] using i1
        | ok y => rw [PP.bind_of_ok hm]; exact Graceful.ok _
      · intro secs p hh
        obtain ⟨ss, p2, h2, h3⟩ := PP.bind_ok.1 hh
        simp only [PP.pure, Except.ok.injEq, Prod.mk.injEq] at h3
        intro x hx
        rw [← h3.1] at hx
        simp only [List.mem_cons] at hx
        rcases hx with rfl | hx
        · exact ⟨k, pos, by omega, hat, f1, f3, f4⟩
        · obtain ⟨j, q, hj, hr⟩ := i2 ss p2 h2 x hx
          exact ⟨j, q, by omega, hr⟩

end Zkenc
