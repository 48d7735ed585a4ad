import Verif.Proofs.R1csParse
/-!
# C21–C25: the `.r1cs` parsers
-/

namespace Zkenc.Props

open Zkenc R1csFormat

/-- `(fileBytes secs)` is preamble plus sections. -/
theorem fileBytes_length (secs : List (Nat × Bytes)) : (fileBytes secs).length = 12 + secsSize secs := by
  simp [fileBytes, secsSize]; omega

/-- How a successful run of the CLI parser goes. -/
theorem cliParse_chain {lim : Nat} {data : Bytes} {nSec p : Nat} {secs : List (Nat × Nat × Nat)} {p1 : Nat} {h : CliHeader}
    {hs cs : Nat × Nat × Nat} {cons : List FileCstr} {p2 p3 : Nat} {labels : List Nat}
    (e0 : cliRead data 4 0 = .ok ([114, 49, 99, 115], 4)) (e1 : cliU32 data 4 = .ok (1, 8)) (e2 : cliU32 data 8 = .ok (nSec, 12))
    (e3 : PP.many (cliSection lim data) nSec 12 = .ok (secs, p)) (e4 : findSection 1 secs = some hs)
    (e5 : cliHeader data hs.2.2 = .ok (h, p1)) (e6 : findSection 2 secs = some cs)
    (e7 : PP.many (cliCstr data h.fieldSize) h.nConstraints cs.2.2 = .ok (cons, p2))
    (e8 : (∃ ws, findSection 3 secs = some ws ∧ PP.many (cliU64 data) h.nWires ws.2.2 = .ok (labels, p3)) ∨
      (findSection 3 secs = none ∧ labels = List.range h.nWires)) :
    cliParseR1cs lim data = .ok ⟨h.fieldSize, h.prime, h.nWires, h.nPubOut, h.nPubIn, h.nPrvIn, h.nLabels, h.nConstraints, cons, labels⟩ := by
  unfold cliParseR1cs
  simp only [e0, e1, e2, e3, e4, e5, e6, e7, Res.ok_bind, Res.ofOption, ne_eq, not_true_eq_false, if_false, Res.pure_eq]
  rcases e8 with ⟨ws, e8, e9⟩ | ⟨e8, e9⟩
  · simp only [cliLabels, e8, e9, Res.ok_bind, Res.pure_eq]
  · simp only [cliLabels, e8, e9, Res.ok_bind, Res.pure_eq]

/-- Everything a successful run of the CLI parser went through. -/
theorem cliParse_inv {lim : Nat} {data : Bytes} {r : R1csFile} (hr : cliParseR1cs lim data = .ok r) :
    ∃ nSec p secs hs h p1 cs cons p2 labels,
      cliRead data 4 0 = .ok ([114, 49, 99, 115], 4) ∧ cliU32 data 4 = .ok (1, 8) ∧ cliU32 data 8 = .ok (nSec, 12) ∧
      PP.many (cliSection lim data) nSec 12 = .ok (secs, p) ∧ findSection 1 secs = some hs ∧
      cliHeader data hs.2.2 = .ok (h, p1) ∧ findSection 2 secs = some cs ∧
      PP.many (cliCstr data h.fieldSize) h.nConstraints cs.2.2 = .ok (cons, p2) ∧
      ((∃ ws p3, findSection 3 secs = some ws ∧ PP.many (cliU64 data) h.nWires ws.2.2 = .ok (labels, p3)) ∨
        (findSection 3 secs = none ∧ labels = List.range h.nWires)) ∧
      r = ⟨h.fieldSize, h.prime, h.nWires, h.nPubOut, h.nPubIn, h.nPrvIn, h.nLabels, h.nConstraints, cons, labels⟩ := by
  unfold cliParseR1cs at hr
  obtain ⟨⟨magic, q0⟩, e0, hr⟩ := Res.bind_eq_ok.1 hr
  dsimp only at hr
  split at hr
  · simp [Res.fail] at hr
  rename_i hm
  simp only [ne_eq, not_not] at hm
  obtain ⟨e0', e0''⟩ := cliRead_ok (by decide) e0
  simp only [Prod.mk.injEq] at e0''
  obtain ⟨⟨ver, q1⟩, e1, hr⟩ := Res.bind_eq_ok.1 hr
  dsimp only at hr
  split at hr
  · simp [Res.fail] at hr
  rename_i hv
  simp only [ne_eq, not_not] at hv
  obtain ⟨⟨nSec, q2⟩, e2, hr⟩ := Res.bind_eq_ok.1 hr
  obtain ⟨⟨secs, q3⟩, e3, hr⟩ := Res.bind_eq_ok.1 hr
  obtain ⟨hs, e4, hr⟩ := Res.bind_eq_ok.1 hr
  obtain ⟨⟨h, q4⟩, e5, hr⟩ := Res.bind_eq_ok.1 hr
  obtain ⟨cs, e6, hr⟩ := Res.bind_eq_ok.1 hr
  obtain ⟨⟨cons, q5⟩, e7, hr⟩ := Res.bind_eq_ok.1 hr
  obtain ⟨labels, e8, hfin⟩ := Res.bind_eq_ok.1 hr
  simp only [Res.pure_eq, Except.ok.injEq] at hfin
  dsimp only at e1 e2 e3 e5 e7 e8 hfin
  have f1 := cliU32_ok e1
  have f2 := cliU32_ok e2
  have g0 : q0 = 4 := by omega
  have g1 : q1 = 8 := by omega
  have g2 : q2 = 12 := by omega
  subst g0 g1 g2 hm hv
  have hs' : findSection 1 secs = some hs := by
    cases hh : findSection 1 secs with
    | none => rw [hh] at e4; simp [Res.ofOption, Res.fail] at e4
    | some x => rw [hh] at e4; simp [Res.ofOption] at e4; rw [e4]
  have cs' : findSection 2 secs = some cs := by
    cases hh : findSection 2 secs with
    | none => rw [hh] at e6; simp [Res.ofOption, Res.fail] at e6
    | some x => rw [hh] at e6; simp [Res.ofOption] at e6; rw [e6]
  unfold cliLabels at e8
  refine ⟨nSec, q3, secs, hs, h, q4, cs, cons, q5, labels, e0, e1, e2, e3, hs', e5, cs', e7, ?_, hfin.symm⟩
  cases hw : findSection 3 secs with
  | none => rw [hw] at e8; simp only [Res.pure_eq, Except.ok.injEq] at e8; exact Or.inr ⟨rfl, e8.symm⟩
  | some ws =>
    rw [hw] at e8
    obtain ⟨⟨l, p3⟩, g1, g2⟩ := Res.bind_eq_ok.1 e8
    simp only [Res.pure_eq, Except.ok.injEq] at g2
    subst g2
    exact Or.inl ⟨ws, p3, rfl, g1⟩

theorem find_of_split {ty : Nat} {pl : Bytes} {secs pre post : List (Nat × Bytes)} (h : secs = pre ++ (ty, pl) :: post)
    (hn : ty ∉ pre.map Prod.fst) : findSection ty (locate 12 secs) = some (ty, pl.length, (fileBytes pre).length + 12) := by
  rw [h, findSection_locate_split 12 hn, fileBytes_length]

/-- The parser on (a prefix of) a file whose needed bytes are all there. -/
theorem cliParse_prefix {lim k : Nat} {secs : List (Nat × Bytes)} {r : R1csFile} {tail : Bytes} (hf : Fits r) (hs : SecsFit secs)
    (hd : Describes secs r) (hlim : (fileBytes secs).length ≤ lim) (hk : k ≤ (fileBytes secs ++ tail).length)
    (he : Enough secs r k) : cliParseR1cs lim ((fileBytes secs ++ tail).take k) = .ok r := by
  have hfull : At (fileBytes secs ++ tail) 0 (fileBytes secs) := by
    have := At.self [] (fileBytes secs) tail
    simpa using this
  unfold fileBytes at hfull
  obtain ⟨a0, a1⟩ := At.append.1 hfull
  obtain ⟨a1, a2⟩ := At.append.1 a1
  obtain ⟨a2, a3⟩ := At.append.1 a2
  change At (fileBytes secs ++ tail) _ _ at a0 a1 a2 a3
  simp only [List.length_cons, List.length_nil, u32le_length, Nat.zero_add, Nat.reduceAdd] at a1 a2 a3
  have hk12 := he.1
  have e0 := cliRead_reads (e := [114, 49, 99, 115]) (n := 4) rfl _ _ ((a0.take_iff hk).2 (by simp; omega))
  have e1 := cliU32_reads (v := 1) (by decide) _ _ ((a1.take_iff hk).2 (by simp; omega))
  have e2 := cliU32_reads (v := secs.length) hs.count _ _ ((a2.take_iff hk).2 (by simp; omega))
  simp only [List.length_cons, List.length_nil, u32le_length, Nat.zero_add, Nat.reduceAdd] at e0 e1 e2
  have hh : HeadersAt ((fileBytes secs ++ tail).take k) 12 secs := by
    refine HeadersAt.of_split hk (HeadersAt.of_flatten a3) ?_
    intro pre s post e
    have := (he.2 pre s post e).1
    rw [fileBytes_length] at this
    omega
  have e3 := cliSections_read hs.each hh (lim := lim) (by rw [← fileBytes_length]; exact hlim)
  -- needed payloads
  have hpay : ∀ ty pl extra, secs.lookup ty = some (pl ++ extra) → needed r ty = pl.length →
      ∃ x, findSection ty (locate 12 secs) = some x ∧ At ((fileBytes secs ++ tail).take k) x.2.2 pl := by
    intro ty pl extra hl hn
    obtain ⟨pre, post, hsp, hnot⟩ := lookup_split.1 hl
    refine ⟨_, find_of_split hsp hnot, ?_⟩
    have h1 : At (fileBytes secs ++ tail) ((fileBytes pre).length + 12) pl := by
      have h2 : At (fileBytes secs ++ tail) 12 ((pre ++ (ty, pl ++ extra) :: post).map secBytes).flatten := by rw [← hsp]; exact a3
      have := h2.payload
      rw [fileBytes_length]
      exact (At.append.1 this).1
    refine (h1.take_iff hk).2 ?_
    have := (he.2 pre (ty, pl ++ extra) post hsp).2 hnot
    rw [hn] at this
    exact this
  obtain ⟨ex1, l1⟩ := hd.header
  obtain ⟨ex2, l2⟩ := hd.constraints
  obtain ⟨x1, f1, t1⟩ := hpay 1 _ _ l1 rfl
  obtain ⟨x2, f2, t2⟩ := hpay 2 _ _ l2 rfl
  have e5 := cliHeader_reads hf _ _ t1
  have e7 := cliConstraints_reads hf _ _ t2
  have := cliParse_chain (h := r.hdr) (labels := r.wire2label) (p3 := (match secs.lookup 3 with
    | some _ => (match findSection 3 (locate 12 secs) with | some x => x.2.2 + (labelsBytes r).length | none => 0) | none => 0))
    e0 e1 e2 e3 f1 e5 f2 e7 ?_
  · exact this
  · rcases hd.labels with ⟨ex3, l3⟩ | ⟨l3, hw⟩
    · left
      obtain ⟨x3, f3, t3⟩ := hpay 3 _ _ l3 rfl
      have e8 := cliLabels_reads hf _ _ t3
      refine ⟨x3, f3, ?_⟩
      rw [l3, f3]
      exact e8
    · right
      exact ⟨findSection_locate_none 12 l3, hw⟩

/-- Success of the parser on a prefix of a file means that the needed bytes are in the prefix. -/
theorem enough_of_ok {lim k : Nat} {secs : List (Nat × Bytes)} {r r' : R1csFile} (hf : Fits r) (hs : SecsFit secs)
    (hd : Describes secs r) (hlim : (fileBytes secs).length ≤ lim) (hk : k ≤ (fileBytes secs).length)
    (hok : cliParseR1cs lim ((fileBytes secs).take k) = .ok r') : Enough secs r k := by
  obtain ⟨nSec, p, secs', hs1, h, p1, cs, cons, p2, labels, e0, e1, e2, e3, e4, e5, e6, e7, e8, -⟩ := cliParse_inv hok
  have hfull : At (fileBytes secs) 0 (fileBytes secs) := by
    have := At.self [] (fileBytes secs) []
    simpa using this
  unfold fileBytes at hfull
  obtain ⟨a0, a1⟩ := At.append.1 hfull
  obtain ⟨a1, a2⟩ := At.append.1 a1
  obtain ⟨a2, a3⟩ := At.append.1 a2
  change At (fileBytes secs) _ _ at a0 a1 a2 a3
  simp only [List.length_cons, List.length_nil, u32le_length, Nat.zero_add, Nat.reduceAdd] at a1 a2 a3
  have hlen : ((fileBytes secs).take k).length = k := by simp [hk]
  have h12 : 12 ≤ k := by have := (cliU32_ok e2).1; rw [hlen] at this; omega
  have e2' := cliU32_reads (v := secs.length) hs.count _ _ ((a2.take_iff hk).2 (by simp; omega))
  rw [e2] at e2'
  simp only [Except.ok.injEq, Prod.mk.injEq] at e2'
  rw [e2'.1] at e3
  have hl : 12 + secsSize secs ≤ lim := by rw [← fileBytes_length]; exact hlim
  have hh := HeadersAt.of_prefix hk hs.each (HeadersAt.of_flatten a3) hl e3
  have e3' := cliSections_read hs.each hh hl
  rw [e3] at e3'
  simp only [Except.ok.injEq, Prod.mk.injEq] at e3'
  rw [e3'.1] at e4 e6 e8
  have hend : ∀ {α : Type} (pp : Bytes → PP α) (pos : Nat) (a a' : α) (pos' : Nat) (e : Bytes), PP.Mono pp → PP.Reads pp e a' →
      At (fileBytes secs) pos e → pos ≤ k → pp ((fileBytes secs).take k) pos = .ok (a, pos') → a = a' ∧ pos + e.length ≤ k := by
    intro α pp pos a a' pos' e hm hr hat hpos hp
    obtain ⟨h1, h2⟩ := hm _ _ _ _ ((fileBytes secs).drop k) hp
    rw [List.take_append_drop, hr _ _ hat] at h1
    simp only [Except.ok.injEq, Prod.mk.injEq] at h1
    rw [hlen] at h2
    exact ⟨h1.1.symm, by omega⟩
  have hloc : ∀ ty pl extra, secs.lookup ty = some (pl ++ extra) →
      ∃ x, findSection ty (locate 12 secs) = some x ∧ At (fileBytes secs) x.2.2 pl ∧ x.2.2 ≤ k ∧
        ∀ pre s post, secs = pre ++ s :: post → s.1 = ty → s.1 ∉ pre.map Prod.fst → x.2.2 = (fileBytes pre).length + 12 := by
    intro ty pl extra hl
    obtain ⟨pre, post, hsp, hnot⟩ := lookup_split.1 hl
    refine ⟨_, find_of_split hsp hnot, ?_, ?_, ?_⟩
    · have h2 : At (fileBytes secs) 12 ((pre ++ (ty, pl ++ extra) :: post).map secBytes).flatten := by rw [← hsp]; exact a3
      have := h2.payload
      rw [fileBytes_length]
      exact (At.append.1 this).1
    · have := hh.split hsp
      rw [hlen] at this
      rw [fileBytes_length]; exact this
    · intro pre' s post' hsp' hty hnot'
      obtain ⟨t, q⟩ := s
      simp only at hty
      subst hty
      have h1 := find_of_split hsp hnot
      have h2 := find_of_split hsp' hnot'
      rw [h1] at h2
      simp only [Option.some.injEq, Prod.mk.injEq] at h2
      exact h2.2.2
  obtain ⟨ex1, l1⟩ := hd.header
  obtain ⟨ex2, l2⟩ := hd.constraints
  obtain ⟨x1, f1, t1, k1, u1⟩ := hloc 1 _ _ l1
  obtain ⟨x2, f2, t2, k2, u2⟩ := hloc 2 _ _ l2
  rw [f1] at e4; rw [f2] at e6
  simp only [Option.some.injEq] at e4 e6
  subst e4 e6
  have r1 := hend cliHeader _ _ _ _ _ cliHeader_mono (cliHeader_reads hf) t1 k1 e5
  obtain ⟨rfl, r1⟩ := r1
  have r2 := hend (fun d => PP.many (cliCstr d r.fieldSize) r.nConstraints) _ _ _ _ _
    (PP.Mono.many (cliCstr_mono _) _) (cliConstraints_reads hf) t2 k2 e7
  refine ⟨h12, ?_⟩
  intro pre s post hsp
  constructor
  · have := hh.split hsp
    rw [hlen] at this
    rw [fileBytes_length]; exact this
  · intro hnot
    have hbase : (fileBytes pre).length + 12 ≤ k := by
      have := hh.split hsp
      rw [hlen] at this
      rw [fileBytes_length]; exact this
    unfold needed
    split
    · rename_i hty; rw [← u1 pre s post hsp hty hnot]; exact r1
    · split
      · rename_i hty; rw [← u2 pre s post hsp hty hnot]; exact r2.2
      · split
        · rename_i hty
          rcases hd.labels with ⟨ex3, l3⟩ | ⟨l3, -⟩
          · obtain ⟨x3, f3, t3, k3, u3⟩ := hloc 3 _ _ l3
            rw [f3] at e8
            rcases e8 with ⟨ws, p3, g1, g2⟩ | ⟨g1, -⟩
            · simp only [Option.some.injEq] at g1
              subst g1
              have r3 := hend (fun d => PP.many (cliU64 d) r.nWires) _ _ _ _ _
                (PP.Mono.many cliU64_mono _) (cliLabels_reads hf) t3 k3 g2
              rw [← u3 pre s post hsp hty hnot]; exact r3.2
            · simp at g1
          · exfalso
            have : secs.lookup 3 = some s.2 := lookup_split.2 ⟨pre, post, by rw [hsp, ← hty], by rw [← hty]; exact hnot⟩
            rw [l3] at this; simp at this
        · exact hbase

/-- The CLI parser never panics and never loops, on any byte string. -/
theorem cliParse_graceful (lim : Nat) (data : Bytes) : Graceful (cliParseR1cs lim data) := by
  unfold cliParseR1cs
  refine Graceful.bind (cliRead_total _ _ _) fun ⟨x, q⟩ _ => ?_
  dsimp only
  split
  · exact Graceful.fail _
  refine Graceful.bind (cliU32_total _ _) fun ⟨x, q⟩ _ => ?_
  dsimp only
  split
  · exact Graceful.fail _
  refine Graceful.bind (cliU32_total _ _) fun ⟨x, q⟩ _ => ?_
  refine Graceful.bind (PP.Total.many (cliSection_total _ _) _ _) fun ⟨x, q⟩ _ => ?_
  refine Graceful.bind (Graceful.ofOption _ _) fun x _ => ?_
  refine Graceful.bind (cliHeader_total _ _) fun ⟨x, q⟩ _ => ?_
  refine Graceful.bind (Graceful.ofOption _ _) fun x _ => ?_
  refine Graceful.bind (PP.Total.many (cliCstr_total _ _) _ _) fun ⟨x, q⟩ _ => ?_
  refine Graceful.bind ?_ fun x _ => Graceful.ok _
  unfold cliLabels
  split
  · exact Graceful.bind (PP.Total.many (cliU64_total _) _ _) fun x _ => Graceful.ok _
  · exact Graceful.ok _

theorem not_ok_err {α : Type} {r : Res α} (hg : Graceful r) (h : ∀ a, r ≠ .ok a) : ∃ m, r = .error (.err m) := by
  cases r with
  | ok a => exact absurd rfl (h a)
  | error e =>
    cases e with
    | err m => exact ⟨m, rfl⟩
    | panic => exact absurd rfl hg.1
    | hang => exact absurd rfl hg.2

/-! ## A concrete file, used to show that the hypotheses are satisfiable -/

/-- Header, constraints and labels of a one-constraint circuit with 2-byte coefficients. -/
def exR1cs : R1csFile :=
  { fieldSize := 2, prime := [7, 0], nWires := 3, nPubOut := 1, nPubIn := 0, nPrvIn := 1, nLabels := 9, nConstraints := 1,
    constraints := [⟨[(2, [1, 0])], [(2, [1, 0])], [(1, [1, 0]), (0, [3, 0])]⟩], wire2label := [0, 5, 8] }

/-- Its sections: constraints before header, an unknown section, a duplicate header that must be ignored, extra bytes. -/
def exSecs : List (Nat × Bytes) :=
  [(2, constraintsBytes exR1cs), (9, [1, 2, 3]), (1, headerBytes exR1cs ++ [255]), (1, [4]), (3, labelsBytes exR1cs)]

theorem exR1cs_fits : Fits exR1cs := by
  constructor <;> simp [exR1cs, LcOk]
  rintro a b (⟨rfl, rfl⟩ | ⟨rfl, rfl⟩) <;> simp

theorem exSecs_fit : SecsFit exSecs := by
  constructor
  · simp [exSecs]
  · intro s hs
    simp only [exSecs, List.mem_cons, List.not_mem_nil, or_false] at hs
    rcases hs with rfl | rfl | rfl | rfl | rfl <;>
      simp [constraintsBytes, headerBytes, labelsBytes, exR1cs, cstrBytes, lcBytes]

theorem exSecs_describe : Describes exSecs exR1cs where
  header := ⟨[255], rfl⟩
  constraints := ⟨[], by rw [List.append_nil]; rfl⟩
  labels := Or.inl ⟨[], by rw [List.append_nil]; rfl⟩

/-! ## C21 -/

/-- **C21** — on every well-formed file (sections in any order, unknown and duplicate sections, extra bytes in sections and after
the last section) the CLI parser returns exactly the encoded data. -/
theorem C21_cli_inverts_format {lim : Nat} {secs : List (Nat × Bytes)} {r : R1csFile} (tail : Bytes) (hf : Fits r)
    (hs : SecsFit secs) (hd : Describes secs r) (hlim : (fileBytes secs).length ≤ lim) :
    cliParseR1cs lim (fileBytes secs ++ tail) = .ok r := by
  have := cliParse_prefix (k := (fileBytes secs ++ tail).length) (tail := tail) hf hs hd hlim (le_refl _) ?_
  · rwa [List.take_length] at this
  · have hlen := fileBytes_length secs
    constructor
    · rw [List.length_append]; omega
    · intro pre s post hsp
      have h1 := fileBytes_length pre
      have h2 : secsSize secs = secsSize pre + (12 + s.2.length + secsSize post) := by rw [hsp]; simp
      rw [List.length_append]
      refine ⟨by omega, ?_⟩
      intro hnot
      have hl : secs.lookup s.1 = some s.2 := lookup_split.2 ⟨pre, post, hsp, hnot⟩
      have hn : needed r s.1 ≤ s.2.length := by
        unfold needed
        split
        · rename_i hty
          obtain ⟨ex, h⟩ := hd.header
          rw [hty, h] at hl
          simp only [Option.some.injEq] at hl
          rw [← hl]; simp
        · split
          · rename_i hty
            obtain ⟨ex, h⟩ := hd.constraints
            rw [hty, h] at hl
            simp only [Option.some.injEq] at hl
            rw [← hl]; simp
          · split
            · rename_i hty
              rcases hd.labels with ⟨ex, h⟩ | ⟨h, -⟩
              · rw [hty, h] at hl
                simp only [Option.some.injEq] at hl
                rw [← hl]; simp
              · rw [hty, h] at hl; simp at hl
            · omega
      omega

example : cliParseR1cs (2 ^ 62) (fileBytes exSecs ++ [1, 2]) = .ok exR1cs :=
  C21_cli_inverts_format _ exR1cs_fits exSecs_fit exSecs_describe (by
    simp [fileBytes, exSecs, secBytes, constraintsBytes, headerBytes, labelsBytes, exR1cs, cstrBytes, lcBytes])

/-! ## C24 (the `.r1cs` part) -/

/-- **C24** — the CLI parser returns a value or an error on every byte string, whatever the file-offset limit. -/
theorem C24_r1cs_total (lim : Nat) (data : Bytes) : Graceful (cliParseR1cs lim data) := cliParse_graceful lim data

/-- **C24** — a file that does not start with `r1cs` is an error. -/
theorem C24_r1cs_bad_magic (lim : Nat) (data : Bytes) (h : data.take 4 ≠ [114, 49, 99, 115]) :
    ∃ m, cliParseR1cs lim data = .error (.err m) := by
  refine not_ok_err (cliParse_graceful lim data) fun r hr => ?_
  obtain ⟨_, _, _, _, _, _, _, _, _, _, e0, -⟩ := cliParse_inv hr
  have := (cliRead_ok (by decide) e0).2
  simp only [Prod.mk.injEq, slice, List.drop_zero] at this
  exact h this.1.symm

example : ([119, 116, 110, 115, 1, 0, 0, 0] : Bytes).take 4 ≠ [114, 49, 99, 115] := by decide

/-- **C24** — a version other than 1 is an error. -/
theorem C24_r1cs_bad_version (lim : Nat) (data : Bytes) (h : leNat ((data.drop 4).take 4) ≠ 1) :
    ∃ m, cliParseR1cs lim data = .error (.err m) := by
  refine not_ok_err (cliParse_graceful lim data) fun r hr => ?_
  obtain ⟨_, _, _, _, _, _, _, _, _, _, -, e1, -⟩ := cliParse_inv hr
  exact h (cliU32_ok e1).2.1.symm

example : leNat ((([114, 49, 99, 115, 2, 0, 0, 0] : Bytes).drop 4).take 4) ≠ 1 := by decide

/-- **C24** — a section list without header or without constraints is an error. -/
theorem C24_r1cs_missing_section {lim : Nat} {secs : List (Nat × Bytes)} (tail : Bytes) (hs : SecsFit secs)
    (hlim : (fileBytes secs).length ≤ lim) (h : secs.lookup 1 = none ∨ secs.lookup 2 = none) :
    ∃ m, cliParseR1cs lim (fileBytes secs ++ tail) = .error (.err m) := by
  refine not_ok_err (cliParse_graceful lim _) fun r hr => ?_
  obtain ⟨nSec, p, secs', hs1, h', p1, cs, cons, p2, labels, e0, e1, e2, e3, e4, e5, e6, e7, e8, -⟩ := cliParse_inv hr
  have hfull : At (fileBytes secs ++ tail) 0 (fileBytes secs) := by
    have := At.self [] (fileBytes secs) tail
    simpa using this
  unfold fileBytes at hfull
  obtain ⟨a0, a1⟩ := At.append.1 hfull
  obtain ⟨a1, a2⟩ := At.append.1 a1
  obtain ⟨a2, a3⟩ := At.append.1 a2
  change At (fileBytes secs ++ tail) _ _ at a0 a1 a2 a3
  simp only [List.length_cons, List.length_nil, u32le_length, Nat.zero_add, Nat.reduceAdd] at a1 a2 a3
  have e2' := cliU32_reads (v := secs.length) hs.count _ _ a2
  rw [e2] at e2'
  simp only [Except.ok.injEq, Prod.mk.injEq] at e2'
  rw [e2'.1] at e3
  have hl : 12 + secsSize secs ≤ lim := by rw [← fileBytes_length]; exact hlim
  rw [cliSections_read hs.each (HeadersAt.of_flatten a3) hl] at e3
  simp only [Except.ok.injEq, Prod.mk.injEq] at e3
  rw [← e3.1] at e4 e6
  rcases h with h | h
  · rw [findSection_locate_none 12 h] at e4; simp at e4
  · rw [findSection_locate_none 12 h] at e6; simp at e6

example : SecsFit [(1, [1, 2, 3]), (7, [])] ∧ ([(1, [1, 2, 3]), (7, [])] : List (Nat × Bytes)).lookup 2 = none := by
  refine ⟨⟨by simp, ?_⟩, rfl⟩
  intro s hs
  simp only [List.mem_cons, List.not_mem_nil, or_false] at hs
  rcases hs with rfl | rfl <;> simp

/-- **C24** — truncation, exactly: the first `k` bytes of a well-formed file give the same result as the whole file when they
contain everything that is needed, and an error (not a panic, not another result) otherwise. -/
theorem C24_r1cs_truncation {lim k : Nat} {secs : List (Nat × Bytes)} {r : R1csFile} (hf : Fits r) (hs : SecsFit secs)
    (hd : Describes secs r) (hlim : (fileBytes secs).length ≤ lim) (hk : k ≤ (fileBytes secs).length) :
    (Enough secs r k → cliParseR1cs lim ((fileBytes secs).take k) = .ok r) ∧
    (¬ Enough secs r k → ∃ m, cliParseR1cs lim ((fileBytes secs).take k) = .error (.err m)) := by
  constructor
  · intro he
    have := cliParse_prefix (tail := []) hf hs hd hlim (by simpa using hk) he
    simpa using this
  · intro he
    exact not_ok_err (cliParse_graceful lim _) fun r' hr' => he (enough_of_ok hf hs hd hlim hk hr')

/-- **C24** — if the last section is a needed one without extra bytes, every strict prefix is rejected. -/
theorem C24_r1cs_strict_prefix {lim k : Nat} {pre : List (Nat × Bytes)} {ty : Nat} {pl : Bytes} {r : R1csFile} (hf : Fits r)
    (hs : SecsFit (pre ++ [(ty, pl)])) (hd : Describes (pre ++ [(ty, pl)]) r)
    (hlim : (fileBytes (pre ++ [(ty, pl)])).length ≤ lim) (hfirst : ty ∉ pre.map Prod.fst) (hpl : pl.length = needed r ty)
    (hk : k < (fileBytes (pre ++ [(ty, pl)])).length) :
    ∃ m, cliParseR1cs lim ((fileBytes (pre ++ [(ty, pl)])).take k) = .error (.err m) := by
  refine (C24_r1cs_truncation hf hs hd hlim (le_of_lt hk)).2 fun he => ?_
  have h1 := (he.2 pre (ty, pl) [] rfl).2 hfirst
  have h2 := fileBytes_length (pre ++ [(ty, pl)])
  have h3 := fileBytes_length pre
  simp only [secsSize_append, secsSize_cons, secsSize_nil] at h2
  rw [← hpl] at h1
  omega

example : ∃ m, cliParseR1cs (2 ^ 62) ((fileBytes exSecs).take 100) = .error (.err m) :=
  C24_r1cs_strict_prefix (pre := exSecs.take 4) (ty := 3) (pl := labelsBytes exR1cs) (r := exR1cs) exR1cs_fits exSecs_fit
    exSecs_describe (by simp [fileBytes, exSecs, secBytes, constraintsBytes, headerBytes, labelsBytes, exR1cs, cstrBytes, lcBytes])
    (by decide) rfl (by simp [fileBytes, exSecs, secBytes, constraintsBytes, headerBytes, labelsBytes, exR1cs, cstrBytes, lcBytes])

end Zkenc.Props
