import Verif.Proofs.R1csParseJs
import Verif.Props.R1csParse
/-!
# C22, C23, C25: the wasm32 `.r1cs` parser, and agreement with the CLI
-/

namespace Zkenc.Props

open Zkenc R1csFormat

/-! ## C23 -/

/-- **C23** — on every byte string below 2 GiB, well-formed or not: if the CLI accepts it, JS accepts it too and returns the same
header numbers and constraints. -/
theorem C23_js_agrees {lim : Nat} {data : Bytes} {r : R1csFile} (hd : data.length < 2 ^ 31)
    (h : cliParseR1cs lim data = .ok r) : jsParseR1cs data = .ok r.toJs := by
  obtain ⟨nSec, p, secs, hs, hh, p1, cs, cons, p2, labels, e0, e1, e2, e3, e4, e5, e6, e7, -, rfl⟩ := cliParse_inv h
  obtain ⟨l0, m0⟩ := cliRead_ok (by decide) e0
  simp only [Prod.mk.injEq] at m0
  have j1 := (u32_sim hd _ _ _ (by omega) e1).1
  have j2 := (u32_sim hd _ _ _ (by have := (cliU32_ok e1).1; omega) e2).1
  obtain ⟨j3, hpos⟩ := sections_sim hd e3
  have hs1 : hs.2.2 ≤ data.length := hpos hs (List.mem_of_find?_eq_some e4)
  have cs1 : cs.2.2 ≤ data.length := hpos cs (List.mem_of_find?_eq_some e6)
  have j5 := (header_sim hd _ _ _ hs1 e5).1
  have j7 := (PP.Sim.many (cstr_sim hd hh.fieldSize) _ _ _ _ cs1 e7).1
  have j4 := findSection_map 1 secs
  have j6 := findSection_map 2 secs
  rw [e4] at j4
  rw [e6] at j6
  simp only [id] at j1 j2 j7
  unfold jsParseR1cs
  rw [if_neg (by rw [← m0.1]; simp; omega)]
  have h12 : (12 : Nat) % 2 ^ 32 = 12 := rfl
  rw [h12] at j3
  simp only [j1, j2, j3, j4, j6, Option.map_some, Res.ok_bind, Res.ofOption, ne_eq, not_true_eq_false, if_false, Res.pure_eq,
    toJsSec, j5]
  simp only [CliHeader.toJs, j7, Res.ok_bind]
  rfl

example : jsParseR1cs (fileBytes exSecs) = .ok exR1cs.toJs := by
  refine C23_js_agrees (lim := 2 ^ 62) ?_ (by
    have := C21_cli_inverts_format (lim := 2 ^ 62) [] exR1cs_fits exSecs_fit exSecs_describe (by
      simp [fileBytes, exSecs, secBytes, constraintsBytes, headerBytes, labelsBytes, exR1cs, cstrBytes, lcBytes])
    simpa using this)
  simp [fileBytes, exSecs, secBytes, constraintsBytes, headerBytes, labelsBytes, exR1cs, cstrBytes, lcBytes]

/-- **C23** — consequently whenever both accept a byte string below 2 GiB they agree. -/
theorem C23_both_ok_agree {lim : Nat} {data : Bytes} {r : R1csFile} {j : JsR1cs} (hd : data.length < 2 ^ 31)
    (h : cliParseR1cs lim data = .ok r) (h' : jsParseR1cs data = .ok j) : j = r.toJs := by
  rw [C23_js_agrees hd h] at h'
  simpa using h'.symm

/-! ## C22 -/

/-- **C22** — on every well-formed file below 2 GiB the JS parser returns exactly the encoded header numbers and constraints. -/
theorem C22_js_inverts_format {secs : List (Nat × Bytes)} {r : R1csFile} (tail : Bytes) (hf : Fits r) (hs : SecsFit secs)
    (hd : Describes secs r) (hlen : (fileBytes secs ++ tail).length < 2 ^ 31) :
    jsParseR1cs (fileBytes secs ++ tail) = .ok r.toJs :=
  C23_js_agrees (lim := (fileBytes secs).length) hlen (C21_cli_inverts_format tail hf hs hd (le_refl _))

example : jsParseR1cs (fileBytes exSecs ++ [7]) = .ok exR1cs.toJs :=
  C22_js_inverts_format [7] exR1cs_fits exSecs_fit exSecs_describe (by
    simp [fileBytes, exSecs, secBytes, constraintsBytes, headerBytes, labelsBytes, exR1cs, cstrBytes, lcBytes])

/-! ## C25 -/

/-- **C25** — robustness: on every byte string below 2 GiB the JS parser returns a value or an error, provided no declared section
size (cut to 32 bits, added with wrap-around) puts the next section header into the last four bytes of the 32-bit address space, and
no header declares a field size that reaches the end of that address space. -/
theorem C25_js_graceful {data : Bytes} (hd : data.length < 2 ^ 31)
    (hwalk : ∀ j q, j < leNat (slice data 8 4) → SectionAt32 data j q → q < 2 ^ 32 - 4)
    (hfield : ∀ j q, SectionAt32 data j q → leNat (slice data q 4) = 1 → data.length + leNat (slice data (q + 12) 4) < 2 ^ 32) :
    Graceful (jsParseR1cs data) := by
  unfold jsParseR1cs
  split
  · exact Graceful.fail _
  rename_i hm
  simp only [not_or, not_lt, gt_iff_lt] at hm
  have s4 := jsU32_safe hd 4 hm.1
  refine Graceful.bind s4.1 fun ⟨v, q4⟩ h4 => ?_
  dsimp only
  split
  · exact Graceful.fail _
  obtain ⟨l4, -, rfl⟩ := jsU32_ok h4
  have s8 := jsU32_safe hd (4 + 4) l4
  refine Graceful.bind s8.1 fun ⟨n, q8⟩ h8 => ?_
  obtain ⟨l8, hn, rfl⟩ := jsU32_ok h8
  dsimp only
  have hsec := jsSections_safe hd (n := n) SectionAt32.first (by
    intro j q hj; rw [Nat.zero_add, hn] at hj; exact hwalk j q hj)
  refine Graceful.bind hsec.1 fun ⟨secs, p⟩ h3 => ?_
  have hloc := hsec.2 secs p h3
  refine Graceful.bind (Graceful.ofOption _ _) fun hs e4 => ?_
  have hs' : findSection 1 secs = some hs := by
    cases hx : findSection 1 secs with
    | none => rw [hx] at e4; simp [Res.ofOption, Res.fail] at e4
    | some x => rw [hx] at e4; simp [Res.ofOption] at e4; rw [e4]
  obtain ⟨j, q, -, hat, hq, ht, hp⟩ := hloc hs (List.mem_of_find?_eq_some hs')
  have hty : hs.1 = 1 := by
    have := List.find?_some hs'
    simpa using this
  have hf := hfield j q hat (by rw [← ht, hty])
  have sh := jsHeader_safe hd hs.2.2 (by omega)
  refine Graceful.bind sh.1 fun ⟨h, p1⟩ h5 => ?_
  refine Graceful.bind (Graceful.ofOption _ _) fun cs e6 => ?_
  have cs' : findSection 2 secs = some cs := by
    cases hx : findSection 2 secs with
    | none => rw [hx] at e6; simp [Res.ofOption, Res.fail] at e6
    | some x => rw [hx] at e6; simp [Res.ofOption] at e6; rw [e6]
  obtain ⟨j', q', -, -, hq', -, hp'⟩ := hloc cs (List.mem_of_find?_eq_some cs')
  have hfs : h.fieldSize = leNat (slice data (q + 12) 4) := by
    unfold jsHeader at h5
    obtain ⟨fs, r1, g1, h5⟩ := PP.bind_ok.1 h5
    obtain ⟨_, r2, -, h5⟩ := PP.bind_ok.1 h5
    obtain ⟨_, r3, -, h5⟩ := PP.bind_ok.1 h5
    obtain ⟨_, r4, -, h5⟩ := PP.bind_ok.1 h5
    obtain ⟨_, r5, -, h5⟩ := PP.bind_ok.1 h5
    obtain ⟨_, r6, -, h5⟩ := PP.bind_ok.1 h5
    obtain ⟨_, r7, -, h5⟩ := PP.bind_ok.1 h5
    obtain ⟨_, r8, -, hfin⟩ := PP.bind_ok.1 h5
    simp only [PP.pure, Except.ok.injEq, Prod.mk.injEq] at hfin
    rw [← hfin.1]
    have := (jsU32_ok g1).2.1
    rw [← hp]
    exact this
  have sc := PP.Safe.many (jsCstr_safe hd (fs := h.fieldSize) (by rw [hfs]; exact hf)) h.nConstraints cs.2.2 (by omega)
  exact Graceful.bind sc.1 fun _ _ => Graceful.ok _

/-- A walk that reaches `q` fails there if the rest fails there. -/
theorem jsU32_inside {data : Bytes} (hd : data.length < 2 ^ 31) {pos : Nat} (h : pos + 4 ≤ data.length) :
    jsU32 data pos = .ok (leNat (slice data pos 4), pos + 4) := by
  have r1 : jsRead data 4 pos = .ok (slice data pos 4, pos + 4) := by
    unfold jsRead
    rw [if_neg (by omega), if_pos (by omega)]
  unfold jsU32
  rw [PP.bind_of_ok r1]; rfl

theorem jsU64_inside {data : Bytes} (hd : data.length < 2 ^ 31) {pos : Nat} (h : pos + 8 ≤ data.length) :
    jsU64 data pos = .ok (leNat (slice data pos 8), pos + 8) := by
  have r1 : jsRead data 8 pos = .ok (slice data pos 8, pos + 8) := by
    unfold jsRead
    rw [if_neg (by omega), if_pos (by omega)]
  unfold jsU64
  rw [PP.bind_of_ok r1]; rfl

theorem js_walk_error {data : Bytes} (hd : data.length < 2 ^ 31) {j q : Nat} (hat : SectionAt32 data j q) (n : Nat) (e : Fault)
    (h : PP.many (jsSection data) n q = .error e) : PP.many (jsSection data) (j + n) 12 = .error e := by
  induction hat generalizing n with
  | first => simpa using h
  | @next k pos hat hle ih =>
    have hs : ∃ s, jsSection data pos = .ok (s, (pos + 12 + leNat (slice data (pos + 4) 8)) % 2 ^ 32) := by
      refine ⟨(leNat (slice data pos 4), leNat (slice data (pos + 4) 8) % 2 ^ 32, pos + 4 + 8), ?_⟩
      unfold jsSection
      rw [PP.bind_of_ok (jsU32_inside hd (by omega)), PP.bind_of_ok (jsU64_inside hd (by omega)),
        PP.bind_of_ok (p := PP.here) (rfl : PP.here (pos + 4 + 8) = .ok (pos + 4 + 8, pos + 4 + 8))]
      have hj : jsJump (leNat (slice data (pos + 4) 8) % 2 ^ 32) (pos + 4 + 8) =
          .ok ((), (pos + 12 + leNat (slice data (pos + 4) 8)) % 2 ^ 32) := by
        unfold jsJump
        congr 2
        omega
      rw [PP.bind_of_ok hj]
      rfl
    obtain ⟨s, hs⟩ := hs
    have := ih (n + 1) (by
      simp only [PP.many]
      rw [PP.bind_of_ok hs]
      unfold PP.bind
      rw [h])
    rw [← this]
    congr 1
    omega

/-- **C25** — the other side: a valid preamble followed by a section walk that leads into the last four bytes of the address space
always panics (it is not reported as an error). -/
theorem C25_js_panics {data : Bytes} (hd : data.length < 2 ^ 31) (hmagic : data.take 4 = [114, 49, 99, 115])
    (hver : leNat (slice data 4 4) = 1) (hlen : 12 ≤ data.length) {j q : Nat} (hj : j < leNat (slice data 8 4))
    (hat : SectionAt32 data j q) (hq : 2 ^ 32 - 4 ≤ q) : jsParseR1cs data = .error .panic := by
  have hq' : q < 2 ^ 32 := by
    cases hat with
    | first => omega
    | next _ _ => omega
  have r1 : jsU32 data 4 = .ok (1, 8) := by
    rw [jsU32_inside hd (by omega), hver]
  have r2 : jsU32 data 8 = .ok (leNat (slice data 8 4), 12) := by
    rw [jsU32_inside hd (by omega)]
  have r3 : PP.many (jsSection data) (leNat (slice data 8 4)) 12 = .error .panic := by
    obtain ⟨n, hn⟩ : ∃ n, leNat (slice data 8 4) = j + (n + 1) := ⟨leNat (slice data 8 4) - j - 1, by omega⟩
    rw [hn]
    refine js_walk_error hd hat (n + 1) _ ?_
    simp only [PP.many]
    have := jsU32_panic hd (by omega) hq hq'
    simp [PP.bind, jsSection, this]
  unfold jsParseR1cs
  rw [if_neg (by rw [show slice data 0 4 = data.take 4 from rfl, hmagic]; simp; omega)]
  simp only [r1, r2, r3, Res.ok_bind, Res.error_bind, ne_eq, not_true_eq_false, if_false]

/-- A 24-byte file whose single section announces `2^32 - 26` bytes, with a second section announced. -/
def panicFile : Bytes := [114, 49, 99, 115] ++ (u32le 1 ++ (u32le 2 ++ (u32le 0 ++ u64le (2 ^ 32 - 26))))

/-- **C25** — total robustness is refuted by a concrete 24-byte file; the CLI reports an error for the same bytes. -/
theorem C25_js_panic_example (lim : Nat) :
    jsParseR1cs panicFile = .error .panic ∧ ∃ m, cliParseR1cs lim panicFile = .error (.err m) := by
  have hp : jsParseR1cs panicFile = .error .panic := by
    refine C25_js_panics (j := 1) (q := 2 ^ 32 - 2) (by decide) (by decide) (by decide) (by decide) (by decide) ?_ (by decide)
    have := SectionAt32.next (data := panicFile) SectionAt32.first (by decide)
    have e : (12 + 12 + leNat (slice panicFile (12 + 4) 8)) % 2 ^ 32 = 2 ^ 32 - 2 := by decide
    rw [e] at this
    exact this
  refine ⟨hp, not_ok_err (cliParse_graceful lim _) fun r hr => ?_⟩
  rw [C23_js_agrees (by decide) hr] at hp
  simp at hp

/-- The hypotheses of `C25_js_graceful` hold for an ordinary file (here: one header section, garbage inside). -/
example : Graceful (jsParseR1cs ([114, 49, 99, 115] ++ (u32le 1 ++ (u32le 1 ++ (u32le 1 ++ (u64le 4 ++ u32le 32)))))) := by
  refine C25_js_graceful (by decide) ?_ ?_
  · intro j q hj hat
    have hj' : j = 0 := by
      have : leNat (slice ([114, 49, 99, 115] ++ (u32le 1 ++ (u32le 1 ++ (u32le 1 ++ (u64le 4 ++ u32le 32))))) 8 4) = 1 := by decide
      omega
    subst hj'
    cases hat
    decide
  · intro j q hat ht
    have hcases : (j = 0 ∧ q = 12) ∨ (j = 1 ∧ q = 28) := by
      clear ht
      induction hat with
      | first => exact Or.inl ⟨rfl, rfl⟩
      | next _ hl ih =>
        rcases ih with ⟨rfl, rfl⟩ | ⟨rfl, rfl⟩
        · exact Or.inr ⟨rfl, by decide⟩
        · revert hl; decide
    rcases hcases with ⟨-, rfl⟩ | ⟨-, rfl⟩
    · decide
    · revert ht; decide

end Zkenc.Props
