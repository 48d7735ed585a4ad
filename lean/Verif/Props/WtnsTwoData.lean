import Verif.Props.WtnsParse
import Verif.Props.WtnsParseJs
/-!
# C29: a witness file that the two tools read differently

A file with two data sections: the CLI keeps the last one, the JS library appends them.
-/

namespace Zkenc.Props

open Zkenc WtnsFormat

/-- A header that announces the number of `ys`, a data section with `xs`, and a data section with `ys`. -/
def twoDataSections (prime : Bytes) (xs ys : List Fr) : Bytes :=
  fileBytes ⟨prime, ys.map frEnc⟩ [Sec.header, Sec.other 2 (xs.map frEnc).flatten, Sec.data]

theorem frEnc_flatten_length (xs : List Fr) : (xs.map frEnc).flatten.length = 32 * xs.length := by
  rw [List.length_flatten, List.map_map, List.map_congr_left (g := fun _ => 32) (fun v _ => by simp [frEnc])]
  simp; omega

theorem twoDataSections_length (prime : Bytes) (xs ys : List Fr) :
    (twoDataSections prime xs ys).length = 56 + prime.length + 32 * xs.length + 32 * ys.length := by
  have h1 := frEnc_flatten_length xs
  have h2 := frEnc_flatten_length ys
  simp only [twoDataSections, fileBytes, Sec.bytes, Sec.payload, Sec.ty, List.map_cons, List.map_nil, List.flatten_cons, List.flatten_nil,
    List.append_nil, List.length_append, List.length_cons, List.length_nil, u32le_length, u64le_length, h1, h2]
  omega

theorem fits_enc {prime : Bytes} (hprime : prime.length = 32) (xs : List Fr) (h : xs.length < 2 ^ 32) : Fits ⟨prime, xs.map frEnc⟩ := by
  refine ⟨by simp [hprime], by simp [hprime], by simpa using h, ?_⟩
  intro v hv
  simp only [List.mem_map] at hv
  obtain ⟨x, -, rfl⟩ := hv
  simp [frEnc, hprime]

/-- **C29** (malformed files) — for all `xs`, `ys`: from the file whose two data sections hold `xs` and then `ys`, the CLI takes `ys` while JS takes `xs` and then `ys`. So
there are files that both tools accept and from which they take different wire values, whatever values are wanted for either tool. -/
theorem C29_two_data_sections {prime : Bytes} (hprime : prime.length = 32) (xs ys : List Fr) (hy : ys ≠ [])
    (hlen : (twoDataSections prime xs ys).length < 2 ^ 31) :
    (do let w ← cliParseWtns (twoDataSections prime xs ys); w.toFieldElements) = .ok ys ∧
    jsParseWtns (twoDataSections prime xs ys) = .ok (xs ++ ys) := by
  have hl := hlen
  rw [twoDataSections_length] at hl
  have f1 := fits_enc hprime xs (by omega)
  have f2 := fits_enc hprime ys (by omega)
  have l1 := frEnc_flatten_length xs
  have l2 := frEnc_flatten_length ys
  obtain ⟨hp, hn, ha⟩ := wtns_file_pieces ⟨prime, ys.map frEnc⟩ [Sec.header, Sec.other 2 (xs.map frEnc).flatten, Sec.data] (by simp) []
  rw [List.append_nil] at hp hn ha
  change wtnsPreamble (twoDataSections prime xs ys) at hp
  change leNat (slice (twoDataSections prime xs ys) 8 4) = 3 at hn
  change At (twoDataSections prime xs ys) 12
    (Sec.bytes ⟨prime, ys.map frEnc⟩ .header ++ (Sec.bytes ⟨prime, xs.map frEnc⟩ .data ++ (Sec.bytes ⟨prime, ys.map frEnc⟩ .data ++ []))) at ha
  generalize twoDataSections prime xs ys = data at *
  constructor
  · have r := PP.Reads.bind (f := fun d st' => cliWtnsSections d 2 st')
      (cliWtnsSection_reads f2 ⟨[], 0, []⟩ .header (by simp) (by simp only [l2]; omega))
      (PP.Reads.bind (f := fun d st' => cliWtnsSections d 1 st') (cliWtnsSection_reads f1 _ .data (by simp) (by simp only [l1]; omega))
        (PP.Reads.bind (f := fun d st' => cliWtnsSections d 0 st') (cliWtnsSection_reads f2 _ .data (by simp) (by simp only [l2]; omega)) (PP.Reads.pure _)))
      _ _ ha
    have e : cliWtnsSections data 3 ⟨[], 0, []⟩ 12 = _ := r
    rw [cliParseWtns_eq _ hp, hn, e]
    simp only [Res.ok_bind, applySec]
    have hp' : prime ≠ [] := by intro e; rw [e] at hprime; simp at hprime
    have hv' : (ys.map frEnc).flatten ≠ [] := by
      intro e
      rw [e] at l2
      exact hy (List.length_eq_zero_iff.1 (by simp only [List.length_nil] at l2; omega))
    unfold cliWtnsFinish
    simp only [if_neg hp', if_neg hv']
    rw [if_neg (by rw [l2, hprime]; simp; omega), Res.pure_eq]
    rw [chunks_flatten (ys.map frEnc) prime.length f2.len, Res.ok_bind, C26_to_field_elements]
    refine ⟨by simp, ?_⟩
    intro p hp
    rw [List.mem_iff_getElem] at hp
    obtain ⟨i, hi, rfl⟩ := hp
    simp only [List.getElem_zip, List.getElem_map]
    have : (frEnc (ys[i]'(by simp at hi; omega))).length = 32 := by simp [frEnc]
    refine ⟨by omega, ?_⟩
    rw [List.take_of_length_le (by omega)]
    exact leNat_leBytes_of_lt (Nat.lt_trans (ZMod.val_lt _) frModulus_lt)
  · have hval : ∀ l : List Fr, (l.map frEnc).map jsWtnsValue = l := by
      intro l
      rw [List.map_map]
      conv => rhs; rw [← List.map_id l]
      refine List.map_congr_left fun x _ => ?_
      have : (frEnc x).length = 32 := by simp [frEnc]
      simp only [Function.comp, jsWtnsValue, id]
      rw [List.take_of_length_le (by omega), show leNat (frEnc x) = x.val from leNat_leBytes_of_lt (Nat.lt_trans (ZMod.val_lt _) frModulus_lt)]
      exact ZMod.natCast_zmod_val x
    obtain ⟨a1, ha⟩ := At.append.1 ha
    obtain ⟨a2, ha⟩ := At.append.1 ha
    obtain ⟨a3, -⟩ := At.append.1 ha
    unfold jsParseWtns
    rw [jsParseWtnsFuel_eq _ hp, hn]
    have one : ∀ (c : Content) (s : Sec), ([s].map (Sec.bytes c)).flatten = s.bytes c := fun c s => by simp
    have j1 := jsWtnsSections_at f2 hlen (fuel := 2 ^ 32 + 1) (by have := f2.count; omega) [Sec.header] (by simp) 12 0 [] false (by simp) trivial 2 (by rw [one]; exact a1)
    have j2 := jsWtnsSections_at f1 hlen (fuel := 2 ^ 32 + 1) (by have := f1.count; omega) [Sec.data] (by simp) _ 32 [] true
      (fun _ => ⟨hprime.symm, by norm_num⟩) ⟨rfl, trivial⟩ 1 (by rw [one]; exact a2)
    have j3 := jsWtnsSections_at f2 hlen (fuel := 2 ^ 32 + 1) (by have := f2.count; omega) [Sec.data] (by simp) _ 32 xs true
      (fun _ => ⟨hprime.symm, by norm_num⟩) ⟨rfl, trivial⟩ 0 (by rw [one]; exact a3)
    rw [one] at j1 j2 j3
    simp only [jsApplySec, hprime, hval, List.nil_append, List.length_cons, List.length_nil, Nat.zero_add, Nat.reduceAdd] at j1 j2 j3
    rw [j1, j2, j3]
    rfl

/-- For example: a file from which the CLI takes the wires 1, 5, 25 and the JS library 1, 2, 4 (it ignores what follows the wires of a circuit, C74). -/
example : (do let w ← cliParseWtns (twoDataSections (leBytes 32 frModulus) [1, 2, 4] [1, 5, 25]); w.toFieldElements) = .ok [(1 : Fr), 5, 25] ∧
    jsParseWtns (twoDataSections (leBytes 32 frModulus) [1, 2, 4] [1, 5, 25]) = .ok [(1 : Fr), 2, 4, 1, 5, 25] :=
  C29_two_data_sections (by simp) _ _ (by simp) (by rw [twoDataSections_length]; simp)

end Zkenc.Props
