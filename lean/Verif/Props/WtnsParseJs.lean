import Verif.Proofs.WtnsParseJs
import Verif.Props.WtnsParse
import Verif.Model.WtnsWrite
/-!
# C27-C31: the JS witness parser and the JS writers of witness files
-/

namespace Zkenc.Props

open Zkenc WtnsFormat

/-! ## C27 -/

/-- **C27** — for every well-formed `.wtns` file below 2 GiB whose one data section comes after a header section (unknown sections
anywhere, bytes after the end), the JS parser returns the stored values in order, each reduced modulo `p` (of values longer than 32
bytes only the first 32 bytes count). -/
theorem C27_js_inverts_format {c : Content} {pre post : List Sec} (tail : Bytes) (hf : Fits c)
    (hs : SecsFit c (pre ++ Sec.data :: post)) (hh : Sec.header ∈ pre) (hpre : Sec.data ∉ pre) (hpost : Sec.data ∉ post)
    (hlen : (fileBytes c (pre ++ Sec.data :: post) ++ tail).length < 2 ^ 31) :
    jsParseWtns (fileBytes c (pre ++ Sec.data :: post) ++ tail) =
      .ok (c.values.map fun v => ((leNat (v.take 32) : Nat) : Fr)) := by
  obtain ⟨hp, hn, ha⟩ := wtns_file_pieces c _ hs.count tail
  unfold jsParseWtns
  rw [jsParseWtnsFuel_eq _ hp, hn]
  have hd : DataAfterHeader false (pre ++ Sec.data :: post) :=
    dataAfterHeader_append _ _ _ (Or.inr hh) hpre ⟨rfl, dataAfterHeader_noData _ _ hpost⟩
  have := jsWtnsSections_at hf hlen (fuel := 2 ^ 32 + 1) (by have := hf.count; omega) _ (fun t p h => by
    obtain ⟨h1, h2, h3, -⟩ := hs.other t p h
    exact ⟨h1, h2, h3⟩) 12 0 [] false (by simp) hd 0 ha
  rw [← Nat.add_zero (pre ++ Sec.data :: post).length, this]
  simp only [jsWtnsSections, Res.pure_eq, jsApplySec_append, jsApplySec, jsApplySec_noData _ _ hpre, jsApplySec_noData _ _ hpost,
    List.nil_append]
  rfl

/-- Example: a file with unknown sections whose second value is `p + 4`. -/
example : jsParseWtns (fileBytes ⟨leBytes 32 frModulus, [leBytes 32 7, leBytes 32 (frModulus + 4)]⟩
      ([Sec.other 9 [1], Sec.header] ++ Sec.data :: [Sec.other 5 []]) ++ [3, 3]) = .ok [(7 : Fr), 4] := by
  rw [C27_js_inverts_format [3, 3] ⟨by simp, by simp, by simp, by simp⟩ ⟨by simp, ?_, by simp⟩ (by simp) (by simp) (by simp)
    (by simp [fileBytes, Sec.bytes, Sec.payload])]
  · have h4 : leNat (leBytes 32 (frModulus + 4)) = frModulus + 4 := leNat_leBytes_of_lt (by unfold frModulus; norm_num)
    have h7 : leNat (leBytes 32 7) = 7 := leNat_leBytes_of_lt (by norm_num)
    simp only [List.map_cons, List.map_nil]
    rw [List.take_of_length_le (by simp), List.take_of_length_le (by simp), h4, h7]
    have hz : ((frModulus : ℕ) : Fr) = 0 := ZMod.natCast_self frModulus
    push_cast
    rw [hz, zero_add]
  · intro t p h
    simp at h
    rcases h with ⟨rfl, rfl⟩ | ⟨rfl, rfl⟩ <;> simp

/-! ## C28 -/

/-- **C28** — exact cause of non-termination. If `parse_witness` does not return on a byte string below 2 GiB, then no number of
loop iterations is enough, and it has met a data section while its field size was 0 (no header section before it, or one announcing
field size 0). -/
theorem C28_hang_cause (data : Bytes) (hl : data.length < 2 ^ 31) (h : jsParseWtns data = .error .hang) :
    (∀ fuel, jsParseWtnsFuel fuel data = .error .hang) ∧
    ∃ k pos, k < leNat (slice data 8 4) ∧ JsSectionAt data k pos 0 ∧ typeAt data pos = 2 ∧ pos + 12 ≤ data.length := by
  have hp : wtnsPreamble data := by
    by_contra hc
    unfold jsParseWtns jsParseWtnsFuel at h
    split at h
    · simp [Res.fail] at h
    · rename_i hm
      rw [not_or, not_lt, not_not] at hm
      rcases jsAt32_cases data 4 with e | ⟨e, b⟩
      · rw [e] at h; simp at h
      rw [e, Res.ok_bind] at h
      split at h
      · simp [Res.fail] at h
      · rename_i hv
        rw [not_not] at hv
        rcases jsAt32_cases data 8 with e' | ⟨e', b'⟩
        · rw [e'] at h; simp at h
        exact hc ⟨by omega, hm.2, hv⟩
  unfold jsParseWtns at h
  rw [jsParseWtnsFuel_eq _ hp] at h
  obtain ⟨⟨j, p, -, h2, h3, h4, h5, -⟩, hall⟩ := jsWtnsSections_hang hl _ 0 12 0 [] JsSectionAt.first (by decide) h
  refine ⟨fun fuel => ?_, j, p, by omega, h3, h4, h5⟩
  rw [jsParseWtnsFuel_eq _ hp]
  exact hall fuel

/-- **C28** — and such a file never makes the parser return: if the first data section met has field size 0 (and its announced end
does not wrap around), the loop runs forever. -/
theorem C28_hangs (data : Bytes) (hl : data.length < 2 ^ 31) (hmagic : data.take 4 = [119, 116, 110, 115])
    (hver : (data.drop 4).take 4 = [2, 0, 0, 0]) (h12 : 12 ≤ data.length) {k pos : Nat} (hk : k < leNat (slice data 8 4))
    (hat : JsSectionAt data k pos 0) (hty : typeAt data pos = 2) (hin : pos + 12 ≤ data.length)
    (hsz : pos + 12 + sizeAt data pos < 2 ^ 32)
    (hfirst : ∀ j p m, j < k → JsSectionAt data j p m → typeAt data p ≠ 2) (fuel : Nat) :
    jsParseWtnsFuel fuel data = .error .hang := by
  have hp : wtnsPreamble data := ⟨h12, by simpa [slice] using hmagic, by unfold slice; rw [hver]; rfl⟩
  rw [jsParseWtnsFuel_eq _ hp]
  obtain ⟨r, hr⟩ : ∃ r, leNat (slice data 8 4) = k + (r + 1) := ⟨leNat (slice data 8 4) - k - 1, by omega⟩
  rw [hr, jsWtnsSections_walk hat hfirst]
  have h2 : leNat (slice data pos 4) = 2 := hty
  have hsz' : pos + 12 + leNat (slice data (pos + 4) 8) < 2 ^ 32 := hsz
  simp only [jsWtnsSections, jsAt32, jsAt64]
  rw [if_pos (by omega), if_pos (by omega)]
  simp only [Res.ok_bind, h2, if_neg (show ¬ 2 = 1 by decide), if_true, sectionEnd_mod]
  rw [jsWtnsValues_zero (by rw [Nat.mod_eq_of_lt hsz']; omega) (by omega) (by omega)]
  rfl

/-- **C28** — in particular: a well-formed file with its data section first (which the CLI accepts, C26) is never finished by the
JS parser. -/
theorem C28_data_first_hangs {c : Content} {post : List Sec} (tail : Bytes) (hs : SecsFit c (Sec.data :: post))
    (hlen : (fileBytes c (Sec.data :: post) ++ tail).length < 2 ^ 31) (fuel : Nat) :
    jsParseWtnsFuel fuel (fileBytes c (Sec.data :: post) ++ tail) = .error .hang := by
  obtain ⟨hp, hn, ha⟩ := wtns_file_pieces c _ hs.count tail
  rw [List.map_cons, List.flatten_cons] at ha
  obtain ⟨a1, -⟩ := At.append.1 ha
  have hb := a1.1
  obtain ⟨e1, e2, e3, e4, e5⟩ := secHeader_at hlen (by decide) a1
  rw [jsParseWtnsFuel_eq _ hp, hn, List.length_cons]
  simp only [jsWtnsSections, e1, e2, Res.ok_bind, e4, Sec.ty, if_neg (show ¬ 2 = 1 by decide), if_true]
  rw [jsWtnsValues_zero (by omega) (by omega) (by omega)]
  rfl

/-- Example: such a file, which the CLI parses without complaint. -/
example : (∀ fuel, jsParseWtnsFuel fuel (fileBytes ⟨[7], [[1], [2]]⟩ [Sec.data, Sec.header] ++ []) = .error .hang) ∧
    cliParseWtns (fileBytes ⟨[7], [[1], [2]]⟩ [Sec.data, Sec.header] ++ []) = .ok ⟨[7], 2, [[1], [2]]⟩ :=
  ⟨C28_data_first_hangs [] ⟨by simp, by simp, by simp⟩ (by simp [fileBytes, Sec.bytes, Sec.payload]),
   C26_cli_inverts_format [] ⟨by simp, by simp, by simp, by simp⟩ ⟨by simp, by simp, by simp⟩ (by simp) (by simp) (by simp)⟩

/-- Fewer than 4 bytes or another magic: a reported error. -/
theorem C28_bad_magic (data : Bytes) (h : data.take 4 ≠ [119, 116, 110, 115]) :
    jsParseWtns data = .error (.err "Invalid witness file: wrong magic") := by
  unfold jsParseWtns jsParseWtnsFuel
  rw [if_pos]
  · rfl
  · right
    simpa [slice] using h

/-- **C28** — every file cut inside its 12-byte preamble after the magic panics (unless the version field is complete and wrong,
which is reported as an error). -/
theorem C28_preamble_cut_panics (data : Bytes) (hmagic : data.take 4 = [119, 116, 110, 115]) (hlen : data.length < 12)
    (hver : 8 ≤ data.length → (data.drop 4).take 4 = [2, 0, 0, 0]) : jsParseWtns data = .error .panic := by
  have h4 : 4 ≤ data.length := by
    have := congrArg List.length hmagic
    simp at this
    omega
  unfold jsParseWtns jsParseWtnsFuel
  rw [if_neg (by rw [not_or]; exact ⟨by omega, by simpa [slice] using hmagic⟩)]
  by_cases h8 : 8 ≤ data.length
  · have hv : leNat (slice data 4 4) = 2 := by unfold slice; rw [hver h8]; rfl
    simp only [jsAt32, if_pos (show 4 + 4 ≤ data.length by omega), Res.ok_bind, hv]
    rw [if_neg (show ¬ 8 + 4 ≤ data.length by omega)]
    simp [Res.panic]
  · rw [jsAt32_beyond (by omega)]
    rfl

/-- **C28** — every strict prefix (of at least 4 bytes) of a well-formed file that ends with its data section, with values of at
most 32 bytes, makes the parser panic instead of reporting an error. -/
theorem C28_strict_prefix_panics {c : Content} {pre : List Sec} {k : Nat} (hf : Fits c) (hfs : c.prime.length ≤ 32)
    (hs : SecsFit c (pre ++ [Sec.data])) (hh : Sec.header ∈ pre) (hpre : Sec.data ∉ pre)
    (hlen : (fileBytes c (pre ++ [Sec.data])).length < 2 ^ 31) (h4 : 4 ≤ k) (hk : k < (fileBytes c (pre ++ [Sec.data])).length) :
    jsParseWtns ((fileBytes c (pre ++ [Sec.data])).take k) = .error .panic := by
  obtain ⟨hp, hn, ha⟩ := wtns_file_pieces c _ hs.count []
  rw [List.append_nil] at hp hn ha
  have htl : ((fileBytes c (pre ++ [Sec.data])).take k).length = k := by rw [List.length_take]; omega
  by_cases h12 : k < 12
  · refine C28_preamble_cut_panics _ ?_ (by omega) ?_
    · rw [List.take_take, Nat.min_eq_left h4]; exact hp.2.1
    · intro h8
      rw [List.drop_take, List.take_take, Nat.min_eq_left (by omega)]
      rfl
  · have hp' : wtnsPreamble ((fileBytes c (pre ++ [Sec.data])).take k) := by
      refine ⟨by omega, ?_, ?_⟩
      · rw [slice_take (by omega)]; exact hp.2.1
      · rw [slice_take (by omega)]; exact hp.2.2
    unfold jsParseWtns
    rw [jsParseWtnsFuel_eq _ hp', slice_take (by omega), hn, List.length_append]
    have hfl := wtns_fileBytes_length c (pre ++ [Sec.data])
    refine jsWtnsSections_cut hf hfs hlen (fuel := 2 ^ 32 + 1) (by have := hf.count; omega) pre (fun t p h => ?_) 12 0 [] false (by simp)
      (dataAfterHeader_append _ _ _ (Or.inr hh) hpre ⟨rfl, trivial⟩) ha k (by omega) (by omega)
    obtain ⟨h1, h2, h3, -⟩ := hs.other t p (by simp [h])
    exact ⟨h1, h2, h3⟩

/-- Example: cut in the middle of the values. -/
example : jsParseWtns ((fileBytes ⟨[7], [[1], [2]]⟩ ([Sec.header] ++ [Sec.data])).take 46) = .error .panic :=
  C28_strict_prefix_panics ⟨by simp, by simp, by simp, by simp⟩ (by simp) ⟨by simp, by simp, by simp⟩ (by simp) (by simp)
    (by simp [fileBytes, Sec.bytes, Sec.payload]) (by decide) (by simp [fileBytes, Sec.bytes, Sec.payload])

/-! ## C29 -/

/-- **C29** — the two tools on the same well-formed file with 32-byte values: the JS parser always succeeds and reduces modulo `p`;
the CLI succeeds, with the same values, exactly when every stored value is below `p`. -/
theorem C29_tools_compared {c : Content} {pre post : List Sec} (tail : Bytes) (hf : Fits c) (hprime : c.prime.length = 32)
    (hne : c.values ≠ []) (hs : SecsFit c (pre ++ Sec.data :: post)) (hh : Sec.header ∈ pre) (hpre : Sec.data ∉ pre)
    (hpost : Sec.data ∉ post) (hlen : (fileBytes c (pre ++ Sec.data :: post) ++ tail).length < 2 ^ 31) :
    jsParseWtns (fileBytes c (pre ++ Sec.data :: post) ++ tail) = .ok (c.values.map fun v => ((leNat v : Nat) : Fr)) ∧
    ((∀ v ∈ c.values, leNat v < frModulus) →
      (do let w ← cliParseWtns (fileBytes c (pre ++ Sec.data :: post) ++ tail); w.toFieldElements) =
        .ok (c.values.map fun v => ((leNat v : Nat) : Fr))) ∧
    ((∃ v ∈ c.values, frModulus ≤ leNat v) →
      ∃ m, (do let w ← cliParseWtns (fileBytes c (pre ++ Sec.data :: post) ++ tail); w.toFieldElements) = .error (.err m)) := by
  have hv32 : ∀ v ∈ c.values, v.length = 32 := fun v hv => by rw [hf.len v hv, hprime]
  have hcli := C26_cli_inverts_format tail hf hs (by simp [hh]) (by simp) hne
  refine ⟨?_, fun hlt => ?_, fun ⟨v, hv, hge⟩ => ?_⟩
  · rw [C27_js_inverts_format tail hf hs hh hpre hpost hlen]
    congr 1
    refine List.map_congr_left fun v hv => ?_
    rw [List.take_of_length_le (by rw [hv32 v hv])]
  · rw [hcli, Res.ok_bind, C26_to_field_elements]
    refine ⟨by simp, ?_⟩
    intro p hp
    rw [List.mem_iff_getElem] at hp
    obtain ⟨i, hi, rfl⟩ := hp
    simp only [List.getElem_zip, List.getElem_map]
    have hm := List.getElem_mem (l := c.values) (n := i) (by simp at hi; omega)
    refine ⟨by rw [hv32 _ hm], ?_⟩
    rw [List.take_of_length_le (by rw [hv32 _ hm]), ZMod.val_natCast, Nat.mod_eq_of_lt (hlt _ hm)]
  · rw [hcli, Res.ok_bind]
    refine C26_noncanonical_rejected ⟨c.prime, c.values.length, c.values⟩ v hv ?_
    right
    rw [List.take_of_length_le (by rw [hv32 _ hv])]
    exact hge

/-! ## C30 -/

theorem leNat_bigIntLeBytes (n : Nat) (v : Int) : (leNat (bigIntLeBytes n v) : Int) = v % 256 ^ n := by
  induction n generalizing v with
  | zero => simp [bigIntLeBytes, leNat, Int.emod_one]
  | succ n ih =>
    simp only [bigIntLeBytes, leNat]
    have h0 := Int.emod_nonneg v (show (256 : Int) ≠ 0 by decide)
    have h1 := Int.emod_lt_of_pos v (show (0 : Int) < 256 by decide)
    have hb : (UInt8.ofNat (v % 256).toNat).toNat = (v % 256).toNat := by
      rw [UInt8.toNat_ofNat']
      exact Nat.mod_eq_of_lt (by omega)
    rw [hb]
    push_cast
    rw [ih, Int.toNat_of_nonneg h0, pow_succ, mul_comm ((256 : Int) ^ n) 256]
    have hm : (0 : Int) < 256 ^ n := by positivity
    have h2 := Int.emod_nonneg (v / 256) (ne_of_gt hm)
    have h3 := Int.emod_lt_of_pos (v / 256) hm
    have h4 := Int.mul_ediv_add_emod v 256
    have h5 := Int.mul_ediv_add_emod (v / 256) (256 ^ n)
    generalize (256 : Int) ^ n = m at *
    have h6 : v = (v % 256 + 256 * (v / 256 % m)) + 256 * m * (v / 256 / m) := by
      rw [mul_assoc]; omega
    have h7 : v % (256 * m) = ((v % 256 + 256 * (v / 256 % m)) + 256 * m * (v / 256 / m)) % (256 * m) := congrArg (· % (256 * m)) h6
    have h8 : (v % 256 + 256 * (v / 256 % m)) % (256 * m) = v % 256 + 256 * (v / 256 % m) :=
      Int.emod_eq_of_lt (by omega) (by omega)
    rw [h7, Int.add_mul_emod_self_left, h8]

@[simp] theorem bigIntLeBytes_length (n : Nat) (v : Int) : (bigIntLeBytes n v).length = n := by
  induction n generalizing v with
  | zero => rfl
  | succ n ih => simp [bigIntLeBytes, ih]

theorem leNat_bigInt32 (v : Int) : leNat (bigIntToLeBytes32 v) = (v % 2 ^ 256).toNat := by
  have := leNat_bigIntLeBytes 32 v
  rw [show (256 : Int) ^ 32 = 2 ^ 256 by norm_num] at this
  unfold bigIntToLeBytes32
  omega

theorem serializeWitnessSimple_file (w : List Int) :
    serializeWitnessSimple w = fileBytes ⟨bigIntToLeBytes32 frModulus, w.map bigIntToLeBytes32⟩ ([Sec.header] ++ Sec.data :: []) ++ [] := by
  have hl : ((w.map bigIntToLeBytes32).flatten).length = w.length * 32 := by
    rw [List.length_flatten, List.map_map, List.map_congr_left (g := fun _ => 32) (fun v _ => by simp [bigIntToLeBytes32])]
    simp
  simp only [serializeWitnessSimple, fileBytes, Sec.bytes, Sec.payload, Sec.ty, List.cons_append, List.nil_append, List.map_cons,
    List.map_nil, List.flatten_cons, List.flatten_nil, List.append_nil, List.length_cons, List.length_nil, List.length_append,
    List.length_map, hl, List.append_assoc, u32le_length, bigIntToLeBytes32, bigIntLeBytes_length]

theorem serializeWitnessSimple_length (w : List Int) : (serializeWitnessSimple w).length = 76 + 32 * w.length := by
  have hl : ((w.map bigIntToLeBytes32).flatten).length = w.length * 32 := by
    rw [List.length_flatten, List.map_map, List.map_congr_left (g := fun _ => 32) (fun v _ => by simp [bigIntToLeBytes32])]
    simp
  simp only [serializeWitnessSimple, List.length_append, hl, u32le_length, u64le_length, List.length_cons, List.length_nil,
    bigIntToLeBytes32, bigIntLeBytes_length] at *
  omega

theorem serializeWitnessSimple_fits (w : List Int) (hw : 76 + 32 * w.length < 2 ^ 31) :
    Fits ⟨bigIntToLeBytes32 frModulus, w.map bigIntToLeBytes32⟩ ∧
    SecsFit ⟨bigIntToLeBytes32 frModulus, w.map bigIntToLeBytes32⟩ ([Sec.header] ++ Sec.data :: []) := by
  have hl : ((w.map bigIntToLeBytes32).flatten).length = w.length * 32 := by
    rw [List.length_flatten, List.map_map, List.map_congr_left (g := fun _ => 32) (fun v _ => by simp [bigIntToLeBytes32])]
    simp
  refine ⟨⟨by simp [bigIntToLeBytes32], by simp [bigIntToLeBytes32], by simp; omega, ?_⟩, ⟨by simp, by simp, by simp only [hl]; omega⟩⟩
  intro v hv
  simp only [List.mem_map] at hv
  obtain ⟨x, -, rfl⟩ := hv
  simp [bigIntToLeBytes32]

/-- **C30** — the bytes JS `encap` makes of a list of integers parse back (JS) to the integers modulo `2^256` modulo `p`, in order. -/
theorem C30_roundtrip (w : List Int) (hw : 76 + 32 * w.length < 2 ^ 31) :
    jsParseWtns (serializeWitnessSimple w) = .ok (w.map fun v => (((v % 2 ^ 256).toNat : Nat) : Fr)) := by
  have hlen := serializeWitnessSimple_length w
  obtain ⟨h1, h2⟩ := serializeWitnessSimple_fits w hw
  rw [serializeWitnessSimple_file] at hlen ⊢
  rw [C27_js_inverts_format [] h1 h2 (by simp) (by simp) (by simp) (by rw [hlen]; exact hw)]
  rw [List.map_map]
  refine congrArg Except.ok (List.map_congr_left fun v _ => ?_)
  have hv : (bigIntToLeBytes32 v).length ≤ 32 := by simp [bigIntToLeBytes32]
  simp only [Function.comp]
  rw [List.take_of_length_le hv, leNat_bigInt32]

/-- **C30** — for integers in `[0, p)` these are the integers themselves. -/
theorem C30_canonical (w : List Int) (hw : 76 + 32 * w.length < 2 ^ 31) (hr : ∀ v ∈ w, 0 ≤ v ∧ v < frModulus) :
    ∃ xs, jsParseWtns (serializeWitnessSimple w) = .ok xs ∧ xs.map (fun x => (x.val : Int)) = w := by
  refine ⟨_, C30_roundtrip w hw, ?_⟩
  rw [List.map_map]
  conv => rhs; rw [← List.map_id w]
  refine List.map_congr_left fun v hv => ?_
  obtain ⟨h1, h2⟩ := hr v hv
  have h3 := frModulus_lt
  have h4 : v % 2 ^ 256 = v := Int.emod_eq_of_lt h1 (by
    have : (frModulus : Int) < 2 ^ 256 := by exact_mod_cast h3
    omega)
  simp only [Function.comp, h4, id, ZMod.val_natCast]
  rw [Nat.mod_eq_of_lt (by omega)]
  omega

/-- **C30** — a negative integer `-k` becomes `2^256 - k` modulo `p`, which is not `p - k`. -/
theorem C30_negative : jsParseWtns (serializeWitnessSimple [1, -1]) = .ok [1, ((2 ^ 256 - 1 : Nat) : Fr)] ∧
    ((2 ^ 256 - 1 : Nat) : Fr) ≠ -1 := by
  constructor
  · rw [C30_roundtrip _ (by simp)]
    norm_num
  · intro h
    have h1 : ((2 ^ 256 : Nat) : Fr) = 0 := by
      have : ((2 ^ 256 : Nat) : Fr) = ((2 ^ 256 - 1 : Nat) : Fr) + 1 := by
        rw [← Nat.cast_succ]
        norm_num
      rw [this, h]; ring
    rw [ZMod.natCast_eq_zero_iff] at h1
    revert h1
    unfold frModulus
    norm_num

/-! ## C31 -/

theorem leNat_limbs (l : List Nat) (h : ∀ d ∈ l, d < 2 ^ 32) :
    leNat (l.map u32le).flatten = fromArray32 l.reverse := by
  induction l with
  | nil => rfl
  | cons d l ih =>
    simp only [List.map_cons, List.flatten_cons, leNat_append, u32le_length, List.reverse_cons, fromArray32, List.foldl_append,
      List.foldl_cons, List.foldl_nil]
    rw [leNat_u32le (h d (by simp)), ih (fun x hx => h x (by simp [hx]))]
    unfold fromArray32
    ring

theorem toU32_lt (x : Int) : toU32 x < 2 ^ 32 := by
  unfold toU32
  have h0 := Int.emod_nonneg x (show (2 ^ 32 : Int) ≠ 0 by decide)
  have h1 := Int.emod_lt_of_pos x (show (0 : Int) < 2 ^ 32 by decide)
  omega

theorem limbBytes_length (n : Nat) (f : Nat → Int) : (limbBytes n f).length = 4 * n := by
  unfold limbBytes
  rw [List.length_flatten, List.map_map, List.map_congr_left (g := fun _ => 4) (fun v _ => by simp)]
  simp; omega

theorem leNat_limbBytes (n : Nat) (f : Nat → Int) :
    leNat (limbBytes n f) = fromArray32 (((List.range n).map fun j => toU32 (f j)).reverse) := by
  have := leNat_limbs ((List.range n).map fun j => toU32 (f j)) (by
    intro d hd
    simp only [List.mem_map] at hd
    obtain ⟨j, -, rfl⟩ := hd
    exact toU32_lt _)
  rw [← this, List.map_map]
  rfl

/-- Contents written by `calculateWTNSBin`. -/
def calcContent (x : CalcExports) : Content := ⟨limbBytes x.n32 x.prime, (List.range x.witnessSize).map fun i => limbBytes x.n32 (x.witness i)⟩

theorem calcContent_flatten (x : CalcExports) : (calcContent x).values.flatten.length = x.n32 * 4 * x.witnessSize := by
  simp only [calcContent]
  rw [List.length_flatten, List.map_map, List.map_congr_left (g := fun _ => 4 * x.n32) (fun v _ => by simp [limbBytes_length])]
  simp; ring

theorem calcWtnsBin_file (x : CalcExports) :
    calcWtnsBin x = fileBytes (calcContent x) ([Sec.header] ++ Sec.data :: []) ++ [] := by
  have hl := calcContent_flatten x
  simp only [calcContent] at hl
  simp only [calcWtnsBin, fileBytes, Sec.bytes, Sec.payload, Sec.ty, List.cons_append, List.nil_append, List.map_cons,
    List.map_nil, List.flatten_cons, List.flatten_nil, List.append_nil, List.length_cons, List.length_nil, List.length_append,
    List.length_map, hl, List.append_assoc, u32le_length, calcContent, limbBytes_length, List.length_range, calcBin]
  rw [show 4 + (4 * x.n32 + 4) = 8 + x.n32 * 4 by ring, show 4 * x.n32 = x.n32 * 4 by ring]

theorem calcWtnsBin_length (x : CalcExports) : (calcWtnsBin x).length = 4 * (x.witnessSize * x.n32 + x.n32 + 11) := by
  have hl := calcContent_flatten x
  simp only [calcContent] at hl
  simp only [calcWtnsBin, List.length_append, calcBin, hl, u32le_length, u64le_length, List.length_cons, List.length_nil,
    limbBytes_length]
  ring

theorem calcContent_fits (x : CalcExports) (h0 : 0 < x.n32) (hlen : (calcWtnsBin x).length < 2 ^ 31) :
    Fits (calcContent x) ∧ SecsFit (calcContent x) ([Sec.header] ++ Sec.data :: []) := by
  rw [calcWtnsBin_length] at hlen
  have hl := calcContent_flatten x
  have hle : x.witnessSize * 1 ≤ x.witnessSize * x.n32 := Nat.mul_le_mul_left _ h0
  have hcm : x.n32 * 4 * x.witnessSize = 4 * (x.witnessSize * x.n32) := by ring
  refine ⟨⟨?_, ?_, ?_, ?_⟩, ⟨by simp, by simp, by rw [hl]; omega⟩⟩
  · simp only [calcContent, limbBytes_length]; omega
  · simp only [calcContent, limbBytes_length]; omega
  · simp only [calcContent, List.length_map, List.length_range]; omega
  · intro v hv
    simp only [calcContent, List.mem_map] at hv
    obtain ⟨i, -, rfl⟩ := hv
    simp only [calcContent, limbBytes_length]

/-- **C31** — the `.wtns` bytes the witness calculator returns have the announced buffer length, and both parsers read from them
exactly the values that `calculateWitness` returns (8 limbs, i.e. BN254), provided these are field elements; the CLI needs at least
one value. -/
theorem C31_calculator_output (x : CalcExports) (hn : x.n32 = 8) (hlen : (calcWtnsBin x).length < 2 ^ 31)
    (hcanon : ∀ v ∈ calcWitness x, v < frModulus) :
    (calcWtnsBin x).length = 4 * (x.witnessSize * x.n32 + x.n32 + 11) ∧
    jsParseWtns (calcWtnsBin x) = .ok ((calcWitness x).map fun v => ((v : Nat) : Fr)) ∧
    (0 < x.witnessSize → (do let w ← cliParseWtns (calcWtnsBin x); w.toFieldElements) =
      .ok ((calcWitness x).map fun v => ((v : Nat) : Fr))) := by
  obtain ⟨h1, h2⟩ := calcContent_fits x (by omega) hlen
  have hvals : ((calcContent x).values.map fun v => ((leNat v : Nat) : Fr)) = (calcWitness x).map fun v => ((v : Nat) : Fr) := by
    simp only [calcContent, calcWitness, List.map_map]
    refine List.map_congr_left fun i _ => ?_
    simp only [Function.comp, leNat_limbBytes]
  have hp : (calcContent x).prime.length = 32 := by simp only [calcContent, limbBytes_length]; omega
  refine ⟨calcWtnsBin_length x, ?_⟩
  rw [calcWtnsBin_file] at hlen ⊢
  constructor
  · rw [C27_js_inverts_format [] h1 h2 (by simp) (by simp) (by simp) hlen, ← hvals]
    congr 1
    refine List.map_congr_left fun v hv => ?_
    rw [List.take_of_length_le (by rw [h1.len v hv, hp])]
  · intro hw
    have hne : (calcContent x).values ≠ [] := by
      simp only [calcContent, ne_eq, List.map_eq_nil_iff, List.range_eq_nil]; omega
    rw [(C29_tools_compared [] h1 hp hne h2 (by simp) (by simp) (by simp) hlen).2.1, hvals]
    intro v hv
    refine hcanon _ ?_
    simp only [calcContent, List.mem_map] at hv
    obtain ⟨i, hi, rfl⟩ := hv
    simp only [calcWitness, List.mem_map]
    exact ⟨i, hi, (leNat_limbBytes _ _).symm⟩

/-- Example: a calculator with three witness values `1, 2^32 + 5, 7`; wasm hands out limbs as signed numbers. -/
example : ∃ x : CalcExports, x.n32 = 8 ∧ (calcWtnsBin x).length < 2 ^ 31 ∧ (∀ v ∈ calcWitness x, v < frModulus) ∧
    calcWitness x = [1, 2 ^ 32 + 5, 2 ^ 32 - 7] := by
  refine ⟨⟨8, fun _ => 0, 3, fun i j => if i = 0 then (if j = 0 then 1 else 0) else if i = 1 then
    (if j = 0 then 5 else if j = 1 then 1 else 0) else if j = 0 then -7 else 0⟩, rfl, ?_, ?_⟩
  · rw [calcWtnsBin_length]; decide
  · have : calcWitness ⟨8, fun _ => 0, 3, fun i j => if i = 0 then (if j = 0 then 1 else 0) else if i = 1 then
      (if j = 0 then 5 else if j = 1 then 1 else 0) else if j = 0 then -7 else 0⟩ = [1, 2 ^ 32 + 5, 2 ^ 32 - 7] := by decide
    rw [this]
    refine ⟨?_, rfl⟩
    intro v hv
    simp only [List.mem_cons, List.not_mem_nil, or_false] at hv
    unfold frModulus
    omega

theorem toArray32Digits_spec (rem : Nat) (res : List Nat) :
    ∃ ds, toArray32Digits rem res = ds ++ res ∧ fromArray32 ds = rem ∧ (∀ d ∈ ds, d < 2 ^ 32) ∧
      (∀ s, rem < 2 ^ (32 * s) → ds.length ≤ s) := by
  induction rem using Nat.strong_induction_on generalizing res with
  | _ rem ih =>
    rw [toArray32Digits]
    split
    · rename_i h
      exact ⟨[], rfl, by simp [fromArray32, h], by simp, by simp⟩
    · rename_i h
      obtain ⟨ds, h1, h2, h3, h4⟩ := ih (rem / 2 ^ 32) (Nat.div_lt_self (Nat.pos_of_ne_zero h) (by decide)) (rem % 2 ^ 32 :: res)
      refine ⟨ds ++ [rem % 2 ^ 32], by rw [h1]; simp, ?_, ?_, ?_⟩
      · unfold fromArray32 at h2 ⊢
        rw [List.foldl_append, h2]
        simp only [List.foldl_cons, List.foldl_nil]
        exact Nat.div_add_mod' rem (2 ^ 32)
      · intro d hd
        rcases List.mem_append.1 hd with hd | hd
        · exact h3 d hd
        · simp only [List.mem_singleton] at hd
          rw [hd]; exact Nat.mod_lt _ (by decide)
      · intro s hs
        cases s with
        | zero => simp at hs; omega
        | succ s =>
          have := h4 s (by
            rw [Nat.div_lt_iff_lt_mul (by decide)]
            rwa [show 2 ^ (32 * s) * 2 ^ 32 = 2 ^ (32 * (s + 1)) by rw [← Nat.pow_add]; congr 1])
          simp; omega

theorem fromArray32_append_zeros (n : Nat) (l : List Nat) : fromArray32 (List.replicate n 0 ++ l) = fromArray32 l := by
  unfold fromArray32
  rw [List.foldl_append]
  congr 1
  induction n with
  | zero => rfl
  | succ n ih => simpa [List.replicate_succ] using ih

theorem fromArray32_inj (a b : List Nat) (hl : a.length = b.length) (ha : ∀ d ∈ a, d < 2 ^ 32) (hb : ∀ d ∈ b, d < 2 ^ 32)
    (h : fromArray32 a = fromArray32 b) : a = b := by
  rw [← List.reverse_reverse a, ← List.reverse_reverse b] at h
  rw [← leNat_limbs a.reverse (by simpa using ha), ← leNat_limbs b.reverse (by simpa using hb)] at h
  have hlen : ∀ l : List Nat, (l.map u32le).flatten.length = 4 * l.length := by
    intro l
    rw [List.length_flatten, List.map_map, List.map_congr_left (g := fun _ => 4) (fun v _ => by simp)]
    simp; omega
  have h2 := leNat_inj (by rw [hlen, hlen]; simp [hl]) h
  have h3 : ∀ (a b : List Nat), a.length = b.length → (∀ d ∈ a, d < 2 ^ 32) → (∀ d ∈ b, d < 2 ^ 32) →
      (a.map u32le).flatten = (b.map u32le).flatten → a = b := by
    intro a
    induction a with
    | nil => intro b h _ _ _; cases b with
      | nil => rfl
      | cons _ _ => simp at h
    | cons x a ih => intro b h1 h2 h3 h4; cases b with
      | nil => simp at h1
      | cons y b =>
        simp only [List.map_cons, List.flatten_cons] at h4
        have := List.append_inj h4 (by simp)
        have hxy := leBytes_inj (by simpa using h2 x (by simp)) (by simpa using h3 y (by simp)) this.1
        rw [hxy, ih b (by simpa using h1) (fun d hd => h2 d (by simp [hd])) (fun d hd => h3 d (by simp [hd])) this.2]
  have := h3 _ _ (by simp [hl]) (by simpa using ha) (by simpa using hb) h2
  simpa using congrArg List.reverse this

/-- **C31** — the limb conversions are mutually inverse: an integer below `2^(32·size)` survives `toArray32` then `fromArray32`
(and gets exactly `size` limbs below `2^32`), and a list of `size` limbs survives `fromArray32` then `toArray32`. -/
theorem C31_limbs_inverse :
    (∀ v size, v < 2 ^ (32 * size) → fromArray32 (toArray32 v size) = v ∧ (toArray32 v size).length = size ∧
      ∀ d ∈ toArray32 v size, d < 2 ^ 32) ∧
    (∀ l : List Nat, (∀ d ∈ l, d < 2 ^ 32) → toArray32 (fromArray32 l) l.length = l) := by
  have first : ∀ v size, v < 2 ^ (32 * size) → fromArray32 (toArray32 v size) = v ∧ (toArray32 v size).length = size ∧
      ∀ d ∈ toArray32 v size, d < 2 ^ 32 := by
    intro v size hv
    obtain ⟨ds, h1, h2, h3, h4⟩ := toArray32Digits_spec v []
    have h5 := h4 size hv
    rw [List.append_nil] at h1
    simp only [toArray32, h1]
    refine ⟨by rw [fromArray32_append_zeros, h2], by simp; omega, ?_⟩
    intro d hd
    rcases List.mem_append.1 hd with hd | hd
    · rw [List.mem_replicate] at hd
      omega
    · exact h3 d hd
  refine ⟨first, ?_⟩
  intro l hl
  have hlt : fromArray32 l < 2 ^ (32 * l.length) := by
    rw [← List.reverse_reverse l, ← leNat_limbs _ (by simpa using hl)]
    refine lt_of_lt_of_le (leNat_lt _) ?_
    have : ((l.reverse.map u32le).flatten).length = 4 * l.length := by
      rw [List.length_flatten, List.map_map, List.map_congr_left (g := fun _ => 4) (fun v _ => by simp)]
      simp; omega
    rw [this, List.length_reverse, List.length_reverse, show (256 : Nat) = 2 ^ 8 by norm_num, ← Nat.pow_mul]
    exact Nat.pow_le_pow_right (by decide) (by omega)
  obtain ⟨h1, h2, h3⟩ := first _ _ hlt
  exact fromArray32_inj _ _ h2 h3 hl h1

/-- Example. -/
example : toArray32 (5 * 2 ^ 32 + 3) 4 = [0, 0, 5, 3] := by
  have := C31_limbs_inverse.2 [0, 0, 5, 3] (by decide)
  simpa [fromArray32] using this

end Zkenc.Props
