import Verif.Props.EndToEndKem
import Verif.Props.EndToEndOutcome
import Verif.Props.WitnessCalc
import Verif.Props.WtnsParseJs
import Verif.Spec.Compiled
/-!
# C58, C59: the whole JS flow, from input objects to the message
-/

namespace Zkenc.Props

open Zkenc Zkenc.Spec Zkenc.InputSpec CalcSpec

/-! ## Leaves -/

theorem leaves_of_leaf {v : JsVal} (h : JsLeaf v) : CalcSpec.leaves v = [v] := by
  cases v <;> simp [CalcSpec.leaves, JsLeaf] at *

theorem leavesList_of_leaves {l : List JsVal} (h : ∀ y ∈ l, JsLeaf y) : leavesList l = l := by
  induction l with
  | nil => simp [leavesList]
  | cons y l ih =>
    rw [leavesList, leaves_of_leaf (h y (by simp)), ih fun z hz => h z (by simp [hz])]
    rfl

theorem leavesList_length {l : List JsVal} {n : Nat} (h : ∀ y ∈ l, (CalcSpec.leaves y).length = n) : (leavesList l).length = l.length * n := by
  induction l with
  | nil => simp [leavesList]
  | cons y l ih =>
    rw [leavesList, List.length_append, h y (by simp), ih fun z hz => h z (by simp [hz]), List.length_cons]
    ring

theorem leavesList_get {l : List JsVal} {n : Nat} (h : ∀ y ∈ l, (CalcSpec.leaves y).length = n) (i j : Nat) (x : JsVal) (hx : l[i]? = some x)
    (hj : j < n) : (leavesList l)[i * n + j]? = (CalcSpec.leaves x)[j]? := by
  induction l generalizing i with
  | nil => simp at hx
  | cons y l ih =>
    have hy := h y (by simp)
    cases i with
    | zero =>
      simp only [List.getElem?_cons_zero, Option.some.injEq] at hx
      subst hx
      rw [leavesList, List.getElem?_append_left (by omega)]
      simp
    | succ i =>
      simp only [List.getElem?_cons_succ] at hx
      have e : (i + 1) * n + j = n + (i * n + j) := by ring
      rw [leavesList, e, ← hy, List.getElem?_append_right (by omega), hy, Nat.add_sub_cancel_left]
      exact ih (fun z hz => h z (by simp [hz])) i hx

theorem rowMajor_lt {dims path : List Nat} (h : InDims dims path) : rowMajor dims path < dims.prod := by
  induction dims generalizing path with
  | nil => cases path <;> simp [rowMajor, InDims] at *
  | cons d ds ih =>
    cases path with
    | nil => simp [InDims] at h
    | cons i is =>
      obtain ⟨h1, h2⟩ := h
      have := ih h2
      simp only [rowMajor, List.prod_cons]
      have h3 : (i + 1) * ds.prod ≤ d * ds.prod := Nat.mul_le_mul_right _ h1
      have h4 : (i + 1) * ds.prod = i * ds.prod + ds.prod := by ring
      omega

theorem hasShape_leaves {v : JsVal} {dims : List Nat} (h : HasShape v dims) :
    (CalcSpec.leaves v).length = dims.prod ∧ ∀ path y, JsAtPath v path y → InDims dims path → (CalcSpec.leaves v)[rowMajor dims path]? = some y := by
  induction dims generalizing v with
  | nil =>
    have hl : JsLeaf v := by simpa [HasShape] using h
    rw [leaves_of_leaf hl]
    refine ⟨by simp, fun path y ha hd => ?_⟩
    cases path with
    | cons i is => simp [InDims] at hd
    | nil =>
      cases ha
      rfl
  | cons d ds ih =>
    obtain ⟨l, rfl, hlen, hl⟩ := h
    have hn : ∀ y ∈ l, (CalcSpec.leaves y).length = ds.prod := fun y hy => (ih (hl y hy)).1
    rw [CalcSpec.leaves]
    refine ⟨by rw [leavesList_length hn, hlen, List.prod_cons], fun path y ha hd => ?_⟩
    cases path with
    | nil => simp [InDims] at hd
    | cons i is =>
      cases ha with
      | elem hx ha =>
        rename_i x
        obtain ⟨h1, h2⟩ := hd
        rw [rowMajor, leavesList_get hn i _ x hx (rowMajor_lt h2)]
        exact (ih (hl x (List.mem_of_getElem? hx))).2 is y ha h2

theorem forall2_get {N : JsNums} {vs : List JsVal} {zs : List Int} (h : List.Forall₂ (IsInt N) vs zs) {i : Nat} {y : JsVal} {z : Int}
    (hy : vs[i]? = some y) (hz : IsInt N y z) : zs[i]? = some z := by
  induction h generalizing i with
  | nil => simp at hy
  | cons h1 _ ih =>
    cases i with
    | zero =>
      simp only [List.getElem?_cons_zero, Option.some.injEq] at hy ⊢
      subst hy
      have := forall2_isInt_unique (List.Forall₂.cons h1 .nil) (List.Forall₂.cons hz .nil)
      simpa using this
    | succ i =>
      simp only [List.getElem?_cons_succ] at hy ⊢
      exact ih hy

/-! ## The calculator's witness -/

section
variable {σ : Type} {N : JsNums} {x : CircuitWasm σ} {r : R1csFile} {symtab : AMap Nat} {declared : List (Str × List Nat)}

/-- The witness bytes of a correctly compiled circuit fit: fewer than `2^26 - 3` wires. -/
theorem calc_len (hc : Compiled x r symtab declared) (hsmall : r.nWires < 2 ^ 26 - 8) (t : σ) : (calcWtnsBin (x.exports t)).length < 2 ^ 31 := by
  rw [calcWtnsBin_length]
  have h1 : (x.exports t).witnessSize = r.nWires := hc.size
  have h2 : (x.exports t).n32 = 8 := hc.n32
  rw [h1, h2]
  omega

/-- What a successful `calculateWitness` returned. -/
theorem calc_ok (hc : Compiled x r symtab declared) (hsmall : r.nWires < 2 ^ 26 - 8) {full : List (Str × JsVal)} {wtns : Bytes}
    (h : calculateWitness N (.ok x) full = .ok wtns) :
    ∃ vals, jsParseWtns wtns = .ok vals ∧ (0 < r.nWires → CliWitness wtns vals) ∧ Witness r vals ∧
      calculateWitnessArray N (.ok x) full = .ok (vals.map fun v => v.val) ∧
      ∀ k v dims path w y z, (k, v) ∈ full → (k, dims) ∈ declared → symtab.get ("main.".toList ++ signalName k path) = some w →
        (CalcSpec.leaves v)[rowMajor dims path]? = some y → IsInt N y z → vals[w]? = some (z : Fr) := by
  have hp : x.toCalcInst.prime ≠ 0 := by
    rw [hc.prime]; decide
  unfold calculateWitness at h
  rw [Res.ok_bind] at h
  obtain ⟨t, ht, h⟩ := Res.bind_eq_ok.1 h
  cases h
  obtain ⟨s0, h0, zss, hf, hper, hsz⟩ := (C53_accepts_iff hp _ _ _ _).1 ht
  have hlenz := hf.length_eq
  have hL : (((full.zip zss).map fun e => keySettings e.1.1 e.2).flatten).length = (zss.map List.length).sum := by
    rw [List.length_flatten, List.map_map]
    have : (List.length ∘ fun e : (Str × JsVal) × List Int => keySettings e.1.1 e.2) = fun e => e.2.length := by
      funext e; simp [keySettings]
    rw [this, zip_lengths full zss hlenz]
  obtain ⟨hcan, hw, hval⟩ := hc.run false s0 _ t h0 hper (by rw [hL]; exact hsz)
  obtain ⟨-, hjs, hcli⟩ := C31_calculator_output (x.exports t) hc.n32 (calc_len hc hsmall t) hcan
  refine ⟨witnessOf x t, hjs, ?_, hw, ?_, ?_⟩
  · intro hpos
    have := hcli (by have h1 : (x.exports t).witnessSize = r.nWires := hc.size
                     omega)
    obtain ⟨wf, g1, g2⟩ := Res.bind_eq_ok.1 this
    exact ⟨wf, g1, g2⟩
  · unfold calculateWitnessArray
    rw [Res.ok_bind, ht, Res.ok_bind]
    refine congrArg Except.ok ?_
    rw [witnessOf, List.map_map]
    conv_lhs => rw [← List.map_id (calcWitness (x.exports t))]
    refine List.map_congr_left fun v hv => ?_
    simp only [Function.comp, id]
    exact (ZMod.val_cast_of_lt (hcan v hv)).symm
  · intro k v dims path w y z hkv hk hsym hy hz
    obtain ⟨j, hj, hje⟩ := List.mem_iff_getElem.1 hkv
    have hm : (full[j], zss[j]'(by omega)) ∈ full.zip zss := List.mem_iff_getElem.2 ⟨j, by simp; omega, by simp⟩
    obtain ⟨hfo, -⟩ := (List.forall₂_iff_zip.1 hf).2 hm
    rw [hje] at hfo hm
    simp only at hfo
    have hget : (zss[j]'(by omega))[rowMajor dims path]? = some z := forall2_get hfo hy hz
    refine hval k dims path w ⟨nameHash k, rowMajor dims path, z⟩ hk hsym ?_ rfl rfl
    rw [List.mem_flatten]
    refine ⟨keySettings k (zss[j]'(by omega)), List.mem_map.2 ⟨_, hm, rfl⟩, ?_⟩
    rw [keySettings, List.mem_map]
    exact ⟨(z, rowMajor dims path), by rw [List.mem_zipIdx_iff_getElem?]; exact hget, rfl⟩

theorem _root_.Zkenc.CalcSpec.ExactNat.text {v : JsVal} {n : Nat} (h : ExactNat v n) : ∃ s, v.toStr = .ok s ∧ jsBigInt s = some (n : Int) ∧ n < 2 ^ 256 := by
  cases h with
  | num n hn => exact ⟨_, (C39_js_integers n).1, (C39_js_integers n).2.2.2, lt_of_le_of_lt hn (by norm_num)⟩
  | bigint n hn => exact ⟨_, (C39_js_integers n).2.1, (C39_js_integers n).2.2.2, hn⟩
  | str s n hs hn => exact ⟨s, by simp [JsVal.toStr, JsVal.joinText], hs, hn⟩

theorem _root_.Zkenc.CalcSpec.ExactNat.isInt {v : JsVal} {n : Nat} (h : ExactNat v n) : IsInt N v n := by
  cases h with
  | num n hn =>
    have := IsInt.num (N := N) (n : Int)
    rwa [N.big_small _ (by simpa using hn)] at this
  | bigint n hn => exact .bigint _
  | str s n hs hn => exact .str _ _ hs

theorem _root_.Zkenc.CalcSpec.ExactNat.leaf {v : JsVal} {n : Nat} (h : ExactNat v n) : JsLeaf v := by
  cases h <;> simp [JsLeaf]

/-- The calculator's witness agrees with the encryptor's inputs. -/
theorem calc_js_agrees {sym : Str} (hc : Compiled x r (jsParseSymFile sym) declared) (hsmall : r.nWires < 2 ^ 26 - 8)
    {pub full : List (Str × JsVal)} (hsub : ∀ e ∈ pub, e ∈ full) (hdecl : ∀ e ∈ pub, ∃ dims, (e.1, dims) ∈ declared)
    (hpub : ∀ e ∈ pub, PublicValue e.2) {wtns : Bytes} (h : calculateWitness N (.ok x) full = .ok wtns) :
    ∃ vals, jsParseWtns wtns = .ok vals ∧ (0 < r.nWires → CliWitness wtns vals) ∧ Witness r vals ∧
      ∀ n, JsAgrees (jsParseSymFile sym) n pub vals := by
  obtain ⟨vals, h1, h2, h3, -, h4⟩ := calc_ok hc hsmall h
  refine ⟨vals, h1, h2, h3, ?_⟩
  intro n name i v s z hres _ hg hs hz
  obtain ⟨⟨k, u⟩, he, hat⟩ := hg
  obtain ⟨dims, hd⟩ := hdecl _ he
  have hin := hsub _ he
  have close : ∀ path y m, name = signalName k path → (CalcSpec.leaves u)[rowMajor dims path]? = some y → ExactNat y m → y = v →
      vals[i]? = some (((z % 2 ^ 256).toNat : Nat) : Fr) := by
    intro path y m hname hy hm hyv
    subst hyv
    obtain ⟨s', hs', hz', hlt⟩ := hm.text
    rw [hs'] at hs; cases hs
    rw [hz'] at hz; cases hz
    have := h4 k u dims path i y m hin hd (by rw [← hname]; exact hres.1) hy hm.isInt
    rw [this]
    rw [Int.emod_eq_of_lt (by omega) (by exact_mod_cast hlt)]
    simp
  rcases hpub _ he with ⟨m, hm⟩ | ⟨l, hl, hall⟩
  · -- a single number
    simp only at hm hat
    have hleaf := hm.leaf
    cases hat with
    | elem _ => simp [JsLeaf] at hleaf
    | field _ _ => cases hm
    | scalar g1 g2 =>
      have hdims := hc.names name dims [] i hd (by simpa [signalName] using hres.1)
      have : dims = [] := by cases dims <;> simp [InDims] at *
      subst this
      exact close [] v m rfl (by rw [leaves_of_leaf hleaf]; rfl) hm rfl
  · simp only at hl hat
    subst hl
    cases hat with
    | scalar g1 g2 => exact absurd rfl (g1 _)
    | elem hx =>
      rename_i j
      obtain ⟨m, hm⟩ := hall v (List.mem_of_getElem? hx)
      have hdims := hc.names k dims [j] i hd (by simpa [signalName] using hres.1)
      obtain ⟨d, rfl⟩ : ∃ d, dims = [d] := by
        cases dims with
        | nil => simp [InDims] at hdims
        | cons d ds =>
          cases ds with
          | nil => exact ⟨d, rfl⟩
          | cons _ _ => simp [InDims] at hdims
      refine close [j] v m rfl ?_ hm rfl
      rw [CalcSpec.leaves, leavesList_of_leaves fun y hy => (hall y hy).choose_spec.leaf]
      simpa [rowMajor] using hx

theorem sameInts_at {j : Json} {v : JsVal} (h : SameInts N j v) {path : List Nat} {y : Json} (ha : AtPath j path y) :
    ∃ y', JsAtPath v path y' ∧ SameInts N y y' := by
  induction ha generalizing v with
  | here => exact ⟨v, .here v, h⟩
  | elem hx _ ih =>
    cases h with
    | arr hlen hall =>
      rename_i l i x path y _ l'
      have hi : i < l.length := (List.getElem?_eq_some_iff.1 hx).1
      obtain ⟨x', hx'⟩ : ∃ x', l'[i]? = some x' := ⟨l'[i]'(by omega), List.getElem?_eq_getElem (by omega)⟩
      obtain ⟨y', h1, h2⟩ := ih (hall i x x' hx hx')
      exact ⟨y', .elem hx' h1, h2⟩

theorem decText_unique {s : Str} {a b : Int} (ha : DecText s a) (hb : DecText s b) : a = b := by
  obtain ⟨d, t, hd, -, ha⟩ := ha
  obtain ⟨d', t', hd', -, hb⟩ := hb
  rcases ha with ⟨h1, ha⟩ | ⟨h1, ha⟩ | ⟨h1, ha⟩ <;> rcases hb with ⟨h2, hb⟩ | ⟨h2, hb⟩ | ⟨h2, hb⟩ <;> rw [h1] at h2 <;>
    simp only [List.cons.injEq] at h2
  · rw [ha, hb, h2.1, h2.2]
  · exact absurd h2.1 (by rintro rfl; revert hd; decide)
  · exact absurd h2.1 (by rintro rfl; revert hd; decide)
  · exact absurd h2.1.symm (by rintro rfl; revert hd'; decide)
  · rw [ha, hb, h2.2.1, h2.2.2]
  · exact absurd h2.1 (by decide)
  · exact absurd h2.1.symm (by rintro rfl; revert hd'; decide)
  · exact absurd h2.1 (by decide)
  · rw [ha, hb, h2.2.1, h2.2.2]

/-- The calculator's witness agrees with the inputs of the CLI. -/
theorem calc_cli_agrees (hc : Compiled x r symtab declared) (hsmall : r.nWires < 2 ^ 26 - 8)
    {entries : List (Str × Json)} {full : List (Str × JsVal)}
    (hsame : ∀ e ∈ entries, ∃ v dims, (e.1, v) ∈ full ∧ (e.1, dims) ∈ declared ∧ HasShape v dims ∧ SameInts N e.2 v)
    {wtns : Bytes} (h : calculateWitness N (.ok x) full = .ok wtns) :
    ∃ vals, jsParseWtns wtns = .ok vals ∧ (0 < r.nWires → CliWitness wtns vals) ∧ Witness r vals ∧ ∀ n, CliAgrees symtab n entries vals := by
  obtain ⟨vals, h1, h2, h3, -, h4⟩ := calc_ok hc hsmall h
  refine ⟨vals, h1, h2, h3, ?_⟩
  intro n name i a hres hg
  obtain ⟨⟨k, j⟩, he, path, y, hat, hna, rfl, hden⟩ := hg
  obtain ⟨v, dims, hin, hd, hshape, hs⟩ := hsame _ he
  obtain ⟨y', hy', hsy⟩ := sameInts_at hs hat
  have hdims := hc.names k dims path i hd hres.1
  have hleaf := (hasShape_leaves hshape).2 path y' hy' hdims
  obtain ⟨m, hm, hv⟩ : ∃ m : Nat, IsInt N y' m ∧ a = (m : Fr) := by
    cases hsy with
    | int m _ hi =>
      refine ⟨m, hi, ?_⟩
      generalize hz : (m : Int) = z at hden
      cases hden with
      | nat _ _ _ => rw [← hz]; simp
      | neg _ _ _ => omega
    | str s m _ ht hi =>
      refine ⟨m, hi, ?_⟩
      cases hden with
      | str _ z ht' => rw [decText_unique ht' ht]; simp
    | arr _ _ => exact absurd hna (by simp [NotArr])
  rw [hv, h4 k v dims path i y' m hin hd hres.1 hleaf hm]
  simp

end

section
variable {σ : Type} {N : JsNums} {x : CircuitWasm σ} {r : R1csFile} {declared : List (Str × List Nat)}
variable {G1 G2 GT : Type} [AddCommGroup G1] [Module Fr G1] [AddCommGroup G2] [Module Fr G2] [AddCommGroup GT] [Module Fr GT]
  (S : Sys G1 G2 GT)

/-- **C58** (JS encrypt → JS decrypt) — the sender encrypts for public inputs `pub`, the receiver calls `decrypt` with an input object that
contains the same public entries besides private ones. If the circuit's witness program accepts the receiver's inputs, the message comes
out; if it throws, so does `decrypt`. -/
theorem C58_js_to_js (data : Bytes) (hr : jsParseR1cs data = .ok r.toJs) (sym : Str) (pub : List (Str × JsVal))
    (hna : JsNoAlias (jsParseSymFile sym) pub) (hmax : JsSmall (jsParseSymFile sym) pub) (hpub : ∀ e ∈ pub, PublicValue e.2)
    (m : Bytes) (incl : Bool) (ρ : Rand Fr)
    (nonce : Bytes) (hn : nonce.length = 12) (hj : incl = true → ∀ s, S.stringify pub = .ok s → (utf8Enc s).length < 2 ^ 32)
    (combined key : Bytes) (henc : jsEncrypt S data sym pub m incl ρ nonce = .ok (combined, key))
    (hwf : WellFormed r) (hs : CtFits r) (hpriv : r.nPubOut + r.nPubIn + 1 < r.nWires) (hsmall : r.nWires < 2 ^ 26 - 8)
    (hc : Compiled x r (jsParseSymFile sym) declared) (hdecl : ∀ e ∈ pub, ∃ dims, (e.1, dims) ∈ declared)
    (full : List (Str × JsVal)) (hsub : ∀ e ∈ pub, e ∈ full) :
    ((∃ w, calculateWitness N (.ok x) full = .ok w) → jsDecryptApi N S data (.ok x) combined full = .ok m) ∧
    (∀ e, calculateWitness N (.ok x) full = .error e → jsDecryptApi N S data (.ok x) combined full = .error e) := by
  constructor
  · rintro ⟨w, hw⟩
    obtain ⟨vals, h1, -, h3, h4⟩ := calc_js_agrees hc hsmall hsub hdecl hpub hw
    unfold jsDecryptApi
    rw [hw]
    exact C48_js_to_js S data r hr sym pub hna hmax m incl ρ nonce hn hj combined key henc hwf hs hpriv w vals h1 h3 (h4 _)
  · intro e he
    obtain ⟨w, hw, hse⟩ := js_sealed hr hwf.fits hn hj henc
    obtain ⟨ρ', ct, ky, p, g1, -, g3, -⟩ := hse.parts hwf.fits hs (fun i hi => js_beyond hw i hi)
    unfold jsDecryptApi jsDecrypt jsDecap
    rw [g3, he]
    rfl

/-- **C58** (JS encrypt → JS calculateWitness → CLI decrypt). -/
theorem C58_js_to_cli (data : Bytes) (hd : data.length < 2 ^ 31) (hr : cliParseR1cs S.lim data = .ok r) (sym : Str) (pub : List (Str × JsVal))
    (hna : JsNoAlias (jsParseSymFile sym) pub) (hmax : JsSmall (jsParseSymFile sym) pub) (hpub : ∀ e ∈ pub, PublicValue e.2)
    (m : Bytes) (incl : Bool) (ρ : Rand Fr)
    (nonce : Bytes) (hn : nonce.length = 12) (hj : incl = true → ∀ s, S.stringify pub = .ok s → (utf8Enc s).length < 2 ^ 32)
    (combined key : Bytes) (henc : jsEncrypt S data sym pub m incl ρ nonce = .ok (combined, key))
    (hwf : WellFormed r) (hs : CtFits r) (hpriv : r.nPubOut + r.nPubIn + 1 < r.nWires) (hsmall : r.nWires < 2 ^ 26 - 8)
    (hc : Compiled x r (jsParseSymFile sym) declared) (hdecl : ∀ e ∈ pub, ∃ dims, (e.1, dims) ∈ declared)
    (full : List (Str × JsVal)) (hsub : ∀ e ∈ pub, e ∈ full) (w : Bytes) (hw : calculateWitness N (.ok x) full = .ok w)
    (fs : FS) (circuit witness ciphertext output : Path) (hdata : fs circuit = some data) (hct : fs ciphertext = some combined)
    (hwd : fs witness = some w) (hl : m.length ≤ S.cipher.maxDec .cli) :
    (decryptCommand S circuit witness ciphertext output).exec fs = (fs.set output m, .ok ()) := by
  obtain ⟨vals, -, h2, h3, h4⟩ := calc_js_agrees hc hsmall hsub hdecl hpub hw
  exact C48_js_to_cli S data hd r hr sym pub hna hmax m incl ρ nonce hn hj combined key henc hwf hs hpriv fs circuit witness ciphertext
    output w vals hdata hct hwd (h2 (by omega)) h3 (h4 _) hl

/-- **C58** (CLI encrypt → JS decrypt) — nested arrays allowed, in the shape the circuit declares. -/
theorem C58_cli_to_js (fs fs' : FS) (circuit sym input message output : Path) (symtab : AMap Nat)
    (entries : List (Str × Json)) (hfiles : CliFiles S fs circuit sym input r symtab entries) (m : Bytes) (hm : fs message = some m)
    (incl : Bool) (ρ : Rand Fr) (nonce : Bytes) (hn : nonce.length = 12)
    (hj : incl = true → ∀ j, fs input = some j → j.length < 2 ^ 32)
    (henc : (encryptCommand S circuit sym input message output incl ρ nonce).exec fs = (fs', .ok ()))
    (hwf : WellFormed r) (hs : CtFits r) (hpriv : r.nPubIn + 1 < r.nWires) (hsmall : r.nWires < 2 ^ 26 - 8)
    (data : Bytes) (hdata : fs circuit = some data) (hd : data.length < 2 ^ 31) (combined : Bytes) (hct : fs' output = some combined)
    (hc : Compiled x r symtab declared) (full : List (Str × JsVal))
    (hsame : ∀ e ∈ entries, ∃ v dims, (e.1, v) ∈ full ∧ (e.1, dims) ∈ declared ∧ HasShape v dims ∧ SameInts N e.2 v)
    (hl : m.length ≤ S.cipher.maxDec .js) (hw : ∃ w, calculateWitness N (.ok x) full = .ok w) :
    jsDecryptApi N S data (.ok x) combined full = .ok m := by
  obtain ⟨w, hw⟩ := hw
  obtain ⟨vals, h1, -, h3, h4⟩ := calc_cli_agrees hc hsmall hsame hw
  unfold jsDecryptApi
  rw [hw]
  exact C48_cli_to_js S fs fs' circuit sym input message output r symtab entries hfiles m hm incl ρ nonce hn hj henc hwf hs hpriv data hdata
    hd combined hct w vals h1 h3 (h4 _) hl

/-- **C58** (JS encap → JS decap). -/
theorem C58_kem (data : Bytes) (hr : jsParseR1cs data = .ok r.toJs) (sym : Str) (pub : List (Str × JsVal))
    (hna : JsNoAlias (jsParseSymFile sym) pub) (hmax : JsSmall (jsParseSymFile sym) pub) (hpub : ∀ e ∈ pub, PublicValue e.2)
    (ρ : Rand Fr) (ct key : Bytes) (henc : jsEncap S data sym pub ρ = .ok (ct, key))
    (hwf : WellFormed r) (hpriv : r.nPubOut + r.nPubIn + 1 < r.nWires) (hsmall : r.nWires < 2 ^ 26 - 8)
    (hc : Compiled x r (jsParseSymFile sym) declared) (hdecl : ∀ e ∈ pub, ∃ dims, (e.1, dims) ∈ declared)
    (full : List (Str × JsVal)) (hsub : ∀ e ∈ pub, e ∈ full) :
    ((∃ w, calculateWitness N (.ok x) full = .ok w) → jsDecapApi N S data (.ok x) ct full = .ok key) ∧
    (∀ e, calculateWitness N (.ok x) full = .error e → jsDecapApi N S data (.ok x) ct full = .error e) := by
  constructor
  · rintro ⟨w, hw⟩
    obtain ⟨vals, h1, -, h3, h4⟩ := calc_js_agrees hc hsmall hsub hdecl hpub hw
    unfold jsDecapApi
    rw [hw]
    exact (C55_js_to_js S data r hr sym pub hna hmax ρ ct key henc hwf hpriv w vals h1 h3 (h4 _)).1
  · intro e he
    unfold jsDecapApi jsDecap
    rw [he]
    rfl

end

end Zkenc.Props
