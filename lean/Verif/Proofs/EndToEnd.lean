import Verif.Proofs.Commands
import Verif.Props.Container
import Verif.Props.Core
import Verif.Props.Crypto
import Verif.Props.Inputs
import Verif.Props.R1csParseJs
import Verif.Props.Serialize
import Verif.Spec.EndToEnd
/-!
# Lemmas for the end-to-end theorems
-/

namespace Zkenc

open Zkenc.Spec Zkenc.Props Zkenc.InputSpec

variable {G1 G2 GT : Type} [AddCommGroup G1] [Module Fr G1] [AddCommGroup G2] [Module Fr G2] [AddCommGroup GT] [Module Fr GT]

theorem Spec.WellFormed.fits {r : R1csFile} (h : WellFormed r) : PublicFits r := by
  have := h.public_le; have := h.wires_lt; unfold PublicFits; omega

theorem Spec.WellFormed.nAlloc {r : R1csFile} (h : WellFormed r) : r.nAlloc = r.nWires := by
  have := h.public_le
  have h2 := nPublicInputs_eq h.fits
  unfold R1csFile.nAlloc
  omega

/-! ## Number of variables -/

theorem allocInputs_count (w : Nat → Option Fr) (ws : List Nat) (cs : CS Fr) (vm : VarMap) :
    (allocInputs w ws cs vm).1.numInst ≤ cs.numInst + ws.length ∧ (allocInputs w ws cs vm).1.numWit = cs.numWit := by
  induction ws generalizing cs vm with
  | nil => simp [allocInputs]
  | cons i is ih =>
    simp only [allocInputs, CS.newInput]
    cases w i with
    | none => simp
    | some x =>
      have := ih { cs with inst := cs.inst ++ [x], numInst := cs.numInst + 1 } (vm.insert i (.inst cs.numInst))
      simp only [List.length_cons] at this ⊢
      exact ⟨by omega, this.2⟩

theorem allocWitnesses_count (w : Nat → Option Fr) (ws : List Nat) (hw : ∀ i ∈ ws, w i = none) (cs : CS Fr) (vm : VarMap) :
    (allocWitnesses w ws cs vm).1.numWit ≤ cs.numWit + 1 ∧ (allocWitnesses w ws cs vm).1.numInst = cs.numInst := by
  cases ws with
  | nil => simp [allocWitnesses]
  | cons i is => rw [allocWitnesses_first_missing w i is (hw i (by simp))]; simp

theorem circuit_count (t : Tool) (r : R1csFile) (hf : PublicFits r) (w : Nat → Option Fr)
    (hw : ∀ i, r.nPubOut + r.nPubIn < i → w i = none) :
    (t.circuit r w (CS.new Fr)).1.numInst + (t.circuit r w (CS.new Fr)).1.numWit ≤ r.nPubOut + r.nPubIn + 2 := by
  rw [Tool.circuit_eq]
  have hnp := nPublicInputs_eq hf
  have hmod : (r.nPublicInputs + 1) % 2 ^ 32 = r.nPublicInputs + 1 := Nat.mod_eq_of_lt (fits hf)
  have h1 := allocInputs_count w (wiresIncl r.nPublicInputs) (CS.new Fr) VarMap.init
  have hl : (wiresIncl r.nPublicInputs).length = r.nPublicInputs := by simp [wiresIncl]
  have hn1 : (CS.new Fr).numInst = 1 := rfl
  have hn2 : (CS.new Fr).numWit = 0 := rfl
  simp only [cliCircuit, hmod]
  rcases hA : allocInputs w (wiresIncl r.nPublicInputs) (CS.new Fr) VarMap.init with ⟨cs1, e | vm⟩
  · rw [hA] at h1
    simp only at h1 ⊢
    omega
  · rw [hA] at h1
    simp only at h1 ⊢
    have h2 := allocWitnesses_count w (wiresExcl (r.nPublicInputs + 1) r.nWires)
      (fun i hi => hw i (by simp [wiresExcl, List.mem_range'_1] at hi; omega)) cs1 vm
    rcases hB : allocWitnesses w (wiresExcl (r.nPublicInputs + 1) r.nWires) cs1 vm with ⟨cs2, e | vm2⟩
    · rw [hB] at h2
      simp only at h2 ⊢
      omega
    · rw [hB] at h2
      simp only at h2 ⊢
      rw [foldl_enforce]
      simp only
      omega

theorem ct_size (S : Sys G1 G2 GT) (t : Tool) (r : R1csFile) (hf : PublicFits r) (w : Nat → Option Fr)
    (hw : ∀ i, r.nPubOut + r.nPubIn < i → w i = none) (ρ : Rand Fr) (ct : Ciphertext Fr G1 G2) (k : Key)
    (h : encap S.P S.dom (t.circuit r w) ρ = .ok (ct, k)) :
    (encCiphertext S.c1 S.c2 ct).length ≤ 456 + 160 * (r.nPubOut + r.nPubIn) ∧ Fits64 ct := by
  obtain ⟨h1, h2, h3, h4, h5⟩ := C15_shape S.P S.dom S.c1 S.c2 S.c1_size S.c2_size _ ρ ct k h _ rfl
  obtain ⟨-, hl, -⟩ := C08_bound_public_inputs S.P S.dom t r hf w ρ ct k h
  have hc := circuit_count t r hf w hw
  have := hf
  unfold PublicFits at this
  exact ⟨by omega, by omega, by omega, by omega, by rw [h4]; simp, by omega⟩

/-! ## The combined ciphertext -/

/-- `combined` is what tool `t` makes of the message `m` when the circuit `r` gets the wire assignment `w`. -/
def Sealed (S : Sys G1 G2 GT) (t : Tool) (r : R1csFile) (w : Nat → Option Fr) (m combined : Bytes) : Prop :=
  ∃ ρ ct key enc nonce incl pub, nonce.length = 12 ∧ encap S.P S.dom (t.circuit r w) ρ = .ok (ct, key) ∧
    encryptGcm S.cipher t key.bytes nonce m = .ok enc ∧ (incl = true → pub.length < 2 ^ 32) ∧
    combined = combine incl (encCiphertext S.c1 S.c2 ct) pub enc

/-- Everything the opening side needs. -/
theorem Sealed.parts {S : Sys G1 G2 GT} {t : Tool} {r : R1csFile} {w : Nat → Option Fr} {m combined : Bytes}
    (h : Sealed S t r w m combined) (hf : PublicFits r) (hs : CtFits r) (hw : ∀ i, r.nPubOut + r.nPubIn < i → w i = none) :
    ∃ ρ ct key p, encap S.P S.dom (t.circuit r w) ρ = .ok (ct, key) ∧ splitCli combined = .ok p ∧ splitJs combined = .ok p ∧
      (∀ tail, decCiphertext S.c1 S.c2 (p.witnessCt ++ tail) = some ct) ∧ recoverKey S.P ct = key ∧
      ∀ t' : Tool, m.length ≤ S.cipher.maxDec t' → decryptGcm S.cipher t' key.bytes p.encrypted = .ok m := by
  obtain ⟨ρ, ct, key, enc, nonce, incl, pub, hn, h1, h2, h3, rfl⟩ := h
  obtain ⟨h4, h5⟩ := ct_size S t r hf w hw ρ ct key h1
  unfold CtFits at hs
  obtain ⟨h6, h7⟩ := C43_roundtrip incl (encCiphertext S.c1 S.c2 ct) pub enc (by omega) h3
  exact ⟨ρ, ct, key, _, h1, h6, h7, fun tail => C16_roundtrip _ _ _ h5 tail, C03_key_recoverable _ _ _ _ _ _ h1,
    fun t' hl => C41_roundtrip S.cipher t t' key.bytes nonce m enc hn h2 hl⟩

theorem Sealed.message_le {S : Sys G1 G2 GT} {t : Tool} {r : R1csFile} {w : Nat → Option Fr} {m combined : Bytes}
    (h : Sealed S t r w m combined) : m.length ≤ S.cipher.maxDec t := by
  obtain ⟨ρ, ct, key, enc, nonce, incl, pub, hn, h1, h2, h3, rfl⟩ := h
  by_contra hc
  obtain ⟨e, he⟩ := (C41_encrypt_outcome S.cipher t key.bytes nonce m hn).2 (by have := S.cipher.max_le t; omega)
  rw [he] at h2
  cases h2

/-- A full satisfying witness that agrees with the wires assigned at encryption recovers the key. -/
theorem decap_of_witness (S : Sys G1 G2 GT) (tEnc tDec : Tool) (r : R1csFile) (hwf : WellFormed r) (w : Nat → Option Fr)
    (hm : SomeWireMissing r w) (ρ : Rand Fr) (ct : Ciphertext Fr G1 G2) (key : Key)
    (h : encap S.P S.dom (tEnc.circuit r w) ρ = .ok (ct, key)) (vals : List Fr) (hv : Witness r vals)
    (hag : ∀ i x, 1 ≤ i → i ≤ r.nPubOut + r.nPubIn → w i = some x → vals[i]? = some x) :
    decap S.P (tDec.circuit r (fullWires vals)) ct = .ok key := by
  have hna := hwf.nAlloc
  have hlen := hv.len
  have hval : ∀ i, i < r.nWires → vals[i]? = some (vals.getD i 0) := by
    intro i hi
    rw [List.getD_eq_getElem?_getD, List.getElem?_eq_getElem (by omega)]
    rfl
  refine C01_roundtrip S.P S.dom tEnc tDec r hwf.fits w hm ρ ct key h (fun i => vals.getD i 0) ⟨?_, ?_⟩ hv.sat ?_ (fullWires vals) ?_
  · simp only [List.getD_eq_getElem?_getD, hv.one]; rfl
  · intro i hi
    simp only [List.getD_eq_getElem?_getD, List.getElem?_eq_none (show vals.length ≤ i by omega)]; rfl
  · intro i hi
    obtain ⟨h1, h2, -⟩ := C08_bound_public_inputs S.P S.dom tEnc r hwf.fits w ρ ct key h
    have h3 := hag (i + 1) _ (by omega) (by omega) (h1 i hi)
    simp only [List.getD_eq_getElem?_getD, h3]; rfl
  · intro i h1 h2
    exact hval i (by omega)

/-! ## Encrypting -/

theorem cli_agrees_wires {h : HashOrder} {n : Nat} {sym : Str} {entries : List (Str × Json)} {symtab : AMap Nat} {w : WireMap}
    {vals : List Fr} (hsym : parseSymFile sym = .ok symtab) (hw : cliAssign h n sym (.obj entries) = .ok w)
    (ha : CliAgrees symtab n entries vals) (h0 : vals[0]? = some 1) (i : Nat) (x : Fr) (hi : w i = some x) : vals[i]? = some x := by
  have hna : NoAlias symtab (some n) entries := by
    intro n1 n2 i x x' r1 r2 g1 g2
    have := (ha n1 i x r1 g1).symm.trans (ha n2 i x' r2 g2)
    simpa using this
  rcases (((C38_cli_wires h n sym entries w hsym hna).1 hw).2 i x).1 hi with ⟨name, hr, hg⟩ | ⟨-, rfl, rfl⟩
  · exact ha name i x hr hg
  · exact h0

theorem js_agrees_wires {n : Nat} {sym : Str} {inputs : List (Str × JsVal)} {w : WireMap} {vals : List Fr}
    (hna : JsNoAlias (jsParseSymFile sym) inputs) (hmax : JsSmall (jsParseSymFile sym) inputs)
    (hw : jsAssign n sym inputs = .ok w) (ha : JsAgrees (jsParseSymFile sym) n inputs vals) (i : Nat) (x : Fr) (h1 : 1 ≤ i)
    (hi : w i = some x) : vals[i]? = some x := by
  obtain ⟨zs, hz, -, h3⟩ := jsAssign_ok n sym inputs hna w hw
  have hl : zs.length < 2 ^ 25 := hmax.run_lt fun k hk => by
    obtain ⟨name, v, s, g1, g2, -⟩ := hz k hk
    exact ⟨name, v, g1, g2⟩
  rw [h3 (by omega)] at hi
  split at hi
  · rename_i hle
    obtain ⟨j, rfl⟩ : ∃ j, i = j + 1 := ⟨i - 1, by omega⟩
    simp only [List.map_cons, List.getElem?_cons_succ, List.getElem?_map] at hi
    cases hj : zs[j]? with
    | none => rw [hj] at hi; cases hi
    | some z =>
      rw [hj] at hi
      simp only [Option.map_some, Option.some.injEq] at hi
      obtain ⟨hlt, hzj⟩ := List.getElem?_eq_some_iff.1 hj
      obtain ⟨name, v, s, hr, hg, ht, hb⟩ := hz j hlt
      rw [hzj] at hb
      rw [← hi]
      exact ha name (j + 1) v s z hr hle hg ht hb
  · cases hi

theorem cli_missing {S : Sys G1 G2 GT} {n : Nat} {sym : Str} {j : Json} {w : WireMap} {r : R1csFile} (hwf : WellFormed r)
    (hp : r.nPubIn + 1 < r.nWires) (hn : n = r.nPubIn) (hw : cliAssign S.hash n sym j = .ok w) : SomeWireMissing r w :=
  ⟨r.nPubIn + 1, by omega, by rw [hwf.nAlloc]; exact hp, C40_cli_bound S.hash n sym j w hw _ (by omega)⟩

theorem js_beyond {n : Nat} {sym : Str} {inputs : List (Str × JsVal)} {w : WireMap} (hw : jsAssign n sym inputs = .ok w) (i : Nat)
    (hi : n < i) : w i = none := by
  unfold jsAssign at hw
  obtain ⟨b, -, h⟩ := Res.bind_eq_ok.1 hw
  obtain ⟨vals, -, h⟩ := Res.bind_eq_ok.1 h
  cases h
  unfold wasmEncapWires
  rw [if_neg (by omega)]

end Zkenc
