import Verif.Props.Bn254
import Verif.Props.EndToEndKem
/-!
# C02/C55: why the end-to-end theorems need a private wire
-/

namespace Zkenc.Props

open Zkenc Zkenc.Spec Zkenc.InputSpec

variable {G1 G2 GT : Type} [AddCommGroup G1] [Module Fr G1] [AddCommGroup G2] [Module Fr G2] [AddCommGroup GT] [Module Fr GT]
  (S : Sys G1 G2 GT)

/-- Synthesis of `trivialOne` looks at wire 1 only. -/
theorem trivialOne_synth (t : Tool) {y : Fr} {w : Nat → Option Fr} (hw : w 1 = some y) :
    t.circuit trivialOne w (CS.new Fr) = t.circuit trivialOne (fun _ => some y) (CS.new Fr) := by
  rw [trivial_synth, Tool.circuit_eq]
  have h1 : trivialOne.nPublicInputs = 1 := rfl
  have hb : (bytesToFr (leBytes 32 1) : Fr) = 1 := by
    rw [bytesToFr_eq_coeff, coeff_leBytes_one]
  simp only [cliCircuit, h1, wiresIncl, wiresExcl]
  simp [List.range', allocInputs, allocWitnesses, CS.newInput, CS.new, trivialOne, cliLc, cliLcStep,
    VarMap.insert, VarMap.init, lcAdd, hb, CS.enforce, trivialCs, hw]

theorem encap_of_synth {P : Pairing Fr G1 G2 GT} {dom : Domains Fr} {c c' : Circuit Fr} {ρ : Rand Fr}
    (h : c (CS.new Fr) = c' (CS.new Fr)) : encap P dom c ρ = encap P dom c' ρ := by
  unfold encap; rw [h]

theorem decap_of_synth {P : Pairing Fr G1 G2 GT} {c c' : Circuit Fr} {ct : Ciphertext Fr G1 G2}
    (h : c (CS.new Fr) = c' (CS.new Fr)) : decap P c ct = decap P c' ct := by
  rw [decap_eq, decap_eq, h]

/-- **C02/C55** (no private wire, CLI) — for a circuit all of whose wires are public, a successful `zkenc encap` followed by `zkenc decap` with the
same circuit, the ciphertext file and a satisfying witness with the given public value: decap succeeds too, but the key files agree only if the
randomness of encap satisfies a polynomial equation. Hence the hypothesis `n_pub_in + 1 < n_wires` of C47, C48, C55 is needed. (The
circuit is `1 * 1 = 1` over one public input; non-degenerate pairing, injective KDF, the evaluation domains of BN254.) -/
theorem C02_cli_public_only (hkdf : Function.Injective S.P.kdf) (hnd : S.P.e S.P.g1 S.P.g2 ≠ 0) (hdom : S.dom = bn254Domains)
    (fs fs' : FS) (circuit sym input ciphertext key : Path) (hne : ciphertext ≠ key) (symtab : AMap Nat) (entries : List (Str × Json))
    (hfiles : CliFiles S fs circuit sym input trivialOne symtab entries) (ρ : Rand Fr) (hδ : ρ.delta ≠ 0)
    (henc : (encapCommand S circuit sym input ciphertext key ρ).exec fs = (fs', .ok ()))
    (name : Str) (y : Fr) (hres : Resolves symtab (some 1) name 1) (hgives : Gives entries name y)
    (fs₂ : FS) (circuit₂ witness ciphertext₂ key₂ : Path) (data wdata : Bytes)
    (hdata : fs₂ circuit₂ = some data) (hcirc : cliParseR1cs S.lim data = .ok trivialOne)
    (hct : fs₂ ciphertext₂ = fs' ciphertext) (hwd : fs₂ witness = some wdata) (hwit : CliWitness wdata [1, y])
    (hag : CliAgrees symtab 1 entries [1, y]) :
    Witness trivialOne [1, y] ∧ ∃ k k', fs' key = some k ∧
      (decapCommand S circuit₂ witness ciphertext₂ key₂).exec fs₂ = (fs₂.set key₂ k', .ok ()) ∧
      (k' = k ↔ ρ.r * (1 + ρ.x + ρ.x ^ 2 + ρ.x ^ 3) *
        (ρ.r * ρ.delta * (ρ.x + ρ.x ^ 2 + ρ.x ^ 3 - 3) - 4 * (ρ.alpha + ρ.beta + ρ.r)) = 0) := by
  refine ⟨⟨rfl, rfl, ?_⟩, ?_⟩
  · intro c hc
    simp only [trivialOne, List.mem_singleton] at hc
    subst hc
    simp [lcSum, coeff_leBytes_one]
  obtain ⟨w, symText, jsonB, ct, ky, h1, h2, h3, h4, h5⟩ := CliFiles.assign hfiles henc
  simp only [exec_writeFile, Cmd.exec, Prod.mk.injEq, and_true] at h5
  have hna : NoAlias symtab (some 1) entries := by
    intro n1 n2 i x x' r1 r2 g1 g2
    have := (hag n1 i x r1 g1).symm.trans (hag n2 i x' r2 g2)
    simpa using this
  have hw1 : w 1 = some y := (((C38_cli_wires S.hash 1 symText entries w h1 hna).1 h2).2 1 y).2 (Or.inl ⟨name, hres, hgives⟩)
  obtain ⟨ct', k, k', he, hd, hiff⟩ := C02_bn254_generic_failure S.P hkdf hnd .cli .cli y ρ hδ
  rw [hdom] at h4
  have h4' : encap S.P bn254Domains (Tool.circuit .cli trivialOne w) ρ = .ok (ct, ky) := h4
  rw [encap_of_synth (trivialOne_synth .cli hw1), he] at h4'
  simp only [Except.ok.injEq, Prod.mk.injEq] at h4'
  obtain ⟨rfl, rfl⟩ := h4'
  have hfull : decap S.P (cliCircuit trivialOne (fullWires [1, y])) ct' = .ok k' := by
    have := decap_of_synth (P := S.P) (ct := ct') (trivialOne_synth .cli (w := fullWires [1, y]) (y := y) rfl)
    exact this.trans hd
  obtain ⟨wf, g3, g4⟩ := hwit
  have hctb : fs' ciphertext = some (encCiphertext S.c1 S.c2 ct') := by
    rw [← h5, FS.set_other _ hne, FS.set_same]
  have h64 : Fits64 ct' := by
    have hw : ∀ i, trivialOne.nPubOut + trivialOne.nPubIn < i → w i = none := fun i hi => C40_cli_bound S.hash _ _ _ w h2 i (by
      have : trivialOne.nPubIn = 1 := rfl
      have : trivialOne.nPubOut = 0 := rfl
      omega)
    exact (ct_size S .cli trivialOne (by unfold PublicFits; decide) w hw ρ ct' k (by rw [hdom]; exact h4)).2
  have g1 := C16_roundtrip S.c1 S.c2 ct' h64 []
  rw [List.append_nil] at g1
  refine ⟨k.bytes, k'.bytes, by rw [← h5, FS.set_same], ?_, ?_⟩
  · unfold decapCommand
    rw [decapPart_exec S hdata hcirc hwd g3 g4 (fun k => by simp only [Cmd.readFile, Cmd.exec, hct, hctb]) g1 hfull]
    simp only [exec_writeFile, Cmd.exec]
  · rw [← hiff]
    constructor
    · intro h
      cases k; cases k'
      simpa using h
    · rintro rfl; rfl

/-- **C02/C55** (no private wire, JS) — the same for `encap` and `decap` of the JS library. -/
theorem C02_js_public_only (hkdf : Function.Injective S.P.kdf) (hnd : S.P.e S.P.g1 S.P.g2 ≠ 0) (hdom : S.dom = bn254Domains)
    (data : Bytes) (hr : jsParseR1cs data = .ok trivialOne.toJs) (sym : Str) (inputs : List (Str × JsVal))
    (hna : JsNoAlias (jsParseSymFile sym) inputs) (hmax : JsSmall (jsParseSymFile sym) inputs) (ρ : Rand Fr) (hδ : ρ.delta ≠ 0)
    (ctB k : Bytes) (henc : jsEncap S data sym inputs ρ = .ok (ctB, k))
    (name : Str) (v : JsVal) (hres : Resolves (jsParseSymFile sym) none name 1) (hgives : JsGives inputs name v)
    (wtns : Bytes) (y : Fr) (hwit : jsParseWtns wtns = .ok [1, y]) (hag : JsAgrees (jsParseSymFile sym) 1 inputs [1, y]) :
    Witness trivialOne [1, y] ∧ ∃ k', jsDecap S data (.ok wtns) ctB = .ok k' ∧
      (k' = k ↔ ρ.r * (1 + ρ.x + ρ.x ^ 2 + ρ.x ^ 3) *
        (ρ.r * ρ.delta * (ρ.x + ρ.x ^ 2 + ρ.x ^ 3 - 3) - 4 * (ρ.alpha + ρ.beta + ρ.r)) = 0) := by
  refine ⟨⟨rfl, rfl, ?_⟩, ?_⟩
  · intro c hc
    simp only [trivialOne, List.mem_singleton] at hc
    subst hc
    simp [lcSum, coeff_leBytes_one]
  have hf : PublicFits trivialOne := by unfold PublicFits; decide
  unfold jsEncap at henc
  obtain ⟨wb, h4, henc⟩ := Res.bind_eq_ok.1 henc
  unfold wasmEncap at henc
  rw [hr, Res.ok_bind] at henc
  obtain ⟨vals, h5, henc⟩ := Res.bind_eq_ok.1 henc
  obtain ⟨⟨ct, ky⟩, h6, henc⟩ := Res.bind_eq_ok.1 henc
  cases henc
  have hnp : trivialOne.toJs.nPublicInputs = 1 := rfl
  rw [hnp] at h6
  have hw : jsAssign 1 sym inputs = .ok (wasmEncapWires 1 vals) := by rw [jsAssign, h4, Res.ok_bind, h5, Res.ok_bind]
  obtain ⟨zs, h1, h2, h3⟩ := jsAssign_ok 1 sym inputs hna _ hw
  have hpos : 0 < zs.length := by
    rcases Nat.eq_zero_or_pos zs.length with h0 | h0
    · exact absurd hgives (h2 name v (by rw [h0]; exact hres))
    · exact h0
  have hl : zs.length < 2 ^ 25 := hmax.run_lt fun k hk => by
    obtain ⟨name, v, s, g1, g2, -⟩ := h1 k hk
    exact ⟨name, v, g1, g2⟩
  have hw1 : wasmEncapWires 1 vals 1 = some y := by
    have hx := h3 (by omega) 1
    rw [if_pos (le_refl 1)] at hx
    have : wasmEncapWires 1 vals 1 = some ((((zs[0] % 2 ^ 256).toNat : Nat) : Fr)) := by
      rw [hx]; simp [hpos]
    have hy := js_agrees_wires hna hmax hw hag 1 _ (le_refl 1) this
    rw [this]
    simpa using hy.symm
  obtain ⟨ct', k₁, k', he, hd, hiff⟩ := C02_bn254_generic_failure S.P hkdf hnd .js .js y ρ hδ
  rw [hdom] at h6
  have h6' : encap S.P bn254Domains (Tool.circuit .js trivialOne (wasmEncapWires 1 vals)) ρ = .ok (ct, ky) := h6
  have h6b := h6'
  rw [encap_of_synth (trivialOne_synth .js hw1), he] at h6'
  simp only [Except.ok.injEq, Prod.mk.injEq] at h6'
  obtain ⟨rfl, rfl⟩ := h6'
  have hfull : decap S.P (jsCircuit trivialOne.toJs (fullWires [1, y])) ct' = .ok k' := by
    have := decap_of_synth (P := S.P) (ct := ct') (trivialOne_synth .js (w := fullWires [1, y]) (y := y) rfl)
    exact this.trans hd
  have h64 : Fits64 ct' := by
    have hw' : ∀ i, trivialOne.nPubOut + trivialOne.nPubIn < i → wasmEncapWires 1 vals i = none := fun i hi =>
      js_beyond hw i (by
        have : trivialOne.nPubIn = 1 := rfl
        have : trivialOne.nPubOut = 0 := rfl
        omega)
    exact (ct_size S .js trivialOne hf _ hw' ρ ct' k₁ (by rw [hdom]; exact h6b)).2
  have g1 := C16_roundtrip S.c1 S.c2 ct' h64 []
  rw [List.append_nil] at g1
  have hlen : ¬ [1, y].length ≠ trivialOne.toJs.nWires := by simp [R1csFile.toJs, trivialOne]
  refine ⟨k'.bytes, by simp only [jsDecap, wasmDecap, Res.ok_bind, hr, hwit, if_neg hlen, g1, Res.ofOption, hfull], ?_⟩
  rw [← hiff]
  constructor
  · intro h
    cases k₁; cases k'
    simpa using h
  · rintro rfl; rfl

end Zkenc.Props
