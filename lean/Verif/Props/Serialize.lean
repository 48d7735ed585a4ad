import Verif.Model.Serialize
import Verif.Props.Core
/-!
# Property theorems C15–C18: serialization
-/

namespace Zkenc.Props

open Zkenc Spec

section readers
variable {α : Type}

theorem readElem_reads (c : Codec α) (a : α) : Reader.Reads (readElem c) (c.enc a) a :=
  (Reader.Reads.bind (f := fun b => Reader.lift (c.dec b)) (Reader.Reads.take _ (c.enc_len a))
    (Reader.Reads.lift (c.dec_enc a))).cast (by simp)

theorem readElem_mono (c : Codec α) : Reader.Mono (readElem c) :=
  Reader.Mono.bind (Reader.Mono.take _) fun _ => Reader.Mono.lift _

theorem readVec_reads (c : Codec α) (l : List α) (h : l.length < 2 ^ 64) : Reader.Reads (readVec c) (encVec c l) l := by
  refine Reader.Reads.bind (f := fun n => Reader.many (readElem c) (leNat n)) (Reader.Reads.take _ (by simp)) ?_
  rw [leNat_u64le h]
  exact Reader.Reads.many l (fun a _ => readElem_reads c a)

theorem readVec_mono (c : Codec α) : Reader.Mono (readVec c) :=
  Reader.Mono.bind (Reader.Mono.take _) fun _ => Reader.Mono.many (readElem_mono c) _

end readers

variable {G1 G2 : Type}

/-- All vector lengths fit a `u64` (always true of values held in memory). -/
def Fits64 (ct : Ciphertext Fr G1 G2) : Prop :=
  ct.encapKey.rU.length < 2 ^ 64 ∧ ct.encapKey.rV.length < 2 ^ 64 ∧ ct.encapKey.phiDelta.length < 2 ^ 64 ∧
  ct.encapKey.hQuery.length < 2 ^ 64 ∧ ct.publicInputs.length < 2 ^ 64

theorem readCiphertext_reads (c1 : Codec G1) (c2 : Codec G2) (ct : Ciphertext Fr G1 G2) (h : Fits64 ct) :
    Reader.Reads (readCiphertext c1 c2) (encCiphertext c1 c2 ct) ct := by
  obtain ⟨h1, h2, h3, h4, h5⟩ := h
  refine Reader.Reads.bind (a := ct.encapKey) ?_ ?_
  · refine Reader.Reads.bind (readElem_reads c1 _) ?_
    refine Reader.Reads.bind (readElem_reads c2 _) ?_
    refine Reader.Reads.bind (readElem_reads c2 _) ?_
    refine Reader.Reads.bind (readVec_reads c1 _ h1) ?_
    refine Reader.Reads.bind (readVec_reads c2 _ h2) ?_
    refine Reader.Reads.bind (readVec_reads c1 _ h3) ?_
    exact Reader.Reads.map (readVec_reads c1 _ h4) _
  · exact Reader.Reads.map (readVec_reads frCodec _ h5) _

theorem readCiphertext_mono (c1 : Codec G1) (c2 : Codec G2) : Reader.Mono (readCiphertext c1 c2) := by
  refine Reader.Mono.bind ?_ fun _ => Reader.Mono.bind (readVec_mono _) fun _ => Reader.Mono.pure _
  refine Reader.Mono.bind (readElem_mono _) fun _ => ?_
  refine Reader.Mono.bind (readElem_mono _) fun _ => ?_
  refine Reader.Mono.bind (readElem_mono _) fun _ => ?_
  refine Reader.Mono.bind (readVec_mono _) fun _ => ?_
  refine Reader.Mono.bind (readVec_mono _) fun _ => ?_
  refine Reader.Mono.bind (readVec_mono _) fun _ => ?_
  exact Reader.Mono.bind (readVec_mono _) fun _ => Reader.Mono.pure _

/-- **C16.** Deserializing a serialized ciphertext, followed by arbitrary trailing bytes, gives back the ciphertext. -/
theorem C16_roundtrip (c1 : Codec G1) (c2 : Codec G2) (ct : Ciphertext Fr G1 G2) (h : Fits64 ct) (trailing : Bytes) :
    decCiphertext c1 c2 (encCiphertext c1 c2 ct ++ trailing) = some ct := by
  simp [decCiphertext, readCiphertext_reads c1 c2 ct h trailing]

/-- **C16 (injectivity).** Different ciphertexts have different encodings (none is even a prefix of another). -/
theorem C16_injective (c1 : Codec G1) (c2 : Codec G2) (ct ct' : Ciphertext Fr G1 G2) (h : Fits64 ct) (h' : Fits64 ct')
    (t t' : Bytes) (he : encCiphertext c1 c2 ct ++ t = encCiphertext c1 c2 ct' ++ t') : ct = ct' := by
  have h1 := C16_roundtrip c1 c2 ct h t
  rw [he, C16_roundtrip c1 c2 ct' h' t'] at h1
  exact (Option.some.inj h1).symm

/-- **C17.** No strict prefix of a serialized ciphertext deserializes. -/
theorem C17_truncation_rejected (c1 : Codec G1) (c2 : Codec G2) (ct : Ciphertext Fr G1 G2) (h : Fits64 ct) (n : Nat)
    (hn : n < (encCiphertext c1 c2 ct).length) : decCiphertext c1 c2 ((encCiphertext c1 c2 ct).take n) = none := by
  have := (readCiphertext_reads c1 c2 ct h).strict_prefix (readCiphertext_mono c1 c2)
    ((encCiphertext c1 c2 ct).take n) ((encCiphertext c1 c2 ct).drop n) (List.take_append_drop _ _)
    (by rw [Ne, List.drop_eq_nil_iff]; omega)
  simp [decCiphertext, this]

/-- **C17 (general).** Whatever the input, if a byte string deserializes then so does every extension, to the same value —
so deserialization never depends on bytes beyond the encoding. -/
theorem C17_extension (c1 : Codec G1) (c2 : Codec G2) (b t : Bytes) (ct : Ciphertext Fr G1 G2)
    (h : decCiphertext c1 c2 b = some ct) : decCiphertext c1 c2 (b ++ t) = some ct := by
  unfold decCiphertext at h ⊢
  cases hb : readCiphertext c1 c2 b with
  | none => rw [hb] at h; simp at h
  | some p =>
    obtain ⟨a, rest⟩ := p
    rw [hb] at h
    rw [readCiphertext_mono c1 c2 b a rest t hb]
    simpa using h

/-- **C18.** A 32-byte string is accepted as a field element iff its little-endian value is below the modulus; the element
is that value, and the string is its only accepted encoding. -/
theorem C18_canonical (b : Bytes) (hb : b.length = 32) :
    (leNat b < frModulus → ∃ x, frDec b = some x ∧ x.val = leNat b) ∧
    (frModulus ≤ leNat b → frDec b = none) ∧
    ∀ x, frDec b = some x → b = frEnc x := by
  refine ⟨fun h => ⟨_, by rw [frDec, if_pos ⟨hb, h⟩], ?_⟩, fun h => ?_, fun x hx => ?_⟩
  · rw [ZMod.val_natCast, Nat.mod_eq_of_lt h]
  · rw [frDec, if_neg (by omega)]
  · unfold frDec at hx
    split at hx
    · rename_i h
      simp only [Option.some.injEq] at hx
      subst hx
      unfold frEnc
      rw [ZMod.val_natCast, Nat.mod_eq_of_lt h.2, ← hb, leBytes_leNat]
    · simp at hx

/-- Non-vacuity of C18: the modulus itself is rejected, the modulus minus one accepted. -/
example : frDec (leBytes 32 frModulus) = none ∧ frDec (leBytes 32 (frModulus - 1)) = some (-1) := by
  constructor
  · exact (C18_canonical _ (by simp)).2.1 (by rw [leNat_leBytes_of_lt frModulus_lt])
  · have : leBytes 32 (frModulus - 1) = frEnc (-1) := by
      unfold frEnc
      congr 1
    rw [this]; exact frDec_frEnc _

/-! ### C15 -/

variable {GT : Type} [AddCommGroup G1] [Module Fr G1] [AddCommGroup G2] [Module Fr G2]
  [AddCommGroup GT] [Module Fr GT]

omit [AddCommGroup G1] [Module Fr G1] [AddCommGroup G2] [Module Fr G2] in
theorem encVec_length {α : Type} (c : Codec α) (l : List α) : (encVec c l).length = 8 + c.size * l.length := by
  have : ((l.map c.enc).flatten).length = c.size * l.length := by
    induction l with
    | nil => simp
    | cons a l ih => simp [ih, c.enc_len, Nat.mul_add]; omega
  simp [encVec, this]

omit [AddCommGroup G1] [Module Fr G1] [AddCommGroup G2] [Module Fr G2] in
/-- Size of a serialized ciphertext with three queries of length `m`, empty `h` and `l` public inputs (BN254: compressed
points of 32 and 64 bytes). -/
theorem encCiphertext_length (c1 : Codec G1) (c2 : Codec G2) (h1 : c1.size = 32) (h2 : c2.size = 64)
    (ct : Ciphertext Fr G1 G2) (m l : Nat) (hU : ct.encapKey.rU.length = m) (hV : ct.encapKey.rV.length = m)
    (hP : ct.encapKey.phiDelta.length = m) (hH : ct.encapKey.hQuery = []) (hl : ct.publicInputs.length = l) :
    (encCiphertext c1 c2 ct).length = 200 + 128 * m + 32 * l := by
  have hf : frCodec.size = 32 := rfl
  simp only [encCiphertext, encEncapKey, List.length_append, encVec_length, c1.enc_len, c2.enc_len, h1, h2, hU, hV, hP, hH,
    hl, hf, List.length_nil]
  omega

/-- **C15 (shape).** Every ciphertext produced by encap has three query vectors of the same length — the number of instance
and witness variables synthesis created — and an empty `h` query; its serialization has `200 + 128 m + 32 l` bytes. -/
theorem C15_shape (P : Pairing Fr G1 G2 GT) (dom : Domains Fr) (c1 : Codec G1) (c2 : Codec G2) (h1 : c1.size = 32)
    (h2 : c2.size = 64) (c : Circuit Fr) (ρ : Rand Fr) (ct : Ciphertext Fr G1 G2) (k : Key)
    (h : encap P dom c ρ = .ok (ct, k)) (m : Nat) (hm : m = (c (CS.new Fr)).1.numInst + (c (CS.new Fr)).1.numWit) :
    ct.encapKey.rU.length = m ∧ ct.encapKey.rV.length = m ∧ ct.encapKey.phiDelta.length = m ∧ ct.encapKey.hQuery = [] ∧
    (encCiphertext c1 c2 ct).length = 200 + 128 * m + 32 * ct.publicInputs.length := by
  have hδ : ¬ ((c (CS.new Fr)).1.numVars ≠ 0 ∧ ρ.delta = 0) := by
    intro hc
    rw [encap_panic _ _ _ _ hc] at h
    simp at h
  rw [encap_eq _ _ _ _ hδ] at h
  simp only [Except.ok.injEq, Prod.mk.injEq] at h
  obtain ⟨hct, -⟩ := h
  have hm' : (c (CS.new Fr)).1.numVars = m := by rw [hm]; rfl
  have hU : ct.encapKey.rU.length = m := by rw [← hct]; simp [encapCt, hm']
  have hV : ct.encapKey.rV.length = m := by rw [← hct]; simp [encapCt, hm']
  have hP : ct.encapKey.phiDelta.length = m := by rw [← hct]; simp [encapCt, hm']
  have hH : ct.encapKey.hQuery = [] := by rw [← hct]; rfl
  exact ⟨hU, hV, hP, hH, encCiphertext_length c1 c2 h1 h2 ct m _ hU hV hP hH rfl⟩

theorem allocWitnesses_first_missing (w : Nat → Option Fr) (i : Nat) (is : List Nat) (h : w i = none) (cs : CS Fr)
    (vm : VarMap) :
    allocWitnesses w (i :: is) cs vm = ({ cs with numWit := cs.numWit + 1 }, .error .assignmentMissing) := by
  simp [allocWitnesses, CS.newWitness, h]

/-- **C15 (documented workflow).** If all `n_public` public wires are assigned and the first private wire is not, the
ciphertext has `456 + 160·n_public` bytes, whatever the circuit's constraints and size. -/
theorem C15_size_documented (P : Pairing Fr G1 G2 GT) (dom : Domains Fr) (c1 : Codec G1) (c2 : Codec G2)
    (h1 : c1.size = 32) (h2 : c2.size = 64) (t : Tool) (r : R1csFile) (hf : PublicFits r)
    (hwires : r.nPubOut + r.nPubIn + 1 < r.nWires) (w : Nat → Option Fr)
    (hpub : ∀ i, 1 ≤ i → i ≤ r.nPubOut + r.nPubIn → (w i).isSome) (hpriv : w (r.nPubOut + r.nPubIn + 1) = none)
    (ρ : Rand Fr) (ct : Ciphertext Fr G1 G2) (k : Key) (h : encap P dom (t.circuit r w) ρ = .ok (ct, k)) :
    ct.publicInputs.length = r.nPubOut + r.nPubIn ∧
    (encCiphertext c1 c2 ct).length = 456 + 160 * (r.nPubOut + r.nPubIn) := by
  have hl : ct.publicInputs.length = r.nPubOut + r.nPubIn := by
    obtain ⟨-, hle, hmiss⟩ := C08_bound_public_inputs P dom t r hf w ρ ct k h
    by_contra hne
    have hlt : ct.publicInputs.length < r.nPubOut + r.nPubIn := by omega
    have h3 := hpub (ct.publicInputs.length + 1) (by omega) (by omega)
    rw [hmiss hlt] at h3
    simp at h3
  have hnv : (t.circuit r w (CS.new Fr)).1.numInst + (t.circuit r w (CS.new Fr)).1.numWit =
      r.nPubOut + r.nPubIn + 2 := by
    rw [Tool.circuit_eq]
    have hfit := fits hf
    have hnp := nPublicInputs_eq hf
    have hmod : (r.nPublicInputs + 1) % 2 ^ 32 = r.nPublicInputs + 1 := Nat.mod_eq_of_lt hfit
    have hA := allocInputs_ok w (fun i => (w i).getD 0) 1 r.nPublicInputs (CS.new Fr) VarMap.init rfl
      (fun i a b => by
        have := hpub i a (by omega)
        cases hw : w i with
        | none => simp [hw] at this
        | some x => rfl)
    obtain ⟨k, hk⟩ : ∃ k, r.nWires - (r.nPublicInputs + 1) = k + 1 := ⟨r.nWires - (r.nPublicInputs + 1) - 1, by omega⟩
    simp only [cliCircuit, wiresIncl, hA, hmod, wiresExcl, hk, List.range'_succ]
    rw [allocWitnesses_first_missing _ _ _ (by rw [hnp]; exact hpriv)]
    simp [CS.new]
    omega
  obtain ⟨-, -, -, -, hs⟩ := C15_shape P dom c1 c2 h1 h2 _ ρ ct k h _ rfl
  rw [hnv, hl] at hs
  exact ⟨hl, by rw [hs]; omega⟩

/-- Non-vacuity: the example circuit (one public wire) meets the hypotheses, so its ciphertexts have 616 bytes. -/
example : sq.nPubOut + sq.nPubIn + 1 < sq.nWires ∧ 456 + 160 * (sq.nPubOut + sq.nPubIn) = 616 ∧
    (∀ i, 1 ≤ i → i ≤ sq.nPubOut + sq.nPubIn → ((sqPub : Nat → Option Fr) i).isSome) ∧
    (sqPub : Nat → Option Fr) (sq.nPubOut + sq.nPubIn + 1) = none := by
  refine ⟨by decide, by decide, fun i h1 h2 => ?_, rfl⟩
  have : i = 1 := by simp [sq] at h2; omega
  simp [sqPub, this]

end Zkenc.Props
