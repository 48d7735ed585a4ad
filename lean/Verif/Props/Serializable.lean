import Verif.Model.Serializable
import Verif.Props.Core
/-!
# Property theorems C19, C20: serializable circuits
-/

namespace Zkenc.Props

open Zkenc Spec Reader

/-- The value fits the Rust types: `u32` fields, in-memory lengths below `2^64`, distinct label keys. -/
structure SCircuit.Typed (c : SCircuit) : Prop where
  header : c.fieldSize < 2 ^ 32 ∧ c.nWires < 2 ^ 32 ∧ c.nPubOut < 2 ^ 32 ∧ c.nPubIn < 2 ^ 32 ∧ c.nPrvIn < 2 ^ 32 ∧
    c.nConstraints < 2 ^ 32
  prime : c.primeBytes.length < 2 ^ 64
  nCons : c.constraints.length < 2 ^ 64
  cons : ∀ k ∈ c.constraints, ∀ fs ∈ [k.a, k.b, k.c], fs.length < 2 ^ 64 ∧
    ∀ f ∈ fs, f.wireId < 2 ^ 32 ∧ f.coefficientBytes.length < 2 ^ 64
  labels : ∀ l, c.wireLabels = some l → l.length < 2 ^ 64 ∧ (l.map (·.1)).Nodup ∧
    ∀ e ∈ l, e.1 < 2 ^ 32 ∧ e.2.toByteArray.data.toList.length < 2 ^ 64

theorem rdU32_reads {v : Nat} (h : v < 2 ^ 32) : Reads rdU32 (u32le v) v := by
  have := Reads.map (Reads.take (u32le v) (n := 4) (by simp)) leNat
  rwa [leNat_u32le h] at this

theorem rdU64_reads {v : Nat} (h : v < 2 ^ 64) : Reads rdU64 (u64le v) v := by
  have := Reads.map (Reads.take (u64le v) (n := 8) (by simp)) leNat
  rwa [leNat_u64le h] at this

theorem rdU32_mono : Mono rdU32 := Mono.bind (Mono.take _) fun _ => Mono.pure _
theorem rdU64_mono : Mono rdU64 := Mono.bind (Mono.take _) fun _ => Mono.pure _

theorem rdSeq_reads {α : Type} {r : Reader α} {enc : α → Bytes} (l : List α) (hl : l.length < 2 ^ 64)
    (h : ∀ a ∈ l, Reads r (enc a) a) : Reads (rdSeq r) (bincSeq enc l) l :=
  Reads.bind (rdU64_reads hl) (Reads.many l h)

theorem rdSeq_mono {α : Type} {r : Reader α} (h : Mono r) : Mono (rdSeq r) :=
  Mono.bind rdU64_mono fun _ => Mono.many h _

theorem rdBytes_reads (b : Bytes) (h : b.length < 2 ^ 64) : Reads rdBytes (bincBytes b) b :=
  Reads.bind (rdU64_reads h) (Reads.take b rfl)

theorem rdBytes_mono : Mono rdBytes := Mono.bind rdU64_mono fun _ => Mono.take _

theorem utf8Dec_enc (s : String) : utf8Dec s.toByteArray.data.toList = some s := by
  unfold utf8Dec String.fromUTF8?
  simp [String.fromUTF8, s.isValidUTF8]

theorem rdString_reads (s : String) (h : s.toByteArray.data.toList.length < 2 ^ 64) :
    Reads rdString (bincString s) s :=
  (Reads.bind (f := fun b => Reader.lift (utf8Dec b)) (rdBytes_reads _ h) (Reads.lift (utf8Dec_enc s))).cast (by simp; rfl)

theorem rdString_mono : Mono rdString := Mono.bind rdBytes_mono fun _ => Mono.lift _

theorem rdFactor_reads (f : SFactor) (h : f.wireId < 2 ^ 32 ∧ f.coefficientBytes.length < 2 ^ 64) :
    Reads rdFactor (bincFactor f) f :=
  Reads.bind (rdU32_reads h.1) (Reads.map (rdBytes_reads _ h.2) _)

theorem rdFactor_mono : Mono rdFactor := Mono.bind rdU32_mono fun _ => Mono.bind rdBytes_mono fun _ => Mono.pure _

theorem rdConstraint_reads (k : SConstraint) (h : ∀ fs ∈ [k.a, k.b, k.c], fs.length < 2 ^ 64 ∧
    ∀ f ∈ fs, f.wireId < 2 ^ 32 ∧ f.coefficientBytes.length < 2 ^ 64) : Reads rdConstraint (bincConstraint k) k := by
  have key : ∀ fs ∈ [k.a, k.b, k.c], Reads (rdSeq rdFactor) (bincLc fs) fs := fun fs hfs =>
    rdSeq_reads fs (h fs hfs).1 (fun f hf => rdFactor_reads f ((h fs hfs).2 f hf))
  exact Reads.bind (key _ (by simp)) (Reads.bind (key _ (by simp)) (Reads.map (key _ (by simp)) _))

theorem rdConstraint_mono : Mono rdConstraint :=
  Mono.bind (rdSeq_mono rdFactor_mono) fun _ => Mono.bind (rdSeq_mono rdFactor_mono) fun _ =>
    Mono.bind (rdSeq_mono rdFactor_mono) fun _ => Mono.pure _

theorem rdEntry_reads (e : Nat × String) (h : e.1 < 2 ^ 32 ∧ e.2.toByteArray.data.toList.length < 2 ^ 64) :
    Reads rdEntry (bincEntry e) e :=
  Reads.bind (rdU32_reads h.1) (Reads.map (rdString_reads _ h.2) _)

theorem rdEntry_mono : Mono rdEntry := Mono.bind rdU32_mono fun _ => Mono.bind rdString_mono fun _ => Mono.pure _

theorem foldl_insertKV {α : Type} (acc l : List (Nat × α)) (h : ((acc ++ l).map (·.1)).Nodup) :
    l.foldl insertKV acc = acc ++ l := by
  induction l generalizing acc with
  | nil => simp
  | cons e l ih =>
    have hne : ∀ x ∈ acc, x.1 ≠ e.1 := by
      intro x hx hc
      rw [List.map_append, List.nodup_append] at h
      exact h.2.2 x.1 (List.mem_map_of_mem hx) e.1 (by simp) hc
    have h1 : insertKV acc e = acc ++ [e] := by
      unfold insertKV
      rw [if_neg]
      simp only [List.any_eq_true, beq_iff_eq, not_exists, not_and]
      exact hne
    rw [List.foldl_cons, h1, ih (acc ++ [e]) (by simpa using h)]
    simp

theorem rdLabels_reads (o : Option (List (Nat × String))) (h : ∀ l, o = some l → l.length < 2 ^ 64 ∧
    (l.map (·.1)).Nodup ∧ ∀ e ∈ l, e.1 < 2 ^ 32 ∧ e.2.toByteArray.data.toList.length < 2 ^ 64) :
    Reads rdLabels (bincLabels o) o := by
  cases o with
  | none => exact Reads.bind (e' := []) (Reads.take [0] rfl) (by simpa using Reads.pure _)
  | some l =>
    obtain ⟨h1, h2, h3⟩ := h l rfl
    refine Reads.bind (e := [1]) (e' := bincSeq bincEntry l) (Reads.take [1] rfl) ?_
    simp only [List.cons.injEq, one_ne_zero, and_true, if_false, if_true]
    have := Reads.map (rdSeq_reads (enc := bincEntry) l h1 (fun e he => rdEntry_reads e (h3 e he)))
      (fun l => some (l.foldl insertKV []))
    rwa [foldl_insertKV [] l (by simpa using h2), List.nil_append] at this

theorem rdLabels_mono : Mono rdLabels := by
  refine Mono.bind (Mono.take _) fun t => ?_
  split
  · exact Mono.pure _
  split
  · exact Mono.bind (rdSeq_mono rdEntry_mono) fun _ => Mono.pure _
  · exact Mono.fail

theorem rdCircuit_reads (c : SCircuit) (h : SCircuit.Typed c) : Reads rdCircuit (toBincode c) c := by
  obtain ⟨⟨h1, h2, h3, h4, h5, h6⟩, hp, hn, hc, hl⟩ := h
  refine Reads.bind (rdU32_reads h1) ?_
  refine Reads.bind (rdBytes_reads _ hp) ?_
  refine Reads.bind (rdU32_reads h2) ?_
  refine Reads.bind (rdU32_reads h3) ?_
  refine Reads.bind (rdU32_reads h4) ?_
  refine Reads.bind (rdU32_reads h5) ?_
  refine Reads.bind (rdU32_reads h6) ?_
  refine Reads.bind (rdSeq_reads (enc := bincConstraint) _ hn (fun k hk => rdConstraint_reads k (hc k hk))) ?_
  exact Reads.map (rdLabels_reads _ hl) _

theorem rdCircuit_mono : Mono rdCircuit := by
  refine Mono.bind rdU32_mono fun _ => Mono.bind rdBytes_mono fun _ => Mono.bind rdU32_mono fun _ =>
    Mono.bind rdU32_mono fun _ => Mono.bind rdU32_mono fun _ => Mono.bind rdU32_mono fun _ =>
    Mono.bind rdU32_mono fun _ => Mono.bind (rdSeq_mono rdConstraint_mono) fun _ =>
    Mono.bind rdLabels_mono fun _ => Mono.pure _

/-- **C19.** Every circuit survives bincode, for every iteration order of its label map, with any trailing bytes. -/
theorem C19_bincode_roundtrip (c : SCircuit) (h : SCircuit.Typed c) (trailing : Bytes) :
    fromBincode (toBincode c ++ trailing) = some c := by
  simp [fromBincode, rdCircuit_reads c h trailing]

/-- **C19 (truncation).** No strict prefix of an encoded circuit is accepted. -/
theorem C19_truncation_rejected (c : SCircuit) (h : SCircuit.Typed c) (n : Nat) (hn : n < (toBincode c).length) :
    fromBincode ((toBincode c).take n) = none := by
  have := (rdCircuit_reads c h).strict_prefix rdCircuit_mono ((toBincode c).take n) ((toBincode c).drop n)
    (List.take_append_drop _ _) (by rw [Ne, List.drop_eq_nil_iff]; omega)
  simp [fromBincode, this]

/-- Non-vacuity of C19: a circuit with a constraint and two labels, one of them not ASCII. -/
example : SCircuit.Typed ⟨32, [1, 2], 3, 0, 1, 1, 1, [⟨[⟨2, [1]⟩], [⟨2, [1]⟩], [⟨1, [1]⟩]⟩],
    some [(1, "main.y"), (0, "é")]⟩ := by
  refine ⟨by decide, by decide, by decide, by decide, ?_⟩
  intro l hl
  simp only [Option.some.injEq] at hl
  subst hl
  exact ⟨by decide, by decide, by decide⟩

/-! ### C20 -/

/-- A wire valuation satisfies the exported constraints (plain sums). -/
def SSatisfies {F : Type} [Field F] (cons : List SConstraint) (w : Nat → F) : Prop :=
  ∀ k ∈ cons,
    (k.a.map fun f => coeff f.coefficientBytes * w f.wireId).sum *
      (k.b.map fun f => coeff f.coefficientBytes * w f.wireId).sum =
    (k.c.map fun f => coeff f.coefficientBytes * w f.wireId).sum

/-- **C20.** The exported circuit has the same header numbers, prime, number and order of constraints, the same wires and
coefficients in the same order, and hence the same satisfying assignments in every field. -/
theorem C20_export_faithful (r : R1csFile) :
    let s := r.toSerializable
    s.fieldSize = r.fieldSize ∧ s.primeBytes = r.prime ∧ s.nWires = r.nWires ∧ s.nPubOut = r.nPubOut ∧
    s.nPubIn = r.nPubIn ∧ s.nPrvIn = r.nPrvIn ∧ s.nConstraints = r.nConstraints ∧
    s.constraints.length = r.constraints.length ∧
    (∀ (i : Nat) k k', r.constraints[i]? = some k → s.constraints[i]? = some k' →
      (k'.a.map fun f => (f.wireId, f.coefficientBytes)) = k.a ∧
      (k'.b.map fun f => (f.wireId, f.coefficientBytes)) = k.b ∧
      (k'.c.map fun f => (f.wireId, f.coefficientBytes)) = k.c) ∧
    ∀ (F : Type) [Field F] (w : Nat → F), SSatisfies s.constraints w ↔ Satisfies r.constraints w := by
  refine ⟨rfl, rfl, rfl, rfl, rfl, rfl, rfl, by simp [R1csFile.toSerializable], ?_, ?_⟩
  · intro i k k' hk hk'
    simp only [R1csFile.toSerializable, List.getElem?_map, hk, Option.map_some, Option.some.injEq] at hk'
    subst hk'
    simp [toSFactors, Function.comp_def]
  · intro F _ w
    simp [SSatisfies, Satisfies, R1csFile.toSerializable, toSFactors, lcSum, Function.comp_def]

/-- Exported circuits are typed whenever the parsed file is, so C19 applies to them (composition of C19 and C20). -/
theorem C20_C19_export_bincode (r : R1csFile) (h : SCircuit.Typed r.toSerializable) :
    fromBincode (toBincode r.toSerializable) = some r.toSerializable := by
  simpa using C19_bincode_roundtrip _ h []

example : SCircuit.Typed sq.toSerializable := by
  refine ⟨by decide, by decide, by decide, by decide, ?_⟩
  intro l hl
  simp [R1csFile.toSerializable] at hl

end Zkenc.Props
