import Verif.Model.JsLimit
import Verif.Props.InputOrder
import Mathlib.Data.Set.Card
/-!
# C102: input objects with very many values in JS
-/

namespace Zkenc

/-- The keys of the map after `set`. -/
theorem NMap.mem_keys_set (m : NMap) (k i : Nat) (s : Str) : i ∈ (m.set k s).map Prod.fst ↔ i = k ∨ i ∈ m.map Prod.fst := by
  induction m with
  | nil => simp [NMap.set]
  | cons e m ih =>
    obtain ⟨a, b⟩ := e
    simp only [NMap.set]
    split_ifs with h
    · subst h; simp
    · simp only [List.map_cons, List.mem_cons, ih]; tauto

theorem NMap.nodup_set {m : NMap} (h : (m.map Prod.fst).Nodup) (k : Nat) (s : Str) : ((m.set k s).map Prod.fst).Nodup := by
  induction m with
  | nil => simp [NMap.set]
  | cons e m ih =>
    obtain ⟨a, b⟩ := e
    simp only [List.map_cons, List.nodup_cons] at h
    simp only [NMap.set]
    split_ifs with hk
    · subst hk; simpa using h
    · simp only [List.map_cons, List.nodup_cons]
      refine ⟨fun hc => ?_, ih h.2⟩
      rcases (NMap.mem_keys_set m k a s).1 hc with hc | hc
      · exact hk hc
      · exact h.1 hc

/-- The keys of the map that `setAll` builds. -/
theorem setAll_keys (sig : AMap Nat) (l : List (Str × JsVal)) (m m' : NMap) (h : setAll sig l m = .ok m') (hn : (m.map Prod.fst).Nodup) :
    (m'.map Prod.fst).Nodup ∧ ∀ i, i ∈ m'.map Prod.fst ↔ i ∈ m.map Prod.fst ∨ ∃ e ∈ l, sig.get e.1 = some i := by
  induction l generalizing m with
  | nil => cases h; exact ⟨hn, fun i => by simp⟩
  | cons e l ih =>
    obtain ⟨k, v⟩ := e
    rw [setAll, Res.bind_eq_ok] at h
    obtain ⟨m1, h1, h2⟩ := h
    unfold setWire at h1
    cases hs : sig.get k with
    | none =>
      rw [hs] at h1
      cases h1
      obtain ⟨g1, g2⟩ := ih m h2 hn
      refine ⟨g1, fun i => ?_⟩
      rw [g2]
      simp [hs]
    | some w =>
      rw [hs] at h1
      obtain ⟨t, ht, h1⟩ := Res.bind_eq_ok.1 h1
      cases h1
      obtain ⟨g1, g2⟩ := ih _ h2 (NMap.nodup_set hn w t)
      refine ⟨g1, fun i => ?_⟩
      rw [g2, NMap.mem_keys_set]
      simp only [List.exists_mem_cons_iff, hs, Option.some.injEq]
      constructor
      · rintro ((rfl | h) | h)
        · exact .inr (.inl rfl)
        · exact .inl h
        · exact .inr (.inr h)
      · rintro (h | rfl | h)
        · exact .inl (.inr h)
        · exact .inl (.inl rfl)
        · exact .inr h

namespace Props

open Zkenc.Spec Zkenc.InputSpec

/-- The number of entries of the map is the number of wires that are given a value. -/
theorem mapInputs_length (sym : Str) (inputs : List (Str × JsVal)) {m : NMap}
    (h : mapInputsToWires inputs (inputSignals (jsParseSymFile sym) none) = .ok m) :
    m.length = {i | JsSupplies (jsParseSymFile sym) inputs i}.ncard := by
  classical
  rw [mapInputsToWires_eq] at h
  obtain ⟨h1, h2⟩ := setAll_keys _ _ _ _ h (by simp)
  have : {i | JsSupplies (jsParseSymFile sym) inputs i} = ((m.map Prod.fst).toFinset : Set Nat) := by
    ext i
    simp only [Set.mem_ofPred_eq, List.coe_toFinset, h2]
    constructor
    · rintro ⟨name, v, hr, hg⟩
      exact .inr ⟨(name, v), (mem_jsInputs _ _ _).2 hg, (C35_input_lookup (jsParseSymFile_nodup sym) (List.Perm.refl _) none name i).2 hr⟩
    · rintro (h | ⟨⟨name, v⟩, he, hs⟩)
      · simp at h
      · exact ⟨name, v, (C35_input_lookup (jsParseSymFile_nodup sym) (List.Perm.refl _) none name i).1 hs, (mem_jsInputs _ _ _).1 he⟩
  rw [this, Set.ncard_coe_finset, List.toFinset_card_of_nodup h1, List.length_map]

theorem witnessLim (lim : Nat) (sym : Str) (inputs : List (Str × JsVal)) :
    ({i | JsSupplies (jsParseSymFile sym) inputs i}.ncard ≤ lim → jsEncapWitnessLim lim sym inputs = jsEncapWitness sym inputs) ∧
    (lim < {i | JsSupplies (jsParseSymFile sym) inputs i}.ncard → ∃ e, jsEncapWitnessLim lim sym inputs = .error e) := by
  unfold jsEncapWitnessLim jsEncapWitness
  cases hm : mapInputsToWires inputs (inputSignals (jsParseSymFile sym) none) with
  | error e => exact ⟨fun _ => by simp only [hm]; rfl, fun _ => ⟨e, by simp only [hm]; rfl⟩⟩
  | ok m =>
    rw [← mapInputs_length sym inputs hm]
    refine ⟨fun h => ?_, fun h => ?_⟩
    · simp only [hm, Res.ok_bind]
      rw [if_neg (not_lt.2 h)]
    · simp only [hm, Res.ok_bind]
      rw [if_pos h]
      exact ⟨_, rfl⟩

variable {G1 G2 GT : Type} [AddCommGroup G1] [Module Fr G1] [AddCommGroup G2] [Module Fr G2] [AddCommGroup GT] [Module Fr GT]
  (S : Sys G1 G2 GT)

/-- **C102** (`encap`) — where the engine allows `lim` arguments in a call, JS `encap` fails if the object gives values to more than `lim`
wires, public or private, with or without the circuit's knowledge; otherwise the limit has no effect. -/
theorem C102_encap (lim : Nat) (data : Bytes) (sym : Str) (inputs : List (Str × JsVal)) (ρ : Rand Fr) :
    ({i | JsSupplies (jsParseSymFile sym) inputs i}.ncard ≤ lim → jsEncapLim S lim data sym inputs ρ = jsEncap S data sym inputs ρ) ∧
    (lim < {i | JsSupplies (jsParseSymFile sym) inputs i}.ncard → ∃ e, jsEncapLim S lim data sym inputs ρ = .error e) := by
  obtain ⟨h1, h2⟩ := witnessLim lim sym inputs
  unfold jsEncapLim jsEncap
  refine ⟨fun h => by rw [h1 h], fun h => ?_⟩
  obtain ⟨e, he⟩ := h2 h
  rw [he]
  exact ⟨e, rfl⟩

/-- **C102** (`encrypt`) — likewise. -/
theorem C102_encrypt (lim : Nat) (data : Bytes) (sym : Str) (inputs : List (Str × JsVal)) (message : Bytes) (incl : Bool) (ρ : Rand Fr)
    (nonce : Bytes) :
    ({i | JsSupplies (jsParseSymFile sym) inputs i}.ncard ≤ lim →
      jsEncryptLim S lim data sym inputs message incl ρ nonce = jsEncrypt S data sym inputs message incl ρ nonce) ∧
    (lim < {i | JsSupplies (jsParseSymFile sym) inputs i}.ncard →
      ∃ e, jsEncryptLim S lim data sym inputs message incl ρ nonce = .error e) := by
  obtain ⟨h1, h2⟩ := C102_encap S lim data sym inputs ρ
  unfold jsEncryptLim jsEncrypt
  refine ⟨fun h => by rw [h1 h], fun h => ?_⟩
  obtain ⟨e, he⟩ := h2 h
  rw [he]
  exact ⟨e, rfl⟩

/-- **C102** (when do the calls succeed) — exactly if they would without a limit and the number of wires given a value is within it; the
results are then the same, so all that is proved about the results elsewhere holds for engines with a limit. -/
theorem C102_outcome (lim : Nat) (data : Bytes) (sym : Str) (inputs : List (Str × JsVal)) (message : Bytes) (incl : Bool) (ρ : Rand Fr)
    (nonce : Bytes) (b k : Bytes) :
    (jsEncapLim S lim data sym inputs ρ = .ok (b, k) ↔
      jsEncap S data sym inputs ρ = .ok (b, k) ∧ {i | JsSupplies (jsParseSymFile sym) inputs i}.ncard ≤ lim) ∧
    (jsEncryptLim S lim data sym inputs message incl ρ nonce = .ok (b, k) ↔
      jsEncrypt S data sym inputs message incl ρ nonce = .ok (b, k) ∧ {i | JsSupplies (jsParseSymFile sym) inputs i}.ncard ≤ lim) := by
  rcases Nat.lt_or_ge lim {i | JsSupplies (jsParseSymFile sym) inputs i}.ncard with h | h
  · obtain ⟨e, he⟩ := (C102_encap S lim data sym inputs ρ).2 h
    obtain ⟨e', he'⟩ := (C102_encrypt S lim data sym inputs message incl ρ nonce).2 h
    rw [he, he']
    constructor <;> constructor
    · intro h; simp at h
    · rintro ⟨-, hc⟩; omega
    · intro h; simp at h
    · rintro ⟨-, hc⟩; omega
  · rw [(C102_encap S lim data sym inputs ρ).1 h, (C102_encrypt S lim data sym inputs message incl ρ nonce).1 h]
    exact ⟨⟨fun q => ⟨q, h⟩, And.left⟩, ⟨fun q => ⟨q, h⟩, And.left⟩⟩

theorem _root_.Zkenc.AMap.mem_of_get {V : Type} : ∀ {m : AMap V} {k : Str} {v : V}, AMap.get m k = some v → (k, v) ∈ m
  | (k', v') :: m, k, v, h => by
    rw [AMap.get] at h
    split at h
    · rename_i he
      cases h
      rw [he]
      exact List.mem_cons_self
    · exact List.mem_cons_of_mem _ (AMap.mem_of_get h)

/-- Only wires of the symbol table can be given values. -/
theorem supplies_finite (symtab : AMap Nat) (inputs : List (Str × JsVal)) : {i | JsSupplies symtab inputs i}.Finite := by
  refine Set.Finite.subset (List.finite_toSet (symtab.map Prod.snd)) ?_
  rintro i ⟨name, v, hr, -⟩
  exact List.mem_map.2 ⟨_, AMap.mem_of_get hr.1, rfl⟩

theorem small_of_card {symtab : AMap Nat} {inputs : List (Str × JsVal)} (h : {i | JsSupplies symtab inputs i}.ncard < 2 ^ 25) :
    JsSmall symtab inputs := by
  by_contra hc
  have hsub : ((Finset.Icc 1 (2 ^ 25) : Finset Nat) : Set Nat) ⊆ {i | JsSupplies symtab inputs i} := by
    intro i hi
    rw [Finset.coe_Icc] at hi
    by_contra hs
    exact hc ⟨i, hi.1, hi.2, hs⟩
  have := Set.ncard_le_ncard hsub (supplies_finite symtab inputs)
  rw [Set.ncard_coe_finset, Nat.card_Icc] at this
  omega

/-- **C102** (the size condition of the other theorems) — in an engine that allows fewer than 2^25 arguments in a call, a call that succeeds
left one of the wires 1, …, 2^25 without a value: the condition under which the other theorems about JS are stated always holds there. -/
theorem C102_small (lim : Nat) (hl : lim < 2 ^ 25) (data : Bytes) (sym : Str) (inputs : List (Str × JsVal)) (message : Bytes) (incl : Bool)
    (ρ : Rand Fr) (nonce : Bytes) (b k : Bytes)
    (h : jsEncapLim S lim data sym inputs ρ = .ok (b, k) ∨ jsEncryptLim S lim data sym inputs message incl ρ nonce = .ok (b, k)) :
    JsSmall (jsParseSymFile sym) inputs := by
  obtain ⟨h1, h2⟩ := C102_outcome S lim data sym inputs message incl ρ nonce b k
  rcases h with h | h
  · exact small_of_card (lt_of_le_of_lt (h1.1 h).2 hl)
  · exact small_of_card (lt_of_le_of_lt (h2.1 h).2 hl)

/-- **C102** (values that are not used count) — where wire 1 is given no value, the object has no effect: the result is that of `{}`. Yet
an engine with a limit throws if it gives values to too many other wires. -/
theorem C102_unused_values (sym : Str) (inputs : List (Str × JsVal)) (h1 : ¬ JsSupplies (jsParseSymFile sym) inputs 1)
    (hnn : ∀ name v i, Resolves (jsParseSymFile sym) none name i → JsGives inputs name v → v ≠ .null ∧ v ≠ .undef)
    (lim : Nat) (data : Bytes) (ρ : Rand Fr) :
    jsEncap S data sym inputs ρ = jsEncap S data sym [] ρ ∧
    (lim < {i | JsSupplies (jsParseSymFile sym) inputs i}.ncard → (∃ e, jsEncapLim S lim data sym inputs ρ = .error e) ∧
      jsEncapLim S lim data sym [] ρ = jsEncap S data sym [] ρ) := by
  have hempty : ∀ name v, ¬ JsGives ([] : List (Str × JsVal)) name v := by
    rintro name v ⟨e, he, -⟩; cases he
  have e1 : jsEncapWitness sym inputs = .ok (serializeWitnessSimple (1 :: [])) := by
    rw [C101_witness sym inputs]
    refine ⟨hnn, [], rfl, fun k hk => by simp at hk, fun name v hr hg => h1 ⟨name, v, hr, hg⟩⟩
  have e2 : jsEncapWitness sym [] = .ok (serializeWitnessSimple (1 :: [])) := by
    rw [C101_witness sym []]
    exact ⟨fun name v i _ g => absurd g (hempty _ _), [], rfl, fun k hk => by simp at hk, fun name v _ => hempty _ _⟩
  refine ⟨by unfold jsEncap; rw [e1, e2], fun h => ⟨(C102_encap S lim data sym inputs ρ).2 h, (C102_encap S lim data sym [] ρ).1 ?_⟩⟩
  have : {i | JsSupplies (jsParseSymFile sym) ([] : List (Str × JsVal)) i} = ∅ := by
    ext i
    simp only [Set.mem_ofPred_eq, Set.mem_empty_iff_false, iff_false]
    rintro ⟨name, v, -, hg⟩
    exact hempty _ _ hg
  rw [this]
  simp

/-- **C102** (arrays) — an object with one array of `n` numbers, texts or other values, whose elements are signals on different wires, gives
values to `n` wires: in an engine that allows fewer than `n` arguments the calls fail, whatever the values are. -/
theorem C102_array (sym : Str) (name : Str) (l : List JsVal) (f : Nat → Nat)
    (hf : ∀ i j, i < l.length → j < l.length → f i = f j → i = j)
    (hr : ∀ i, i < l.length → Resolves (jsParseSymFile sym) none (name ++ '[' :: (natDec i ++ [']'])) (f i)) :
    {i | JsSupplies (jsParseSymFile sym) [(name, .arr l)] i}.ncard = l.length ∧
    ∀ lim, lim < l.length → ∀ data ρ message incl nonce, (∃ e, jsEncapLim S lim data sym [(name, .arr l)] ρ = .error e) ∧
      ∃ e, jsEncryptLim S lim data sym [(name, .arr l)] message incl ρ nonce = .error e := by
  classical
  have hcard : {i | JsSupplies (jsParseSymFile sym) [(name, .arr l)] i}.ncard = l.length := by
    have : {i | JsSupplies (jsParseSymFile sym) [(name, .arr l)] i} = (((Finset.range l.length).image f : Finset Nat) : Set Nat) := by
      ext w
      simp only [Set.mem_ofPred_eq, Finset.coe_image, Finset.coe_range, Set.mem_image, Set.mem_Iio]
      constructor
      · rintro ⟨nm, v, hres, e, he, hat⟩
        rw [List.mem_singleton] at he
        subst he
        rw [← mem_jsLeaves] at hat
        simp only [jsLeaves] at hat
        obtain ⟨i, hi, rfl⟩ := (mem_jsElems _ _ _ _ _).1 hat
        have hlt : i < l.length := by
          by_contra hc
          rw [List.getElem?_eq_none (by omega)] at hi
          cases hi
        refine ⟨i, hlt, ?_⟩
        have h1 := (hr i hlt).1
        have h2 := hres.1
        rw [Nat.zero_add, idxKey] at h2
        rw [h1] at h2
        simpa using h2
      · rintro ⟨i, hi, rfl⟩
        refine ⟨_, l[i], hr i hi, (name, .arr l), by simp, ?_⟩
        rw [← mem_jsLeaves]
        simp only [jsLeaves]
        exact (mem_jsElems _ _ _ _ _).2 ⟨i, by simp [hi], by simp [idxKey]⟩
    rw [this, Set.ncard_coe_finset, Finset.card_image_of_injOn, Finset.card_range]
    intro i hi j hj h
    exact hf i j (by simpa using hi) (by simpa using hj) h
  refine ⟨hcard, fun lim hl data ρ message incl nonce => ⟨?_, ?_⟩⟩
  · exact (C102_encap S lim data sym _ ρ).2 (by omega)
  · exact (C102_encrypt S lim data sym _ message incl ρ nonce).2 (by omega)

/-- **C102** (the CLI has no such limit) — `zkenc encap` with the same circuit, symbols and values succeeds where JS, with `lim` arguments in a
call, does not; the number of values does not matter. -/
theorem C102_cli (fs : FS) (circuit sym input ciphertext key : Path) (r : R1csFile) (symtab : AMap Nat) (entries : List (Str × Json))
    (hfiles : CliFiles S fs circuit sym input r symtab entries) (hall : AllDenote entries) (ρ : Rand Fr) (hδ : ρ.delta ≠ 0)
    (lim : Nat) (data : Bytes) (symText : Str) (inputs : List (Str × JsVal))
    (hmany : lim < {i | JsSupplies (jsParseSymFile symText) inputs i}.ncard) :
    (∃ ct k, (encapCommand S circuit sym input ciphertext key ρ).exec fs = ((fs.set ciphertext ct).set key k, .ok ())) ∧
      ∃ e, jsEncapLim S lim data symText inputs ρ = .error e := by
  obtain ⟨ct, k, -, h⟩ := (C55_cli_encap_outcome S fs circuit sym input ciphertext key r symtab entries hfiles ρ).1 ⟨hall, hδ⟩
  exact ⟨⟨ct, k, h⟩, (C102_encap S lim data symText inputs ρ).2 hmany⟩

end Props

end Zkenc
