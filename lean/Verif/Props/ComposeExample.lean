import Verif.Props.Compose
import Verif.Props.EndToEndExample
import Verif.Props.WitnessCalcJs
/-!
# A concrete case for C58

The witness program of the circuit `y = x²`: it takes `y` and `x`, each once, and throws if `y ≠ x²`.
-/

namespace Zkenc.Props

open Zkenc Zkenc.Spec Zkenc.InputSpec CalcSpec

namespace Ex

/-- Limbs of a number, as signed results of a wasm function. -/
def limb (v j : Nat) : Int := ((v / 2 ^ (32 * j) % 2 ^ 32 : Nat) : Int)

/-- After a signal has been set: when both are there, the constraint is checked. -/
def sqDone (s : Option Nat × Option Nat) : Res (Option Nat × Option Nat) :=
  match s with
  | (some y, some x) => if ((y : Nat) : Fr) = (x : Fr) * (x : Fr) then .ok s else Res.fail "Assert Failed."
  | _ => .ok s

/-- The witness program. -/
def sqWasm : CircuitWasm (Option Nat × Option Nat) where
  n32 := 8
  primeLimb := limb frModulus
  init _ _ := .ok (none, none)
  signalSize hi lo := if hi * 2 ^ 32 + lo = (nameHash ['y']).toNat ∨ hi * 2 ^ 32 + lo = (nameHash ['x']).toNat then 1 else -1
  setInput s mem hi lo i :=
    if i ≠ 0 then Res.fail "Input signal array access exceeds the size." else
    if hi * 2 ^ 32 + lo = (nameHash ['y']).toNat then
      (if s.1.isSome then Res.fail "Signal already set." else sqDone (some (fromArray32 mem.reverse), s.2)) else
    if hi * 2 ^ 32 + lo = (nameHash ['x']).toNat then
      (if s.2.isSome then Res.fail "Signal already set." else sqDone (s.1, some (fromArray32 mem.reverse))) else
    Res.fail "Signal not found."
  inputSize := 2
  version := 2
  witnessSize := 3
  witness s i j := limb ([1, s.1.getD 0, s.2.getD 0].getD i 0) j
  start := (none, none)

theorem limbs_limb (v : Nat) : ((List.range 8).map fun j => toU32 (limb v j)) = limbs 8 v := by
  unfold limbs
  refine List.map_congr_left fun j _ => ?_
  unfold toU32 limb
  rw [Int.emod_eq_of_lt (by omega) (by exact_mod_cast Nat.mod_lt _ (by positivity))]
  exact Int.toNat_natCast _

theorem from_limb (v : Nat) (h : v < 2 ^ 256) : fromArray32 (((List.range 8).map fun j => toU32 (limb v j)).reverse) = v := by
  rw [limbs_limb]
  exact fromArray32_limbs 8 v (by simpa using h)

theorem modulus_lt : frModulus < 2 ^ 256 := by
  have := frModulus_lt
  norm_num at this ⊢
  exact this

theorem sqWasm_prime : sqWasm.prime = frModulus := from_limb _ modulus_lt

theorem hash_ne : nameHash ['y'] ≠ nameHash ['x'] := by decide

/-- One setting. -/
theorem sq_set (u : Setting) (s t : Option Nat × Option Nat)
    (h : perform sqWasm.toCalcInst [u] s = .ok t) :
    u.index = 0 ∧ ((u.hash = nameHash ['y'] ∧ s.1 = none ∧ sqDone (some (u.value % frModulus).toNat, s.2) = .ok t) ∨
      (u.hash = nameHash ['x'] ∧ s.2 = none ∧ sqDone (s.1, some (u.value % frModulus).toNat) = .ok t)) := by
  have hp : sqWasm.toCalcInst.prime ≠ 0 := by rw [sqWasm_prime]; decide
  have hm : fromArray32 (limbs sqWasm.n32 (u.value % sqWasm.toCalcInst.prime).toNat).reverse = (u.value % frModulus).toNat := by
    rw [fromArray32_limbs _ _ (value_lt _ hp _), sqWasm_prime]
  simp only [perform] at h
  obtain ⟨t', h, h'⟩ := Res.bind_eq_ok.1 h
  cases h'
  generalize hmem : limbs sqWasm.n32 (u.value % sqWasm.toCalcInst.prime).toNat = mem at h hm
  simp only [sqWasm] at h
  rw [Nat.div_add_mod'] at h
  split at h
  · cases h
  rename_i hi
  refine ⟨by simpa using hi, ?_⟩
  split at h
  · rename_i hy
    split at h
    · cases h
    · rename_i hs
      rw [hm] at h
      exact Or.inl ⟨UInt64.toNat_inj.1 hy, by simpa using hs, h⟩
  · split at h
    · rename_i hx
      split at h
      · cases h
      · rename_i hs
        rw [hm] at h
        exact Or.inr ⟨UInt64.toNat_inj.1 hx, by simpa using hs, h⟩
    · cases h

theorem sqDone_ok {s t : Option Nat × Option Nat} (h : sqDone s = .ok t) :
    t = s ∧ ∀ y x, s = (some y, some x) → ((y : Nat) : Fr) = (x : Fr) * (x : Fr) := by
  unfold sqDone at h
  split at h
  · split at h
    · rename_i hc
      cases h
      refine ⟨rfl, fun y x e => ?_⟩
      cases e
      exact hc
    · cases h
  · rename_i hn
    cases h
    exact ⟨rfl, fun y x e => absurd e (hn y x)⟩

/-- All inputs set: the state holds both values and they satisfy the circuit. -/
theorem sq_run (L : List Setting) (t : Option Nat × Option Nat) (h : perform sqWasm.toCalcInst L (none, none) = .ok t)
    (hl : 2 ≤ L.length) :
    ∃ y x : Int, t = (some (y % frModulus).toNat, some (x % frModulus).toNat) ∧
      (((y % frModulus).toNat : Nat) : Fr) = (((x % frModulus).toNat : Nat) : Fr) * (((x % frModulus).toNat : Nat) : Fr) ∧
      ∀ u ∈ L, u.index = 0 ∧ ((u.hash = nameHash ['y'] ∧ u.value = y) ∨ (u.hash = nameHash ['x'] ∧ u.value = x)) := by
  match L, hl with
  | a :: b :: rest, _ =>
    rw [show a :: b :: rest = [a] ++ ([b] ++ rest) from rfl, perform_append] at h
    obtain ⟨s1, h1, h⟩ := Res.bind_eq_ok.1 h
    rw [perform_append] at h
    obtain ⟨s2, h2, h⟩ := Res.bind_eq_ok.1 h
    obtain ⟨ia, ha⟩ := sq_set a _ _ h1
    obtain ⟨ib, hb⟩ := sq_set b _ _ h2
    have hrest : ∀ y x, s2 = (some y, some x) → rest = [] ∧ t = s2 := by
      intro y x e
      cases rest with
      | nil => cases h; exact ⟨rfl, rfl⟩
      | cons c rest =>
        rw [show c :: rest = [c] ++ rest from rfl, perform_append] at h
        obtain ⟨s3, h3, -⟩ := Res.bind_eq_ok.1 h
        obtain ⟨-, hc⟩ := sq_set c _ _ h3
        rw [e] at hc
        rcases hc with ⟨-, hc, -⟩ | ⟨-, hc, -⟩ <;> cases hc
    rcases ha with ⟨a1, -, a3⟩ | ⟨a1, -, a3⟩
    · obtain ⟨rfl, -⟩ := sqDone_ok a3
      rcases hb with ⟨-, b2, -⟩ | ⟨b1, -, b3⟩
      · cases b2
      · obtain ⟨rfl, hsat⟩ := sqDone_ok b3
        obtain ⟨rfl, rfl⟩ := hrest _ _ rfl
        refine ⟨a.value, b.value, rfl, hsat _ _ rfl, fun u hu => ?_⟩
        simp only [List.mem_cons, List.not_mem_nil, or_false] at hu
        rcases hu with rfl | rfl
        · exact ⟨ia, Or.inl ⟨a1, rfl⟩⟩
        · exact ⟨ib, Or.inr ⟨b1, rfl⟩⟩
    · obtain ⟨rfl, -⟩ := sqDone_ok a3
      rcases hb with ⟨b1, -, b3⟩ | ⟨-, b2, -⟩
      · obtain ⟨rfl, hsat⟩ := sqDone_ok b3
        obtain ⟨rfl, rfl⟩ := hrest _ _ rfl
        refine ⟨b.value, a.value, rfl, hsat _ _ rfl, fun u hu => ?_⟩
        simp only [List.mem_cons, List.not_mem_nil, or_false] at hu
        rcases hu with rfl | rfl
        · exact ⟨ia, Or.inr ⟨a1, rfl⟩⟩
        · exact ⟨ib, Or.inl ⟨b1, rfl⟩⟩
      · cases b2

theorem sq_witness (y x : Nat) (hy : y < frModulus) (hx : x < frModulus) : calcWitness (sqWasm.exports (some y, some x)) = [1, y, x] := by
  have := modulus_lt
  have hr : List.range 3 = [0, 1, 2] := by decide
  change (List.range 3).map (fun i => fromArray32 (((List.range 8).map fun j =>
    toU32 (limb ([1, y, x].getD i 0) j)).reverse)) = _
  rw [hr]
  simp only [List.map_cons, List.map_nil]
  rw [from_limb _ (by norm_num), from_limb _ (by simp; omega), from_limb _ (by simp; omega)]
  simp

theorem emod_lt (z : Int) : (z % frModulus).toNat < frModulus ∧ (((z % frModulus).toNat : Nat) : Fr) = (z : Fr) := by
  have hp : (0 : Int) < (frModulus : Int) := by exact_mod_cast (by decide : 0 < frModulus)
  have h1 := Int.emod_lt_of_pos z hp
  have h2 := Int.emod_nonneg z (ne_of_gt hp)
  refine ⟨by omega, ?_⟩
  rw [← Int.cast_natCast, Int.toNat_of_nonneg h2]
  exact ZMod.intCast_mod z frModulus

theorem sq_names {k : Str} {path : List Nat} (h : signalName k path = ['y'] ∨ signalName k path = ['x']) : path = [] := by
  cases path with
  | nil => rfl
  | cons i path =>
    exfalso
    have key : ∀ (p : List Nat) (q : Str), q.length ≤ (signalName q p).length := by
      intro p
      induction p with
      | nil => intro q; exact Nat.le_refl _
      | cons i p ih =>
        intro q
        refine le_trans ?_ (ih _)
        simp
    have h1 := key path (k ++ '[' :: (natDec i ++ [']']))
    simp only [signalName] at h
    have h2 : (signalName (k ++ '[' :: (natDec i ++ [']'])) path).length = 1 := by rcases h with h | h <;> rw [h] <;> rfl
    simp at h1
    omega

theorem sq_sym {name : Str} {w : Nat} (h : (jsParseSymFile sym).get ("main.".toList ++ name) = some w) :
    (name = ['y'] ∧ w = 1) ∨ (name = ['x'] ∧ w = 2) := by
  obtain ⟨m, -, h2, h3⟩ := sym_parse
  rw [h3, h2] at h
  have hm : "main.".toList = ['m', 'a', 'i', 'n', '.'] := by decide
  rw [hm] at h
  simpa using h

/-- The witness program belongs to the circuit and to its symbol file. -/
theorem sq_compiled : Compiled sqWasm sq (jsParseSymFile sym) [(['y'], []), (['x'], [])] where
  n32 := rfl
  prime := sqWasm_prime
  size := rfl
  names := by
    intro k dims path w hd hs
    have hpath : path = [] := sq_names ((sq_sym hs).imp (·.1) (·.1))
    subst hpath
    simp only [List.mem_cons, Prod.mk.injEq, List.not_mem_nil, or_false] at hd
    rcases hd with ⟨-, rfl⟩ | ⟨-, rfl⟩ <;> trivial
  run := by
    intro sanity s0 L t h0 hper hl
    cases h0
    obtain ⟨y, x, rfl, hsat, hall⟩ := sq_run L t hper (by
      have : (2 : Int) ≤ (L.length : Int) := hl
      omega)
    obtain ⟨hy1, hy2⟩ := emod_lt y
    obtain ⟨hx1, hx2⟩ := emod_lt x
    have hw := sq_witness _ _ hy1 hx1
    have hof : witnessOf sqWasm (some (y % frModulus).toNat, some (x % frModulus).toNat) = [1, (y : Fr), (x : Fr)] := by
      rw [witnessOf, hw]
      simp only [List.map_cons, List.map_nil, hy2, hx2, Nat.cast_one]
    rw [hy2, hx2] at hsat
    refine ⟨?_, ?_, ?_⟩
    · rw [hw]
      intro v hv
      simp only [List.mem_cons, List.not_mem_nil, or_false] at hv
      rcases hv with rfl | rfl | rfl
      · decide
      · exact hy1
      · exact hx1
    · rw [hof]
      refine ⟨rfl, rfl, ?_⟩
      intro k hk
      simp only [sq, List.mem_singleton] at hk
      subst hk
      simp only [lcSum, List.map_cons, List.map_nil, coeff_one, List.sum_cons, List.sum_nil, one_mul, add_zero]
      exact hsat.symm
    · intro k dims path w u hd hs hu hh _
      rw [hof]
      have hpath : path = [] := sq_names ((sq_sym hs).imp (·.1) (·.1))
      subst hpath
      rcases sq_sym hs with ⟨hk, rfl⟩ | ⟨hk, rfl⟩ <;> simp only [signalName] at hk <;> subst hk
      · rcases (hall u hu).2 with ⟨-, rfl⟩ | ⟨hx, -⟩
        · rfl
        · exact absurd (hh.symm.trans hx) hash_ne
      · rcases (hall u hu).2 with ⟨hy, -⟩ | ⟨-, rfl⟩
        · exact absurd (hy.symm.trans hh) hash_ne
        · rfl

/-- The receiver's inputs. -/
def full : List (Str × JsVal) := [(['y'], .num 9), (['x'], .str ['3'])]

theorem full_ok : ∃ w, calculateWitness smallNums (.ok sqWasm) full = .ok w := by
  have hp : sqWasm.toCalcInst.prime ≠ 0 := by rw [sqWasm_prime]; decide
  have h9 : List.Forall₂ (IsInt smallNums) (CalcSpec.leaves (.num 9)) [9] := .cons (.num 9) .nil
  have h3 : List.Forall₂ (IsInt smallNums) (CalcSpec.leaves (.str ['3'])) [3] := .cons (.str _ _ (by decide)) .nil
  have hsz : ∀ k : Str, (k = ['y'] ∨ k = ['x']) → sqWasm.signalSize ((nameHash k).toNat / 2 ^ 32) ((nameHash k).toNat % 2 ^ 32) = 1 := by
    intro k hk
    simp only [sqWasm]
    rw [Nat.div_add_mod', if_pos]
    rcases hk with rfl | rfl
    · exact Or.inl rfl
    · exact Or.inr rfl
  have hset : ∀ (z : Int) (k : Str) (s : Option Nat × Option Nat), perform sqWasm.toCalcInst [⟨nameHash k, 0, z⟩] s =
      (sqWasm.setInput s (limbs 8 (z % (frModulus : Int)).toNat) ((nameHash k).toNat / 2 ^ 32) ((nameHash k).toNat % 2 ^ 32) 0) := by
    intro z k s
    have : ∀ r : Res (Option Nat × Option Nat), (r >>= fun s' => .ok s') = r := by intro r; cases r <;> rfl
    simp only [perform, sqWasm_prime]
    exact this _
  have hv : ∀ z : Int, 0 ≤ z → z < 100 → fromArray32 (limbs 8 (z % (frModulus : Int)).toNat).reverse = z.toNat := by
    intro z h1 h2
    have h3 : (100 : Int) < frModulus := by exact_mod_cast (by decide : 100 < frModulus)
    rw [Int.emod_eq_of_lt h1 (by omega)]
    refine fromArray32_limbs 8 z.toNat ?_
    have : z.toNat < 100 := by omega
    exact lt_of_lt_of_le this (by norm_num)
  have hy : (sqWasm.setInput (none, none) (limbs 8 (9 % (frModulus : Int)).toNat) ((nameHash ['y']).toNat / 2 ^ 32) ((nameHash ['y']).toNat % 2 ^ 32) 0)
      = .ok (some 9, none) := by
    have := hv 9 (by norm_num) (by norm_num)
    simp only [sqWasm]
    rw [Nat.div_add_mod', if_neg (by simp), if_pos rfl, this]
    rfl
  have hx : (sqWasm.setInput (some 9, none) (limbs 8 (3 % (frModulus : Int)).toNat) ((nameHash ['x']).toNat / 2 ^ 32) ((nameHash ['x']).toNat % 2 ^ 32) 0)
      = .ok (some 9, some 3) := by
    have := hv 3 (by norm_num) (by norm_num)
    simp only [sqWasm]
    rw [Nat.div_add_mod', if_neg (by simp), if_neg (fun h => hash_ne (UInt64.toNat_inj.1 h).symm), if_pos rfl, this]
    simp only [Option.isSome_none, Bool.false_eq_true, if_false, sqDone]
    rw [if_pos]
    · rfl
    · norm_num
  have hd := (C53_accepts_iff (N := smallNums) hp false full (none, none) (some 9, some 3)).2 ⟨(none, none), rfl, [[9], [3]],
    .cons ⟨h9, hsz _ (Or.inl rfl)⟩ (.cons ⟨h3, hsz _ (Or.inr rfl)⟩ .nil), ?_, by decide⟩
  · exact ⟨_, by unfold calculateWitness; rw [Res.ok_bind]; exact (congrArg (· >>= _) hd).trans rfl⟩
  · change perform sqWasm.toCalcInst ([⟨nameHash ['y'], 0, 9⟩] ++ [⟨nameHash ['x'], 0, 3⟩]) (none, none) = _
    rw [perform_append, hset, hy, Res.ok_bind, hset, hx]

theorem pub_value : ∀ e ∈ inputs, PublicValue e.2 := by
  intro e he
  rw [inputs, List.mem_singleton] at he
  subst he
  exact Or.inl ⟨9, .num 9 (by norm_num)⟩

/-- The whole flow: `encrypt` for `{ y: 9 }`, then `decrypt` with `{ y: 9, x: "3" }`. -/
theorem js_flow (incl : Bool) : ∃ b k, jsEncrypt S sqData sym inputs [1, 2, 3] incl ρ nonce = .ok (b, k) ∧
    jsDecryptApi smallNums S sqData (.ok sqWasm) b full = .ok [1, 2, 3] := by
  obtain ⟨b, k, hb, -⟩ := js_run incl
  refine ⟨b, k, hb, ?_⟩
  exact (C58_js_to_js S sqData sqData_js sym inputs js_noAlias js_small pub_value [1, 2, 3] incl ρ nonce rfl
    (fun _ s hs => stringify_len s hs) b k hb sq_wf sq_ct (by simp [sq]) (by simp [sq]) sq_compiled
    (fun e he => by
      rw [inputs, List.mem_singleton] at he
      subst he
      exact ⟨[], by simp⟩) full (fun e he => by
      rw [inputs, List.mem_singleton] at he
      subst he
      simp [full])).1 full_ok

/-- C59 and C60 for this circuit: three values, both calculators agree. -/
theorem array_flow : ∃ w a, calculateWitness smallNums (.ok sqWasm) full = .ok w ∧ calculateWitnessArray smallNums (.ok sqWasm) full = .ok a ∧
    a.length = 3 ∧ (∃ t, rawCalculate smallNums sqWasm.toCalcInst full sqWasm.start = .ok t ∧ rawWtnsBin (sqWasm.exports t) = w) := by
  obtain ⟨w, hw⟩ := full_ok
  obtain ⟨a, info, h1, h2, h3, -⟩ := (C59_array_and_file smallNums (.ok sqWasm) full).2 w hw
  cases h2
  refine ⟨w, a, hw, h1, h3, ?_⟩
  unfold calculateWitness at hw
  rw [Res.ok_bind] at hw
  obtain ⟨t, ht, hw⟩ := Res.bind_eq_ok.1 hw
  cases hw
  refine ⟨t, (C60_same_state full sqWasm.start t).2 ht, C60_same_bytes _ ?_ ?_⟩ <;> (simp only [sqWasm, CircuitWasm.exports]; norm_num)

end Ex

end Zkenc.Props
