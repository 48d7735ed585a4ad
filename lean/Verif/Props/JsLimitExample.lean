import Verif.Props.JsLimit
import Verif.Props.KeyOrderExample
/-!
# Concrete cases for C102

`{ y: 9, x: 3 }` for the circuit `y = x²` gives values to two wires.
-/

namespace Zkenc.Props

open Zkenc Zkenc.Spec Zkenc.InputSpec

namespace Ex

theorem x_resolves : Resolves (jsParseSymFile sym) none ['x'] 2 := by
  obtain ⟨m, -, h2, h3⟩ := sym_parse
  have e1 : "main.".toList ++ ['x'] = ['m', 'a', 'i', 'n', '.', 'x'] := by decide
  refine ⟨?_, fun k hk => by cases hk⟩
  rw [h3, e1, h2]
  simp

theorem y_resolves' : Resolves (jsParseSymFile sym) none ['y'] 1 := by
  obtain ⟨m, -, h2, h3⟩ := sym_parse
  refine ⟨?_, fun k hk => by cases hk⟩
  rw [h3, main_y, h2]
  simp

theorem jsYx_supplies : {i | JsSupplies (jsParseSymFile sym) jsYx i}.ncard = 2 := by
  have : {i | JsSupplies (jsParseSymFile sym) jsYx i} = {1, 2} := by
    ext i
    simp only [Set.mem_ofPred_eq, Set.mem_insert_iff, Set.mem_singleton_iff]
    constructor
    · rintro ⟨name, v, hr, hg⟩
      rcases jsYx_gives hg with ⟨rfl, rfl⟩ | ⟨rfl, rfl⟩
      · exact .inl (js_resolves hr)
      · exact .inr (js_resolves_x hr)
    · rintro (rfl | rfl)
      · exact ⟨['y'], .num 9, y_resolves', (['y'], .num 9), by simp [jsYx], .scalar (by simp) (by simp)⟩
      · exact ⟨['x'], .num 3, x_resolves, (['x'], .num 3), by simp [jsYx], .scalar (by simp) (by simp)⟩
  rw [this, Set.ncard_pair (by norm_num)]

/-- With two arguments in a call the calls succeed, with one they fail, and the CLI succeeds. -/
theorem limit_run : (∃ ct k, jsEncapLim S 2 sqData sym jsYx ρ = .ok (ct, k)) ∧
    (∃ c k, jsEncryptLim S 2 sqData sym jsYx [1, 2, 3] false ρ nonce = .ok (c, k)) ∧
    (∃ e, jsEncryptLim S 1 sqData sym jsYx [1, 2, 3] false ρ nonce = .error e) ∧
    (∃ ct k, (encapCommand S ['c'] ['s'] ['p'] ['o'] ['k'] ρ).exec fsOrder = ((fsOrder.set ['o'] ct).set ['k'] k, .ok ())) ∧
    ∃ e, jsEncapLim S 1 sqData sym jsYx ρ = .error e := by
  obtain ⟨⟨ct, k, h1, -⟩, ⟨c, k', h2, -⟩⟩ := js_order_run
  obtain ⟨m, f1, -⟩ := filesOrder
  have h3 := C102_cli S fsOrder ['c'] ['s'] ['p'] ['o'] ['k'] sq m yx f1 yx_all ρ delta_ne 1 sqData sym jsYx (by rw [jsYx_supplies]; norm_num)
  exact ⟨⟨ct, k, ((C102_outcome S 2 sqData sym jsYx [1, 2, 3] false ρ nonce ct k).1).2 ⟨h1, by rw [jsYx_supplies]⟩⟩,
    ⟨c, k', ((C102_outcome S 2 sqData sym jsYx [1, 2, 3] false ρ nonce c k').2).2 ⟨h2, by rw [jsYx_supplies]⟩⟩,
    (C102_encrypt S 1 sqData sym jsYx [1, 2, 3] false ρ nonce).2 (by rw [jsYx_supplies]; norm_num), h3⟩

/-- The size condition of the other theorems, from the call that succeeds. -/
theorem limit_small : JsSmall (jsParseSymFile sym) jsYx := by
  obtain ⟨⟨ct, k, h⟩, -⟩ := limit_run
  exact C102_small S 2 (by norm_num) sqData sym jsYx [] false ρ nonce ct k (.inl h)

/-- `{ x: 3 }` has no effect in JS, since wire 1 is given no value; with no arguments allowed it fails all the same. -/
theorem unused_run : jsEncap S sqData sym [(['x'], .num 3)] ρ = jsEncap S sqData sym [] ρ ∧
    (∃ e, jsEncapLim S 0 sqData sym [(['x'], .num 3)] ρ = .error e) := by
  have hg : ∀ {name v}, JsGives [(['x'], JsVal.num 3)] name v → name = ['x'] ∧ v = .num 3 := by
    rintro name v ⟨e, he, hat⟩
    rw [List.mem_singleton] at he
    subst he
    cases hat with
    | scalar h1 h2 => exact ⟨rfl, rfl⟩
  obtain ⟨h1, h2⟩ := C102_unused_values S sym [(['x'], .num 3)] (by
      rintro ⟨name, v, hr, hgv⟩
      obtain ⟨rfl, rfl⟩ := hg hgv
      have := js_resolves_x hr
      omega) (by
      intro name v i _ hgv
      rw [(hg hgv).2]
      exact ⟨by simp, by simp⟩) 0 sqData ρ
  refine ⟨h1, (h2 ?_).1⟩
  have : {i | JsSupplies (jsParseSymFile sym) [(['x'], JsVal.num 3)] i} = {2} := by
    ext i
    simp only [Set.mem_ofPred_eq, Set.mem_singleton_iff]
    constructor
    · rintro ⟨name, v, hr, hgv⟩
      obtain ⟨rfl, rfl⟩ := hg hgv
      exact js_resolves_x hr
    · rintro rfl
      exact ⟨['x'], .num 3, x_resolves, (['x'], .num 3), by simp, .scalar (by simp) (by simp)⟩
  rw [this, Set.ncard_singleton]
  norm_num

/-- `{ a: [7, "8"] }` with `a[0]` on wire 1 and `a[1]` on wire 5. -/
theorem array_run (data : Bytes) : ∃ e, jsEncapLim S 1 data "1,1,0,main.a[0]\n2,5,0,main.a[1]".toList [(['a'], .arr [.num 7, .str ['8']])] ρ = .error e := by
  have hs : jsParseSymFile "1,1,0,main.a[0]\n2,5,0,main.a[1]".toList = [("main.a[0]".toList, 1), ("main.a[1]".toList, 5)] := by rfl
  refine ((C102_array S _ ['a'] [.num 7, .str ['8']] (fun i => if i = 0 then 1 else 5) ?_ ?_).2 1 (by simp) data ρ [] true []).1
  · intro i j hi hj h
    simp only [List.length_cons, List.length_nil] at hi hj
    split_ifs at h <;> omega
  · intro i hi
    simp only [List.length_cons, List.length_nil] at hi
    rw [hs]
    refine ⟨?_, fun k hk => by cases hk⟩
    obtain rfl | rfl : i = 0 ∨ i = 1 := by omega
    · simp [natDec, digChar, AMap.get]
    · simp [natDec, digChar, AMap.get]

end Ex

end Zkenc.Props
