import Verif.Props.ComposeExactly
import Verif.Props.ComposeExample
/-!
# C94: a concrete case

Encrypted for `{ y: 9 }`; the receiver's `{ y: 9, x: "3" }` decrypts (with the circuit `y = x²`), `{ y: 16, x: "4" }` does not, whatever the private input.
-/

namespace Zkenc.Props

open Zkenc Zkenc.Spec Zkenc.InputSpec CalcSpec

namespace Ex

/-- The receiver's inputs with another number. -/
def other (n : Int) (t : Str) : List (Str × JsVal) := [(['y'], .num n), (['x'], .str t)]

theorem gets_y (n : Int) (t : Str) : ProgramGets smallNums [(['y'], []), (['x'], [])] (other n t) ['y'] (smallNums.big n) :=
  ⟨['y'], .num n, [], [], .num n, by simp [other], by simp, rfl, rfl, .num n⟩

theorem gives_bound (n : Int) (t : Str) : JsGivesBound smallNums [(['y'], []), (['x'], [])] (jsParseSymFile sym) (sq.nPubOut + sq.nPubIn) inputs (other n t) := by
  intro j _ name v _ hg
  obtain ⟨rfl, rfl⟩ := js_gives hg
  exact ⟨_, gets_y n t⟩

theorem binds_one : JsBinds (jsParseSymFile sym) (sq.nPubOut + sq.nPubIn) inputs 1 := by
  refine ⟨le_rfl, by simp [sq], fun i h1 h2 => ?_⟩
  obtain rfl : i = 1 := by omega
  obtain ⟨m, -, h2, h3⟩ := sym_parse
  refine ⟨['y'], .num 9, ⟨?_, fun k hk => by cases hk⟩, ⟨_, List.mem_singleton.2 rfl, .scalar (by simp) (by simp)⟩⟩
  rw [h3, main_y, h2]
  simp

/-- The right number decrypts, another does not, whatever the private input is. -/
theorem exactly (incl : Bool) :
    ∃ b k, jsEncrypt S sqData sym inputs [1, 2, 3] incl ρ nonce = .ok (b, k) ∧
      jsDecryptApi smallNums S sqData (.ok sqWasm) b (other 9 ['3']) = .ok [1, 2, 3] ∧
      ∀ t, ∃ e, jsDecryptApi smallNums S sqData (.ok sqWasm) b (other 16 t) = .error e := by
  obtain ⟨b, k, hb, -⟩ := js_run incl
  have h := fun n t => C94_js_to_js (N := smallNums) S sqData sqData_js sym inputs js_noAlias js_small [1, 2, 3] incl ρ nonce rfl
    (fun _ s hs => stringify_len s hs) b k hb sq_wf sq_ct (by simp [sq]) (by simp [sq]) sq_compiled (other n t) (gives_bound n t)
  refine ⟨b, k, hb, (h 9 ['3']).1 ⟨full_ok, ?_⟩, fun t => (h 16 t).2 ?_⟩
  · rintro j - name v s z z' - hg hs hz ⟨k, u, dims, path, y, g1, g2, g3, g4, g5⟩
    obtain ⟨rfl, rfl⟩ := js_gives hg
    cases hs
    have : jsBigInt (intDec 9) = some z := hz
    rw [nine_text] at this
    cases this
    have hp : path = [] := sq_names (.inl g3.symm)
    subst hp
    simp only [signalName] at g3
    subst g3
    simp only [other, List.mem_cons, Prod.mk.injEq, List.not_mem_nil, or_false, true_and] at g1
    rcases g1 with rfl | ⟨h, -⟩
    · have : y = .num 9 := by
        cases dims <;> exact (Option.some.inj g4).symm
      subst this
      generalize hv : JsVal.num 9 = v at g5
      cases g5 with
      | num n =>
        cases hv
        rw [smallNums.big_small _ (by norm_num)]
        norm_num
      | bigint => cases hv
      | str => cases hv
      | _ => cases hv
    · exact absurd h (by decide)
  · rintro ⟨-, hc⟩
    obtain ⟨m, -, h2, h3⟩ := sym_parse
    have := hc 1 binds_one ['y'] (.num 9) (intDec 9) 9 (smallNums.big 16) ⟨by rw [h3, main_y, h2]; simp, fun k hk => by cases hk⟩
      ⟨_, List.mem_singleton.2 rfl, .scalar (by simp) (by simp)⟩ rfl nine_text (gets_y 16 t)
    rw [smallNums.big_small _ (by norm_num)] at this
    have h7 := fr_ne 7 (by decide) (by decide)
    apply h7
    have h16 : ((16 : Int) : Fr) = 9 := by simpa using this
    have : (16 : Fr) = 9 := by exact_mod_cast h16
    push_cast
    linear_combination this

end Ex

end Zkenc.Props
