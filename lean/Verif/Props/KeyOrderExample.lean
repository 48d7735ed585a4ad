import Verif.Props.KeyOrder
import Verif.Props.EndToEndExample
/-!
# Concrete cases for C37 at the level of calls and commands

`{"y": 9, "x": 3}` and `{"x": 3, "y": 9}` for the circuit `y = x²`.
-/

namespace Zkenc.Props

open Zkenc Zkenc.Spec Zkenc.InputSpec Zkenc.JsonSpec

namespace Ex

def yx : List (Str × Json) := [(['y'], .int 9), (['x'], .int 3)]
def xy : List (Str × Json) := [(['x'], .int 3), (['y'], .int 9)]

def yxText : Str := ['{', '"', 'y', '"', ':', '9', ',', '"', 'x', '"', ':', '3', '}']
def xyText : Str := ['{', '"', 'x', '"', ':', '3', ',', '"', 'y', '"', ':', '9', '}']

theorem yx_serde : S.serdeParse yxText = some (.obj yx) := by
  have h1 : pText yxText = some (.obj [(['y'], .num ['9']), (['x'], .num ['3'])]) := by rfl
  have h2 : serdeNum D ['9'] = some (.int 9) := by rfl
  have h3 : serdeNum D ['3'] = some (.int 3) := by rfl
  change (pText yxText).bind (JTree.toSerde D id 127) = _
  rw [h1]
  simp only [Option.bind_some, JTree.toSerde, fieldsToSerde, h2, h3]
  rfl

theorem xy_serde : S.serdeParse xyText = some (.obj xy) := by
  have h1 : pText xyText = some (.obj [(['x'], .num ['3']), (['y'], .num ['9'])]) := by rfl
  have h2 : serdeNum D ['9'] = some (.int 9) := by rfl
  have h3 : serdeNum D ['3'] = some (.int 3) := by rfl
  change (pText xyText).bind (JTree.toSerde D id 127) = _
  rw [h1]
  simp only [Option.bind_some, JTree.toSerde, fieldsToSerde, h2, h3]
  rfl

/-- The files of the other examples, and the two input files. -/
def fsOrder : FS := (fs.set ['p'] (utf8Enc yxText)).set ['q'] (utf8Enc xyText)

theorem filesOrder : ∃ symtab, CliFiles S fsOrder ['c'] ['s'] ['p'] sq symtab yx ∧ CliFiles S fsOrder ['c'] ['s'] ['q'] sq symtab xy ∧
    ∀ name w, symtab.get name = some w ↔ (name, w) ∈ [(['m', 'a', 'i', 'n', '.', 'y'], 1), (['m', 'a', 'i', 'n', '.', 'x'], 2)] := by
  obtain ⟨m, h1, h2, -⟩ := sym_parse
  have hs : parseSymFile (String.ofList sym).toList = .ok m := by rw [String.toList_ofList]; exact h1
  exact ⟨m, ⟨⟨sqData, rfl, sqData_cli⟩, ⟨utf8Enc sym, String.ofList sym, rfl, utf8Dec_enc _, hs⟩,
      ⟨utf8Enc yxText, String.ofList yxText, rfl, utf8Dec_enc _, by rw [String.toList_ofList]; exact yx_serde⟩⟩,
    ⟨⟨sqData, rfl, sqData_cli⟩, ⟨utf8Enc sym, String.ofList sym, rfl, utf8Dec_enc _, hs⟩,
      ⟨utf8Enc xyText, String.ofList xyText, rfl, utf8Dec_enc _, by rw [String.toList_ofList]; exact xy_serde⟩⟩, h2⟩

theorem denotes_three {x : Fr} (h : Denotes (.int 3) x) : x = 3 := by
  cases h with
  | nat z h1 h2 => norm_num
  | neg z h1 h2 => omega

theorem yx_gives {name : Str} {x : Fr} (h : Gives yx name x) : name = ['y'] ∧ x = 9 ∨ name = ['x'] ∧ x = 3 := by
  obtain ⟨e, he, path, y, hat, -, hn, hd⟩ := h
  simp only [yx, List.mem_cons, List.not_mem_nil, or_false] at he
  rcases he with rfl | rfl
  · cases hat with
    | here => exact .inl ⟨hn, denotes_nine hd⟩
  · cases hat with
    | here => exact .inr ⟨hn, denotes_three hd⟩

theorem yx_all : AllDenote yx := by
  intro e he path y hat hn
  simp only [yx, List.mem_cons, List.not_mem_nil, or_false] at he
  rcases he with rfl | rfl
  · cases hat with
    | here => exact ⟨_, .nat 9 (by norm_num) (by norm_num)⟩
  · cases hat with
    | here => exact ⟨_, .nat 3 (by norm_num) (by norm_num)⟩

theorem yx_xy : yx.Perm xy := List.Perm.swap _ _ _

/-- Both commands write the same files, for every order of the hash maps in the second run. -/
theorem order_run (h' : HashOrder) :
    (∃ ct k, (encapCommand S ['c'] ['s'] ['p'] ['o'] ['k'] ρ).exec fsOrder = ((fsOrder.set ['o'] ct).set ['k'] k, .ok ()) ∧
      (encapCommand { S with hash := h' } ['c'] ['s'] ['q'] ['o'] ['k'] ρ).exec fsOrder = ((fsOrder.set ['o'] ct).set ['k'] k, .ok ())) ∧
    ∃ c, (encryptCommand S ['c'] ['s'] ['p'] ['m'] ['o'] false ρ nonce).exec fsOrder = (fsOrder.set ['o'] c, .ok ()) ∧
      (encryptCommand { S with hash := h' } ['c'] ['s'] ['q'] ['m'] ['o'] false ρ nonce).exec fsOrder = (fsOrder.set ['o'] c, .ok ()) := by
  obtain ⟨m, f1, f2, h2⟩ := filesOrder
  have hna : NoAlias m (some sq.nPubIn) yx := by
    intro a b i x x' r1 r2 g1 g2
    obtain ⟨r1, l1⟩ := r1
    obtain ⟨r2, l2⟩ := r2
    have e1 : "main.".toList ++ ['x'] = ['m', 'a', 'i', 'n', '.', 'x'] := by decide
    rcases yx_gives g1 with ⟨rfl, rfl⟩ | ⟨rfl, rfl⟩ <;> rcases yx_gives g2 with ⟨rfl, rfl⟩ | ⟨rfl, rfl⟩
    · rfl
    · rw [main_y, h2] at r1
      rw [e1, h2] at r2
      simp at r1 r2
      omega
    · rw [main_y, h2] at r2
      rw [e1, h2] at r1
      simp at r1 r2
      omega
    · rfl
  have hmax : ([1, 2, 3] : Bytes).length ≤ S.cipher.maxEnc .cli := by
    change 3 ≤ 2 ^ 36; norm_num
  constructor
  · obtain ⟨ct, k, -, hr⟩ := (C55_cli_encap_outcome S fsOrder ['c'] ['s'] ['p'] ['o'] ['k'] sq m yx f1 ρ).1 ⟨yx_all, delta_ne⟩
    obtain ⟨ct', k', he, hr'⟩ := C37_cli_encap_order S fsOrder fsOrder _ ['c'] ['s'] ['p'] ['o'] ['k'] ['c'] ['s'] ['q'] ['o'] ['k'] sq m yx xy
      f1 f2 yx_xy hna h' ρ hr
    exact ⟨ct', k', by rw [hr, he], hr'⟩
  · obtain ⟨b, hb⟩ := (C47_encrypt_outcome S fsOrder ['c'] ['s'] ['p'] ['m'] ['o'] sq m yx f1 [1, 2, 3] rfl false ρ nonce rfl).1
      ⟨yx_all, delta_ne, hmax⟩
    obtain ⟨c, he, hr'⟩ := C37_cli_encrypt_order S fsOrder fsOrder _ ['c'] ['s'] ['p'] ['m'] ['o'] ['c'] ['s'] ['q'] ['m'] ['o'] sq m yx xy
      f1 f2 yx_xy hna rfl h' ρ nonce hb
    exact ⟨c, by rw [hb, he], hr'⟩

/-! ### JS -/

def jsYx : List (Str × JsVal) := [(['y'], .num 9), (['x'], .num 3)]
def jsXy : List (Str × JsVal) := [(['x'], .num 3), (['y'], .num 9)]

theorem jsYx_gives {name : Str} {v : JsVal} (h : JsGives jsYx name v) : name = ['y'] ∧ v = .num 9 ∨ name = ['x'] ∧ v = .num 3 := by
  obtain ⟨e, he, hat⟩ := h
  simp only [jsYx, List.mem_cons, List.not_mem_nil, or_false] at he
  rcases he with rfl | rfl
  · cases hat with
    | scalar h1 h2 => exact .inl ⟨rfl, rfl⟩
  · cases hat with
    | scalar h1 h2 => exact .inr ⟨rfl, rfl⟩

theorem js_resolves_x {i : Nat} (h : Resolves (jsParseSymFile sym) none ['x'] i) : i = 2 := by
  obtain ⟨m, -, h2, h3⟩ := sym_parse
  obtain ⟨hr, -⟩ := h
  have e1 : "main.".toList ++ ['x'] = ['m', 'a', 'i', 'n', '.', 'x'] := by decide
  rw [h3, e1, h2] at hr
  simpa using hr

theorem jsYx_noAlias : JsNoAlias (jsParseSymFile sym) jsYx := by
  intro n n' i v v' r1 r2 h1 h2
  rcases jsYx_gives h1 with ⟨rfl, rfl⟩ | ⟨rfl, rfl⟩ <;> rcases jsYx_gives h2 with ⟨rfl, rfl⟩ | ⟨rfl, rfl⟩
  · rfl
  · have := js_resolves r1
    have := js_resolves_x r2
    omega
  · have := js_resolves r2
    have := js_resolves_x r1
    omega
  · rfl

theorem jsYx_small : JsSmall (jsParseSymFile sym) jsYx := by
  refine .of_lt fun name v i hr hg => ?_
  rcases jsYx_gives hg with ⟨rfl, rfl⟩ | ⟨rfl, rfl⟩
  · rw [js_resolves hr]; norm_num
  · rw [js_resolves_x hr]; norm_num

theorem three_text : jsBigInt (intDec 3) = some 3 := by
  have : intDec 3 = ['3'] := by simp [intDec, natDec, digChar]
  rw [this]; decide

theorem jsYx_usable : JsUsable (jsParseSymFile sym) jsYx where
  not_null := by
    intro name v i _ hg
    rcases jsYx_gives hg with ⟨rfl, rfl⟩ | ⟨rfl, rfl⟩ <;> exact ⟨by simp, by simp⟩
  integer := by
    intro i _ _ name v s _ hg hs
    rcases jsYx_gives hg with ⟨rfl, rfl⟩ | ⟨rfl, rfl⟩
    · cases hs
      exact ⟨9, nine_text⟩
    · cases hs
      exact ⟨3, three_text⟩

/-- JS `encap` and `encrypt` give the same results for both orders. -/
theorem js_order_run : (∃ ct k, jsEncap S sqData sym jsYx ρ = .ok (ct, k) ∧ jsEncap S sqData sym jsXy ρ = .ok (ct, k)) ∧
    ∃ c k, jsEncrypt S sqData sym jsYx [1, 2, 3] false ρ nonce = .ok (c, k) ∧ jsEncrypt S sqData sym jsXy [1, 2, 3] false ρ nonce = .ok (c, k) := by
  have hmax : ([1, 2, 3] : Bytes).length ≤ S.cipher.maxEnc .js := by change 3 ≤ 2 ^ 36; norm_num
  have hp : jsYx.Perm jsXy := List.Perm.swap _ _ _
  constructor
  · obtain ⟨ct, k, h, -⟩ := (C55_js_encap_outcome S sqData sq sqData_js sym jsYx jsYx_noAlias jsYx_small ρ).1 ⟨jsYx_usable, delta_ne⟩
    exact ⟨ct, k, h, (C37_js_encap_order S sqData sym hp jsYx_noAlias ρ ct k).1 h⟩
  · obtain ⟨c, k, h⟩ := (C48_encrypt_outcome S sqData sq sqData_js sym jsYx jsYx_noAlias jsYx_small [1, 2, 3] false ρ nonce rfl).2
      ⟨jsYx_usable, delta_ne, hmax, fun h => by cases h⟩
    exact ⟨c, k, h, (C37_js_encrypt_order S sqData sym hp jsYx_noAlias [1, 2, 3] ρ nonce c k).1 h⟩

end Ex

end Zkenc.Props
