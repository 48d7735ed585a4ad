import Verif.Props.EndToEndOutcome
/-!
# C37 for whole calls and commands: the order of the entries does not reach the ciphertext

Same circuit, same symbol table, same randomness: two input objects with the same entries in different orders give the same ciphertext and the
same key, whatever the orders of the hash maps in the two runs.
-/

namespace Zkenc.Props

open Zkenc Zkenc.Spec Zkenc.InputSpec

variable {G1 G2 GT : Type} [AddCommGroup G1] [Module Fr G1] [AddCommGroup G2] [Module Fr G2] [AddCommGroup GT] [Module Fr GT]
  (S : Sys G1 G2 GT)

/-- **C37** (JS `encap`, whole call) — the order of the entries of the input object changes neither the ciphertext nor the key. -/
theorem C37_js_encap_order (data : Bytes) (sym : Str) {inputs inputs' : List (Str × JsVal)} (hp : inputs.Perm inputs')
    (hna : JsNoAlias (jsParseSymFile sym) inputs) (ρ : Rand Fr) (ct key : Bytes) :
    jsEncap S data sym inputs ρ = .ok (ct, key) ↔ jsEncap S data sym inputs' ρ = .ok (ct, key) := by
  unfold jsEncap
  constructor
  · intro h
    obtain ⟨b, h1, h2⟩ := Res.bind_eq_ok.1 h
    exact Res.bind_eq_ok.2 ⟨b, (C37_js_order_independent sym hp hna b).1 h1, h2⟩
  · intro h
    obtain ⟨b, h1, h2⟩ := Res.bind_eq_ok.1 h
    exact Res.bind_eq_ok.2 ⟨b, (C37_js_order_independent sym hp hna b).2 h1, h2⟩

/-- **C37** (JS `encrypt`, whole call) — without the public input, the combined ciphertext is the same too. -/
theorem C37_js_encrypt_order (data : Bytes) (sym : Str) {inputs inputs' : List (Str × JsVal)} (hp : inputs.Perm inputs')
    (hna : JsNoAlias (jsParseSymFile sym) inputs) (message : Bytes) (ρ : Rand Fr) (nonce : Bytes) (ct key : Bytes) :
    jsEncrypt S data sym inputs message false ρ nonce = .ok (ct, key) ↔ jsEncrypt S data sym inputs' message false ρ nonce = .ok (ct, key) := by
  unfold jsEncrypt
  constructor
  · intro h
    obtain ⟨b, h1, h2⟩ := Res.bind_eq_ok.1 h
    exact Res.bind_eq_ok.2 ⟨b, (C37_js_encap_order S data sym hp hna ρ b.1 b.2).1 h1, h2⟩
  · intro h
    obtain ⟨b, h1, h2⟩ := Res.bind_eq_ok.1 h
    exact Res.bind_eq_ok.2 ⟨b, (C37_js_encap_order S data sym hp hna ρ b.1 b.2).2 h1, h2⟩

/-- The part of `encap` and `encrypt` up to the key, with another order of the entries and other hash orders. -/
theorem encapPart_order {fs fs' fs₁ : FS} {circuit sym input circuit' sym' input' : Path} {r : R1csFile} {symtab : AMap Nat}
    {entries entries' : List (Str × Json)} (hf : CliFiles S fs circuit sym input r symtab entries)
    (hf' : CliFiles S fs' circuit' sym' input' r symtab entries') (hp : entries.Perm entries') (hna : NoAlias symtab (some r.nPubIn) entries)
    (h' : HashOrder) {ρ : Rand Fr} {k : Bytes → Key → Bytes → Cmd}
    (h : (cliEncapPart S circuit sym input ρ k).exec fs = (fs₁, .ok ())) :
    ∃ ct key b b', (k ct key b).exec fs = (fs₁, .ok ()) ∧
      ∀ k' : Bytes → Key → Bytes → Cmd,
        (cliEncapPart { S with hash := h' } circuit' sym' input' ρ k').exec fs' = (k' ct key b').exec fs' := by
  obtain ⟨w, symText, jsonB, ct, key, h1, h2, -, h4, h5⟩ := CliFiles.assign hf h
  obtain ⟨data, g1, g2⟩ := hf'.circuit
  obtain ⟨sb, s, g3, g4, g5⟩ := hf'.sym
  obtain ⟨b', s', g6, g7, g8⟩ := hf'.input
  have hg : ∀ name x, Gives entries name x ↔ Gives entries' name x := by
    intro name x
    constructor
    · rintro ⟨e, he, q⟩; exact ⟨e, hp.mem_iff.1 he, q⟩
    · rintro ⟨e, he, q⟩; exact ⟨e, hp.mem_iff.2 he, q⟩
  have hna' : NoAlias symtab (some r.nPubIn) entries' := fun a b i x x' q1 q2 q3 q4 => hna a b i x x' q1 q2 ((hg _ _).2 q3) ((hg _ _).2 q4)
  have hw : cliAssign h' r.nPubIn s.toList (.obj entries') = .ok w := by
    rw [C38_cli_wires S.hash r.nPubIn symText entries w h1 hna] at h2
    rw [C38_cli_wires h' r.nPubIn s.toList entries' w g5 hna']
    have ha : AllDenote entries ↔ AllDenote entries' := by
      constructor
      · intro h e he; exact h e (hp.mem_iff.2 he)
      · intro h e he; exact h e (hp.mem_iff.1 he)
    simpa only [ha, hg] using h2
  refine ⟨_, key, jsonB, b', h5, fun k' => ?_⟩
  exact encapPart_of { S with hash := h' } g1 g2 g3 g4 g6 g7 g8 hw h4

/-- **C37** (`zkenc encap`, whole command) — two runs with the same circuit, the same symbols, the same entries in different orders and
the same randomness, with any two hash orders and any paths: if the first writes a ciphertext and a key, the second writes the same two. -/
theorem C37_cli_encap_order (fs fs' fs₁ : FS) (circuit sym input ciphertext key circuit' sym' input' ciphertext' key' : Path) (r : R1csFile)
    (symtab : AMap Nat) (entries entries' : List (Str × Json)) (hf : CliFiles S fs circuit sym input r symtab entries)
    (hf' : CliFiles S fs' circuit' sym' input' r symtab entries') (hp : entries.Perm entries')
    (hna : NoAlias symtab (some r.nPubIn) entries) (h' : HashOrder) (ρ : Rand Fr)
    (h : (encapCommand S circuit sym input ciphertext key ρ).exec fs = (fs₁, .ok ())) :
    ∃ ct k, fs₁ = (fs.set ciphertext ct).set key k ∧
      (encapCommand { S with hash := h' } circuit' sym' input' ciphertext' key' ρ).exec fs' =
        ((fs'.set ciphertext' ct).set key' k, .ok ()) := by
  obtain ⟨ct, ky, b, b', h1, h2⟩ := encapPart_order S hf hf' hp hna h' h
  simp only [exec_writeFile, Cmd.exec, Prod.mk.injEq, and_true] at h1
  refine ⟨ct, ky.bytes, h1.symm, ?_⟩
  unfold encapCommand
  rw [h2]
  simp only [exec_writeFile, Cmd.exec]

/-- **C37** (`zkenc encrypt`, whole command) — likewise, with the same message and nonce and without the public input, for the combined
ciphertext. -/
theorem C37_cli_encrypt_order (fs fs' fs₁ : FS) (circuit sym input message output circuit' sym' input' message' output' : Path) (r : R1csFile)
    (symtab : AMap Nat) (entries entries' : List (Str × Json)) (hf : CliFiles S fs circuit sym input r symtab entries)
    (hf' : CliFiles S fs' circuit' sym' input' r symtab entries') (hp : entries.Perm entries')
    (hna : NoAlias symtab (some r.nPubIn) entries) (hm : fs' message' = fs message) (h' : HashOrder) (ρ : Rand Fr) (nonce : Bytes)
    (h : (encryptCommand S circuit sym input message output false ρ nonce).exec fs = (fs₁, .ok ())) :
    ∃ c, fs₁ = fs.set output c ∧
      (encryptCommand { S with hash := h' } circuit' sym' input' message' output' false ρ nonce).exec fs' = (fs'.set output' c, .ok ()) := by
  obtain ⟨ct, ky, b, b', h1, h2⟩ := encapPart_order S hf hf' hp hna h' h
  obtain ⟨m, q1, h1⟩ := exec_readFile_ok.1 h1
  obtain ⟨enc, q2, h1⟩ := exec_lift_ok.1 h1
  simp only [exec_writeFile, Cmd.exec, Prod.mk.injEq, and_true] at h1
  refine ⟨combine false ct [] enc, by simpa using h1.symm, ?_⟩
  unfold encryptCommand
  rw [h2]
  simp only [Cmd.readFile, Cmd.lift, Cmd.exec, hm, q1, q2, exec_writeFile]
  simp

end Zkenc.Props
