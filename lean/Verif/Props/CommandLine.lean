import Verif.Proofs.CommandLine
/-!
# C71: command lines
-/

namespace Zkenc.Props

open Zkenc CmdSpec

/-- Name of a command. -/
def subName : Sub → String
  | .encap => "encap"
  | .decap => "decap"
  | .encrypt => "encrypt"
  | .decrypt => "decrypt"

theorem subOf_iff (n : Str) (s : Sub) : subOf n = some s ↔ n = (subName s).toList := by
  constructor
  · intro h
    unfold subOf at h
    split_ifs at h with h1 h2 h3 h4 <;> cases h <;> assumption
  · rintro rfl
    cases s <;> decide

theorem goodOpts (s : Sub) : GoodOpts s.opts where
  long_inj := by cases s <;> decide
  no_eq := by cases s <;> decide
  ne_nil := by cases s <;> decide
  short_value := by
    have h : ∀ o ∈ s.opts, o.short.all fun x => !o.flag && x != '-' := by cases s <;> decide
    intro o ho x hx
    have := h o ho
    rw [hx] at this
    simpa using this

theorem letter_of_find {s : Sub} {x : Char} {o : OptSpec} (h : s.opts.find? (fun o => o.short = some x) = some o) {name : String}
    (hn : o.long = name.toList) : Letter (subName s) name x := by
  have hm := List.mem_of_find?_eq_some h
  have hs : o.short = some x := by simpa using List.find?_some h
  have inj : ∀ n : String, n.toList = name.toList → n = name := fun n h => String.toList_inj.1 h
  cases s <;> simp only [Sub.opts, List.mem_cons, List.not_mem_nil, or_false] at hm
  · rcases hm with rfl | rfl | rfl | rfl | rfl <;> cases hs <;> cases inj _ hn
    · exact .encapCircuit
    · exact .encapSym
    · exact .encapInput
    · exact absurd h (by decide)
    · exact .encapKey
  · rcases hm with rfl | rfl | rfl | rfl <;> cases hs <;> cases inj _ hn
    · exact .decapCircuit
    · exact .decapWitness
    · exact absurd h (by decide)
    · exact .decapKey
  · rcases hm with rfl | rfl | rfl | rfl | rfl | rfl <;> cases hs <;> cases inj _ hn
    · exact .encryptCircuit
    · exact .encryptSym
    · exact .encryptInput
    · exact .encryptMessage
    · exact .encryptOutput
  · rcases hm with rfl | rfl | rfl | rfl <;> cases hs <;> cases inj _ hn
    · exact .decryptCircuit
    · exact .decryptWitness
    · exact .decryptCiphertext
    · exact .decryptOutput

theorem find_of_letter {s : Sub} {name : String} {x : Char} (h : Letter (subName s) name x) {o : OptSpec} (ho : o ∈ s.opts)
    (hn : o.long = name.toList) : s.opts.find? (fun o => o.short = some x) = some o := by
  obtain ⟨o', h1, h2⟩ : ∃ o', s.opts.find? (fun o => o.short = some x) = some o' ∧ o'.long = name.toList := by
    generalize hc : subName s = c at h
    cases h <;> cases s <;> first | (exact absurd hc (by decide)) | exact ⟨_, rfl, rfl⟩
  rw [h1, (goodOpts s).long_inj o' (List.mem_of_find?_eq_some h1) o ho (h2.trans hn.symm)]

theorem sets_iff {s : Sub} {o : OptSpec} (ho : o ∈ s.opts) {name : String} (hn : o.long = name.toList) {toks : List Str} {v : Option Str} :
    SetsO s.opts o toks v ↔ Sets (subName s) toks name v ∧ o.flag = v.isNone := by
  have e : "--".toList = ['-', '-'] := by decide
  constructor
  · intro h
    cases h with
    | long hf hp => rw [hn]; exact ⟨.long hp, hf⟩
    | longEq hf => rw [hn]; exact ⟨.longEq, hf⟩
    | @short x v hf hp =>
      have hs : o.short = some x := by simpa using List.find?_some hf
      exact ⟨.short (letter_of_find hf hn) hp, ((goodOpts s).short_value o ho _ hs).1⟩
    | @shortEq x v hf =>
      have hs : o.short = some x := by simpa using List.find?_some hf
      exact ⟨.shortEq (letter_of_find hf hn), ((goodOpts s).short_value o ho _ hs).1⟩
    | @attached x v hf h0 h1 =>
      have hs : o.short = some x := by simpa using List.find?_some hf
      exact ⟨.attached (letter_of_find hf hn) h0 h1, ((goodOpts s).short_value o ho _ hs).1⟩
    | switch hf => rw [hn]; exact ⟨.switch, hf⟩
  · rintro ⟨h, hv⟩
    cases h with
    | long hp => rw [e, ← hn]; exact .long hv hp
    | longEq => rw [e, ← hn]; exact .longEq hv
    | short hl hp => exact .short (find_of_letter hl ho hn) hp
    | shortEq hl => exact .shortEq (find_of_letter hl ho hn)
    | attached hl h0 h1 => exact .attached (find_of_letter hl ho hn) h0 h1
    | switch => rw [e, ← hn]; exact .switch hv

/-- The settings with names as lists of characters. -/
def settingsL (a : Args) : List (Str × Option Str) := (settings a).2.map fun p => (p.1.toList, p.2)

theorem key_unique {l : List (Str × Option Str)} (h : (l.map Prod.fst).Nodup) {n : Str} {v w : Option Str} (h1 : (n, v) ∈ l) (h2 : (n, w) ∈ l) :
    v = w := by
  have := List.inj_on_of_nodup_map h h1 h2 rfl
  exact (Prod.mk.injEq .. ▸ this).2

theorem lookup_iff {l : List (Str × Option Str)} (h : (l.map Prod.fst).Nodup) {n : Str} {v : Option Str} : l.lookup n = some v ↔ (n, v) ∈ l := by
  induction l with
  | nil => simp
  | cons p l ih =>
    obtain ⟨m, w⟩ := p
    simp only [List.map_cons, List.nodup_cons] at h
    rw [List.lookup_cons]
    by_cases hm : n = m
    · subst hm
      simp only [beq_self_eq_true, Option.some.injEq, List.mem_cons, Prod.mk.injEq, true_and]
      constructor
      · rintro rfl; exact .inl rfl
      · rintro (rfl | h2)
        · rfl
        · exact absurd (List.mem_map.2 ⟨_, h2, rfl⟩) h.1
    · have : (n == m) = false := by simpa using hm
      simp only [this, List.mem_cons, Prod.mk.injEq, hm, false_and, false_or]
      exact ih h.2

theorem optGet_iff {l : List (Str × Option Str)} (h : (l.map Prod.fst).Nodup) {n : String} {v : Str} :
    optGet l n = some v ↔ (n.toList, some v) ∈ l := by
  unfold optGet
  rw [← lookup_iff h]
  cases l.lookup n.toList with
  | none => simp
  | some w => cases w <;> simp

/-- The options found are options of the command. -/
def KnownOpts (s : Sub) (l : List (Str × Option Str)) : Prop := ∀ p ∈ l, ∃ o ∈ s.opts, p.1 = o.long ∧ o.flag = p.2.isNone

/-- Names of the options set. -/
def keyNames : Sub → Bool → List Str
  | .encap, _ => ["circuit".toList, "sym".toList, "input".toList, "ciphertext".toList, "key".toList]
  | .decap, _ => ["circuit".toList, "witness".toList, "ciphertext".toList, "key".toList]
  | .encrypt, false => ["circuit".toList, "sym".toList, "input".toList, "message".toList, "output".toList]
  | .encrypt, true => ["circuit".toList, "sym".toList, "input".toList, "message".toList, "output".toList, "no-public-input".toList]
  | .decrypt, _ => ["circuit".toList, "witness".toList, "ciphertext".toList, "output".toList]

theorem keys_encap (c s i ct k : Str) : (settingsL (.encap c s i ct k)).map Prod.fst = keyNames .encap false := by
  simp only [settingsL, settings, keyNames, List.map_cons, List.map_nil, List.cons_append, List.nil_append, List.append_nil, if_true, if_false, Bool.false_eq_true]
theorem keys_decap (c w ct k : Str) : (settingsL (.decap c w ct k)).map Prod.fst = keyNames .decap false := by
  simp only [settingsL, settings, keyNames, List.map_cons, List.map_nil, List.cons_append, List.nil_append, List.append_nil, if_true, if_false, Bool.false_eq_true]
theorem keys_encrypt (c s i m o : Str) : (settingsL (.encrypt c s i m o false)).map Prod.fst = keyNames .encrypt false := by
  simp only [settingsL, settings, keyNames, List.map_cons, List.map_nil, List.cons_append, List.nil_append, List.append_nil, if_true, if_false, Bool.false_eq_true]
theorem keys_encrypt' (c s i m o : Str) : (settingsL (.encrypt c s i m o true)).map Prod.fst = keyNames .encrypt true := by
  simp only [settingsL, settings, keyNames, List.map_cons, List.map_nil, List.cons_append, List.nil_append, List.append_nil, if_true, if_false, Bool.false_eq_true]
theorem keys_decrypt (c w ct o : Str) : (settingsL (.decrypt c w ct o)).map Prod.fst = keyNames .decrypt false := by
  simp only [settingsL, settings, keyNames, List.map_cons, List.map_nil, List.cons_append, List.nil_append, List.append_nil, if_true, if_false, Bool.false_eq_true]

theorem settingsL_nodup (a : Args) : ((settingsL a).map Prod.fst).Nodup := by
  cases a with
  | encrypt c s i m o np =>
    cases np
    · rw [keys_encrypt]; decide
    · rw [keys_encrypt']; decide
  | encap c s i ct k => rw [keys_encap]; decide
  | decap c w ct k => rw [keys_decap]; decide
  | decrypt c w ct o => rw [keys_decrypt]; decide

theorem perm_of_mem {l l' : List (Str × Option Str)} (h : (l.map Prod.fst).Nodup) (h' : (l'.map Prod.fst).Nodup)
    (hs : ∀ p ∈ l', p ∈ l) (hk : ∀ p ∈ l, p.1 ∈ l'.map Prod.fst) : l.Perm l' := by
  refine (List.perm_ext_iff_of_nodup h.of_map h'.of_map).2 fun p => ⟨fun hp => ?_, hs p⟩
  obtain ⟨q, hq, he⟩ := List.mem_map.1 (hk p hp)
  obtain ⟨n, v⟩ := p
  obtain ⟨m, w⟩ := q
  simp only at he
  subst he
  rw [key_unique h hp (hs _ hq)]
  exact hq

theorem build_iff (s : Sub) (l : List (Str × Option Str)) (h : (l.map Prod.fst).Nodup) (hk : KnownOpts s l) (a : Args) :
    s.build l = some a ↔ subName s = (settings a).1 ∧ l.Perm (settingsL a) := by
  constructor
  · intro hb
    have key : ∀ l', (l'.map Prod.fst).Nodup → (∀ p ∈ l', p ∈ l) → (∀ o ∈ s.opts, o.long ∈ l'.map Prod.fst) → l.Perm l' := by
      intro l' h' hs ho
      refine perm_of_mem h h' hs fun p hp => ?_
      obtain ⟨o, hm, he, -⟩ := hk p hp
      rw [he]
      exact ho o hm
    cases s with
    | encap =>
      simp only [Sub.build, Option.bind_eq_some_iff, Option.map_eq_some_iff] at hb
      obtain ⟨c, hc, s, hs, i, hi, ct, hct, k, hkk, rfl⟩ := hb
      rw [optGet_iff h] at hc hs hi hct hkk
      refine ⟨rfl, key _ (settingsL_nodup _) ?_ ?_⟩
      · simp only [settingsL, settings, List.map_cons, List.map_nil, List.mem_cons, List.not_mem_nil, or_false]
        rintro p (rfl | rfl | rfl | rfl | rfl)
        exacts [hc, hs, hi, hct, hkk]
      · rw [keys_encap]; decide
    | decap =>
      simp only [Sub.build, Option.bind_eq_some_iff, Option.map_eq_some_iff] at hb
      obtain ⟨c, hc, w, hw, ct, hct, k, hkk, rfl⟩ := hb
      rw [optGet_iff h] at hc hw hct hkk
      refine ⟨rfl, key _ (settingsL_nodup _) ?_ ?_⟩
      · simp only [settingsL, settings, List.map_cons, List.map_nil, List.mem_cons, List.not_mem_nil, or_false]
        rintro p (rfl | rfl | rfl | rfl)
        exacts [hc, hw, hct, hkk]
      · rw [keys_decap]; decide
    | decrypt =>
      simp only [Sub.build, Option.bind_eq_some_iff, Option.map_eq_some_iff] at hb
      obtain ⟨c, hc, w, hw, ct, hct, k, hkk, rfl⟩ := hb
      rw [optGet_iff h] at hc hw hct hkk
      refine ⟨rfl, key _ (settingsL_nodup _) ?_ ?_⟩
      · simp only [settingsL, settings, List.map_cons, List.map_nil, List.mem_cons, List.not_mem_nil, or_false]
        rintro p (rfl | rfl | rfl | rfl)
        exacts [hc, hw, hct, hkk]
      · rw [keys_decrypt]; decide
    | encrypt =>
      simp only [Sub.build, Option.bind_eq_some_iff, Option.map_eq_some_iff] at hb
      obtain ⟨c, hc, s, hs, i, hi, m, hmm, o, ho, rfl⟩ := hb
      rw [optGet_iff h] at hc hs hi hmm ho
      refine ⟨rfl, ?_⟩
      by_cases hnp : "no-public-input".toList ∈ l.map Prod.fst
      · rw [decide_eq_true hnp]
        obtain ⟨⟨n, v⟩, hq, he⟩ := List.mem_map.1 hnp
        simp only at he
        subst he
        obtain ⟨o', ho', he', hf'⟩ := hk _ hq
        have hv : v = none := by
          have : ∀ o ∈ Sub.encrypt.opts, o.long = "no-public-input".toList → o.flag = true := by decide
          rw [this o' ho' he'.symm] at hf'
          simpa using hf'.symm
        subst hv
        refine key _ (settingsL_nodup _) ?_ ?_
        · simp only [settingsL, settings, if_true, List.cons_append, List.nil_append, List.map_cons, List.map_nil, List.mem_cons, List.not_mem_nil,
            or_false]
          rintro p (rfl | rfl | rfl | rfl | rfl | rfl)
          exacts [hc, hs, hi, hmm, ho, hq]
        · rw [keys_encrypt']; decide
      · rw [decide_eq_false hnp]
        refine perm_of_mem h (settingsL_nodup _) ?_ ?_
        · simp only [settingsL, settings, Bool.false_eq_true, if_false, List.append_nil, List.map_cons, List.map_nil, List.mem_cons, List.not_mem_nil,
            or_false]
          rintro p (rfl | rfl | rfl | rfl | rfl)
          exacts [hc, hs, hi, hmm, ho]
        · intro p hp
          obtain ⟨o', hm', he', -⟩ := hk p hp
          have hne : o'.long ≠ "no-public-input".toList := fun hc => hnp (List.mem_map.2 ⟨p, hp, he'.trans hc⟩)
          rw [he', keys_encrypt]
          have : ∀ o ∈ Sub.encrypt.opts, o.long ≠ "no-public-input".toList → o.long ∈ keyNames .encrypt false := by decide
          exact this o' hm' hne
  · rintro ⟨hn, hp⟩
    have hg : ∀ (n : String) (v : Str), (n.toList, some v) ∈ settingsL a → optGet l n = some v := fun n v hm =>
      (optGet_iff h).2 (hp.mem_iff.2 hm)
    cases a with
    | encap c s' i ct k =>
      cases s <;> simp only [subName, settings] at hn <;> first | (exact absurd hn (by decide)) | skip
      simp only [Sub.build, hg "circuit" c (by simp [settingsL, settings]), hg "sym" s' (by simp [settingsL, settings]),
        hg "input" i (by simp [settingsL, settings]), hg "ciphertext" ct (by simp [settingsL, settings]), hg "key" k (by simp [settingsL, settings]),
        Option.bind_some, Option.map_some]
    | decap c w ct k =>
      cases s <;> simp only [subName, settings] at hn <;> first | (exact absurd hn (by decide)) | skip
      simp only [Sub.build, hg "circuit" c (by simp [settingsL, settings]), hg "witness" w (by simp [settingsL, settings]),
        hg "ciphertext" ct (by simp [settingsL, settings]), hg "key" k (by simp [settingsL, settings]),
        Option.bind_some, Option.map_some]
    | decrypt c w ct k =>
      cases s <;> simp only [subName, settings] at hn <;> first | (exact absurd hn (by decide)) | skip
      simp only [Sub.build, hg "circuit" c (by simp [settingsL, settings]), hg "witness" w (by simp [settingsL, settings]),
        hg "ciphertext" ct (by simp [settingsL, settings]), hg "output" k (by simp [settingsL, settings]),
        Option.bind_some, Option.map_some]
    | encrypt c s' i m o np =>
      cases s <;> simp only [subName, settings] at hn <;> first | (exact absurd hn (by decide)) | skip
      have hnp : decide ("no-public-input".toList ∈ l.map Prod.fst) = np := by
        have : "no-public-input".toList ∈ l.map Prod.fst ↔ "no-public-input".toList ∈ (settingsL (.encrypt c s' i m o np)).map Prod.fst :=
          (hp.map Prod.fst).mem_iff
        cases np
        · rw [keys_encrypt] at this
          exact decide_eq_false fun h => absurd (this.1 h) (by decide)
        · rw [keys_encrypt'] at this
          exact decide_eq_true (this.2 (by decide))
      simp only [Sub.build, hg "circuit" c (by simp [settingsL, settings]), hg "sym" s' (by simp [settingsL, settings]),
        hg "input" i (by simp [settingsL, settings]), hg "message" m (by simp [settingsL, settings]), hg "output" o (by simp [settingsL, settings]),
        Option.bind_some, Option.map_some, hnp]

theorem settings_known (a : Args) (s : Sub) (hs : subName s = (settings a).1) : KnownOpts s (settingsL a) := by
  cases a with
  | encrypt c s' i m o np =>
    cases s <;> simp only [subName, settings] at hs <;> first | (exact absurd hs (by decide)) | skip
    cases np <;> simp only [KnownOpts, settingsL, settings] <;> simp [Sub.opts, OptSpec.field]
  | _ =>
    cases s <;> simp only [subName, settings] at hs <;> first | (exact absurd hs (by decide)) | skip
    simp [KnownOpts, settingsL, settings, Sub.opts, OptSpec.field]

theorem read_build_iff (s : Sub) (toks : List Str) (a : Args) :
    (readOptions s.opts toks.length toks []).bind s.build = some a ↔ Asks ((subName s).toList :: toks) a := by
  rw [Option.bind_eq_some_iff]
  constructor
  · rintro ⟨out, h, hb⟩
    obtain ⟨hnd, items, hout, hi, tail, htail, rfl⟩ := (readOptions_iff (goodOpts s) _ toks [] out le_rfl (by simp)).1 h
    rw [List.nil_append] at hout
    have hk : KnownOpts s out := by
      intro p hp
      rw [hout] at hp
      obtain ⟨it, hit, rfl⟩ := List.mem_map.1 hp
      obtain ⟨o, ho, he, hs⟩ := hi it hit
      exact ⟨o, ho, he, ((sets_iff ho (name := String.ofList o.long) (by simp)).1 hs).2⟩
    obtain ⟨hn, hp⟩ := (build_iff s out hnd hk a).1 hb
    refine ⟨items.map fun it => (it.1, (String.ofList it.2.1, it.2.2)), ?_, ?_, tail, ?_, ?_⟩
    · intro it' hit'
      obtain ⟨it, hit, rfl⟩ := List.mem_map.1 hit'
      obtain ⟨o, ho, he, hs⟩ := hi it hit
      rw [← hn]
      exact ((sets_iff ho (name := String.ofList it.2.1) (by simp [he])).1 hs).1
    · rw [hout] at hp
      have := hp.map fun p : Str × Option Str => (String.ofList p.1, p.2)
      simpa [settingsL, Function.comp_def] using this
    · have e : "--".toList = ['-', '-'] := by decide
      rw [e]; exact htail
    · rw [← hn]
      simp [Function.comp_def]
  · rintro ⟨items, hi, hp, tail, htail, heq⟩
    rw [List.cons.injEq] at heq
    obtain ⟨hn, rfl⟩ := heq
    have hn' : subName s = (settings a).1 := String.toList_inj.1 hn
    have hp' : (items.map fun it => (it.2.1.toList, it.2.2)).Perm (settingsL a) := by
      have := hp.map fun p : String × Option Str => (p.1.toList, p.2)
      simpa [settingsL, Function.comp_def] using this
    have hnd : ((items.map fun it => (it.2.1.toList, it.2.2)).map Prod.fst).Nodup :=
      (hp'.map Prod.fst).nodup_iff.2 (settingsL_nodup a)
    have hk : KnownOpts s (items.map fun it => (it.2.1.toList, it.2.2)) := fun p hpm => settings_known a s hn' p (hp'.mem_iff.1 hpm)
    refine ⟨_, (readOptions_iff (goodOpts s) _ _ [] _ le_rfl (by simp)).2 ⟨hnd, items.map fun it => (it.1, (it.2.1.toList, it.2.2)), ?_, ?_, tail, ?_, ?_⟩,
      (build_iff s _ hnd hk a).2 ⟨hn', hp'⟩⟩
    · simp [Function.comp_def]
    · intro it' hit'
      obtain ⟨it, hit, rfl⟩ := List.mem_map.1 hit'
      obtain ⟨o, ho, he, hf⟩ := hk (it.2.1.toList, it.2.2) (List.mem_map.2 ⟨it, hit, rfl⟩)
      simp only at he hf
      refine ⟨o, ho, he, (sets_iff ho he.symm).2 ⟨?_, hf⟩⟩
      rw [hn']
      exact hi it hit
    · have e : "--".toList = ['-', '-'] := by decide
      rw [e] at htail; exact htail
    · simp [Function.comp_def]

/-- **C71** (what is accepted) — a release build runs the command `a` exactly if the arguments ask for it in the sense of the specification:
its options in any order, each once, in any of the five ways of writing them. -/
theorem C71_accepts_iff (argv : List Str) (a : Args) : parseCli false argv = .run a ↔ Asks argv a := by
  cases argv with
  | nil =>
    simp only [parseCli, reduceCtorEq, false_iff]
    rintro ⟨items, -, -, tail, -, h⟩
    cases h
  | cons name toks =>
    simp only [parseCli]
    cases hs : subOf name with
    | none =>
      simp only [reduceCtorEq, false_iff]
      rintro ⟨items, -, -, tail, -, h⟩
      rw [List.cons.injEq] at h
      obtain ⟨s, hsn⟩ : ∃ s, subName s = (settings a).1 := by
        cases a
        · exact ⟨.encap, rfl⟩
        · exact ⟨.decap, rfl⟩
        · exact ⟨.encrypt, rfl⟩
        · exact ⟨.decrypt, rfl⟩
      have := (subOf_iff name s).2 (by rw [h.1, hsn])
      rw [hs] at this
      cases this
    | some s =>
      have hn := (subOf_iff name s).1 hs
      rw [hn, ← read_build_iff s toks a]
      simp only [Bool.false_and, Bool.false_eq_true, if_false]
      cases (readOptions s.opts toks.length toks []).bind s.build <;> simp

/-- **C71** (one meaning) — arguments ask for at most one command. -/
theorem C71_unambiguous (argv : List Str) (a a' : Args) (h : Asks argv a) (h' : Asks argv a') : a = a' := by
  have h1 := (C71_accepts_iff argv a).2 h
  rw [(C71_accepts_iff argv a').2 h'] at h1
  cases h1
  rfl

variable {G1 G2 GT : Type} [AddCommGroup G1] [Module Fr G1] [AddCommGroup G2] [Module Fr G2] [AddCommGroup GT] [Module Fr GT]

/-- **C71** (otherwise nothing happens) — with arguments that ask for nothing, no file changes, however the run ends, and no command
reports success (a request for help counts as not asking for a command). -/
theorem C71_otherwise_nothing (S : Sys G1 G2 GT) (ρ : Rand Fr) (nonce : Bytes) (argv : List Str) (h : ∀ a, ¬ Asks argv a) (fs fs' : FS)
    (o : Option (Res Unit)) (hr : Run (cliProgram S false ρ nonce argv) fs fs' o) : fs' = fs ∧ o ≠ some (.ok ()) := by
  unfold cliProgram at hr
  cases hp : parseCli false argv with
  | run a => exact absurd ((C71_accepts_iff argv a).1 hp) (h a)
  | exit =>
    rw [hp] at hr
    cases hr <;> simp [Res.fail]
  | panic =>
    rw [hp] at hr
    cases hr <;> simp

/-- **C71** (and otherwise the command runs) — the program behaves as the command asked for. -/
theorem C71_runs (S : Sys G1 G2 GT) (ρ : Rand Fr) (nonce : Bytes) (argv : List Str) (a : Args) (h : Asks argv a) :
    cliProgram S false ρ nonce argv = cliMain S ρ nonce a := by
  unfold cliProgram
  rw [(C71_accepts_iff argv a).2 h]

/-- A token that sets an option by its long name. -/
def LongToken (name : String) (t : Str) : Prop := t = "--".toList ++ name.toList ∨ ∃ v, t = "--".toList ++ name.toList ++ '=' :: v

theorem long_of_sets {cmd name : String} {toks : List Str} {v : Option Str} (h : Sets cmd toks name v) (hl : ∀ x, ¬ Letter cmd name x) :
    ∃ t ∈ toks, LongToken name t := by
  cases h with
  | long _ => exact ⟨_, by simp, .inl rfl⟩
  | longEq => exact ⟨_, List.mem_cons_self .., .inr ⟨_, rfl⟩⟩
  | short h _ => exact absurd h (hl _)
  | shortEq h => exact absurd h (hl _)
  | attached h _ _ => exact absurd h (hl _)
  | switch => exact ⟨_, by simp, .inl rfl⟩

theorem asks_sets {argv : List Str} {a : Args} (h : Asks argv a) {name : String} {v : Option Str} (hm : (name, v) ∈ (settings a).2) :
    ∃ toks, Sets (settings a).1 toks name v ∧ ∀ t ∈ toks, t ∈ argv := by
  obtain ⟨items, hi, hp, tail, -, rfl⟩ := h
  obtain ⟨it, hit, he⟩ := List.mem_map.1 (hp.mem_iff.2 hm)
  have := hi it hit
  rw [he] at this
  refine ⟨it.1, this, fun t ht => ?_⟩
  refine List.mem_cons_of_mem _ (List.mem_append_left _ ?_)
  exact List.mem_flatten.2 ⟨it.1, List.mem_map.2 ⟨it, hit, rfl⟩, ht⟩

/-- **C71** (`-c` is the circuit) — `encap` and `decap` only run if `--ciphertext` is written out: their help offers `-c` for both the circuit and the
ciphertext, but it always means the circuit. -/
theorem C71_ciphertext_long (argv : List Str) (a : Args) (h : Asks argv a) (ha : (settings a).1 = "encap" ∨ (settings a).1 = "decap") :
    ∃ t ∈ argv, LongToken "ciphertext" t := by
  have key : ∀ cmd, cmd = "encap" ∨ cmd = "decap" → ∀ x, ¬ Letter cmd "ciphertext" x := by
    intro cmd hc x hl
    generalize hn : "ciphertext" = n at hl
    cases hl <;> first | (exact absurd hn (by decide)) | (rcases hc with hc | hc <;> exact absurd hc (by decide))
  obtain ⟨ct, hm⟩ : ∃ ct, ("ciphertext", some ct) ∈ (settings a).2 := by
    cases a with
    | encap c s i ct k => exact ⟨ct, by simp [settings]⟩
    | decap c w ct k => exact ⟨ct, by simp [settings]⟩
    | encrypt c s i m o np => simp [settings] at ha
    | decrypt c w ct o => exact ⟨ct, by simp [settings]⟩
  obtain ⟨toks, hs, hsub⟩ := asks_sets h hm
  obtain ⟨t, ht, hl⟩ := long_of_sets hs (key _ ha)
  exact ⟨t, hsub t ht, hl⟩

/-- **C71** (`--sym` is required) — `encrypt` and `encap` only run if the symbol file is given. -/
theorem C71_sym_required (argv : List Str) (a : Args) (h : Asks argv a) (ha : (settings a).1 = "encrypt" ∨ (settings a).1 = "encap") :
    ∃ t ∈ argv, LongToken "sym" t ∨ ∃ v, t = '-' :: 's' :: v := by
  obtain ⟨sy, hm⟩ : ∃ sy, ("sym", some sy) ∈ (settings a).2 := by
    cases a with
    | encap c s i ct k => exact ⟨s, by simp [settings]⟩
    | decap c w ct k => simp [settings] at ha
    | encrypt c s i m o np => exact ⟨s, by simp [settings]⟩
    | decrypt c w ct o => simp [settings] at ha
  obtain ⟨toks, hs, hsub⟩ := asks_sets h hm
  have key : ∀ cmd x, Letter cmd "sym" x → x = 's' := by
    intro cmd x hl
    generalize hn : "sym" = n at hl
    cases hl <;> first | rfl | exact absurd hn (by decide)
  cases hs with
  | long _ => exact ⟨_, hsub _ (List.mem_cons_self ..), .inl (.inl rfl)⟩
  | longEq => exact ⟨_, hsub _ (List.mem_cons_self ..), .inl (.inr ⟨_, rfl⟩)⟩
  | short h _ => cases key _ _ h; exact ⟨_, hsub _ (List.mem_cons_self ..), .inr ⟨_, rfl⟩⟩
  | shortEq h => cases key _ _ h; exact ⟨_, hsub _ (List.mem_cons_self ..), .inr ⟨_, rfl⟩⟩
  | attached h _ _ => cases key _ _ h; exact ⟨_, hsub _ (List.mem_cons_self ..), .inr ⟨_, rfl⟩⟩

/-- **C71** (debug builds) — with debug assertions `encap` and `decap` panic whatever the arguments; `encrypt` and `decrypt` are as in release
builds. -/
theorem C71_debug (argv : List Str) (a : Args) :
    (parseCli true argv = .run a ↔ Asks argv a ∧ ((settings a).1 = "encrypt" ∨ (settings a).1 = "decrypt")) ∧
    (∀ toks, parseCli true ("encap".toList :: toks) = .panic ∧ parseCli true ("decap".toList :: toks) = .panic) := by
  have hpan : ∀ toks, parseCli true ("encap".toList :: toks) = .panic ∧ parseCli true ("decap".toList :: toks) = .panic := by
    intro toks
    have h1 : subOf "encap".toList = some .encap := by decide
    have h2 : subOf "decap".toList = some .decap := by decide
    have c1 : Sub.encap.clash = true := by decide
    have c2 : Sub.decap.clash = true := by decide
    simp only [parseCli, h1, h2, c1, c2, Bool.true_and, if_true, and_self]
  refine ⟨?_, hpan⟩
  rw [← C71_accepts_iff]
  cases argv with
  | nil => simp [parseCli]
  | cons name toks =>
    cases hs : subOf name with
    | none => simp [parseCli, hs]
    | some s =>
      have hn := (subOf_iff name s).1 hs
      have same : s.clash = false → parseCli true (name :: toks) = parseCli false (name :: toks) := by
        intro hc
        simp only [parseCli, hs, hc, Bool.and_false]
      have cmd : ∀ a, parseCli false (name :: toks) = .run a → (settings a).1 = subName s := by
        intro a ha
        obtain ⟨items, -, -, tail, -, h⟩ := (C71_accepts_iff _ _).1 ha
        rw [List.cons.injEq, hn] at h
        exact (String.toList_inj.1 h.1).symm
      cases s with
      | encap =>
        subst hn
        rw [show (subName Sub.encap).toList = "encap".toList from rfl, (hpan toks).1]
        constructor
        · intro h; cases h
        · rintro ⟨h1, h2⟩
          rw [cmd a h1] at h2
          exact absurd h2 (by decide)
      | decap =>
        subst hn
        rw [show (subName Sub.decap).toList = "decap".toList from rfl, (hpan toks).2]
        constructor
        · intro h; cases h
        · rintro ⟨h1, h2⟩
          rw [cmd a h1] at h2
          exact absurd h2 (by decide)
      | encrypt =>
        rw [same (by decide)]
        exact ⟨fun h => ⟨h, .inl (cmd a h)⟩, fun h => h.1⟩
      | decrypt =>
        rw [same (by decide)]
        exact ⟨fun h => ⟨h, .inr (cmd a h)⟩, fun h => h.1⟩

/-- Non-vacuity: `zkenc decap -kK --ciphertext=-x -c=C --witness - --`. -/
example : Asks (["decap", "-kK", "--ciphertext=-x", "-c=C", "--witness", "-", "--"].map String.toList)
    (.decap "C".toList "-".toList "-x".toList "K".toList) := by
  refine ⟨[(["-kK".toList], ("key", some "K".toList)), (["--ciphertext=-x".toList], ("ciphertext", some "-x".toList)),
    (["-c=C".toList], ("circuit", some "C".toList)), (["--witness".toList, "-".toList], ("witness", some "-".toList))], ?_, ?_, ["--".toList],
    .inr rfl, by decide⟩
  · simp only [List.mem_cons, List.not_mem_nil, or_false]
    rintro it (rfl | rfl | rfl | rfl)
    · exact .attached .decapKey (by decide) (by decide)
    · exact .longEq (name := "ciphertext")
    · exact .shortEq .decapCircuit
    · exact .long (name := "witness") (v := "-".toList) (.inl rfl)
  · decide

/-- Non-vacuity: the short form suggested by the help text, and the README's `encrypt` without `--sym`, are rejected. -/
example : parseCli false (["encap", "-c", "C", "-s", "S", "-i", "I", "-c", "T", "-k", "K"].map String.toList) = .exit ∧
    parseCli false (["encrypt", "--circuit", "C", "--input", "I", "--message", "M", "--output", "O"].map String.toList) = .exit := by
  constructor <;> rfl

end Zkenc.Props
