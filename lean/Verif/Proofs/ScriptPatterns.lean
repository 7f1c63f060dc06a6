import Verif.Proofs.ScriptDefs
/-
  Patterns in scripts.
-/
namespace Adx.Read

open Syntax (Munch Gap Identifier Quoted Attr AttrList Repeat Mod)
open B

/-- What is known of a text that a pattern reads. -/
structure PatternRead (E : Setting) (uni : Uni) (env : Env) (w : Str) (g : Gram) (rest : Str) : Prop where
  sfx : rest <:+ w
  lt : blen rest < blen w
  head : ∃ c, w.head? = some c ∧ (c = '(' ∨ c = '<' ∨ c = '?' ∨ c = '!')
  reads : E.Has w → ∃ t, BReads E none none (Script.pattern uni) w (.tok rest t) ∧
    (t.name = "PatternDefinitionCaptured".toList ∨ t.name = "PatternDefinition".toList) ∧
    t.matched = ⟨E.at_ w, E.at_ rest⟩ ∧ Quiet t ∧ Desc E t fun toks i => DescribesPattern env toks i g

/-- What is known of a text that the rounds of a loop over patterns read. -/
structure RoundsRead (E : Setting) (xs : List (B MatcherId)) (env : Env) (w : Str) (gs : List Gram) (rest : Str) : Prop where
  sfx : rest <:+ w
  lt : blen rest < blen w
  head : w.head? ≠ some '}'
  reads : E.Has w → ∀ (k : List Tr) (c : List Range), ∃ ts caps r o a, Rounds E xs none ⟨w, E.at_ w, k, c, false⟩ none r ∧
    Pass E none xs r (.breaks none [] o a) ∧ a.take E o = ⟨rest, E.at_ rest, k ++ ts, caps, false⟩ ∧ caps ≠ [] ∧
    (∃ l wl, ts.getLast? = some l ∧ l.matched.stop = E.at_ wl ∧ rest <:+ wl ∧ wl <:+ w) ∧ (∀ t ∈ ts, Quiet t) ∧
    ∀ toks lo is, Reps E toks lo is ts → DescribesAll env toks is gs

/-- The parts of the loop of `{..}`. -/
def programRound (uni : Uni) : List (B MatcherId) := [
  Script.wsn0,
  Script.pattern uni,
  Script.wsn0,
  discard (optional (program [equals "}", brk]))]

/-- The parts of the loop of `[..]`. -/
def switchRound (uni : Uni) : List (B MatcherId) := [
  Script.wsn0,
  switch [
    discard (program [equals "]", brk]),
    Script.pattern uni],
  Script.wsn0,
  discard (switch [
    equals "|",
    program [equals "]", brk]])]

section
variable {E : Setting} {K : Option Nat} {w rest : Str} {uni : Uni} {env : Env} {g : Gram} {gs : List Gram}

/-! ### Patterns -/

theorem cons_lt (c : Char) (w : Str) : blen w < blen (c :: w) :=
  blen_lt (List.suffix_cons ..) (by
    intro h
    have := congrArg List.length h
    rw [List.length_cons] at this
    omega)

theorem fails_captured (h : w.head? ≠ some '(') : BReads E K K (programN "PatternDefinitionCaptured" [
    discard (equals "("), Script.wsn0, optional Script.matcherName, Script.wsn0, Script.patternDefinition uni, Script.wsn0,
    discard (equals ")")]) w .fail :=
  .programN (.fail (reads_char_fail h)) .fails

theorem patternRead_plain (h : DefinitionRead E uni env [] w g rest) : PatternRead E uni env w (.discard g) rest := by
  have hh : ∃ c, w.head? = some c ∧ (c = '<' ∨ c = '?' ∨ c = '!') := by
    rcases h.head with ⟨w', rfl⟩ | ⟨w', rfl⟩ | ⟨w', rfl⟩
    · exact ⟨_, rfl, by simp⟩
    · exact ⟨_, rfl, by simp⟩
    · exact ⟨_, rfl, by simp⟩
  obtain ⟨c, hc, hc'⟩ := hh
  refine ⟨h.sfx, h.lt, ⟨c, hc, Or.inr hc'⟩, fun hw => ?_⟩
  obtain ⟨t, h1, h2, h3, h4, h5⟩ := h.reads hw
  refine ⟨t, .switchN (.next (fails_captured ?_) (.here h1 trivial)), Or.inr h2, h3, h4, ?_⟩
  · rw [hc]
    intro he
    cases he
    rcases hc' with hc' | hc' | hc' <;> exact absurd hc' (by decide)
  · intro toks lo i hi
    obtain ⟨k, -, hk, -, hinf, -⟩ := hi.root
    exact .plain hk ((congrArg Info.name hinf).trans h2) (h5 _ _ _ hi)

/-- A definition is not mistaken for a name. -/
theorem fails_name {name : Str} (h : DefinitionRead E uni env name w g rest) : BReads E K K Script.matcherName w .fail := by
  rcases h.head with ⟨w', rfl⟩ | ⟨w', rfl⟩ | ⟨w', rfl⟩
  · exact fails_matcherName (head_ne (by decide))
  · exact .programN (.cons reads_char (.fail (reads_string_fail (head_ne (by decide)) (by decide)))) .fails
  · exact fails_matcherName (head_ne (by decide))

theorem patternRead_captured {w1 w2 : Str} (h1 : Gap w w1) (h2 : DefinitionRead E uni env [] w1 g w2) (h3 : Gap w2 (')' :: rest)) :
    PatternRead E uni env ('(' :: w) g rest := by
  have s1 : rest <:+ w := (((List.suffix_cons ..).trans h3.suffix).trans h2.sfx).trans h1.suffix
  refine ⟨adv s1 _, ?_, ⟨_, rfl, Or.inl rfl⟩, fun hw => ?_⟩
  · have := suffix_blen s1
    have := cons_lt '(' w
    omega
  · have hw1 : E.Has w1 := hw.tail (adv h1.suffix _)
    obtain ⟨t, b1, b2, b3, b4, b5⟩ := h2.reads hw1
    refine ⟨nodeT E "PatternDefinitionCaptured".toList ('(' :: w) rest [t], .switchN (.here ?_ trivial), Or.inl rfl, rfl, quiet_node ?_, ?_⟩
    · refine Parts.programN ?_ (by simp) (adv s1 _)
      exact .past reads_char <| .past (reads_gap h1) <| .past (.optional (g := .fail) (fails_name h2)) <| .past (reads_gap h1.again) <|
        .tok b1 <| .past (reads_gap h3) <| .past reads_char .nil
    · intro t' ht
      rw [List.mem_singleton.mp ht]
      exact b4
    · intro toks lo i hi
      obtain ⟨k, hk, -, hn, hc, -⟩ := hi.node
      obtain ⟨j, j1, j2⟩ := hc.get (j := 0) rfl
      refine .captured hk hn (hc.absent ?_) j1 (b5 _ _ _ j2)
      refine InNames.apart (ns := ["PatternDefinition"]) (.one (List.mem_singleton.mpr rfl) b2)

theorem patternRead_named {w1 raw val w2 w3 w4 : Str} (h1 : Gap w ('?' :: w1)) (h2 : Quoted w1 raw val w2) (h3 : Gap w2 w3)
    (h4 : DefinitionRead E uni env "Name".toList w3 g w4) (h5 : Gap w4 (')' :: rest)) : PatternRead E uni env ('(' :: w) g rest := by
  have s4 : rest <:+ w3 := ((List.suffix_cons ..).trans h5.suffix).trans h4.sfx
  have s1 : rest <:+ w := ((adv ((s4.trans h3.suffix).trans h2.suffix) _).trans h1.suffix)
  refine ⟨adv s1 _, ?_, ⟨_, rfl, Or.inl rfl⟩, fun hw => ?_⟩
  · have := suffix_blen s1
    have := cons_lt '(' w
    omega
  · have hw1 : E.Has ('?' :: w1) := hw.tail (adv h1.suffix _)
    have hw3 : E.Has w3 := hw1.tail (adv (h3.suffix.trans h2.suffix) _)
    obtain ⟨t, b1, b2, b3, b4, b5⟩ := h4.reads hw3
    obtain ⟨n, n1, n2, n3⟩ := reads_matcherName (E := E) (K := none) h2
    refine ⟨nodeT E "PatternDefinitionCaptured".toList ('(' :: w) rest [nodeT E "MatcherName".toList ('?' :: w1) w2 [n], t],
      .switchN (.here ?_ trivial), Or.inl rfl, rfl, quiet_node ?_, ?_⟩
    · refine Parts.programN ?_ (by simp) (adv s1 _)
      exact .past reads_char <| .past (reads_gap h1) <| .tok (.optional (g := .tok _ _) n1) <| .past (reads_gap h3) <|
        .tok b1 <| .past (reads_gap h5) <| .past reads_char .nil
    · intro t' ht
      simp only [List.mem_cons, List.not_mem_nil, or_false] at ht
      rcases ht with rfl | rfl
      · refine quiet_node ?_
        intro t' ht
        rw [List.mem_singleton.mp ht]
        exact n2
      · exact b4
    · intro toks lo i hi
      obtain ⟨k, hk, -, hn, hc, -⟩ := hi.node
      obtain ⟨j, j1, j2⟩ := hc.get (j := 1) rfl
      obtain ⟨q, q1, q2⟩ := hc.first (pre := []) (names := ["MatcherName"]) (fun _ h => by cases h) ⟨_, List.mem_singleton.mpr rfl, rfl⟩
      obtain ⟨nk, q3, -, -, q4, -⟩ := q2.node
      obtain ⟨x, x1, x2⟩ := q4.get (j := 0) rfl
      obtain ⟨xk, -, x3, -, x4, -⟩ := x2.root
      have hx : xk.name = "Name".toList := (congrArg Info.name x4).trans n3
      refine .named hk hn q1 q3 x1 x3 j1 ?_
      rw [hx]
      exact b5 _ _ _ j2

/-! ### Braces -/

theorem gap_length {w1 : Str} (h : Gap w w1) : blen w1 ≤ blen w := suffix_blen h.suffix

theorem reads_close {c : Char} {s : String} (hs : s.toList = [c] := by rfl) :
    BReads E K K (program [equals s, brk]) (c :: rest) (.brk [] (.tok rest (nodeT E "Program".toList (c :: rest) rest
      [leafT E "Equals".toList (c :: rest) rest]))) := by
  have : (.brk [] (.tok rest (nodeT E "Program".toList (c :: rest) rest [leafT E "Equals".toList (c :: rest) rest])) : Got)
      = Got.onward [] (.tok rest (nodeT E "Program".toList (c :: rest) rest [leafT E "Equals".toList (c :: rest) rest])) := rfl
  rw [this]
  exact .program (.cons (.equals (l := [c]) hs) <| .brk (.brk (s := "")))
    (.breaks (.tok (by simp [Run.take, Run.start]) (by simp [Run.take, Run.start]) rfl (List.suffix_cons ..) rfl))

theorem fails_close {c : Char} {s : String} (h : w.head? ≠ some c) (hs : s.toList = [c] := by rfl) :
    BReads E K K (program [equals s, brk]) w .fail :=
  .program (.fail (.equals_fail (head_prefix h) hs)) .fails

theorem PatternRead.head_ne (h : PatternRead E uni env w g rest) {c : Char} (hc : c ≠ '(' ∧ c ≠ '<' ∧ c ≠ '?' ∧ c ≠ '!') :
    w.head? ≠ some c := by
  obtain ⟨d, h1, h2⟩ := h.head
  rw [h1]
  intro he
  cases he
  rcases h2 with h2 | h2 | h2 | h2
  · exact hc.1 h2
  · exact hc.2.1 h2
  · exact hc.2.2.1 h2
  · exact hc.2.2.2 h2

theorem PatternRead.head_gap {w1 : Str} (h : PatternRead E uni env w1 g rest) (hg : Gap w w1) : w.head? ≠ some '}' := by
  intro hw
  have : Gap w w := ⟨[], .stop fun c hc => by
    rw [hw] at hc
    cases hc
    decide⟩
  rw [hg.unique this] at h
  exact h.head_ne (by decide) hw

theorem patterns_last {w1 w2 : Str} (h1 : Gap w w1) (h2 : PatternRead E uni env w1 g w2) (h3 : Gap w2 ('}' :: rest)) :
    RoundsRead E (programRound uni) env w [g] rest := by
  have s3 : rest <:+ w2 := (List.suffix_cons ..).trans h3.suffix
  have s2 : w2 <:+ w := h2.sfx.trans h1.suffix
  refine ⟨s3.trans s2, ?_, h2.head_gap h1, fun hw k c => ?_⟩
  · have := h2.lt
    have := gap_length h1
    have := suffix_blen s3
    omega
  · obtain ⟨t, b1, b2, b3, b4, b5⟩ := h2.reads (hw.tail h1.suffix)
    refine ⟨[t], c ++ [t.captured], _, .past rest, ⟨'}' :: rest, E.at_ ('}' :: rest), k ++ [t], c ++ [t.captured], false⟩, .zero, ?_, rfl,
      by simp, ⟨t, w2, rfl, by rw [b3], s3, s2⟩, ?_, ?_⟩
    · exact Pass.cons (reads_gap h1) <| Pass.cons b1 <| Pass.cons (reads_gap h3) <|
        Pass.brk (.discard (g := .brk [] (.tok _ _)) (.optional (g := .brk [] (.tok _ _)) reads_close))
    · intro t' ht
      rw [List.mem_singleton.mp ht]
      exact b4
    · intro toks lo is hr
      cases hr with
      | cons hl hk hp hc hr =>
        cases hr
        exact .cons (b5 _ _ _ (.cons hl hk hp hc .nil)) .nil

/-- One round in front of the others. -/
theorem rounds_more {xs : List (B MatcherId)} {w1 w2 w3 : Str} (h1 : Gap w w1) (h2 : PatternRead E uni env w1 g w2) (hs : w3 <:+ w2)
    (h4 : RoundsRead E xs env w3 gs rest)
    (hp : E.Has w → ∀ t k c, BReads E none none (Script.pattern uni) w1 (.tok w2 t) →
      Pass E none xs ⟨w, E.at_ w, k, c, false⟩ (.done none ⟨w3, E.at_ w3, k ++ [t], c ++ [t.captured], false⟩)) :
    RoundsRead E xs env w (g :: gs) rest := by
  have s3 : w3 <:+ w := hs.trans (h2.sfx.trans h1.suffix)
  have hlt : blen w3 < blen w := by
    have := h2.lt
    have := gap_length h1
    have := suffix_blen hs
    omega
  refine ⟨h4.sfx.trans s3, Nat.lt_trans h4.lt hlt, h2.head_gap h1, fun hw k c => ?_⟩
  obtain ⟨t, b1, b2, b3, b4, b5⟩ := h2.reads (hw.tail h1.suffix)
  obtain ⟨ts, caps, r, o, a, c1, c2, c3, c4, ⟨l, wl, d1, d2, d3, d4⟩, c5, c6⟩ := h4.reads (hw.tail s3) (k ++ [t]) (c ++ [t.captured])
  refine ⟨t :: ts, caps, r, o, a, .next (hp hw t k c b1) hlt c1, c2, ?_, c4, ⟨l, wl, ?_, d2, d3, d4.trans s3⟩, ?_, ?_⟩
  · rw [c3, List.append_assoc]
    rfl
  · cases ts with
    | nil => cases d1
    | cons t' ts => rw [List.getLast?_cons_cons]; exact d1
  · intro t' ht
    rcases List.mem_cons.mp ht with rfl | ht
    · exact b4
    · exact c5 t' ht
  · intro toks lo is hr
    cases hr with
    | cons hl hk hp hc hr => exact .cons (b5 _ _ _ (.cons hl hk hp hc .nil)) (c6 _ _ _ hr)

theorem patterns_more {w1 w2 w3 : Str} (h1 : Gap w w1) (h2 : PatternRead E uni env w1 g w2) (h3 : Gap w2 w3)
    (h4 : RoundsRead E (programRound uni) env w3 gs rest) : RoundsRead E (programRound uni) env w (g :: gs) rest := by
  refine rounds_more h1 h2 h3.suffix h4 fun hw t k c hr => ?_
  exact Pass.cons (reads_gap h1) <| Pass.cons hr <| Pass.cons (reads_gap h3) <|
    Pass.cons (.discard (g := .past w3) (.optional (g := .fail) (fails_close h4.head))) .nil

/-! ### Brackets -/

theorem reads_choice (h : PatternRead E uni env w g rest) {t : Tr} (hr : BReads E none none (Script.pattern uni) w (.tok rest t)) :
    BReads E none none (switch [discard (program [equals "]", brk]), Script.pattern uni]) w (.tok rest t) :=
  .switch (.next (.discard (g := .fail) (fails_close (c := ']') (h.head_ne (by decide)))) (.here hr trivial))

theorem choices_last {w1 w2 : Str} (h1 : Gap w w1) (h2 : PatternRead E uni env w1 g w2) (h3 : Gap w2 (']' :: rest)) :
    RoundsRead E (switchRound uni) env w [g] rest := by
  have s3 : rest <:+ w2 := (List.suffix_cons ..).trans h3.suffix
  have s2 : w2 <:+ w := h2.sfx.trans h1.suffix
  refine ⟨s3.trans s2, ?_, h2.head_gap h1, fun hw k c => ?_⟩
  · have := h2.lt
    have := gap_length h1
    have := suffix_blen s3
    omega
  · obtain ⟨t, b1, b2, b3, b4, b5⟩ := h2.reads (hw.tail h1.suffix)
    refine ⟨[t], c ++ [t.captured], _, .past rest, ⟨']' :: rest, E.at_ (']' :: rest), k ++ [t], c ++ [t.captured], false⟩, .zero, ?_, rfl,
      by simp, ⟨t, w2, rfl, by rw [b3], s3, s2⟩, ?_, ?_⟩
    · exact Pass.cons (reads_gap h1) <| Pass.cons (reads_choice h2 b1) <| Pass.cons (reads_gap h3) <|
        Pass.brk (.discard (g := .brk [] (.tok _ _)) (.switch
          (.next (.equals_fail (l := ['|']) (head_prefix (Adx.Read.head_ne (by decide)))) (.here reads_close trivial))))
    · intro t' ht
      rw [List.mem_singleton.mp ht]
      exact b4
    · intro toks lo is hr
      cases hr with
      | cons hl hk hp hc hr =>
        cases hr
        exact .cons (b5 _ _ _ (.cons hl hk hp hc .nil)) .nil

/-- A round that ends with a bar. -/
theorem choice_round {w1 w2 w3 : Str} (h1 : Gap w w1) (h2 : PatternRead E uni env w1 g w2) (h3 : Gap w2 ('|' :: w3))
    {t : Tr} {k : List Tr} {c : List Range} (hr : BReads E none none (Script.pattern uni) w1 (.tok w2 t)) :
    Pass E none (switchRound uni) ⟨w, E.at_ w, k, c, false⟩ (.done none ⟨w3, E.at_ w3, k ++ [t], c ++ [t.captured], false⟩) := by
  exact Pass.cons (reads_gap h1) <| Pass.cons (reads_choice h2 hr) <| Pass.cons (reads_gap h3) <|
    Pass.cons (.discard (g := .tok w3 _) (.switch (.here (.equals (l := ['|'])) trivial))) .nil

theorem choices_lastBar {w1 w2 w3 : Str} (h1 : Gap w w1) (h2 : PatternRead E uni env w1 g w2) (h3 : Gap w2 ('|' :: w3))
    (h4 : Gap w3 (']' :: rest)) : RoundsRead E (switchRound uni) env w [g] rest := by
  have s3 : rest <:+ w3 := (List.suffix_cons ..).trans h4.suffix
  have s3' : w3 <:+ w2 := (List.suffix_cons ..).trans h3.suffix
  have s2 : w2 <:+ w := h2.sfx.trans h1.suffix
  have hlt : blen w3 < blen w := by
    have := h2.lt
    have := gap_length h1
    have := suffix_blen s3'
    omega
  refine ⟨s3.trans (s3'.trans s2), Nat.lt_of_le_of_lt (suffix_blen s3) hlt, h2.head_gap h1, fun hw k c => ?_⟩
  obtain ⟨t, b1, b2, b3, b4, b5⟩ := h2.reads (hw.tail h1.suffix)
  refine ⟨[t], c ++ [t.captured], _, .past rest, ⟨']' :: rest, E.at_ (']' :: rest), k ++ [t], c ++ [t.captured], false⟩,
    .next (choice_round h1 h2 h3 b1) hlt .zero, ?_, rfl,
    by simp, ⟨t, w2, rfl, by rw [b3], s3.trans s3', s2⟩, ?_, ?_⟩
  · refine Pass.cons (reads_gap h4) <| Pass.brk (.switch (.here (.discard (g := .brk [] (.tok _ _)) reads_close) trivial))
  · intro t' ht
    rw [List.mem_singleton.mp ht]
    exact b4
  · intro toks lo is hr
    cases hr with
    | cons hl hk hp hc hr =>
      cases hr
      exact .cons (b5 _ _ _ (.cons hl hk hp hc .nil)) .nil

theorem choices_more {w1 w2 w3 : Str} (h1 : Gap w w1) (h2 : PatternRead E uni env w1 g w2) (h3 : Gap w2 ('|' :: w3))
    (h4 : RoundsRead E (switchRound uni) env w3 gs rest) : RoundsRead E (switchRound uni) env w (g :: gs) rest :=
  rounds_more h1 h2 ((List.suffix_cons ..).trans h3.suffix) h4 fun _ _ _ _ hr => choice_round h1 h2 h3 hr

end

/-! ### Groups -/

/-- The matchers that scripts refer to are those of the grammar. -/
structure Scripts (E : Setting) (uni : Uni) : Prop where
  sw : Is E (Script.switchMatcher uni) E.sw
  pm : Is E (Script.programMatcher uni) E.pm

section
variable {E : Setting} {K : Option Nat} {w rest : Str} {uni : Uni} {env : Env} {g : Gram} {gs : List Gram}

/-- A group of patterns. -/
theorem reads_group {xs : List (B MatcherId)} [AddsAll xs] {c : Char} {s n : String} {m : MatcherId} (h : RoundsRead E xs env w gs rest)
    (hw : E.Has (c :: w)) (hm : Is E (programN n [discard (equals s), proxyChildren (loop xs)]) m) (hN : E.Names m n.toList)
    (hs : s.toList = [c]) (hc : Cold n) :
    ∃ (cp : Range) (ts : List Tr), ts ≠ [] ∧
      Reads E none none m (c :: w) (.tok rest (.node ⟨n.toList, cp, ⟨E.at_ (c :: w), E.at_ rest⟩, none, [], 0⟩ ts)) ∧
      Quiet (.node ⟨n.toList, cp, ⟨E.at_ (c :: w), E.at_ rest⟩, none, [], 0⟩ ts) ∧
      ∀ toks lo is, Reps E toks lo is ts → DescribesAll env toks is gs := by
  obtain ⟨ts, caps, r, o, a, c1, c2, c3, c4, ⟨l, wl, d1, d2, d3, d4⟩, c5, c6⟩ := h.reads (hw.tail (List.suffix_cons ..)) [] []
  have hts : ts ≠ [] := by
    rintro rfl
    cases d1
  have hloop : BReads E none none (proxyChildren (loop xs)) w
      (.splice wl (Run.tree E "Loop".toList w ⟨rest, E.at_ rest, ts, caps, false⟩)) := by
    refine .proxyChildren (g := .tok rest (Run.tree E "Loop".toList w ⟨rest, E.at_ rest, ts, caps, false⟩))
      (.loop c1 c2 (.breaks (Or.inr rfl) ?_)) (.tok d3 d4 d1 d2 fun k hk => (c5 k hk).name "Error" (by decide))
    rw [c3]
    exact .tok (by simpa using hts) c4 rfl h.sfx rfl
  obtain ⟨ms, h1, h2⟩ := Is.prog hm
  refine ⟨_, ts, hts, reads_program h2 (fun _ => hN) h1 (.cons (reads_char hs) <| .cons hloop .nil)
    (.done (.tok (w' := rest) ?_ ?_ rfl (adv h.sfx _) rfl)), .node hc.names c5, c6⟩
  · simpa [Run.take, Run.start, Run.tree, Tr.kids] using hts
  · simp [Run.take, Run.start]

theorem group_fails {xs : List (B MatcherId)} [AddsAll xs] {c : Char} {s n : String} {m : MatcherId}
    (hm : Is E (programN n [discard (equals s), proxyChildren (loop xs)]) m) (hN : E.Names m n.toList)
    (hs : s.toList = [c]) (h : w.head? ≠ some c) : Reads E none none m w .fail := by
  obtain ⟨ms, h1, h2⟩ := Is.prog hm
  exact reads_program h2 (fun _ => hN) h1 (.fail (reads_char_fail h hs)) .fails

theorem Scripts.names_sw : E.Names E.sw "SwitchMatcher".toList :=
  ⟨fun _ => rfl, fun h => absurd h (toList_ne (by decide)), toList_ne (by decide)⟩

theorem Scripts.names_pm : E.Names E.pm "ProgramMatcher".toList :=
  ⟨fun h => absurd h (toList_ne (by decide)), fun _ => rfl, toList_ne (by decide)⟩

theorem ref_sw {o : Got} (h : Reads E none none E.sw w o) (ho : o.eager = true) : BReads E none none (ref "SwitchMatcher") w o :=
  fun _ hm => reads_ref hm.mk (Or.inl ⟨rfl, rfl⟩) h ho

theorem ref_pm {o : Got} (h : Reads E none none E.pm w o) (ho : o.eager = true) : BReads E none none (ref "ProgramMatcher") w o :=
  fun _ hm => reads_ref hm.mk (Or.inr ⟨rfl, rfl⟩) h ho

theorem matcherRead_switch (hS : Scripts E uni) (h : RoundsRead E (switchRound uni) env w gs rest) :
    MatcherRead E env ('[' :: w) (.group "Switch".toList false true gs) rest := by
  refine ⟨adv h.sfx _, ?_, ⟨_, rfl, by simp⟩, fun hw => ?_⟩
  · have := h.lt
    have := cons_lt '[' w
    omega
  · have : AddsAll (switchRound uni) := by unfold switchRound; infer_instance
    obtain ⟨cp, ts, hts, h1, h2, h3⟩ := reads_group (n := "SwitchMatcher") h hw hS.sw Scripts.names_sw rfl (by decide)
    refine ⟨_, .switchN ?_, ⟨"SwitchMatcher", by decide, rfl⟩, h2, ?_⟩
    · exact .next (fails_regexMatcher (head_ne (by decide))) <| .next (fails_equalsMatcher (head_ne (by decide))) <|
        .next (fails_sequenceMatcher (head_ne (by decide))) <| .next (fails_customMatcher (by
          intro c hc
          cases hc
          decide)) <| .here (ref_sw h1 rfl) trivial
    · intro toks lo i hi
      obtain ⟨k, -, hk, -, hinf, hc⟩ := hi.root
      refine .switch hk (congrArg Info.name hinf) ?_ (h3 _ _ _ hc)
      intro h0
      rw [h0] at hc
      exact hts (hc.nil_iff.mp rfl)

theorem matcherRead_program (hS : Scripts E uni) (h : RoundsRead E (programRound uni) env w gs rest) :
    MatcherRead E env ('{' :: w) (.group "Program".toList false false gs) rest := by
  refine ⟨adv h.sfx _, ?_, ⟨_, rfl, by simp⟩, fun hw => ?_⟩
  · have := h.lt
    have := cons_lt '{' w
    omega
  · have : AddsAll (programRound uni) := by unfold programRound; infer_instance
    have : AddsAll (switchRound uni) := by unfold switchRound; infer_instance
    obtain ⟨cp, ts, hts, h1, h2, h3⟩ := reads_group (n := "ProgramMatcher") h hw hS.pm Scripts.names_pm rfl (by decide)
    refine ⟨_, .switchN ?_, ⟨"ProgramMatcher", by decide, rfl⟩, h2, ?_⟩
    · exact .next (fails_regexMatcher (head_ne (by decide))) <| .next (fails_equalsMatcher (head_ne (by decide))) <|
        .next (fails_sequenceMatcher (head_ne (by decide))) <| .next (fails_customMatcher (by
          intro c hc
          cases hc
          decide)) <| .next (ref_sw (group_fails (xs := switchRound uni) (s := "[") hS.sw Scripts.names_sw rfl (head_ne (by decide))) rfl) <|
          .here (ref_pm h1 rfl) trivial
    · intro toks lo i hi
      obtain ⟨k, -, hk, -, hinf, hc⟩ := hi.root
      refine .program hk (congrArg Info.name hinf) ?_ (h3 _ _ _ hc)
      intro h0
      rw [h0] at hc
      exact hts (hc.nil_iff.mp rfl)

/-! ### The other matchers -/

theorem matcherRead_equals {raw val : Str} (h : Quoted w raw val rest) (hv : val ≠ []) :
    MatcherRead E env ('=' :: w) (.equals "Equals".toList false val) rest := by
  refine ⟨adv h.suffix _, ?_, ⟨_, rfl, by simp⟩, fun hw => ?_⟩
  · have := suffix_blen h.suffix
    have := cons_lt '=' w
    omega
  · obtain ⟨ts, h1, h2, h3⟩ := reads_equalsMatcher (E := E) (K := none) (env := env) h hv
    refine ⟨_, .switchN ?_, ⟨"EqualsMatcher", by decide, rfl⟩, quiet_node h2, h3⟩
    exact .next (fails_regexMatcher (head_ne (by decide))) <| .here h1 trivial

theorem matcherRead_regex {text w1 flags : Str} {re : Regex} (h : Syntax.Regular w text w1) (ht : text ≠ [])
    (hf : Munch Syntax.flagChar w1 flags rest) (hr : env.regex (Syntax.flagged flags text) = some re) :
    MatcherRead E env ('/' :: w) (.regex "Matches".toList false re) rest := by
  have hs : rest <:+ w := by
    rw [h.split]
    exact (adv hf.suffix _).trans (List.suffix_append ..)
  refine ⟨adv hs _, ?_, ⟨_, rfl, by simp⟩, fun hw => ?_⟩
  · have := suffix_blen hs
    have := cons_lt '/' w
    omega
  · obtain ⟨t, h1, h2, h3, h4⟩ := reads_regexMatcher (E := E) (K := none) h ht hf hr hw
    exact ⟨t, .switchN (.here h1 trivial), ⟨"RegexMatcher", by decide, h2⟩, h3, h4⟩

theorem matcherRead_sequence {w1 raw1 a w2 w3 raw2 b w4 w5 raw3 e : Str} (h1 : Gap w w1) (h2 : Quoted w1 raw1 a w2)
    (h3 : Syntax.Comma w2 w3) (h4 : Quoted w3 raw2 b w4) (h5 : Syntax.Comma w4 w5) (h6 : Quoted w5 raw3 e rest) (ha : a ≠ []) (hb : b ≠ []) :
    MatcherRead E env ('%' :: w) (.sequence "Sequence".toList false a b e) rest := by
  have hs : rest <:+ w := h6.suffix.trans <| h5.suffix.trans <| h4.suffix.trans <| h3.suffix.trans <| h2.suffix.trans h1.suffix
  refine ⟨adv hs _, ?_, ⟨_, rfl, by simp⟩, fun hw => ?_⟩
  · have := suffix_blen hs
    have := cons_lt '%' w
    omega
  · obtain ⟨ts, r1, r2, r3⟩ := reads_sequenceMatcher (E := E) (K := none) (env := env) h1 h2 h3 h4 h5 h6 ha hb
    refine ⟨_, .switchN ?_, ⟨"SequenceMatcher", by decide, rfl⟩, quiet_node r2, r3⟩
    exact .next (fails_regexMatcher (head_ne (by decide))) <| .next (fails_equalsMatcher (head_ne (by decide))) <| .here r1 trivial

theorem matcherRead_custom {n : Str} (h : Identifier w n rest) : MatcherRead E env w (.ref "Ref".toList false n) rest := by
  obtain ⟨c, hc, hi⟩ := h.head
  have hne : ∀ d, Syntax.idStart d = false → w.head? ≠ some d := by
    intro d hd he
    rw [hc] at he
    cases he
    rw [hi] at hd
    cases hd
  refine ⟨h.suffix, blen_lt h.suffix ?_, ⟨c, hc, by simp [hi]⟩, fun hw => ?_⟩
  · intro he
    have := h.munch.split
    rw [he] at this
    have := congrArg List.length this
    rw [List.length_append] at this
    exact h.ne (List.length_eq_zero_iff.mp (by omega))
  · obtain ⟨ts, h1, h2, h3⟩ := reads_customMatcher (E := E) (K := none) (env := env) h hw
    refine ⟨_, .switchN ?_, ⟨"CustomMatcher", by decide, rfl⟩, quiet_node h2, h3⟩
    exact .next (fails_regexMatcher (hne _ (by decide))) <| .next (fails_equalsMatcher (hne _ (by decide))) <|
      .next (fails_sequenceMatcher (hne _ (by decide))) <| .here h1 trivial

end

/-! ### All of it -/

section
variable {E : Setting} {uni : Uni} {env : Env}

theorem Scripts.pattern (hS : Scripts E uni) {w rest : Str} {g : Gram} (h : Syntax.Pattern env w g rest) : PatternRead E uni env w g rest := by
  refine Syntax.Pattern.rec (env := env)
    (motive_1 := fun w g rest _ => MatcherRead E env w g rest)
    (motive_2 := fun w gs rest _ => RoundsRead E (switchRound uni) env w gs rest)
    (motive_3 := fun w gs rest _ => RoundsRead E (programRound uni) env w gs rest)
    (motive_4 := fun name w g rest _ => DefinitionRead E uni env name w g rest)
    (motive_5 := fun w g rest _ => PatternRead E uni env w g rest)
    ?_ ?_ ?_ ?_ ?_ ?_ ?_ ?_ ?_ ?_ ?_ ?_ ?_ ?_ ?_ h
  · exact fun h hv => matcherRead_equals h hv
  · exact fun h ht hf hr => matcherRead_regex h ht hf hr
  · exact fun h1 h2 h3 h4 h5 h6 ha hb => matcherRead_sequence h1 h2 h3 h4 h5 h6 ha hb
  · exact fun h => matcherRead_custom h
  · exact fun _ ih => matcherRead_switch hS ih
  · exact fun _ ih => matcherRead_program hS ih
  · exact fun h1 _ h3 ih => choices_last h1 ih h3
  · exact fun h1 _ h3 h4 ih => choices_lastBar h1 ih h3 h4
  · exact fun h1 _ h3 _ ih1 ih2 => choices_more h1 ih1 h3 ih2
  · exact fun h1 _ h3 ih => patterns_last h1 ih h3
  · exact fun h1 _ h3 _ ih1 ih2 => patterns_more h1 ih1 h3 ih2
  · exact fun h1 _ h3 h4 h5 ih => definitionRead h1 ih h3 h4 h5
  · exact fun _ ih => patternRead_plain ih
  · exact fun h1 _ h3 ih => patternRead_captured h1 ih h3
  · exact fun h1 h2 h3 _ h5 ih => patternRead_named h1 h2 h3 ih h5

end

end Adx.Read
