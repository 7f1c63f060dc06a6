import Verif.Proofs.ScriptImports
/-
  Statements in scripts.
-/
namespace Adx.Read

open Syntax (Munch Gap Blanks Identifier Quoted Comment Stmt Statements)
open B

section
variable {E : Setting} {uni : Uni} {env : Env}

theorem Scripts.definition (hS : Scripts E uni) {name w rest : Str} {g : Gram} (h : Syntax.Definition env name w g rest) :
    DefinitionRead E uni env name w g rest := by
  refine Syntax.Definition.rec (env := env)
    (motive_1 := fun w g rest _ => MatcherRead E env w g rest)
    (motive_2 := fun w gs rest _ => RoundsRead E (switchRound uni) env w gs rest)
    (motive_3 := fun w gs rest _ => RoundsRead E (programRound uni) env w gs rest)
    (motive_4 := fun name w g rest _ => DefinitionRead E uni env name w g rest)
    (motive_5 := fun w g rest _ => PatternRead E uni env w g rest)
    ?_ ?_ ?_ ?_ ?_ ?_ ?_ ?_ ?_ ?_ ?_ ?_ ?_ ?_ ?_ h
  · exact fun h hv => matcherRead_equals h hv
  · exact fun h ht hf hr => matcherRead_regex h ht hf hr
  · exact fun h1 h2 h3 h4 h5 h6 ha hb => matcherRead_sequence h1 h2 h3 h4 h5 h6 ha hb
  · exact fun h => matcherRead_custom h
  · exact fun _ ih => matcherRead_switch hS ih
  · exact fun _ ih => matcherRead_program hS ih
  · exact fun h1 _ h3 ih => choices_last h1 ih h3
  · exact fun h1 _ h3 h4 ih => choices_lastBar h1 ih h3 h4
  · exact fun h1 _ h3 _ ih1 ih2 => choices_more h1 ih1 h3 ih2
  · exact fun h1 _ h3 ih => patterns_last h1 ih h3
  · exact fun h1 _ h3 _ ih1 ih2 => patterns_more h1 ih1 h3 ih2
  · exact fun h1 _ h3 h4 h5 ih => definitionRead h1 ih h3 h4 h5
  · exact fun _ ih => patternRead_plain ih
  · exact fun h1 _ h3 ih => patternRead_captured h1 ih h3
  · exact fun h1 h2 h3 _ h5 ih => patternRead_named h1 h2 h3 ih h5

end

section
variable {E : Setting} {K : Option Nat} {w rest : Str} {uni : Uni} {env : Env} {g : Gram}

/-! ### Assignments -/

theorem _root_.Adx.Syntax.Identifier.head_ne {n : Str} (h : Identifier w n rest) {c : Char} (hc : Syntax.idStart c = false := by decide) :
    w.head? ≠ some c := by
  obtain ⟨d, h1, h2⟩ := h.head
  rw [h1]
  intro he
  cases he
  rw [hc] at h2
  cases h2

/-- Two ways to write a text. -/
theorem meet {a b x y : Str} {c d : Char} (h : a ++ c :: x = b ++ d :: y) : c ∈ b ∨ c = d ∨ d ∈ a := by
  induction a generalizing b with
  | nil =>
    cases b with
    | nil => exact Or.inr (Or.inl (List.cons.inj h).1)
    | cons e b =>
      have := (List.cons.inj h).1
      exact Or.inl (by rw [this]; exact List.mem_cons_self ..)
  | cons e a ih =>
    cases b with
    | nil =>
      have := (List.cons.inj h).1
      exact Or.inr (Or.inr (by rw [← this]; exact List.mem_cons_self ..))
    | cons f b =>
      rcases ih (List.cons.inj h).2 with h1 | h1 | h1
      · exact Or.inl (List.mem_cons_of_mem _ h1)
      · exact Or.inr (Or.inl h1)
      · exact Or.inr (Or.inr (List.mem_cons_of_mem _ h1))

/-- An assignment is not read as an import. -/
theorem assignment_import {n w2 w3 : Str} (h2 : Identifier w n w2) (h3 : Gap w2 ('=' :: w3)) : BReads E K K Script.importStatement w .fail := by
  refine fails_import fun w1 x hs hb => ?_
  obtain ⟨u, hu⟩ := hb
  obtain ⟨v, hv⟩ := h3
  have e : ("import".toList ++ u) ++ '{' :: x = (n ++ v) ++ '=' :: w3 := by
    rw [List.append_assoc, ← hu.split, ← hs, h2.munch.split, hv.split, List.append_assoc]
  rcases meet e with h | h | h
  · rcases List.mem_append.mp h with h | h
    · exact absurd (h2.munch.all _ h) (by decide)
    · exact absurd (hv.all _ h) (by decide)
  · exact absurd h (by decide)
  · rcases List.mem_append.mp h with h | h
    · exact absurd h (by decide)
    · exact absurd (hu.all _ h) (by decide)

theorem fails_identifier_definition {name : Str} (h : DefinitionRead E uni env name w g rest) :
    BReads E K K (Script.identifier) w .fail := by
  refine reads_identifier_fail (fun c hc => ?_) (by decide)
  rcases h.head with ⟨w', rfl⟩ | ⟨w', rfl⟩ | ⟨w', rfl⟩ <;> cases hc <;> decide

theorem reads_definition {n w2 w3 w4 : Str} (hw : E.Has w) (h2 : Identifier w n w2) (h3 : Gap w2 ('=' :: w3)) (h4 : Gap w3 w4)
    (h5 : DefinitionRead E uni env n w4 g rest) :
    ∃ t, BReads E none none (Script.assignmentExpression uni) w (.tok rest t) ∧ Bears E env [t] [] [.own n g] none := by
  have s3 : w4 <:+ w2 := (adv h4.suffix _).trans h3.suffix
  have s2 : rest <:+ w2 := h5.sfx.trans s3
  obtain ⟨t, a1, a2, a3, a4, a5⟩ := h5.reads (hw.tail (s3.trans h2.suffix))
  refine ⟨nodeT E "AssignmentExpression".toList w rest [leafT E "Identifier".toList w w2, t], ?_, .leaf ?_ (toList_ne (by decide)) ?_⟩
  · refine Parts.programN ?_ (by simp) (s2.trans h2.suffix)
    exact .tok (reads_identifier h2 (by decide)) <| .past (reads_gap h3) <| .past reads_char <| .past (reads_gap h4) <|
      .tok (.switch (.next (fails_identifier_definition h5) (.here a1 trivial))) .nil
  · intro toks lo i hi
    obtain ⟨k, hk, -, hn, hc, -⟩ := hi.node
    obtain ⟨j, j1, j2⟩ := hc.get (j := 0) rfl
    obtain ⟨q, q1, q2⟩ := hc.get (j := 1) rfl
    obtain ⟨jk, j3, j4⟩ := leaf_value hw h2.munch.split _ _ _ j2
    obtain ⟨qk, -, q3, -, q4, -⟩ := q2.root
    have := ItemMeans.definition hk hn j1 j3 q1 q3 ((congrArg Info.name q4).trans a2) (by rw [j4]; exact a5 _ _ _ q2)
    rw [j4] at this
    exact ItemSays.own this
  · intro t' ht
    have ht : t' ∈ [leafT E "Identifier".toList w w2, t] := ht
    simp only [List.mem_cons, List.not_mem_nil, or_false] at ht
    rcases ht with rfl | rfl
    · exact quiet_leaf
    · exact a4

theorem reads_alias {text n w2 w3 w4 m w5 : Str} (hw : E.Has (text ++ w5)) (h2 : Identifier (text ++ w5) n w2) (h3 : Gap w2 ('=' :: w3))
    (h4 : Gap w3 w4) (h5 : Identifier w4 m w5) :
    ∃ t, BReads E none none (Script.assignmentExpression uni) (text ++ w5) (.tok w5 t) ∧
      Bears E env [t] [] [.own n (.ref "Ref".toList false text)] none := by
  have s3 : w4 <:+ w2 := (adv h4.suffix _).trans h3.suffix
  have s2 : w5 <:+ w2 := h5.suffix.trans s3
  refine ⟨nodeT E "AssignmentExpression".toList (text ++ w5) w5
    [leafT E "Identifier".toList (text ++ w5) w2, leafT E "Identifier".toList w4 w5], ?_, .leaf ?_ (toList_ne (by decide)) ?_⟩
  · refine Parts.programN ?_ (by simp) (s2.trans h2.suffix)
    exact .tok (reads_identifier h2 (by decide)) <| .past (reads_gap h3) <| .past reads_char <| .past (reads_gap h4) <|
      .tok (.switch (.here (reads_identifier h5 (by decide)) trivial)) .nil
  · intro toks lo i hi
    obtain ⟨k, hk, -, hn, hc, hval⟩ := hi.node
    obtain ⟨j, j1, j2⟩ := hc.get (j := 0) rfl
    obtain ⟨q, q1, q2⟩ := hc.get (j := 1) rfl
    obtain ⟨jk, j3, j4⟩ := leaf_value hw h2.munch.split _ _ _ j2
    obtain ⟨qk, q3, q4, -⟩ := q2.leaf
    have := ItemMeans.alias (env := env) hk hn j1 j3 q1 q3 q4
    have hv : k.getValue = text := by
      rw [hval]
      have b1 := hw.mono h2.suffix
      have b2 := (hw.tail h2.suffix).mono s3
      have b3 := (hw.tail (s3.trans h2.suffix)).mono h5.suffix
      have b4 := (hw.tail (s2.trans h2.suffix)).le
      have b5 := E.small
      have e : span ([leafT E "Identifier".toList (text ++ w5) w2, leafT E "Identifier".toList w4 w5].map Tr.captured)
          = ⟨E.at_ (text ++ w5), E.at_ w5⟩ := by
        show (⟨min (E.at_ (text ++ w5)) (min (E.at_ w4) usizeMax), max (E.at_ w2) (max (E.at_ w5) 0)⟩ : Range) = _
        have := usz
        rw [show min (E.at_ (text ++ w5)) (min (E.at_ w4) usizeMax) = E.at_ (text ++ w5) by omega,
          show max (E.at_ w2) (max (E.at_ w5) 0) = E.at_ w5 by omega]
      rw [e, hw.range]
    rw [j4, hv] at this
    exact ItemSays.own this
  · intro t' ht
    have ht : t' ∈ [leafT E "Identifier".toList (text ++ w5) w2, leafT E "Identifier".toList w4 w5] := ht
    simp only [List.mem_cons, List.not_mem_nil, or_false] at ht
    rcases ht with rfl | rfl <;> exact quiet_leaf

theorem fails_assignment (h : ∀ c, w.head? = some c → Syntax.idStart c = false) : BReads E K K (Script.assignmentExpression uni) w .fail :=
  .programN (.fail (reads_identifier_fail h (by decide))) .fails

/-! ### All statements -/

/-- The end of the statements, which is only looked at. -/
def scopeEnd : B MatcherId :=
  discard (program [
    (do mk (.pin (some (← equals "-->")) (.str []) "Pin".toList false)),
    brk])

instance : Adds scopeEnd := by unfold scopeEnd; infer_instance

/-- The loop over statements. -/
def scopeRound (uni : Uni) : List (B MatcherId) := [
  Script.wsn0,
  switch [Script.comment, Script.importStatement, Script.assignmentExpression uni, scopeEnd]]

instance : AddsAll (scopeRound uni) := by unfold scopeRound; infer_instance

/-- The look at the end breaks the loop, but not with success. -/
theorem fails_scopeEnd : BReads E K K scopeEnd ("-->".toList ++ w) .fail := by
  refine .discard (g := .fail) ?_
  have h1 : BReads E K K (do mk (.pin (some (← equals "-->")) (.str []) "Pin".toList false)) ("-->".toList ++ w)
      (.aside (leafT E "Equals".toList ("-->".toList ++ w) w)) := by
    intro m hm
    obtain ⟨b, h1, h2⟩ := Is.wrap (f := fun b => .pin (some b) (.str []) "Pin".toList false) hm
    exact reads_aside h2 (fun h => by cases h) (BReads.equals (l := "-->".toList) rfl (by decide) b h1)
  show BReads E K K _ _ (Got.onward [] .fail)
  exact .program (.cons h1 <| .brk (.brk (s := ""))) (.breaks (.nothing (Or.inr rfl)))

theorem dash_head : ∀ c, ("-->".toList ++ w).head? = some c → c = '-' := by
  intro c hc
  have : some '-' = some c := hc
  cases this
  rfl

theorem fails_statement : BReads E K K (switch [Script.comment, Script.importStatement, Script.assignmentExpression uni, scopeEnd])
    ("-->".toList ++ w) .fail := by
  refine .switch (.next (reads_comment_fail fun h => absurd (dash_head _ h) (by decide)) <| .next (fails_import ?_) <|
    .next (fails_assignment ?_) <| .next fails_scopeEnd .nil)
  · intro w1 w2 h
    have := congrArg List.head? h
    have : some '-' = some 'i' := this
    exact absurd this (by decide)
  · intro c hc
    rw [dash_head c hc]
    decide

/-- What is known of the texts that statements read. -/
structure StatementsRead (E : Setting) (uni : Uni) (env : Env) (w : Str) (ss : List Stmt) (rest : Str) : Prop where
  sfx : "-->".toList ++ rest <:+ w
  reads : E.Has w → ∀ (k : List Tr) (c : List Range), ∃ ts r, Rounds E (scopeRound uni) none ⟨w, E.at_ w, k, c, false⟩ none r ∧
    Pass E none (scopeRound uni) r (.fails none ⟨"-->".toList ++ rest, E.at_ ("-->".toList ++ rest), k ++ ts, c ++ ts.map Tr.captured, false⟩) ∧
    Bears E env ts [] ss none ∧ (ts = [] → Gap w ("-->".toList ++ rest))

theorem statements_done (h : Gap w ("-->".toList ++ rest)) : StatementsRead E uni env w [] rest := by
  refine ⟨h.suffix, fun hw k c => ⟨[], _, .zero, ?_, .quiet (fun _ h => by cases h), fun _ => h⟩⟩
  rw [List.map_nil, List.append_nil, List.append_nil]
  exact Pass.cons (reads_gap h) <| Pass.fail fails_statement

/-- A statement in front of others. -/
theorem statements_more {w1 w2 : Str} {s1 ss : List Stmt} (h1 : Gap w w1) (hs : w2 <:+ w1) (hlt : blen w2 < blen w1)
    (h : E.Has w1 → ∃ t, BReads E none none (switch [Script.comment, Script.importStatement, Script.assignmentExpression uni, scopeEnd]) w1
      (.tok w2 t) ∧ Bears E env [t] [] s1 none)
    (h' : StatementsRead E uni env w2 ss rest) : StatementsRead E uni env w (s1 ++ ss) rest := by
  have s2 : w2 <:+ w := hs.trans h1.suffix
  refine ⟨h'.sfx.trans s2, fun hw k c => ?_⟩
  obtain ⟨t, a1, a2⟩ := h (hw.tail h1.suffix)
  obtain ⟨ts, r, b1, b2, b3, b4⟩ := h'.reads (hw.tail s2) (k ++ [t]) (c ++ [t.captured])
  refine ⟨t :: ts, r, .next (Pass.cons (reads_gap h1) <| Pass.cons a1 .nil) ?_ b1, ?_, a2.append b3, (fun h => by cases h)⟩
  · show blen w2 < blen w
    have := gap_length h1
    omega
  · simpa using b2

theorem Scripts.statements (hS : Scripts E uni) {ss : List Stmt} (h : Statements env w ss rest) : StatementsRead E uni env w ss rest := by
  induction h with
  | done h => exact statements_done h
  | @comment w w1 w2 rest ss h1 h2 _ ih =>
    refine statements_more (s1 := []) h1 h2.suffix ?_ (fun hw => ⟨_, .switch (.here (reads_comment h2) trivial), .quiet ?_⟩) ih
    · obtain ⟨h⟩ := h2
      rename_i x _
      have := suffix_blen h.suffix
      have := cons_lt '#' x
      omega
    · intro t ht
      rw [List.mem_singleton.mp ht]
      exact quiet_leaf
  | @imports w w1 w2 w3 w4 raw path w5 w6 rest ids ss h1 h2 h3 h4 h5 h6 _ ih =>
    have s1 : w6 <:+ w1 := h6.suffix.trans <| h5.suffix.trans <| (List.suffix_append ..).trans <| h4.suffix.trans <| h3.suffix.trans <|
      (List.suffix_cons ..).trans <| h2.suffix
    refine statements_more (s1 := [_]) h1 (s1.trans (List.suffix_append ..)) ?_ (fun hw => ?_) ih
    · have := suffix_blen s1
      have e : blen ("import".toList ++ w1) = blen "import".toList + blen w1 := blen_append ..
      have : blen "import".toList = 6 := by decide
      omega
    · obtain ⟨t, a1, a2⟩ := reads_import (K := none) (env := env) hw h2 h3 h4 h5 h6
      refine ⟨t, .switch (.next (reads_comment_fail ?_) (.here a1 trivial)), a2⟩
      intro h
      have : some 'i' = some '#' := h
      exact absurd this (by decide)
  | @definition w w1 n w2 w3 w4 w5 rest g ss h1 h2 h3 h4 h5 _ ih =>
    have hd := hS.definition h5
    have s2 : w5 <:+ w2 := hd.sfx.trans <| (adv h4.suffix _).trans h3.suffix
    refine statements_more (s1 := [_]) h1 (s2.trans h2.suffix) ?_ (fun hw => ?_) ih
    · have := suffix_blen s2
      have := h2.lt
      omega
    · obtain ⟨t, a1, a2⟩ := reads_definition hw h2 h3 h4 hd
      exact ⟨t, .switch (.next (reads_comment_fail h2.head_ne) <| .next (assignment_import h2 h3) <| .here a1 trivial), a2⟩
  | @«alias» w text n w2 w3 w4 m w5 rest ss h1 h2 h3 h4 h5 _ ih =>
    have s2 : w5 <:+ w2 := h5.suffix.trans <| (adv h4.suffix _).trans h3.suffix
    refine statements_more (s1 := [_]) h1 (s2.trans h2.suffix) ?_ (fun hw => ?_) ih
    · have := suffix_blen s2
      have := h2.lt
      omega
    · obtain ⟨t, a1, a2⟩ := reads_alias (uni := uni) (env := env) hw h2 h3 h4 h5
      exact ⟨t, .switch (.next (reads_comment_fail h2.head_ne) <| .next (assignment_import h2 h3) <| .here a1 trivial), a2⟩

end

end Adx.Read
