import Verif.Proofs.LaxImports
/-
  Reading any text: assignments, and the statements of a header.
-/
namespace Adx.Read

open Syntax (Munch Gap Blanks Identifier Quoted Comment Stmt Attr Comments)
open B

section
variable {E : Setting} {K : Option Nat} {w w' : Str} {uni : Uni} {env : Env}

/-! ### Assignments -/

theorem identifier_head {n : Str} (h : Identifier w n w') : w.head? ≠ some '-' := by
  obtain ⟨hm, c, u, rfl, hs⟩ := h
  rw [hm.split]
  intro h
  have : some c = some '-' := h
  cases this
  exact absurd hs (by decide)

theorem ItemSays.assignment_only {toks : List Token} {i : TokId} {k : Token} {gs : List Gram} {ss : List Stmt} (h : ItemSays env toks i gs ss)
    (hk : toks[i]? = some k) (hn : k.name = "AssignmentExpression".toList) : gs = [] ∧ ∃ a ak v vk, k.children[0]? = some a ∧
      toks[a]? = some ak ∧ k.children[1]? = some v ∧ toks[v]? = some vk ∧
      ((vk.name = "Identifier".toList ∧ ss = [.own ak.getValue (.ref "Ref".toList false k.getValue)]) ∨
        (vk.name = "PatternDefinition".toList ∧ ∃ g, DescribesDefinition env toks v ak.getValue g ∧ ss = [.own ak.getValue g]) ∨
        (vk.name ≠ "Identifier".toList ∧ vk.name ≠ "PatternDefinition".toList)) := by
  have bad : ∀ {n : String} {k' : Token}, toks[i]? = some k' → k'.name = n.toList → n ≠ "AssignmentExpression" → False := by
    intro n k' h1 h2 h3
    rw [hk] at h1
    cases h1
    rw [hn] at h2
    exact h3 (String.toList_inj.mp h2).symm
  cases h with
  | own h =>
    cases h with
    | error h1 h2 => exact (bad h1 h2 (by decide)).elim
    | scope h1 h2 => exact (bad h1 h2 (by decide)).elim
    | «alias» h1 h2 h3 h4 h5 h6 h7 =>
      rw [hk] at h1
      cases h1
      exact ⟨rfl, _, _, _, _, h3, h4, h5, h6, Or.inl ⟨h7, rfl⟩⟩
    | definition h1 h2 h3 h4 h5 h6 h7 h8 =>
      rw [hk] at h1
      cases h1
      exact ⟨rfl, _, _, _, _, h3, h4, h5, h6, Or.inr (Or.inl ⟨h7, _, h8, rfl⟩)⟩
    | otherValue h1 h2 h3 h4 h5 h6 h7 h8 =>
      rw [hk] at h1
      cases h1
      exact ⟨rfl, _, _, _, _, h3, h4, h5, h6, Or.inr (Or.inr ⟨h7, h8⟩)⟩
    | other h1 _ _ h4 _ =>
      rw [hk] at h1
      cases h1
      exact (h4 hn).elim
  | imports h1 h2 => exact (bad h1 h2 (by decide)).elim

/-- What is assigned. -/
def ValueR (E : Setting) (env : Env) : Rel := fun w w' l => IdR E "Identifier" w w' l ∨ DefinitionR E env w w' l

theorem value_yields (hE : E.errs = true) (hS : Scripts E uni) (hw : E.Has w) :
    Yields E none true (switch [Script.identifier, Script.patternDefinition uni]) w (ValueR E env w) True := by
  refine (YieldsP.switch (name := []) (.cons ((yields_identifier (n := "Identifier") hw).mono (M := ValueR E env w) fun _ _ h => Or.inl h).turn
    (.cons ((definition_yields (env := env) hE hS (PatternsYield.all hE hS (blen w)) hw (Nat.lt_succ_self _)).mono (M := ValueR E env w)
      fun _ _ h => Or.inr h).turn .nil))).mono' (fun _ _ h => h) fun _ => trivial

theorem assignment_yields (hE : E.errs = true) (hS : Scripts E uni) (hw : E.Has w) :
    Yields E none true (Script.assignmentExpression uni) w (StmtR E env w) True := by
  have hl : Row E none (blen w + 1) _ _ :=
    .free (N := IdR E "Identifier") (fun _ hw => yields_identifier (n := "Identifier") hw) <| .free (N := GapR) (fun _ _ => yields_wsn0) <|
    .free (N := SkipR "=") (fun _ hw => yields_skip (s := "=") hw) <| .free (N := GapR) (fun _ _ => yields_wsn0) <|
    .free (N := ValueR E env) (fun _ hw => value_yields (uni := uni) hE hS hw) .nil
  refine (Yields.programN (n := "AssignmentExpression") hl hw (by omega)).mono ?_
  rintro w' l ⟨ks, rfl, -, w1, l1, m1, rfl, ⟨rfl, n, h1⟩, w2, l2, m2, rfl, ⟨rfl, h2⟩, w3, l3, m3, rfl, ⟨rfl, rfl⟩, w4, l4, m4, rfl, ⟨rfl, h4⟩,
    w5, l5, m5, rfl, h5, rfl, rfl⟩
  simp only [List.nil_append, List.append_nil, List.singleton_append]
  refine ⟨_, rfl, rfl, identifier_head h1, ?_⟩
  have s3 : w4 <:+ w1 := (adv h4.suffix _).trans h2.suffix
  have hkey : ∀ (t : Tr), t.info.flags = 0 → (∃ m ∈ ["Identifier", "PatternDefinition"], t.name = m.toList) → Quiet t.purge →
      (Desc E (nodeT E "AssignmentExpression".toList w w' [leafT E "Identifier".toList w w1, t]).purge fun toks i => ∀ gs ss, ItemSays env toks i gs ss →
        gs = [] ∧ ∀ w0 ss' rest, Gap w0 w → Lax.Statements env w' ss' rest → Lax.Statements env w0 (ss ++ ss') rest) →
      Told E env [(nodeT E "AssignmentExpression".toList w w' ([leafT E "Identifier".toList w w1] ++ [t])).purge] (fun gs ss nm => gs = [] ∧ nm = none ∧
        ∀ w0 ss' rest, Gap w0 w → Lax.Statements env w' ss' rest → Lax.Statements env w0 (ss ++ ss') rest) := by
    intro t tf tn tq hd
    refine (Told.leaf hd ?_ ?_).mono ?_
    · rw [purge_name]
      show "AssignmentExpression".toList ≠ _
      exact toList_ne (by decide)
    · rw [purge_kids]
      intro t' ht
      have ht : t' ∈ purges [leafT E "Identifier".toList w w1, t] := ht
      rw [purges_cons rfl, purges_cons tf, purges_nil, purge_leaf] at ht
      simp only [List.mem_cons, List.not_mem_nil, or_false] at ht
      rcases ht with rfl | rfl
      · exact quiet_leaf
      · exact tq
    · rintro gs ss nm ⟨⟨rfl, h⟩, rfl⟩
      exact ⟨rfl, rfl, h⟩
  rcases h5 with ⟨rfl, m, h5⟩ | ⟨t, rfl, tm, ht⟩
  · have s2 : w' <:+ w1 := h5.suffix.trans s3
    refine hkey _ rfl ⟨"Identifier", by decide, rfl⟩ (by rw [purge_leaf]; exact quiet_leaf) ?_
    intro toks lo i hi gs ss hs
    have hp : (nodeT E "AssignmentExpression".toList w w' [leafT E "Identifier".toList w w1, leafT E "Identifier".toList w4 w']).purge =
        nodeT E "AssignmentExpression".toList w w' [leafT E "Identifier".toList w w1, leafT E "Identifier".toList w4 w'] := by
      refine purge_flat fun t ht => ?_
      simp only [List.mem_cons, List.not_mem_nil, or_false] at ht
      rcases ht with rfl | rfl <;> exact ⟨rfl, purge_leaf⟩
    rw [hp] at hi
    obtain ⟨k, hk, -, hn, hc, hval⟩ := hi.node
    obtain ⟨j, j1, j2⟩ := hc.get (j := 0) rfl
    obtain ⟨q, q1, q2⟩ := hc.get (j := 1) rfl
    obtain ⟨jk, j3, j4⟩ := leaf_value hw h1.munch.split _ _ _ j2
    obtain ⟨qk, q3, q4, -⟩ := q2.leaf
    obtain ⟨rfl, a, ak, v, vk, b1, b2, b3, b4, hb⟩ := ItemSays.assignment_only hs hk hn
    rw [j1] at b1
    cases b1
    rw [q1] at b3
    cases b3
    rw [j3] at b2
    cases b2
    rw [q3] at b4
    cases b4
    obtain ⟨text, rfl⟩ : ∃ text, w = text ++ w' := by
      obtain ⟨u, hu⟩ := s2.trans h1.suffix
      exact ⟨u, hu.symm⟩
    have hv : k.getValue = text := by
      rw [hval]
      have b1 := hw.mono h1.suffix
      have b2 := (hw.tail h1.suffix).mono s3
      have b3 := (hw.tail (s3.trans h1.suffix)).mono h5.suffix
      have b4 := (hw.tail (s2.trans h1.suffix)).le
      have b5 := E.small
      have e : span ([leafT E "Identifier".toList (text ++ w') w1, leafT E "Identifier".toList w4 w'].map Tr.captured)
          = ⟨E.at_ (text ++ w'), E.at_ w'⟩ := by
        show (⟨min (E.at_ (text ++ w')) (min (E.at_ w4) usizeMax), max (E.at_ w1) (max (E.at_ w') 0)⟩ : Range) = _
        have := usz
        rw [show min (E.at_ (text ++ w')) (min (E.at_ w4) usizeMax) = E.at_ (text ++ w') by omega,
          show max (E.at_ w1) (max (E.at_ w') 0) = E.at_ w' by omega]
      rw [e, hw.range]
    rcases hb with ⟨-, rfl⟩ | ⟨h, -⟩ | ⟨h, -⟩
    · refine ⟨rfl, fun w0 ss' rest hg hst => ?_⟩
      rw [j4, hv]
      exact .alias hg h1 h2 h4 h5 hst
    · rw [q4] at h
      exact absurd (String.toList_inj.mp h) (by decide)
    · exact (h q4).elim
  · obtain ⟨n', hn', he⟩ := ht.name
    obtain rfl := List.mem_singleton.mp hn'
    refine hkey _ ht.flags ⟨"PatternDefinition", by decide, he⟩ ht.quiet ?_
    intro toks lo i hi gs ss hs
    have hp : (nodeT E "AssignmentExpression".toList w w' [leafT E "Identifier".toList w w1, t]).purge =
        .node (nodeT E "AssignmentExpression".toList w w' [leafT E "Identifier".toList w w1, t]).info [leafT E "Identifier".toList w w1, t.purge] := by
      unfold nodeT
      rw [purge_node, purges_cons rfl, purges_cons ht.flags, purges_nil, purge_leaf]
      rfl
    rw [hp] at hi
    obtain ⟨k, -, hk, -, hinf, hc⟩ := hi.root
    have hn : k.name = "AssignmentExpression".toList := congrArg Info.name hinf
    have hc : Reps E toks (i + 1) k.children [leafT E "Identifier".toList w w1, t.purge] := hc
    obtain ⟨j, j1, j2⟩ := hc.get (j := 0) rfl
    obtain ⟨q, q1, q2⟩ := hc.get (j := 1) rfl
    obtain ⟨jk, j3, j4⟩ := leaf_value hw h1.munch.split _ _ _ j2
    obtain ⟨qk, q3, q4⟩ := desc_name (purge_name.trans he) _ _ _ q2
    obtain ⟨rfl, a, ak, v, vk, b1, b2, b3, b4, hb⟩ := ItemSays.assignment_only hs hk hn
    rw [j1] at b1
    cases b1
    rw [q1] at b3
    cases b3
    rw [j3] at b2
    cases b2
    rw [q3] at b4
    cases b4
    rcases hb with ⟨h, -⟩ | ⟨-, g, hg, rfl⟩ | ⟨-, h⟩
    · rw [q4] at h
      exact absurd (String.toList_inj.mp h) (by decide)
    · refine ⟨rfl, fun w0 ss' rest hgap hst => ?_⟩
      have hdef := ht.means _ _ _ q2 _ _ hg
      rw [j4] at hdef ⊢
      exact .definition hgap h1 h2 h4 hdef hst
    · exact (h q4).elim

/-! ### The statements of a header -/

theorem comment_stmt {l : List Tr} (h : l = [leafT E "Comment".toList w w'] ∧ Comment w w') : StmtR E env w w' l := by
  obtain ⟨rfl, h⟩ := h
  refine ⟨_, rfl, rfl, ?_, ?_⟩
  · obtain ⟨h⟩ := h
    exact fun h => by cases h
  · rw [purge_leaf]
    refine (Told.quiet (E := E) (env := env) (ts := [leafT E "Comment".toList w w']) fun t ht => ?_).mono ?_
    · rw [List.mem_singleton.mp ht]
      exact quiet_leaf
    · rintro gs ss nm ⟨rfl, rfl, rfl⟩
      exact ⟨rfl, rfl, fun w0 ss' rest hg hs => .comment hg h hs⟩

/-- Statements, up to where no more begins. -/
def ScopeR (E : Setting) (env : Env) : Rel := fun w w' l => (∀ t ∈ l, t.info.flags = 0) ∧ (l = [] → Gap w w') ∧
  (l ≠ [] → ∃ v, Gap w v ∧ v.head? ≠ some '-') ∧
  Told E env (purges l) (fun gs ss nm => gs = [] ∧ nm = none ∧ ∀ rest, w' = "-->".toList ++ rest → Lax.Statements env w ss rest)

theorem scope_laps (hE : E.errs = true) (hS : Scripts E uni) {b : Nat} : ∃ D F B, Lap E none b "Scope".toList true (scopeRound uni) D F B ∧
    ∀ w w' l, Laps D F B w w' l → ScopeR E env w w' l := by
  have h1 : ∀ w, E.Has w → blen w < b → YieldsB E none true "Scope".toList
      (switch [Script.comment, Script.importStatement, Script.assignmentExpression uni, scopeEnd]) w (StmtR E env w) Never True := fun w hw hb =>
    (YieldsP.switchB (.cons ((yields_comment hw).mono (M := StmtR E env w) fun _ _ h => comment_stmt h).turn
      (.cons (import_yields hw).turn (.cons (assignment_yields hE hS hw).turn
        (.cons ⟨_, tot_scopeEnd, trivial, Or.inl (.fail trivial)⟩ .nil))))).mono (fun _ _ h => h) (fun _ _ h => h) (fun _ => trivial)
  have hl : Lap E none b "Scope".toList (false || (true || false)) (scopeRound uni) _ _ _ :=
    .cons (N := GapR) (L := fun _ => Never) (X := fun _ => False) (fun w _ _ => yields_wsn0.turn) <|
    .cons (N := StmtR E env) (L := fun _ => Never) (X := fun w => True) h1 .nil
  refine ⟨_, _, _, hl, fun w w' l h => Laps.fold (P := ScopeR E env) ?_ ?_ ?_ h⟩
  · rintro w w' l (⟨h, -⟩ | ⟨w1, l1, l2, rfl, ⟨rfl, h1⟩, ⟨h2, rfl, rfl⟩ | ⟨w2, l3, l4, rfl, h2, h⟩⟩)
    · exact h.elim
    · refine ⟨(fun _ h => by cases h), fun _ => h1, (fun h => (h rfl).elim), ?_⟩
      rw [List.append_nil, purges_nil]
      refine (Told.quiet (E := E) (env := env) (ts := []) (fun _ h => by cases h)).mono ?_
      rintro gs ss nm ⟨rfl, rfl, rfl⟩
      exact ⟨rfl, rfl, fun rest hr => .done (hr ▸ h1)⟩
    · exact h.elim
  · rintro w w' l (h | ⟨w1, l1, l2, rfl, ⟨rfl, h1⟩, h | ⟨w2, l3, l4, rfl, h2, h⟩⟩)
    · exact h.elim
    · exact h.elim
    · exact h.elim
  · rintro w w1 w' l l' ⟨w2, l1, l2, rfl, ⟨rfl, h1⟩, w3, l3, l4, rfl, ⟨t, rfl, h2, h3, h4⟩, rfl, rfl⟩ ⟨h5, h6, h7, h8⟩
    simp only [List.nil_append, List.append_nil, List.singleton_append]
    refine ⟨fun t' ht' => ?_, (fun h => by cases h), fun _ => ⟨w2, h1, h3⟩, ?_⟩
    · rcases List.mem_cons.mp ht' with rfl | ht'
      · exact h2
      · exact h5 t' ht'
    · rw [purges_cons h2]
      refine Told.append (ts := [t.purge]) h4 h8 ?_
      rintro gs ss nm gs' ss' nm' ⟨rfl, rfl, a⟩ ⟨rfl, rfl, b⟩
      exact ⟨rfl, rfl, fun rest hr => a _ _ _ h1 (b rest hr)⟩

/-- The statements, if there are any. -/
def MayScopeR (E : Setting) (env : Env) : Rel := fun w w' l => (l = [] ∧ w' = w) ∨
  ∃ c ks, l = [blockT E "Scope".toList c w w' ks] ∧ ks ≠ [] ∧ ScopeR E env w w' ks

theorem scope_yields (hE : E.errs = true) (hS : Scripts E uni) (hw : E.Has w) :
    Yields E none false (optional (loopN "Scope" (scopeRound uni))) w (fun w' l => MayScopeR E env w w' l ∧ w' <:+ w) False := by
  obtain ⟨D, F, B, hlap, hfold⟩ := scope_laps (env := env) (b := blen w + 1) hE hS
  obtain ⟨g, b1, b2, b3⟩ := hlap.loopN (name := "Scope") (lo := .unbounded) hw (Nat.lt_succ_self _)
  refine ((b3.yields b1 b2).mono' (M := MayScopeR E env w) (Y := True) ?_ fun _ => trivial).sfx.optional fun _ => ⟨Or.inl ⟨rfl, rfl⟩, List.suffix_refl _⟩
  rintro w' l ⟨c, ks, rfl, hne, h⟩
  exact Or.inr ⟨c, ks, rfl, hne, hfold _ _ _ h⟩

end

end Adx.Read
