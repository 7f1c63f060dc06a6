import Verif.Proofs.LaxHeader
/-
  Reading any text: patterns up to the end, and comments in front.
-/
namespace Adx.Read

open Syntax (Munch Gap Blanks Identifier Quoted Comment Stmt Attr Comments)
open B

section
variable {E : Setting} {K : Option Nat} {w w' : Str} {uni : Uni} {env : Env}

/-! ### Patterns -/

theorem Barred.not {c : Char} (h : Barred w) (hc : Syntax.attrChar c = false) (hc' : c ≠ ']') : w.head? ≠ some c := by
  intro h0
  rcases h c h0 with h1 | h1
  · rw [hc] at h1
    cases h1
  · exact hc' h1

/-- There is no pattern where none can begin. -/
theorem fails_barred (h : Barred w) : BReads E none none (Script.pattern uni) w .fail := by
  refine .switchN (.next (fails_captured (h.not (by decide) (by decide))) <| .next (.map_fail ?_) .nil)
  have b : ∀ c : Char, ∀ l : Str, w.head? ≠ some c → ¬ (c :: l) <+: w := by
    rintro c l h1 ⟨v, rfl⟩
    exact h1 rfl
  have q : w.head? ≠ some '?' := h.not (by decide) (by decide)
  have n : w.head? ≠ some '!' := h.not (by decide) (by decide)
  have l : w.head? ≠ some '<' := h.not (by decide) (by decide)
  obtain ⟨ts, c1, c2⟩ := reads_modifier (E := E) (K := none) (w := w) (n1 := "OuterOptionalModifier") (n2 := "OuterNotModifier") (m := .none)
      (by decide) (by decide) (by decide) (by decide) (fun _ c h => ⟨fun hc => q (hc ▸ h), fun hc => n (hc ▸ h)⟩)
  cases c1
  cases c2 with
  | past c2 =>
    exact .programN (.cons (reads_modifiers (b _ _ q) (b _ _ n)) <| .cons c2 <| .fail (reads_char_fail l)) .fails
  | pin c2 =>
    exact .programN (.cons (reads_modifiers (b _ _ q) (b _ _ n)) <| .cons c2 <| .fail (reads_char_fail l)) .fails

/-- Something begins here. -/
def Begins (v : Str) : Prop := v.head? = some '#' ∨ ¬ Barred v

theorem Begins.not_barred {v : Str} (h : Begins v) : ¬ Barred v := by
  rcases h with h | h
  · exact fun hb => hb.not (c := '#') (by decide) (by decide) h
  · exact h

/-- A comment or a pattern. -/
def ItemR (E : Setting) (env : Env) : Rel := fun w w' l => Begins w ∧ ∃ t, l = [t] ∧ t.info.flags = 0 ∧ Quiet t.purge ∧
  ((Comment w w' ∧ t.name = "Comment".toList) ∨ (w.head? ≠ some '#' ∧ ∃ n ∈ patternNames, t.name = n.toList ∧
    Desc E t.purge (fun toks i => ∀ g, DescribesPattern env toks i g → Lax.Pattern env w g w')))

theorem item_yields (hE : E.errs = true) (hS : Scripts E uni) (hw : E.Has w) :
    Yields E none true (switch [Script.comment, Script.pattern uni]) w (ItemR E env w) True := by
  by_cases h0 : w.head? = some '#'
  · have h1 : Yields E none true Script.comment w (ItemR E env w) False := by
      refine (yields_comment hw).mono' (fun w' l h => ⟨Or.inl h0, ?_⟩) fun h => h h0
      obtain ⟨rfl, h⟩ := h
      refine ⟨_, rfl, rfl, ?_, Or.inl ⟨h, rfl⟩⟩
      rw [purge_leaf]
      exact quiet_leaf
    obtain ⟨g, g1, g2, g3⟩ := h1
    cases g3 with
    | fail h => exact h.elim
    | fatal => exact ⟨_, .switch (.fatal g1), trivial, .fatal⟩
    | past h =>
      obtain ⟨-, t, h, -⟩ := h
      cases h
    | pin h =>
      obtain ⟨-, t, h, -⟩ := h
      cases h
    | tok h => exact ⟨_, .switch (.here g1 trivial), g2, .tok h⟩
  · have hc : BReads E none none Script.comment w .fail := reads_comment_fail h0
    by_cases hb : Barred w
    · exact ⟨_, .switch (.next hc (.next (fails_barred hb) .nil)), trivial, .fail trivial⟩
    · have h1 : Yields E none true (Script.pattern uni) w (ItemR E env w) True := by
        refine (PatternsYield.all (env := env) hE hS (blen w + 1) w hw (Nat.lt_succ_self _)).mono ?_
        rintro w' l ⟨t, rfl, ht⟩
        obtain ⟨n, hn, he⟩ := ht.name
        exact ⟨Or.inr hb, t, rfl, ht.flags, ht.quiet, Or.inr ⟨h0, n, hn, he, ht.means⟩⟩
      have h2 : YieldsP E none [] [Script.comment, Script.pattern uni] w (ItemR E env w) Never (True ∧ True ∧ True) :=
        .cons (⟨_, hc, trivial, Or.inl (.fail trivial)⟩) (.cons h1.turn .nil)
      exact (YieldsP.switch h2).mono' (fun _ _ h => h) fun _ => trivial

/-- Patterns, up to where no more begins. -/
def ItemsR (E : Setting) (env : Env) : Rel := fun w w' l => (∀ t ∈ l, t.info.flags = 0 ∧ Quiet t.purge) ∧ (l = [] → Gap w w') ∧
  (l ≠ [] → ∃ v, Gap w v ∧ Begins v) ∧ ∀ toks lo is gs, Reps E toks lo is (purges l) → ScopeMeans env toks is gs → w' = [] →
    Lax.Items env w gs ∧ ∀ v, Gap w v → v.head? ≠ some '#' → l ≠ [] → ∃ g gs' v', gs = g :: gs' ∧ Lax.Pattern env v g v' ∧ Lax.Items env v' gs'

theorem items_laps (hE : E.errs = true) (hS : Scripts E uni) {b : Nat} : ∃ D F B, Lap E none b "PatternScope".toList true (itemRound uni) D F B ∧
    ∀ w w' l, Laps D F B w w' l → ItemsR E env w w' l := by
  have hl : Lap E none b "PatternScope".toList (false || (true || false)) (itemRound uni) _ _ _ :=
    .cons (N := GapR) (L := fun _ => Never) (X := fun _ => False) (fun w _ _ => yields_wsn0.turn) <|
    .cons (N := ItemR E env) (L := fun _ => Never) (X := fun w => True) (fun w hw _ => (item_yields hE hS hw).turn) .nil
  refine ⟨_, _, _, hl, fun w w' l h => Laps.fold (P := ItemsR E env) ?_ ?_ ?_ h⟩
  · rintro w w' l (⟨h, -⟩ | ⟨w1, l1, l2, rfl, ⟨rfl, h1⟩, ⟨h2, rfl, rfl⟩ | ⟨w2, l3, l4, rfl, h2, h⟩⟩)
    · exact h.elim
    · refine ⟨(fun _ h => by cases h), fun _ => h1, (fun h => (h rfl).elim), fun toks lo is gs hr hs he => ?_⟩
      rw [List.append_nil, purges_nil] at hr
      cases hr
      cases hs
      subst he
      exact ⟨.done h1, fun _ _ _ h => (h rfl).elim⟩
    · exact h.elim
  · rintro w w' l (h | ⟨w1, l1, l2, rfl, ⟨rfl, h1⟩, h | ⟨w2, l3, l4, rfl, h2, h⟩⟩)
    · exact h.elim
    · exact h.elim
    · exact h.elim
  · rintro w w1 w' l l' ⟨w2, l1, l2, rfl, ⟨rfl, h1⟩, w3, l3, l4, rfl, ⟨h2, t, rfl, h3, h4, h5⟩, rfl, rfl⟩ ⟨h6, h7, h8, h9⟩
    simp only [List.nil_append, List.append_nil, List.singleton_append]
    refine ⟨fun t' ht' => ?_, (fun h => by cases h), fun _ => ⟨w2, h1, h2⟩, fun toks lo is gs hr hs he => ?_⟩
    · rcases List.mem_cons.mp ht' with rfl | ht'
      · exact ⟨h3, h4⟩
      · exact h6 t' ht'
    · rw [purges_cons h3] at hr
      obtain ⟨i, is', rfl, hr1, hr2⟩ := hr.uncons
      rcases h5 with ⟨hc, hn⟩ | ⟨hh, n, hn, he', hm⟩
      · obtain ⟨k, hk, hkn⟩ := desc_name (purge_name.trans hn) _ _ _ hr1
        cases hs with
        | pattern hk' hn' =>
          rw [hk] at hk'
          cases hk'
          rw [hkn] at hn'
          rcases hn' with hn' | hn' <;> exact absurd (String.toList_inj.mp hn') (by decide)
        | other hk' hn' hs' =>
          obtain ⟨g1, -⟩ := h9 _ _ _ _ hr2 hs' he
          refine ⟨.comment h1 hc g1, fun v hv hv' _ => ?_⟩
          have := h1.unique hv
          subst this
          obtain ⟨hc⟩ := hc
          exact (hv' rfl).elim
      · obtain ⟨k, hk, hkn⟩ := desc_name (purge_name.trans he') _ _ _ hr1
        cases hs with
        | pattern hk' hn' hd hs' =>
          have hp := hm _ _ _ hr1 _ hd
          obtain ⟨g1, -⟩ := h9 _ _ _ _ hr2 hs' he
          refine ⟨.pattern h1 hp g1, fun v hv _ _ => ?_⟩
          have := h1.unique hv
          subst this
          exact ⟨_, _, _, rfl, hp, g1⟩
        | other hk' hn' hs' =>
          rw [hk] at hk'
          cases hk'
          rw [hkn] at hn'
          unfold patternNames at hn
          simp only [List.mem_cons, List.not_mem_nil, or_false] at hn
          rcases hn with rfl | rfl
          · exact (hn' (Or.inr rfl)).elim
          · exact (hn' (Or.inl rfl)).elim

/-- All patterns, or none, or an error. -/
def ScopedR (E : Setting) (env : Env) : Rel := fun w _ l => l = [] ∨
  (∃ t, l = [t] ∧ t.info.flags = 0 ∧ t.name = "PatternScope".toList ∧ (∃ v, Gap w v ∧ Begins v) ∧
    Told E env [t.purge] (fun gs ss nm => ss = [] ∧ nm = none ∧ Lax.Items env w gs ∧
      ∀ v, Gap w v → v.head? ≠ some '#' → ∃ g gs' v', gs = g :: gs' ∧ Lax.Pattern env v g v' ∧ Lax.Items env v' gs')) ∨
  (∃ t, l = [t] ∧ t.info.flags = IS_ERROR ∧ t.name = errorName)

theorem _root_.Adx.ItemSays.scope_only {toks : List Token} {i : TokId} {k : Token} {gs : List Gram} {ss : List Stmt} (h : ItemSays env toks i gs ss)
    (hk : toks[i]? = some k) (hn : k.name = "PatternScope".toList) : ss = [] ∧ ScopeMeans env toks k.children gs := by
  have bad : ∀ {n : String} {k' : Token}, toks[i]? = some k' → k'.name = n.toList → n ≠ "PatternScope" → False := by
    intro n k' h1 h2 h3
    rw [hk] at h1
    cases h1
    rw [hn] at h2
    exact h3 (String.toList_inj.mp h2).symm
  cases h with
  | own h =>
    cases h with
    | error h1 h2 => exact (bad h1 h2 (by decide)).elim
    | scope h1 h2 h3 =>
      rw [hk] at h1
      cases h1
      exact ⟨rfl, h3⟩
    | «alias» h1 h2 => exact (bad h1 h2 (by decide)).elim
    | definition h1 h2 => exact (bad h1 h2 (by decide)).elim
    | otherValue h1 h2 => exact (bad h1 h2 (by decide)).elim
    | other h1 _ h3 =>
      rw [hk] at h1
      cases h1
      exact (h3 hn).elim
  | imports h1 h2 => exact (bad h1 h2 (by decide)).elim

theorem patterns_land (hE : E.errs = true) (hS : Scripts E uni) (hw : E.Has w) :
    ∃ g, BReads E none none (Script.patternScope uni) w g ∧ g.Good E w ∧ Lands E w (ScopedR E env w) g := by
  obtain ⟨D, F, B, hlap, hfold⟩ := items_laps (env := env) (b := blen w + 1) hE hS
  obtain ⟨g, b1, b2, b3⟩ := hlap.loopN (name := "PatternScope") (lo := .included 1) hw (Nat.lt_succ_self _)
  rw [patternScope_eq]
  cases b3 with
  | fail => exact ⟨_, .map_fail b1, trivial, .fail (Or.inl rfl)⟩
  | fatal => exact ⟨_, .map_fatal b1, trivial, .fatal⟩
  | @tok w' c ks h hne =>
    obtain ⟨h1, h2, h3, h4⟩ := hfold _ _ _ h
    have hg' := b2
    obtain ⟨g1, g2, g3⟩ := b2
    obtain ⟨f1, f2, f3, f4, f5⟩ := g3.facts
    by_cases hlt : (blockT E "PatternScope".toList c w w' ks).matched.stop < blen E.p.src
    · obtain ⟨rest, hrest⟩ : ∃ rest, bdrop (blockT E "PatternScope".toList c w w' ks).matched.stop E.p.src = some rest := by
        have hw' := hw.tail g1
        have := hw'.len
        obtain ⟨pre, hpre⟩ := hw'
        refine ⟨w', bdrop_iff.mpr ⟨pre, hpre.symm, ?_⟩⟩
        have h3 : blen E.p.src = blen pre + blen w' := by rw [← hpre, blen_append]
        rw [g2]
        show E.at_ w' = _
        omega
      let msg : Str := "Syntax error. Expected a pattern defintion, but instead found: ".toList ++ rest
      have hgood : (Got.odd (errorT E msg ⟨E.at_ w, E.at_ w⟩)).Good E w := ⟨rfl, Nat.le_refl _, Nat.le_refl _, hw.le, rfl⟩
      refine ⟨_, .map b1 (calls_error (r := ⟨E.at_ w, E.at_ w⟩) hE (fun _ _ _ h => .odd h) hgood hw.le hw.le ?_) rfl, hgood,
        .odd (w' := w) rfl rfl rfl (List.suffix_refl _) fun t' t1 t2 => Or.inr (Or.inr ⟨t', rfl, t1, t2⟩)⟩
      intro c' sc s i k hc hk hi hp hch
      refine ⟨s, fun s' h2 => ?_, rfl, fun hS => hS⟩
      unfold Script.patternScopeDone
      rw [bind_run (getTok_ok.mpr ⟨hk, rfl⟩), hp.parser,
        show k.matched = (blockT E "PatternScope".toList c w w' ks).matched from congrArg Info.matched hi, if_pos hlt,
        bind_run (ofOpt_ok.mpr ⟨hrest, rfl⟩)]
      unfold newErrorToken
      rw [hc.offset]
      rw [bind_run h2]
      rfl
    · have he : w' = [] := by
        have h5 : (blockT E "PatternScope".toList c w w' ks).matched.stop = E.at_ w' := rfl
        rw [h5] at hlt
        have := (hw.tail g1).len
        have h6 : blen w' = 0 := by omega
        cases w' with
        | nil => rfl
        | cons d v =>
          have := cons_lt d v
          omega
      refine ⟨.tok w' (blockT E "PatternScope".toList c w w' ks), .map b1 ?_ rfl, hg', .tok (Or.inr (Or.inl ⟨_, rfl, rfl, rfl, h3 hne, ?_⟩))⟩
      · intro c' sc s lo i _ hc hS hr hok
        obtain ⟨k, hl, hk, hp, hi, hch⟩ := hr.root
        refine ⟨hg', _, s, ?_, .ok (.tok hr), hS⟩
        unfold Script.patternScopeDone
        rw [bind_run (getTok_ok.mpr ⟨hk, rfl⟩), hp.parser,
          show k.matched = (blockT E "PatternScope".toList c w w' ks).matched from congrArg Info.matched hi, if_neg hlt]
        rfl
      · refine (Told.leaf (R := fun gs ss => ss = [] ∧ Lax.Items env w gs ∧
          ∀ v, Gap w v → v.head? ≠ some '#' → ∃ g gs' v', gs = g :: gs' ∧ Lax.Pattern env v g v' ∧ Lax.Items env v' gs') ?_ ?_ ?_).mono ?_
        · intro toks lo i hi gs ss hs
          unfold blockT at hi
          rw [purge_node] at hi
          obtain ⟨k, -, hk, -, hinf, hc⟩ := hi.root
          obtain ⟨rfl, hm⟩ := hs.scope_only hk (congrArg Info.name hinf)
          obtain ⟨a, b⟩ := h4 _ _ _ _ hc hm he
          exact ⟨rfl, a, fun v v1 v2 => b v v1 v2 hne⟩
        · rw [purge_name]
          show "PatternScope".toList ≠ _
          exact toList_ne (by decide)
        · rw [purge_kids]
          intro t ht
          have ht : t ∈ purges ks := ht
          obtain ⟨t', t1, -, rfl⟩ := mem_purges ht
          exact (h1 t' t1).2
        · rintro gs ss nm ⟨⟨rfl, a, b⟩, rfl⟩
          exact ⟨rfl, rfl, a, b⟩

/-! ### Comments in front -/

def FrontR : Rel := fun w w' l => (∀ t ∈ l, t.info.flags = 0 ∧ Quiet t.purge) ∧ Comments w w' ∧ (l = [] → Gap w w')

theorem front_laps {b : Nat} : ∃ D F B, Lap E none b "PreHead".toList true [Script.wsn0, Script.comment] D F B ∧
    ∀ w w' l, Laps D F B w w' l → FrontR w w' l := by
  have hl : Lap E none b "PreHead".toList (false || (true || false)) [Script.wsn0, Script.comment] _ _ _ :=
    .cons (N := GapR) (L := fun _ => Never) (X := fun _ => False) (fun w _ _ => yields_wsn0.turn) <|
    .cons (N := fun w w' l => l = [leafT E "Comment".toList w w'] ∧ Comment w w') (L := fun _ => Never) (X := fun w => w.head? ≠ some '#')
      (fun w hw _ => (yields_comment hw).turn) .nil
  refine ⟨_, _, _, hl, fun w w' l h => Laps.fold (P := FrontR) ?_ ?_ ?_ h⟩
  · rintro w w' l (⟨h, -⟩ | ⟨w1, l1, l2, rfl, ⟨rfl, h1⟩, ⟨h2, rfl, rfl⟩ | ⟨w2, l3, l4, rfl, h2, h⟩⟩)
    · exact h.elim
    · exact ⟨(fun _ h => by cases h), .done h1 h2, fun _ => h1⟩
    · exact h.elim
  · rintro w w' l (h | ⟨w1, l1, l2, rfl, ⟨rfl, h1⟩, h | ⟨w2, l3, l4, rfl, h2, h⟩⟩)
    · exact h.elim
    · exact h.elim
    · exact h.elim
  · rintro w w1 w' l l' ⟨w2, l1, l2, rfl, ⟨rfl, h1⟩, w3, l3, l4, rfl, ⟨rfl, h2⟩, rfl, rfl⟩ ⟨h6, h7, -⟩
    simp only [List.nil_append, List.append_nil, List.singleton_append]
    refine ⟨fun t' ht' => ?_, .more h1 h2 h7, (fun h => by cases h)⟩
    rcases List.mem_cons.mp ht' with rfl | ht'
    · refine ⟨rfl, ?_⟩
      rw [purge_leaf]
      exact quiet_leaf
    · exact h6 t' ht'

theorem comments_again {w1 : Str} (h : Comments w w1) : Gap w1 w1 ∧ w1.head? ≠ some '#' := by
  induction h with
  | done h hn => exact ⟨h.again, hn⟩
  | more _ _ _ ih => exact ih

/-- Comments, or none. -/
def FrontsR : Rel := fun w w' l => (∀ w1, Gap w' w1 → Comments w w1) ∧
  (l = [] ∨ ∃ t, l = [t] ∧ t.info.flags = 0 ∧ t.name = "PreHead".toList ∧ Quiet t.purge)

theorem front_lands (hw : E.Has w) : ∃ g, BReads E none none (optional (loopN "PreHead" [Script.wsn0, Script.comment])) w g ∧ g.Good E w ∧
    Lands E w (FrontsR w) g ∧ ∀ t, g ≠ .odd t := by
  obtain ⟨D, F, B, hlap, hfold⟩ := front_laps (E := E) (b := blen w + 1)
  obtain ⟨g, b1, b2, b3⟩ := hlap.loopN (name := "PreHead") (lo := .unbounded) hw (Nat.lt_succ_self _)
  cases b3 with
  | fail h =>
    obtain ⟨-, h2, h3⟩ := hfold _ _ _ h
    refine ⟨_, .optional b1, List.suffix_refl _, .past ⟨fun w1 h1 => ?_, Or.inl rfl⟩, fun _ h => by cases h⟩
    have := (h3 rfl).unique h1
    subst this
    exact h2
  | fatal => exact ⟨_, .optional b1, trivial, .fatal, fun _ h => by cases h⟩
  | @tok w' c ks h hne =>
    obtain ⟨h1, h2, h3⟩ := hfold _ _ _ h
    refine ⟨_, .optional b1, b2, .tok ⟨fun w1 h4 => ?_, Or.inr ⟨_, rfl, rfl, rfl, ?_⟩⟩, fun _ h => by cases h⟩
    · have := (comments_again h2).1.unique h4
      subst this
      exact h2
    · unfold blockT
      rw [purge_node]
      refine .node (Cold.names (n := "PreHead") (by decide)) fun t ht => ?_
      obtain ⟨t', t1, -, rfl⟩ := mem_purges ht
      exact (h1 t' t1).2

end

end Adx.Read
