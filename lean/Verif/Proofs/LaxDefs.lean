import Verif.Proofs.LaxAttrs
import Verif.Proofs.ScriptPatterns
/-
  Reading any text: groups, definitions and patterns.
-/
namespace Adx.Read

open Syntax (Munch Gap Blanks Identifier Number Quoted Comment Comma Attr Mod)
open B

/-! ### Uniqueness of what tokens say -/

section
variable {toks : List Token} {l : List TokId} {names : List String} {i : TokId}

theorem first_absent' (h : First toks names l i) (h' : Absent toks names l) : False := by
  obtain ⟨a, b, rfl, ⟨n, hn, he⟩, -⟩ := h
  exact h' i (by simp) n hn he

theorem attrs_only {m a b : AMap Str} (h : Attrs toks l m a) (h' : Attrs toks l m b) : a = b := by
  induction h with
  | nil => cases h'; rfl
  | cons hk ha hak hb hbk _ ih =>
    cases h' with
    | cons hk' ha' hak' hb' hbk' h' =>
      rw [hk] at hk'; cases hk'
      rw [ha] at ha'; cases ha'
      rw [hak] at hak'; cases hak'
      rw [hb] at hb'; cases hb'
      rw [hbk] at hbk'; cases hbk'
      exact ih h'

theorem withAttrs_only {g a b : Gram} (h : WithAttrs toks l g a) (h' : WithAttrs toks l g b) : a = b := by
  cases h with
  | none h =>
    cases h' with
    | none => rfl
    | empty h2 => exact (first_absent' h2 h).elim
    | some h2 => exact (first_absent' h2 h).elim
  | empty h hk he =>
    cases h' with
    | none h2 => exact (first_absent' h h2).elim
    | empty => rfl
    | some h2 hk' he' =>
      obtain rfl := first_only h h2
      rw [hk] at hk'; cases hk'
      exact (he' he).elim
  | some h hk he hm =>
    cases h' with
    | none h2 => exact (first_absent' h h2).elim
    | empty h2 hk' he' =>
      obtain rfl := first_only h h2
      rw [hk] at hk'; cases hk'
      exact (he he').elim
    | some h2 hk' he' hm' =>
      obtain rfl := first_only h h2
      rw [hk] at hk'; cases hk'
      rw [attrs_only hm hm']

theorem modified_iff {a b a' b' : Prop} {_ : Decidable a} {_ : Decidable b} {_ : Decidable a'} {_ : Decidable b'} (h : a ↔ a') (h' : b ↔ b') (g : Gram) :
    g.modified a b = g.modified a' b' := by
  unfold Gram.modified
  by_cases ha : a
  · rw [if_pos ha, if_pos (h.mp ha)]
  · rw [if_neg ha, if_neg (fun x => ha (h.mpr x))]
    by_cases hb : b
    · rw [if_pos hb, if_pos (h'.mp hb)]
    · rw [if_neg hb, if_neg (fun x => hb (h'.mpr x))]

end

section
variable {E : Setting} {K : Option Nat} {w w' : Str} {n : String} {uni : Uni} {env : Env}

theorem purge_name {t : Tr} : t.purge.name = t.name := congrArg Info.name purge_info

theorem Reps.uncons {toks : List Token} {lo : Nat} {is : List TokId} {t : Tr} {ts : List Tr} (h : Reps E toks lo is (t :: ts)) :
    ∃ i is', is = i :: is' ∧ Reps E toks lo [i] [t] ∧ Reps E toks lo is' ts := by
  cases h with
  | cons h1 h2 h3 h4 h5 => exact ⟨_, _, rfl, .cons h1 h2 h3 h4 .nil, h5⟩

/-! ### Groups -/

theorem gap_gap {w1 w2 : Str} (h : Gap w w1) (h' : Gap w1 w2) : Gap w w2 := by
  obtain ⟨u, h⟩ := h
  obtain ⟨u', h'⟩ := h'
  have hs := h'.split
  cases u' with
  | nil =>
    rw [List.nil_append] at hs
    subst hs
    exact ⟨u, h⟩
  | cons c u' =>
    have := h.most c (by rw [hs]; rfl)
    rw [h'.all c (by simp)] at this
    cases this

def patternNames : List String := ["PatternDefinition", "PatternDefinitionCaptured"]

/-- A pattern. -/
def PatternR (E : Setting) (env : Env) : Rel := fun w w' l =>
  ∃ t, l = [t] ∧ Sound E patternNames (fun toks i => ∀ g, DescribesPattern env toks i g → Lax.Pattern env w g w') t

/-- Patterns, on all rests of less than `n` bytes. -/
def PatternsYield (E : Setting) (uni : Uni) (env : Env) (n : Nat) : Prop :=
  ∀ w, E.Has w → blen w < n → Yields E none true (Script.pattern uni) w (PatternR E env w) True

/-- Tokens of patterns. -/
def ListR (E : Setting) (env : Env) (P : Str → List Gram → Str → Prop) : Rel := fun w w' l =>
  (∀ t ∈ l, t.info.flags = 0 ∧ Quiet t.purge ∧ t.name ≠ errorName) ∧
  ∀ toks lo is gs, Reps E toks lo is (purges l) → DescribesAll env toks is gs → P w gs w'

theorem ListR.nil {P : Str → List Gram → Str → Prop} (h : P w [] w') : ListR E env P w w' [] := by
  refine ⟨(fun _ h => by cases h), fun toks lo is gs hr hd => ?_⟩
  rw [purges_nil] at hr
  cases hr
  cases hd
  exact h

theorem ListR.cons {P Q : Str → List Gram → Str → Prop} {w0 w1 w2 : Str} {l1 l2 : List Tr} (h1 : PatternR E env w0 w1 l1) (h2 : ListR E env Q w2 w' l2)
    (h : ∀ g gs, Lax.Pattern env w0 g w1 → Q w2 gs w' → P w (g :: gs) w') : ListR E env P w w' (l1 ++ l2) := by
  obtain ⟨t, rfl, h1⟩ := h1
  refine ⟨fun t' ht' => ?_, fun toks lo is gs hr hd => ?_⟩
  · rcases List.mem_cons.mp ht' with rfl | ht'
    · refine ⟨h1.flags, h1.quiet, ?_⟩
      obtain ⟨n, hn, he⟩ := h1.name
      rw [he]
      exact toList_ne (b := "Error") (by
        rintro rfl
        exact absurd hn (by decide))
    · exact h2.1 t' ht'
  · rw [List.singleton_append, purges_cons h1.flags] at hr
    obtain ⟨i, is', rfl, h3, h4⟩ := hr.uncons
    cases hd with
    | cons hd1 hd2 => exact h _ _ (h1.means _ _ _ h3 _ hd1) (h2.2 _ _ _ _ h4 hd2)

theorem ListR.one {P : Str → List Gram → Str → Prop} {w0 w1 : Str} {l : List Tr} (h1 : PatternR E env w0 w1 l)
    (h : ∀ g, Lax.Pattern env w0 g w1 → P w [g] w') : ListR E env P w w' l := by
  have := ListR.cons (P := P) (w := w) h1 (.nil (P := fun _ gs _ => gs = []) (w := w) (w' := w') rfl) fun g gs hg hgs => by
    have hgs : gs = [] := hgs
    rw [hgs]
    exact h g hg
  rwa [List.append_nil] at this

theorem close_yields {name : Str} {s : String} {c : Char} (hw : E.Has w) (hs : s.toList = [c] := by rfl) :
    YieldsB E K true name (discard (program [equals s, brk])) w Never (SkipR s w) True := by
  by_cases h : w.head? = some c
  · cases w with
    | nil => cases h
    | cons d w =>
      cases h
      exact ⟨_, .discard (g := .brk [] (.tok _ _)) (reads_close hs), List.suffix_cons .., Or.inr (.past (Or.inr rfl) ⟨rfl, by rw [hs]; rfl⟩)⟩
  · exact ⟨_, .discard (g := .fail) (fails_close h hs), trivial, Or.inl (.fail trivial)⟩

def ChoicesP (env : Env) : Str → List Gram → Str → Prop := fun w gs w' => (gs = [] ∧ Lax.Ends ']' w w') ∨ Lax.Choices env w gs w'
def PatternsP (env : Env) : Str → List Gram → Str → Prop := fun w gs w' => (gs = [] ∧ Lax.Ends '}' w w') ∨ Lax.Patterns env w gs w'

theorem switch_laps {b : Nat} (hP : PatternsYield E uni env b) : ∃ D F B, Lap E none b "Loop".toList true (switchRound uni) D F B ∧
    ∀ w w' l, Laps D F B w w' l → ListR E env (ChoicesP env) w w' l := by
  have h1 : ∀ w, E.Has w → blen w < b → YieldsB E none true "Loop".toList (switch [discard (program [equals "]", brk]), Script.pattern uni]) w
      (PatternR E env w) (SkipR "]" w) True := fun w hw hb =>
    (YieldsP.switchB (.cons ((close_yields hw).mono (fun _ _ h => h.elim) (fun _ _ h => h) id) (.cons (hP w hw hb).turn .nil))).mono
        (fun _ _ h => h) (fun _ _ h => h) (fun _ => trivial)
  have h2 : ∀ w, E.Has w → blen w < b → YieldsB E none false "Loop".toList (discard (switch [equals "|", program [equals "]", brk]])) w
      (SkipR "|" w) (SkipR "]" w) True := by
    intro w hw hb
    by_cases h1 : ['|'] <+: w
    · obtain ⟨w', rfl⟩ := h1
      exact ⟨_, .discard (g := .tok w' _) (.switch (.here (.equals (l := ['|'])) trivial)), List.suffix_append _ _,
        Or.inl (.past ⟨rfl, rfl⟩ (fun h => by cases h))⟩
    · by_cases h : w.head? = some ']'
      · cases w with
        | nil => cases h
        | cons d w =>
          cases h
          exact ⟨_, .discard (g := .brk [] (.tok _ _)) (.switch (.next (.equals_fail h1) (.here reads_close trivial))), List.suffix_cons ..,
            Or.inr (.past (Or.inr rfl) ⟨rfl, rfl⟩)⟩
      · exact ⟨_, .discard (g := .fail) (.switch (.next (.equals_fail h1) (.next (fails_close h) .nil))), trivial, Or.inl (.fail trivial)⟩
  have hl : Lap E none b "Loop".toList (false || (true || (false || (false || false)))) (switchRound uni) _ _ _ :=
    .cons (N := GapR) (L := fun _ => Never) (X := fun _ => False) (fun w _ _ => yields_wsn0.turn) <|
    .cons (N := PatternR E env) (L := SkipR "]") (X := fun _ => True) h1 <|
    .cons (N := GapR) (L := fun _ => Never) (X := fun _ => False) (fun w _ _ => yields_wsn0.turn) <|
    .cons (N := SkipR "|") (L := SkipR "]") (X := fun _ => True) h2 .nil
  refine ⟨_, _, _, hl, fun w w' l h => Laps.fold (P := ListR E env (ChoicesP env)) ?_ ?_ ?_ h⟩
  · rintro w w' l (⟨h, -⟩ | ⟨w1, l1, l2, rfl, ⟨rfl, h1⟩, ⟨-, rfl, rfl⟩ | ⟨w2, l3, l4, rfl, h2, ⟨h, -⟩ | ⟨w3, l5, l6, rfl, ⟨rfl, h3⟩, ⟨-, rfl, rfl⟩ | ⟨w4, l7, l8, rfl, -, h⟩⟩⟩⟩)
    · exact h.elim
    · exact .nil (Or.inl ⟨rfl, .missing h1⟩)
    · exact h.elim
    · simp only [List.nil_append, List.append_nil]
      exact .one h2 fun g hg => Or.inr (.last h1 hg (.missing h3))
    · exact h.elim
  · rintro w w' l (h | ⟨w1, l1, l2, rfl, ⟨rfl, h1⟩, ⟨rfl, rfl⟩ | ⟨w2, l3, l4, rfl, h2, h | ⟨w3, l5, l6, rfl, ⟨rfl, h3⟩, ⟨rfl, rfl⟩ | ⟨w4, l7, l8, rfl, -, h⟩⟩⟩⟩)
    · exact h.elim
    · exact .nil (Or.inl ⟨rfl, .closed h1⟩)
    · exact h.elim
    · simp only [List.nil_append, List.append_nil]
      exact .one h2 fun g hg => Or.inr (.last h1 hg (.closed h3))
    · exact h.elim
  · rintro w w1 w' l l' ⟨w2, l1, l2, rfl, ⟨rfl, h1⟩, w3, l3, l4, rfl, h2, w4, l5, l6, rfl, ⟨rfl, h3⟩, w5, l7, l8, rfl, ⟨rfl, rfl⟩, rfl, rfl⟩ h4
    simp only [List.nil_append, List.append_nil]
    refine .cons h2 h4 fun g gs hg hgs => Or.inr ?_
    rcases hgs with ⟨rfl, hgs⟩ | hgs
    · exact .lastBar h1 hg h3 hgs
    · exact .more h1 hg h3 hgs

theorem program_laps {b : Nat} (hP : PatternsYield E uni env b) : ∃ D F B, Lap E none b "Loop".toList true (programRound uni) D F B ∧
    ∀ w w' l, Laps D F B w w' l → ListR E env (PatternsP env) w w' l := by
  have h1 : ∀ w, E.Has w → blen w < b → YieldsB E none false "Loop".toList (discard (optional (program [equals "}", brk]))) w
      (Stop w) (SkipR "}" w) False := by
    intro w hw hb
    by_cases h : w.head? = some '}'
    · cases w with
      | nil => cases h
      | cons d w =>
        cases h
        exact ⟨_, .discard (g := .brk [] (.tok _ _)) (.optional (g := .brk [] (.tok _ _)) reads_close), List.suffix_cons ..,
          Or.inr (.past (Or.inr rfl) ⟨rfl, rfl⟩)⟩
    · exact ⟨_, .discard (g := .past w) (.optional (g := .fail) (fails_close h)), List.suffix_refl _,
        Or.inl (.past ⟨rfl, rfl⟩ (fun h => by cases h))⟩
  have hl : Lap E none b "Loop".toList (false || (true || (false || (false || false)))) (programRound uni) _ _ _ :=
    .cons (N := GapR) (L := fun _ => Never) (X := fun _ => False) (fun w _ _ => yields_wsn0.turn) <|
    .cons (N := PatternR E env) (L := fun _ => Never) (X := fun _ => True) (fun w hw hb => (hP w hw hb).turn) <|
    .cons (N := GapR) (L := fun _ => Never) (X := fun _ => False) (fun w _ _ => yields_wsn0.turn) <|
    .cons (N := Stop) (L := SkipR "}") (X := fun _ => False) h1 .nil
  refine ⟨_, _, _, hl, fun w w' l h => Laps.fold (P := ListR E env (PatternsP env)) ?_ ?_ ?_ h⟩
  · rintro w w' l (⟨h, -⟩ | ⟨w1, l1, l2, rfl, ⟨rfl, h1⟩, ⟨-, rfl, rfl⟩ | ⟨w2, l3, l4, rfl, h2, ⟨h, -⟩ | ⟨w3, l5, l6, rfl, ⟨rfl, h3⟩, ⟨h, -⟩ | ⟨w4, l7, l8, rfl, -, h⟩⟩⟩⟩)
    · exact h.elim
    · exact .nil (Or.inl ⟨rfl, .missing h1⟩)
    · exact h.elim
    · exact h.elim
    · exact h.elim
  · rintro w w' l (h | ⟨w1, l1, l2, rfl, ⟨rfl, h1⟩, h | ⟨w2, l3, l4, rfl, h2, h | ⟨w3, l5, l6, rfl, ⟨rfl, h3⟩, ⟨rfl, rfl⟩ | ⟨w4, l7, l8, rfl, -, h⟩⟩⟩⟩)
    · exact h.elim
    · exact h.elim
    · exact h.elim
    · simp only [List.nil_append, List.append_nil]
      exact .one h2 fun g hg => Or.inr (.last h1 hg (.closed h3))
    · exact h.elim
  · rintro w w1 w' l l' ⟨w2, l1, l2, rfl, ⟨rfl, h1⟩, w3, l3, l4, rfl, h2, w4, l5, l6, rfl, ⟨rfl, h3⟩, w5, l7, l8, rfl, ⟨rfl, rfl⟩, rfl, rfl⟩ h4
    simp only [List.nil_append, List.append_nil]
    refine .cons h2 h4 fun g gs hg hgs => Or.inr ?_
    rcases hgs with ⟨rfl, hgs⟩ | hgs
    · refine .last h1 hg ?_
      cases hgs with
      | closed h => exact .closed (gap_gap h3 h)
      | missing h => exact .missing (gap_gap h3 h)
    · exact .more h1 hg h3 hgs

theorem Strewn.some {M : Str → List Tr → Prop} {g : Got} (h : Strewn E w M g) : Strewn E w (fun w' l => M w' l ∧ l ≠ []) g := by
  cases h with
  | fail => exact .fail
  | fatal => exact .fatal
  | splice h hne hs hw => exact .splice ⟨h, hne⟩ hne hs hw

theorem group_yields {s n : String} {m : MatcherId} {xs : List (B MatcherId)} [AddsAll xs] {P : Str → List Gram → Str → Prop}
    (hl : ∃ D F B, Lap E none (blen w) "Loop".toList true xs D F B ∧ ∀ w w' l, Laps D F B w w' l → ListR E env P w w' l) (hw : E.Has w)
    (hm : Is E (programN n [discard (equals s), proxyChildren (loop xs)]) m) (hN : E.Names m n.toList) (hs : s.toList ≠ [] := by simp) :
    ∃ g, Reads E none none m w g ∧ g.eager = true ∧ g.Good E w ∧
      Comes E true w (fun w' l => ∃ c ks w1, l = [blockT E n.toList c w w' ks] ∧ ks ≠ [] ∧ w = s.toList ++ w1 ∧ ListR E env P w1 w' ks) True g := by
  obtain ⟨D, F, B, hlap, hfold⟩ := hl
  obtain ⟨o, g, h1, h2, h3, h4⟩ := Yields.group (K := none) (n := n.toList) (y := proxyChildren (loop xs))
    (M := fun w w' l => ListR E env P w w' l ∧ l ≠ []) hw (yields_skip (s := s) hw hs)
    (fun w' hw' hlt => by
      obtain ⟨g, b1, b2, b3⟩ := hlap.loop hw' hlt
      obtain ⟨g, c1, c2, c3⟩ := (b3.mono fun w'' l h => hfold w' w'' l h).splice hw' b1 b2 fun w'' l h k hk => (h.1 k hk).2.2
      exact ⟨g, c1, c2, c3.some⟩)
  obtain ⟨ms, h5, h6⟩ := Is.prog hm
  refine ⟨g, reads_program h6 (fun _ => hN) h5 h1 h2, ?_, h3, h4.mono ?_ id⟩
  · cases h4 with
    | fail => rfl
    | fatal => rfl
    | past h =>
      obtain ⟨_, _, h, -⟩ := h
      cases h
    | tok => rfl
    | pin _ h => cases h
  · rintro w' l ⟨c, ks, rfl, w1, l1, l2, rfl, ⟨rfl, h7⟩, h8, h9⟩
    exact ⟨c, _, w1, rfl, h9, h7, h8⟩

theorem purges_some {l : List Tr} (h : ∀ t ∈ l, t.info.flags = 0) (hne : l ≠ []) : purges l ≠ [] := by
  cases l with
  | nil => exact (hne rfl).elim
  | cons t l =>
    rw [purges_cons (h t (by simp))]
    simp

theorem ListR.sound {P : Str → List Gram → Str → Prop} {n : String} {c : Range} {w1 : Str} {ks : List Tr} {Q : List Token → TokId → Prop}
    (h : ListR E env P w1 w' ks) (hne : ks ≠ []) {names : List String} (hn : n ∈ names) (hc : Cold n)
    (hQ : ∀ (toks : List Token) (i : TokId) (k : Token), toks[i]? = some k → k.name = n.toList → k.children ≠ [] →
      (∀ gs, DescribesAll env toks k.children gs → P w1 gs w') → Q toks i) :
    Sound E names Q (blockT E n.toList c w w' ks) := by
  refine ⟨rfl, ?_, ⟨n, hn, rfl⟩, ?_⟩
  · unfold blockT
    rw [purge_node]
    refine .node hc.names fun t ht => ?_
    obtain ⟨t', h1, -, rfl⟩ := mem_purges ht
    exact (h.1 t' h1).2.1
  · intro toks lo i hi
    unfold blockT at hi
    rw [purge_node] at hi
    obtain ⟨k, -, h1, -, h2, h3⟩ := hi.root
    refine hQ toks i k h1 (congrArg Info.name h2) ?_ fun gs hgs => h.2 _ _ _ _ h3 hgs
    intro h0
    exact purges_some (fun t ht => (h.1 t ht).1) hne (h3.nil_iff.mp h0)

theorem switch_yields (hS : Scripts E uni) (hw : E.Has w) (hP : PatternsYield E uni env (blen w)) :
    Yields E none true (ref "SwitchMatcher") w (MatcherR E env (Lax.Matcher env) w) True := by
  have : AddsAll (switchRound uni) := by unfold switchRound; infer_instance
  obtain ⟨g, h1, h2, h3, h4⟩ := group_yields (s := "[") (switch_laps hP) hw hS.sw Scripts.names_sw
  refine ⟨g, ref_sw h1 h2, h3, h4.mono ?_ id⟩
  rintro w' l ⟨c, ks, w1, rfl, hne, rfl, h5⟩
  refine ⟨_, rfl, h5.sound hne (by decide) (by decide) fun toks i k hk hn hc hgs g hg => ?_⟩
  have bad : ∀ {n : String} {k' : Token}, toks[i]? = some k' → k'.name = n.toList → n ≠ "SwitchMatcher" → False := by
    intro n k' h1 h2 h3
    rw [hk] at h1
    cases h1
    rw [hn] at h2
    exact h3 (String.toList_inj.mp h2).symm
  cases hg with
  | equals h1 h2 => exact (bad h1 h2 (by decide)).elim
  | regex h1 h2 => exact (bad h1 h2 (by decide)).elim
  | sequence h1 h2 => exact (bad h1 h2 (by decide)).elim
  | custom h1 h2 => exact (bad h1 h2 (by decide)).elim
  | empty h1 h2 h3 =>
    rw [hk] at h1
    cases h1
    exact (hc h3).elim
  | switch h1 h2 h3 h4 =>
    rw [hk] at h1
    cases h1
    rcases hgs _ h4 with ⟨rfl, -⟩ | h
    · generalize k.children = cs at hc h4
      cases h4
      exact (hc rfl).elim
    · exact .switch h
  | program h1 h2 => exact (bad h1 h2 (by decide)).elim

theorem program_yields (hS : Scripts E uni) (hw : E.Has w) (hP : PatternsYield E uni env (blen w)) :
    Yields E none true (ref "ProgramMatcher") w (MatcherR E env (Lax.Matcher env) w) True := by
  have : AddsAll (programRound uni) := by unfold programRound; infer_instance
  obtain ⟨g, h1, h2, h3, h4⟩ := group_yields (s := "{") (program_laps hP) hw hS.pm Scripts.names_pm
  refine ⟨g, ref_pm h1 h2, h3, h4.mono ?_ id⟩
  rintro w' l ⟨c, ks, w1, rfl, hne, rfl, h5⟩
  refine ⟨_, rfl, h5.sound hne (by decide) (by decide) fun toks i k hk hn hc hgs g hg => ?_⟩
  have bad : ∀ {n : String} {k' : Token}, toks[i]? = some k' → k'.name = n.toList → n ≠ "ProgramMatcher" → False := by
    intro n k' h1 h2 h3
    rw [hk] at h1
    cases h1
    rw [hn] at h2
    exact h3 (String.toList_inj.mp h2).symm
  cases hg with
  | equals h1 h2 => exact (bad h1 h2 (by decide)).elim
  | regex h1 h2 => exact (bad h1 h2 (by decide)).elim
  | sequence h1 h2 => exact (bad h1 h2 (by decide)).elim
  | custom h1 h2 => exact (bad h1 h2 (by decide)).elim
  | empty h1 h2 h3 =>
    rw [hk] at h1
    cases h1
    exact (hc h3).elim
  | switch h1 h2 => exact (bad h1 h2 (by decide)).elim
  | program h1 h2 h3 h4 =>
    rw [hk] at h1
    cases h1
    rcases hgs _ h4 with ⟨rfl, -⟩ | h
    · generalize k.children = cs at hc h4
      cases h4
      exact (hc rfl).elim
    · exact .program h

/-- The matcher of a definition.  A regular expression that is not closed stops where
nothing else goes on. -/
def LooseMatcher (env : Env) : Str → Gram → Str → Prop := fun w g w' => Lax.Matcher env w g w' ∨ Stuck w'

theorem matcher_yields (hS : Scripts E uni) (hw : E.Has w) (hP : PatternsYield E uni env (blen w)) :
    Yields E none true Script.matcher w (MatcherR E env (LooseMatcher env) w) True := by
  have loose : ∀ {x : B MatcherId}, Yields E none true x w (MatcherR E env (Lax.Matcher env) w) True →
      Yields E none true x w (MatcherR E env (LooseMatcher env) w) True := by
    intro x h
    refine h.mono ?_
    rintro w' l ⟨t, rfl, h⟩
    exact ⟨t, rfl, h.flags, h.quiet, h.name, fun toks lo i hi g hg => Or.inl (h.means _ _ _ hi g hg)⟩
  refine (YieldsP.switchN (.cons (regex_yields hw).turn <| .cons (loose (equals_yields hw)).turn <| .cons (loose (sequence_yields hw)).turn <|
    .cons (loose (custom_yields hw)).turn <| .cons (loose (switch_yields hS hw hP)).turn <|
    .cons (loose (program_yields hS hw hP)).turn (.nil (name := [])))).mono' (fun _ _ h => h) (fun _ => trivial)

/-! ### Definitions -/

/-- The token of attributes, without errors. -/
inductive AttrsT (E : Setting) : List Attr → List Tr → Prop
  | none : AttrsT E [] []
  | some {as : List Attr} {i : Info} {ts : List Tr} (hi : i.name = "Attributes".toList) (hne : as ≠ []) (h : AttrTs E ts as) : AttrsT E as [.node i ts]

theorem AttrsT.names {as : List Attr} {ts : List Tr} (h : AttrsT E as ts) : InNames ts ["Attributes"] := by
  cases h with
  | none => exact .nil
  | some hi _ h => exact .one (List.mem_singleton.mpr rfl) hi

theorem AttrsT.quiet {as : List Attr} {ts : List Tr} (h : AttrsT E as ts) : ∀ t ∈ ts, Quiet t := by
  cases h with
  | none => intro _ h; cases h
  | some hi _ h =>
    intro t ht
    rw [List.mem_singleton.mp ht]
    refine .node ?_ h.quiet
    rw [hi]
    exact Cold.names (n := "Attributes") (by decide)

theorem AttrsT.desc {as : List Attr} {pre seg post : List Tr} (h : AttrsT E as seg)
    (hpre : ∀ t ∈ pre ++ post, ∀ n ∈ ["Attributes"], t.name ≠ n.toList) {toks : List Token} {lo : Nat} {l : List TokId}
    (hr : Reps E toks lo l (pre ++ (seg ++ post))) (g : Gram) : WithAttrs toks l g (Syntax.attributed as g) := by
  cases h with
  | none => exact .none (hr.absent hpre)
  | @some _ i ts hi hne h =>
    unfold Syntax.attributed
    rw [if_neg hne]
    obtain ⟨j, h1, h2⟩ := hr.first (fun t ht => hpre t (List.mem_append_left _ ht)) ⟨"Attributes", List.mem_singleton.mpr rfl, hi⟩
    obtain ⟨jk, -, h3, -, -, h4⟩ := h2.root
    refine .some h1 h3 ?_ (attrs_desc h [] h4)
    intro h0
    rw [h0] at h4
    exact hne (h.nil_iff.mp (h4.nil_iff.mp rfl))

theorem AttrsR.tokens {l : List Tr} (h : AttrsR E w w' l) : ∃ as, Lax.AttrList w as w' ∧ AttrsT E as (purges l) ∧
    ∀ a ∈ l, a.name = "Attributes".toList ∧ ∀ t ∈ a.kids, 2 ≤ t.kids.length := by
  obtain ⟨as, h1, ⟨rfl, rfl⟩ | ⟨ts, c, rfl, h2, h3, -⟩⟩ := h
  · refine ⟨[], h1, ?_, fun _ h => by cases h⟩
    rw [purges_nil]
    exact .none
  · refine ⟨as, h1, ?_, ?_⟩
    · rw [purges_cons rfl, purges_nil]
      unfold blockT
      rw [purge_node]
      exact .some rfl h2 h3.purge
    · intro a ha
      rw [List.mem_singleton.mp ha]
      exact ⟨rfl, h3.len⟩

/-- What a definition token says. -/
theorem definition_says {outer inner : Mod} {ts1 ts2 ts3 ts4 : List Tr} {m : Tr} {as : List Attr} {name : Str} {g : Gram}
    (c1 : ModTs "OuterOptionalModifier" "OuterNotModifier" outer ts1) (d1 : ModTs "InnerOptionalModifier" "InnerNotModifier" inner ts2)
    (m1 : ∃ n ∈ patternMatcherNames, m.name = n.toList) (e1 : AttrsT E as ts3) (f1 : InNames ts4 repeatSpecifierNames) (f2 : ts4.length ≤ 1)
    {toks : List Token} {i : TokId} {k : Token} {lo : Nat} (hk : toks[i]? = some k)
    (hr : Reps E toks lo k.children (ts1 ++ (ts2 ++ (m :: (ts3 ++ ts4))))) (h : DescribesDefinition env toks i name g) :
    ∃ g0 r, (∃ j, Reps E toks lo [j] [m] ∧ DescribesMatcher env toks j g0) ∧
      ((r = none ∧ ts4 = []) ∨ ∃ t j a b, ts4 = [t] ∧ r = some (a, b) ∧ Reps E toks lo [j] [t] ∧ Repeats toks j a b) ∧
      g = outer.wrap (Syntax.repeated r (inner.wrap (Syntax.attributed as (g0.called name)))) := by
  have hN1 := c1.names
  have hN2 := d1.names
  have hNm : InNames [m] patternMatcherNames := by
    obtain ⟨n, h6, h7⟩ := m1
    exact .one h6 h7
  have hN3 := e1.names
  cases h with
  | @mk _ k' mi _ g0 g1 g2 hk' hn hm hg ha opt neg _ _ ho hx hrep opt' neg' _ _ ho' hx' =>
    rw [hk] at hk'
    cases hk'
    have hchm : Reps E toks lo k.children ((ts1 ++ ts2) ++ m :: (ts3 ++ ts4)) := by simpa using hr
    have hcha : Reps E toks lo k.children ((ts1 ++ (ts2 ++ [m])) ++ (ts3 ++ ts4)) := by simpa using hr
    have hcho : Reps E toks lo k.children ([] ++ (ts1 ++ (ts2 ++ ([m] ++ (ts3 ++ ts4))))) := by simpa using hr
    have hchi : Reps E toks lo k.children (ts1 ++ (ts2 ++ ([m] ++ (ts3 ++ ts4)))) := by simpa using hr
    have hchr : Reps E toks lo k.children ((ts1 ++ (ts2 ++ ([m] ++ ts3))) ++ ts4) := by simpa using hr
    obtain ⟨j, j1, j2⟩ := hchm.first (names := patternMatcherNames) (InNames.apart (hN1.append hN2)) m1
    obtain rfl := first_only hm j1
    have hA := e1.desc (InNames.apart ((hN1.append (hN2.append hNm)).append f1)) hcha (g0.called name)
    obtain rfl := withAttrs_only ha hA
    obtain ⟨o1, o2, o3, o4, o5, o6, o7⟩ := d1.desc (by decide) (InNames.apart (hN1.append (hNm.append (hN3.append f1)))) hchi
      (Syntax.attributed as (g0.called name))
    rw [modified_iff (ho.trans o5.symm) (hx.trans o6.symm), o7] at hrep
    have hlast : ∀ g', g'.modified opt' neg' = outer.wrap g' := by
      intro g'
      obtain ⟨p1, p2, p3, p4, p5, p6, p7⟩ := c1.desc (by decide)
        (InNames.apart ((InNames.nil (ns := [])).append (hN2.append (hNm.append (hN3.append f1))))) hcho g'
      rw [modified_iff (ho'.trans p5.symm) (hx'.trans p6.symm), p7]
    rw [hlast]
    have hN : InNames (ts1 ++ (ts2 ++ ([m] ++ ts3))) _ := hN1.append (hN2.append (hNm.append hN3))
    rcases ts4 with - | ⟨t, - | ⟨t', ts4⟩⟩
    · have hab : Absent toks repeatSpecifierNames k.children := hchr.absent (by rw [List.append_nil]; exact hN.apart)
      cases hrep with
      | none => exact ⟨g0, none, ⟨mi, j2, hg⟩, Or.inl ⟨rfl, rfl⟩, rfl⟩
      | some h1 => exact (first_absent' h1 hab).elim
    · obtain ⟨q, q1, q2⟩ := hchr.first (names := repeatSpecifierNames) hN.apart (f1 t (List.mem_singleton.mpr rfl))
      cases hrep with
      | none h1 => exact (first_absent' q1 h1).elim
      | @some r a b h1 h2 =>
        obtain rfl := first_only h1 q1
        exact ⟨g0, some (a, b), ⟨mi, j2, hg⟩, Or.inr ⟨t, r, a, b, rfl, rfl, q2, h2⟩, rfl⟩
    · simp at f2

theorem copyAll_raw {ts : List Tr} (h : ∀ a ∈ ts, a.name = "Attributes".toList → ∀ t ∈ a.kids, 2 ≤ t.kids.length) : ∃ (f : AMap Str → AMap Str),
    ∀ {s : State} {i : TokId} {k : Token}, s.toks[i]? = some k → Reps E s.toks (i + 1) k.children ts →
      ∃ ver, Script.copyAllAttributes i s = .ok ver (s.put i { k with attributes := f k.attributes }) := by
  rcases tree_split "Attributes".toList ts with hn | ⟨pre, a, post, rfl, hpre, ha⟩
  · refine ⟨fun m => m, fun {s i k} hk hr => ⟨none, ?_⟩⟩
    unfold Script.copyAllAttributes
    rw [bind_run (getTok_ok.mpr ⟨hk, rfl⟩), bind_run (findChild_none hr hn)]
    show Res.ok _ s = Res.ok _ (s.put i k)
    rw [put_same hk]
  · refine ⟨attrsOf E a.kids, fun {s i k} hk hr => ?_⟩
    obtain ⟨j, h3, h4⟩ := findChild_first hr hpre ha
    obtain ⟨jk, hl, h5, -, -, h6⟩ := h4.root
    have hij : i < j + 1 := Nat.lt_succ_of_lt hl
    obtain ⟨ver, h7, h8⟩ := copy_any (h a (by simp) ha) none hij h6 hk
    refine ⟨ver, ?_⟩
    unfold Script.copyAllAttributes
    rw [bind_run (getTok_ok.mpr ⟨hk, rfl⟩), bind_run h3]
    show (getTok j >>= fun ak => Script.copyAttributes i ak.children none) s = _
    rw [bind_run (getTok_ok.mpr ⟨h5, rfl⟩), h7]

/-- A definition. -/
def DefinitionR (E : Setting) (env : Env) : Rel := fun w w' l => ∃ t, l = [t] ∧ t.matched = ⟨E.at_ w, E.at_ w'⟩ ∧
  Sound E ["PatternDefinition"] (fun toks i => ∀ name g, DescribesDefinition env toks i name g → Lax.Definition env name w g w') t

theorem stuck_gap {as : List Attr} {w1 w2 : Str} (h : Stuck w) (h1 : Gap w w1) (h2 : Lax.AttrList w1 as ('>' :: w2)) : False := by
  have key : ∀ c, w.head? = some c → Syntax.space c = true ∨ Syntax.attrChar c = true ∨ c = '>' := by
    intro c hc
    obtain ⟨u, hu⟩ := h1
    have hs := hu.split
    cases u with
    | cons d u =>
      rw [hs] at hc
      cases hc
      exact Or.inl (hu.all _ (by simp))
    | nil =>
      rw [List.nil_append] at hs
      subst hs
      cases h2 with
      | nil => cases hc; exact Or.inr (Or.inr rfl)
      | @cons _ n _ _ _ _ _ _ _ _ _ h3 h4 =>
        have hs := h3.split
        cases n with
        | nil => exact (h4 rfl).elim
        | cons d n =>
          rw [hs] at hc
          cases hc
          exact Or.inr (Or.inl (h3.all _ (by simp)))
  cases hw : w.head? with
  | none =>
    cases w with
    | cons _ _ => cases hw
    | nil =>
      obtain ⟨u, hu⟩ := h1
      have hs := (List.append_eq_nil_iff.mp hu.split.symm).2
      subst hs
      cases h2 with
      | cons h3 h4 =>
        exact h4 (List.append_eq_nil_iff.mp h3.split.symm).1
  | some c =>
    have := key c hw
    rcases h c hw with rfl | rfl
    · exact absurd this (by decide)
    · exact absurd this (by decide)

theorem definition_yields (hE : E.errs = true) (hS : Scripts E uni) {b : Nat} (hP : PatternsYield E uni env b) (hw : E.Has w) (hb : blen w < b + 1) :
    Yields E none true (Script.patternDefinition uni) w (DefinitionR E env w) True := by
  have hl : Row E none (b + 1) _ _ :=
    .free (N := BothR) (fun _ hw => both_yields hE hw) <|
    .free (N := ModR "OuterOptionalModifier" "OuterNotModifier") (fun _ hw => mod_yields hw) <|
    .eat (N := SkipR "<") (fun _ hw _ => yields_skip (s := "<") hw) <|
    .free (N := BothR) (fun _ hw => both_yields hE hw) <|
    .free (N := ModR "InnerOptionalModifier" "InnerNotModifier") (fun _ hw => mod_yields hw) <|
    .free (N := GapR) (fun _ _ => yields_wsn0) <|
    .cons (N := MatcherR E env (LooseMatcher env)) (fun _ hw hb => (matcher_yields hS hw fun w' hw' hlt => hP w' hw' (Nat.lt_trans hlt hb)).slack) <|
    .free (N := GapR) (fun _ _ => yields_wsn0) <|
    .free (N := AttrsR E) (fun _ hw => attributes_yields (uni := uni) hE hw) <|
    .free (N := SkipR ">") (fun _ hw => yields_skip (s := ">") hw) <|
    .free (N := RepeatR E) (fun _ hw => repeat_yields (uni := uni) hw) .nil
  have h1 := (Yields.programN (n := "PatternDefinition") hl hw hb).mono (M := fun w' l => ∃ ks, l = [nodeT E "PatternDefinition".toList w w' ks] ∧
      (∀ a ∈ ks, a.name = "Attributes".toList → ∀ t ∈ a.kids, 2 ≤ t.kids.length) ∧ (∀ t ∈ purges ks, Quiet t) ∧
      ∀ (toks : List Token) (lo : Nat) (i : TokId) (k : Token), toks[i]? = some k → Reps E toks lo k.children (purges ks) → ∀ name g,
        DescribesDefinition env toks i name g → Lax.Definition env name w g w') ?_
  · have h2 := Yields.map (sf := Script.patternDefinitionDone) (P := fun _ _ _ _ => True) h1 (fun w' h => by
      obtain ⟨_, h, -⟩ := h
      cases h) (by
      rintro w' t ⟨ks, h3, h4, h5, h6⟩
      obtain rfl := (List.cons.inj h3).1
      obtain ⟨f, hf⟩ := copyAll_raw (E := E) h4
      refine ⟨toList_ne (by decide), none, f [], trivial, fun c sc s i k _ hk hi hp hr => ?_⟩
      obtain ⟨ver, h7⟩ := hf hk hr
      have ha : k.attributes = [] := congrArg Info.attributes hi
      have hv : k.value = none := congrArg Info.value hi
      unfold Script.patternDefinitionDone
      rw [bind_run h7, ha, ← hv]
      rfl)
    refine h2.mono ?_
    rintro w' l ⟨t, v, as, rfl, ⟨ks, h3, h4, h5, h6⟩, -⟩
    obtain rfl := (List.cons.inj h3).1
    refine ⟨_, rfl, rfl, rfl, ?_, ⟨_, List.mem_singleton.mpr rfl, rfl⟩, ?_⟩
    · rw [purge_node]
      exact .node (Cold.names (n := "PatternDefinition") (by decide)) h5
    · rw [purge_node]
      intro toks lo i hi name g hg
      obtain ⟨k, -, hk, -, -, hr⟩ := hi.root
      exact h6 toks _ i k hk hr name g hg
  · rintro w' l ⟨ks, rfl, -, w1, l1, x1, rfl, hb1, w2, l2, x2, rfl, hm1, w3, l3, x3, rfl, ⟨rfl, rfl⟩, w4, l4, x4, rfl, hb2, w5, l5, x5, rfl, hm2,
      w6, l6, x6, rfl, ⟨rfl, hg1⟩, w7, l7, x7, rfl, ⟨m, rfl, hm⟩, w8, l8, x8, rfl, ⟨rfl, hg2⟩, w9, l9, x9, rfl, ha, w10, l10, x10, rfl, ⟨rfl, rfl⟩,
      w11, l11, x11, rfl, hr, rfl, rfl⟩
    obtain ⟨outer, o1, o2, o3⟩ := mods_of ⟨_, _, _, rfl, hb1, hm1⟩
    obtain ⟨inner, i1, i2, i3⟩ := mods_of ⟨_, _, _, rfl, hb2, hm2⟩
    obtain ⟨as, a1, a2, a3⟩ := ha.tokens
    have hr' : InNames l11 repeatSpecifierNames ∧ l11.length ≤ 1 ∧ (∀ t ∈ purges l11, Quiet t) ∧ (purges l11).length ≤ 1 ∧
        InNames (purges l11) repeatSpecifierNames := by
      rcases hr with ⟨rfl, -⟩ | ⟨t, rfl, ht⟩
      · rw [purges_nil]
        exact ⟨.nil, by simp, (fun _ h => by cases h), by simp, .nil⟩
      · rw [purges_cons ht.flags, purges_nil]
        obtain ⟨n, h1, h2⟩ := ht.name
        refine ⟨.one h1 h2, by simp, ?_, by simp, .one h1 (by rw [purge_name]; exact h2)⟩
        intro t' ht'
        rw [List.mem_singleton.mp ht']
        exact ht.quiet
    obtain ⟨r1, r2, r3, r4, r5⟩ := hr'
    have hpur : purges (l1 ++ (l2 ++ ([] ++ (l4 ++ (l5 ++ ([] ++ ([m] ++ ([] ++ (l9 ++ ([] ++ (l11 ++ []))))))))))) =
        purges (l1 ++ l2) ++ (purges (l4 ++ l5) ++ (m.purge :: (purges l9 ++ purges l11))) := by
      simp only [List.nil_append, List.append_nil, purges_append, List.append_assoc]
      rw [purges_cons hm.flags, purges_nil]
      rfl
    refine ⟨_, rfl, ?_, ?_, ?_⟩
    · intro a ha' hn
      simp only [List.nil_append, List.append_nil, List.mem_append, List.mem_singleton] at ha'
      have no : ∀ {ns : List String}, (a.name = errorName ∨ ∃ n ∈ ns, a.name = n.toList) → (∀ n ∈ ns, n ≠ "Attributes") → False := by
        rintro ns (h | ⟨n, h1, h2⟩) hns
        · rw [hn] at h
          exact absurd (String.toList_inj.mp h) (by decide)
        · rw [hn] at h2
          exact hns n h1 (String.toList_inj.mp h2).symm
      rcases ha' with h | h | h | h | rfl | h | h
      · exact (no (o3 a (List.mem_append_left _ h)) (by decide)).elim
      · exact (no (o3 a (List.mem_append_right _ h)) (by decide)).elim
      · exact (no (i3 a (List.mem_append_left _ h)) (by decide)).elim
      · exact (no (i3 a (List.mem_append_right _ h)) (by decide)).elim
      · exact (no (Or.inr hm.name) (by decide)).elim
      · exact (a3 a h).2
      · exact (no (Or.inr (r1 a h)) (by decide)).elim
    · rw [hpur]
      intro t ht
      simp only [List.mem_append, List.mem_cons] at ht
      rcases ht with ht | ht | rfl | ht | ht
      · exact o2.quiet t ht
      · exact i2.quiet t ht
      · exact hm.quiet
      · exact a2.quiet t ht
      · exact r3 t ht
    · rw [hpur]
      intro toks lo i k hk hch name g hg
      obtain ⟨g0, r, ⟨j, j1, j2⟩, hrep, rfl⟩ := definition_says o2 i2 (by
        obtain ⟨n, h1, h2⟩ := hm.name
        exact ⟨n, h1, by rw [purge_name]; exact h2⟩) a2 r5 r4 hk hch hg
      have hM := (hm.means _ _ _ j1 _ j2).resolve_right fun hs => stuck_gap hs hg2 a1
      refine .mk o1 i1 hg1 hM hg2 a1 ?_
      rcases hr with ⟨rfl, rfl, h0⟩ | ⟨t, rfl, ht⟩
      · rcases hrep with ⟨rfl, -⟩ | ⟨t, j, a, b, h, -⟩
        · exact h0
        · rw [purges_nil] at h
          cases h
      · rw [purges_cons ht.flags, purges_nil] at hrep
        rcases hrep with ⟨-, h⟩ | ⟨t', j, a, b, h, rfl, h1, h2⟩
        · cases h
        · cases h
          exact ht.means _ _ _ h1 _ _ h2

/-! ### Patterns -/

theorem plain_pattern {l : List Tr} (h : DefinitionR E env w w' l) : PatternR E env w w' l := by
  obtain ⟨t, rfl, -, h⟩ := h
  obtain ⟨n, hn, he⟩ := h.name
  obtain rfl := List.mem_singleton.mp hn
  refine ⟨t, rfl, h.flags, h.quiet, ⟨_, by decide, he⟩, fun toks lo i hi g hg => ?_⟩
  obtain ⟨k, -, hk, -, hinf, -⟩ := hi.root
  have hname : k.name = "PatternDefinition".toList := (congrArg Info.name hinf).trans (purge_name.trans he)
  cases hg with
  | plain hk' hn' hd => exact .plain (h.means _ _ _ hi _ _ hd)
  | captured hk' hn' =>
    rw [hk] at hk'
    cases hk'
    rw [hname] at hn'
    exact absurd (String.toList_inj.mp hn') (by decide)
  | named hk' hn' =>
    rw [hk] at hk'
    cases hk'
    rw [hname] at hn'
    exact absurd (String.toList_inj.mp hn') (by decide)

theorem pattern_yields (hE : E.errs = true) (hS : Scripts E uni) {b : Nat} (hP : PatternsYield E uni env b) (hw : E.Has w) (hb : blen w < b + 1) :
    Yields E none true (Script.pattern uni) w (PatternR E env w) True := by
  have hd : Yields E none true (Script.patternDefinition uni) w (PatternR E env w) True :=
    (definition_yields hE hS hP hw hb).mono fun _ _ h => plain_pattern h
  have hc : Yields E none true (programN "PatternDefinitionCaptured" [discard (equals "("), Script.wsn0, optional Script.matcherName,
      Script.wsn0, Script.patternDefinition uni, Script.wsn0, discard (equals ")")]) w (PatternR E env w) True := by
    have hl : Row E none (b + 1) [discard (equals "("), Script.wsn0, optional Script.matcherName,
        Script.wsn0, Script.patternDefinition uni, Script.wsn0, discard (equals ")")] _ :=
      .eat (N := SkipR "(") (fun _ hw _ => yields_skip (s := "(") hw) <| .free (N := GapR) (fun _ _ => yields_wsn0) <|
      .free (N := fun w w' l => (l = [] ∧ w' = w) ∨ NameR E w w' l) (fun _ hw => ((name_yields hw).mono fun _ _ h => Or.inr h).optional fun _ => Or.inl ⟨rfl, rfl⟩) <|
      .free (N := GapR) (fun _ _ => yields_wsn0) <|
      .cons (N := DefinitionR E env) (fun _ hw hb => (definition_yields hE hS hP hw (Nat.lt_succ_of_lt hb)).slack) <|
      .free (N := GapR) (fun _ _ => yields_wsn0) <|
      .free (N := SkipR ")") (fun _ hw => yields_skip (s := ")") hw) .nil
    refine (Yields.programN (n := "PatternDefinitionCaptured") hl hw hb).mono ?_
    rintro w' l ⟨ks, rfl, -, w1, l1, x1, rfl, ⟨rfl, rfl⟩, w2, l2, x2, rfl, ⟨rfl, h2⟩, w3, l3, x3, rfl, h3, w4, l4, x4, rfl, ⟨rfl, h4⟩,
      w5, l5, x5, rfl, ⟨d, rfl, -, h5⟩, w6, l6, x6, rfl, ⟨rfl, h6⟩, w7, l7, x7, rfl, ⟨rfl, rfl⟩, rfl, rfl⟩
    have hdn : d.purge.name = "PatternDefinition".toList := by
      obtain ⟨n, hn, he⟩ := h5.name
      rw [List.mem_singleton.mp hn] at he
      rw [purge_name]
      exact he
    have hsound : ∀ {ks ps : List Tr}, purges ks = ps → (∀ t ∈ ps, Quiet t) →
        (∀ (toks : List Token) (lo : Nat) (k : Token), Reps E toks lo k.children ps →
          (Absent toks ["MatcherName"] k.children → ∀ d' g, k.children[0]? = some d' → DescribesDefinition env toks d' [] g →
            Lax.Pattern env ("(".toList ++ w1) g w') ∧
          (∀ n nk c ck d' g, First toks ["MatcherName"] k.children n → toks[n]? = some nk → nk.children[0]? = some c → toks[c]? = some ck →
            k.children[1]? = some d' → DescribesDefinition env toks d' ck.name g → Lax.Pattern env ("(".toList ++ w1) g w')) →
        PatternR E env ("(".toList ++ w1) w' [nodeT E "PatternDefinitionCaptured".toList ("(".toList ++ w1) w' ks] := by
      intro ks ps hp hq hh
      refine ⟨_, rfl, rfl, ?_, ⟨_, by decide, rfl⟩, ?_⟩
      · unfold nodeT
        rw [purge_node, hp]
        exact .node (Cold.names (n := "PatternDefinitionCaptured") (by decide)) hq
      · unfold nodeT
        rw [purge_node, hp]
        intro toks lo i hi g hg
        obtain ⟨k, -, hk, -, hinf, hr⟩ := hi.root
        have hname : k.name = "PatternDefinitionCaptured".toList := congrArg Info.name hinf
        obtain ⟨H1, H2⟩ := hh toks _ k hr
        cases hg with
        | plain hk' hn' =>
          rw [hk] at hk'
          cases hk'
          rw [hname] at hn'
          exact absurd (String.toList_inj.mp hn') (by decide)
        | captured hk' hn' a1 a2 a3 =>
          rw [hk] at hk'
          cases hk'
          exact H1 a1 _ _ a2 a3
        | named hk' hn' a1 a2 a3 a4 a5 a6 =>
          rw [hk] at hk'
          cases hk'
          exact H2 _ _ _ _ _ _ a1 a2 a3 a4 a5 a6
    rcases h3 with ⟨rfl, rfl⟩ | ⟨v1, raw, val, t, rfl, hq, rfl, ht1, ht2⟩
    · refine hsound (ps := [d.purge]) ?_ ?_ ?_
      · simp only [List.nil_append, List.append_nil]
        rw [purges_cons h5.flags, purges_nil]
      · intro t ht
        rw [List.mem_singleton.mp ht]
        exact h5.quiet
      · intro toks lo k hr
        have hab : Absent toks ["MatcherName"] k.children := hr.absent (by
          intro t ht n hn
          rw [List.mem_singleton.mp ht, List.mem_singleton.mp hn, hdn]
          exact toList_ne (by decide))
        refine ⟨fun _ d' g hd' hdd => ?_, fun n _ _ _ _ _ hf => (first_absent' hf hab).elim⟩
        obtain ⟨d2, e1, e2⟩ := hr.get (j := 0) rfl
        rw [hd'] at e1
        cases e1
        exact .captured (gap_gap h2 h4) (h5.means _ _ _ e2 _ _ hdd) h6
    · have hb : Bare (nodeT E "MatcherName".toList ('?' :: v1) w3 [t]) := bare_node fun t' ht' => by rw [List.mem_singleton.mp ht']; exact ht2
      refine hsound (ps := [nodeT E "MatcherName".toList ('?' :: v1) w3 [t], d.purge]) ?_ ?_ ?_
      · simp only [List.nil_append, List.append_nil, List.singleton_append]
        rw [purges_cons hb.flags, hb.same, purges_cons h5.flags, purges_nil]
      · intro t ht
        rcases List.mem_cons.mp ht with rfl | ht
        · exact hb.quiet
        · rw [List.mem_singleton.mp ht]
          exact h5.quiet
      · intro toks lo k hr
        have hpr : ¬ Absent toks ["MatcherName"] k.children := hr.present (List.mem_cons_self ..) rfl
        refine ⟨fun ha => (hpr ha).elim, fun n nk c ck d' g hf hnk hc hck hd' hdd => ?_⟩
        obtain ⟨j, e1, e2⟩ := Reps.first (pre := []) hr (names := ["MatcherName"]) (fun _ h => by cases h) ⟨_, List.mem_singleton.mpr rfl, rfl⟩
        obtain rfl := first_only hf e1
        obtain ⟨nk', e3, -, -, e4, -⟩ := e2.node
        rw [hnk] at e3
        cases e3
        obtain ⟨c', e5, e6⟩ := e4.get (j := 0) rfl
        rw [hc] at e5
        cases e5
        obtain ⟨ck', -, e7, -, e8, -⟩ := e6.root
        rw [hck] at e7
        cases e7
        have hcn : ck.name = "Name".toList := (congrArg Info.name e8).trans ht1
        rw [hcn] at hdd
        obtain ⟨d2, e1, e2⟩ := hr.get (j := 1) rfl
        rw [hd'] at e1
        cases e1
        exact .named h2 hq h4 (h5.means _ _ _ e2 _ _ hdd) h6
  exact (YieldsP.switchN (.cons hc.turn <| .cons hd.turn (.nil (name := [])))).mono' (fun _ _ h => h) (fun _ => trivial)

/-- What comes out of the matcher of patterns, on any text. -/
theorem PatternsYield.all (hE : E.errs = true) (hS : Scripts E uni) : ∀ b, PatternsYield E uni env b
  | 0 => fun _ _ h => (Nat.not_lt_zero _ h).elim
  | b + 1 => fun _ hw hb => pattern_yields hE hS (PatternsYield.all hE hS b) hw hb

end

end Adx.Read
