import Verif.Proofs.ScriptStatements
/-
  Whole scripts.
-/
namespace Adx.Read

open Syntax (Munch Gap Blanks Identifier Quoted Comment Stmt Statements Attr AttrList Header Items Comments)
open B

section
variable {E : Setting} {K : Option Nat} {w rest : Str} {uni : Uni} {env : Env}

/-! ### Headers -/

theorem attrMap_get (as : List Attr) (m : AMap Str) (n : Str) :
    (attrMap as m).get n = (lastDef (as.map fun a => (a.name, a.val)) n).or (m.get n) := by
  induction as using List.reverseRecOn with
  | nil => rfl
  | append_singleton as a ih =>
    unfold attrMap at ih ⊢
    rw [List.foldl_append, List.map_append]
    show (AMap.insert _ a.name a.val).get n = (lastDef (_ ++ [(a.name, a.val)]) n).or _
    rw [AMap.get_insert, lastDef_snoc]
    by_cases h : n = a.name
    · rw [if_pos h, if_pos h]
      rfl
    · rw [if_neg h, if_neg h, ih]

theorem part_scope (hS : Scripts E uni) {ss : List Stmt} (h : Statements env w ss rest)
    (h7 : ∀ w3, Gap w ("-->".toList ++ w3) → w = "-->".toList ++ w3) (hw : E.Has w) :
    ∃ ts, Part E none none (optional (loopN "Scope" (scopeRound uni))) w ("-->".toList ++ rest) ts ∧ Bears E env ts [] ss none ∧
      InNames ts ["Scope"] := by
  have hr := hS.statements h
  obtain ⟨ts, r, b1, b2, b3, b4⟩ := hr.reads hw [] []
  have b2 : Pass E none (scopeRound uni) r (.fails none ⟨"-->".toList ++ rest, E.at_ ("-->".toList ++ rest), ts, ts.map Tr.captured, false⟩) := b2
  by_cases ht : ts = []
  · subst ht
    have hs := h7 _ (b4 rfl)
    refine ⟨[], ?_, b3, .nil⟩
    have hf : BReads E none none (optional (loopN "Scope" (scopeRound uni))) w (.past w) :=
      .optional (g := .fail) (.loopN b1 b2 (.fails (.nothing (Or.inl rfl))))
    rw [← hs]
    exact .past hf
  · exact ⟨[Run.tree E "Scope".toList w ⟨"-->".toList ++ rest, E.at_ ("-->".toList ++ rest), ts, ts.map Tr.captured, false⟩],
      .tok (.optional (g := .tok _ _) (.loopN b1 b2 (.fails (.tok ht (by simpa using ht) rfl hr.sfx rfl)))),
      .over (n := "Scope") rfl (by decide) b3, .one (List.mem_singleton.mpr rfl) rfl⟩

theorem adextopaScope_eq : Script.adextopaScope uni = map (programN "AdextopaScope" [
    discard (regex Script.rxAdextopa),
    Script.ws0,
    Script.attributes uni,
    discard (equals "]"),
    mk (.pin none (.str []) "EndOfScopeHeader".toList true),
    optional (loopN "Scope" (scopeRound uni)),
    discard (equals "-->")]) Script.adextopaScopeDone := rfl

theorem reads_header (hS : Scripts E uni) {name : Option Str} {ss : List Stmt} (h : Header env w name ss rest) (hw : E.Has w) :
    rest <:+ w ∧ ∃ t, BReads E none none (Script.adextopaScope uni) w (.tok rest t) ∧ t.name = "AdextopaScope".toList ∧ Bears E env [t] [] ss name := by
  cases h with
  | @mk w w1 w2 rest v as n ss h1 h2 h3 h4 h5 h6 h7 =>
    have s2 : w2 <:+ w := (List.suffix_cons ..).trans (h2.suffix.trans h1.suffix)
    have s0 : rest <:+ w := ((List.suffix_append ..).trans (hS.statements h6).sfx).trans s2
    have s0' : rest <:+ "<!--[adextopa".toList ++ w := s0.trans (List.suffix_append ..)
    have hw0 : E.Has w := hw.tail (List.suffix_append ..)
    obtain ⟨ts1, a1, a2⟩ := part_attributes (uni := uni) h2 (hw0.tail h1.suffix)
    obtain ⟨ts2, b1, b2, b3⟩ := part_scope (uni := uni) hS h6 h7 (hw0.tail s2)
    have hne : ts1 ≠ [] := by
      intro h0
      cases a1 with
      | none => cases h3
      | some => cases h0
    refine ⟨s0', ?_⟩
    have hread : BReads E none none (programN "AdextopaScope" [
        discard (regex Script.rxAdextopa),
        Script.ws0,
        Script.attributes uni,
        discard (equals "]"),
        mk (.pin none (.str []) "EndOfScopeHeader".toList true),
        optional (loopN "Scope" (scopeRound uni)),
        discard (equals "-->")]) ("<!--[adextopa".toList ++ w)
        (.tok rest (nodeT E "AdextopaScope".toList ("<!--[adextopa".toList ++ w) rest (ts1 ++ (ts2 ++ [])))) := by
      refine Parts.programN ?_ (by simp [hne]) s0'
      exact .past reads_adextopa <| .past (reads_blanks h1) <| .cons a2 <| .past reads_char <|
        .pin (fun m hm => reads_pin hm.mk fun _ => Free.names (n := "EndOfScopeHeader") (by decide)) <| .cons b1 <| .past reads_word .nil
    rw [adextopaScope_eq]
    refine ⟨_, .map (g := .tok rest _) hread (Calls.retag (v := none) (as := attrMap as []) s0' rfl (toList_ne (by decide)) ?_) (by trivial), rfl, ?_⟩
    · intro c sc s i k _ hk hi hp hch
      have hch' : Reps E s.toks (i + 1) k.children ([] ++ (ts1 ++ ts2)) := by
        have hch' : Reps E s.toks (i + 1) k.children (ts1 ++ (ts2 ++ [])) := hch
        simpa using hch'
      have ha : k.attributes = [] := congrArg Info.attributes hi
      have hv : k.value = none := congrArg Info.value hi
      obtain ⟨ver, h8⟩ := copy_all a1 (by
        have := InNames.apart (ms := ["Attributes"]) b3
        exact fun t ht => this t ht _ (List.mem_singleton.mpr rfl)) hk hch'
      unfold Script.adextopaScopeDone
      have h9 : (attrMap as k.attributes).get "version".toList = some v := by
        rw [attrMap_get, ha]
        show (Syntax.attrOf as "version").or _ = _
        rw [h3]
        rfl
      rw [bind_run h8, bind_run (getTok_ok.mpr ⟨put_get hk, rfl⟩)]
      unfold Token.getAttribute
      dsimp only
      rw [h9]
      dsimp only
      rw [(parseUsize_numeral h4).1, if_pos h5, ha, ← hv]
      rfl
    · have hk : Bears E env (ts1 ++ (ts2 ++ [])) [] ss none := by
        rw [List.append_nil]
        exact Bears.append (.quiet a1.quiet) b2
      refine Bears.root (gs := []) (ss := []) (nm' := none) (fun toks lo i hi => ?_) (fun toks lo i hi => ?_) hk
      · obtain ⟨k, -, hk, -, hinf, -⟩ := hi.root
        have hn : k.name = "AdextopaScope".toList := congrArg Info.name hinf
        refine ItemSays.nothing hk ?_ ?_ ?_ ?_ <;> rw [hn] <;> exact toList_ne (by decide)
      · obtain ⟨k, -, hk, -, hinf, -⟩ := hi.root
        refine ⟨k, hk, Or.inl ⟨congrArg Info.name hinf, ?_⟩⟩
        unfold Token.getAttribute
        have : k.attributes = attrMap as [] := congrArg Info.attributes hinf
        rw [this, attrMap_get]
        exact Option.or_none

/-! ### Patterns behind the header -/

/-- The loop over patterns. -/
def itemRound (uni : Uni) : List (B MatcherId) := [Script.wsn0, switch [Script.comment, Script.pattern uni]]

instance : AddsAll (itemRound uni) := by unfold itemRound; infer_instance

/-- There is no pattern in nothing. -/
theorem fails_pattern_end : BReads E none none (Script.pattern uni) [] .fail := by
  refine .switchN (.next (fails_captured (fun h => by cases h)) <| .next (.map_fail ?_) .nil)
  have b : ∀ c : Char, ∀ l : Str, ¬ (c :: l) <+: [] := fun c l h => by
    have := h.length_le
    simp at this
  obtain ⟨ts, c1, c2⟩ := reads_modifier (E := E) (K := none) (w := []) (n1 := "OuterOptionalModifier") (n2 := "OuterNotModifier") (m := .none)
      (by decide) (by decide) (by decide) (by decide) (fun _ c h => by cases h)
  cases c1
  cases c2 with
  | past c2 =>
    exact .programN (.cons (reads_modifiers (b _ _) (b _ _)) <| .cons c2 <| .fail (reads_char_fail (fun h => by cases h))) .fails
  | pin c2 =>
    exact .programN (.cons (reads_modifiers (b _ _) (b _ _)) <| .cons c2 <| .fail (reads_char_fail (fun h => by cases h))) .fails

theorem items_rounds (hS : Scripts E uni) {gs : List Gram} (h : Items env w gs) (hw : E.Has w) :
    ∀ (k : List Tr) (c : List Range), ∃ ts r, Rounds E (itemRound uni) none ⟨w, E.at_ w, k, c, false⟩ none r ∧
      Pass E none (itemRound uni) r (.fails none ⟨[], E.at_ [], k ++ ts, c ++ ts.map Tr.captured, false⟩) ∧
      (∀ t ∈ ts, Quiet t) ∧ (ts = [] → gs = []) ∧ ∀ toks lo is, Reps E toks lo is ts → ScopeMeans env toks is gs := by
  induction h with
  | done h =>
    intro k c
    refine ⟨[], _, .zero, ?_, (fun _ h => by cases h), fun _ => rfl, fun toks lo is hr => ?_⟩
    · rw [List.map_nil, List.append_nil, List.append_nil]
      refine Pass.cons (reads_gap h) <| Pass.fail (.switch (.next (reads_comment_fail (fun h => by cases h)) <|
        .next fails_pattern_end .nil))
    · cases hr
      exact .nil
  | @comment w w1 w2 gs h1 h2 _ ih =>
    intro k c
    have s2 : w2 <:+ w := h2.suffix.trans h1.suffix
    obtain ⟨t, a1, a2, a3⟩ : ∃ t, BReads E none none Script.comment w1 (.tok w2 t) ∧ t.name = "Comment".toList ∧ Quiet t :=
      ⟨_, reads_comment h2, rfl, quiet_leaf⟩
    obtain ⟨ts, r, b1, b2, b3, b4, b5⟩ := ih (hw.tail s2) (k ++ [t]) (c ++ [t.captured])
    refine ⟨t :: ts, r,
      .next (Pass.cons (reads_gap h1) <| Pass.cons (.switch (.here a1 trivial)) .nil) ?_ b1, ?_, ?_, (fun h => by cases h), ?_⟩
    · show blen w2 < blen w
      obtain ⟨h⟩ := h2
      rename_i x _
      have := suffix_blen h.suffix
      have := cons_lt '#' x
      have := gap_length h1
      omega
    · simpa using b2
    · intro t' ht
      rcases List.mem_cons.mp ht with rfl | ht
      · exact a3
      · exact b3 t' ht
    · intro toks lo is hr
      cases hr with
      | @cons _ _ k _ cs _ hl hk hp hc hr =>
        refine .other hk ?_ (b5 _ _ _ hr)
        rw [show k.name = "Comment".toList from a2]
        rintro (h | h)
        · exact toList_ne (by decide) h
        · exact toList_ne (by decide) h
  | @pattern w w1 w2 g gs h1 h2 _ ih =>
    intro k c
    have hp := hS.pattern h2
    have s2 : w2 <:+ w := hp.sfx.trans h1.suffix
    obtain ⟨t, a1, a2, a3, a4, a5⟩ := hp.reads (hw.tail h1.suffix)
    obtain ⟨ts, r, b1, b2, b3, b4, b5⟩ := ih (hw.tail s2) (k ++ [t]) (c ++ [t.captured])
    refine ⟨t :: ts, r, .next (Pass.cons (reads_gap h1) <| Pass.cons (.switch (.next (reads_comment_fail (hp.head_ne (by decide)))
      (.here a1 trivial))) .nil) ?_ b1, ?_, ?_, (fun h => by cases h), ?_⟩
    · show blen w2 < blen w
      have := hp.lt
      have := gap_length h1
      omega
    · simpa using b2
    · intro t' ht
      rcases List.mem_cons.mp ht with rfl | ht
      · exact a4
      · exact b3 t' ht
    · intro toks lo is hr
      cases hr with
      | cons hl hk hp hc hr =>
        exact .pattern hk a2 (a5 _ _ _ (.cons hl hk hp hc .nil)) (b5 _ _ _ hr)

theorem patternScope_eq : Script.patternScope uni =
    map (loopN "PatternScope" (itemRound uni) (.included 1) .unbounded) Script.patternScopeDone := rfl

theorem part_items (hS : Scripts E uni) {gs : List Gram} (h : Items env w gs) (hw : E.Has w) :
    ∃ w' ts, w' <:+ w ∧ Part E none none (optional (Script.patternScope uni)) w w' ts ∧ (gs ≠ [] → ∃ t ∈ ts, t.name = "PatternScope".toList) ∧
      Bears E env ts gs [] none := by
  obtain ⟨ts, r, b1, b2, b3, b4, b5⟩ := items_rounds hS h hw [] []
  have b2 : Pass E none (itemRound uni) r (.fails none ⟨[], E.at_ [], ts, ts.map Tr.captured, false⟩) := b2
  by_cases ht : ts = []
  · subst ht
    refine ⟨w, [], List.suffix_refl _, .past (.optional (g := .fail) (.map_fail (.loopN b1 b2 (.fails (.nothing (Or.inl rfl)))))),
      fun h0 => (h0 (b4 rfl)).elim, ?_⟩
    rw [b4 rfl]
    exact .quiet (fun _ h => by cases h)
  · have hr : BReads E none none (loopN "PatternScope" (itemRound uni) (.included 1) .unbounded) w
        (.tok [] (nodeT E "PatternScope".toList w [] ts)) :=
      .loopN b1 b2 (.fails (.tok ht (by simpa using ht) rfl List.nil_suffix rfl))
    have hd : Calls E none none Script.patternScopeDone w (nodeT E "PatternScope".toList w [] ts) (.tok [] (nodeT E "PatternScope".toList w [] ts)) := by
      refine Calls.retag (v := none) (as := []) List.nil_suffix rfl (toList_ne (by decide)) ?_
      intro c sc s i k _ hk hi hp hch
      have ha : k.attributes = [] := congrArg Info.attributes hi
      have hv : k.value = none := congrArg Info.value hi
      have hm : k.matched = ⟨E.at_ w, E.at_ []⟩ := congrArg Info.matched hi
      unfold Script.patternScopeDone
      have hn : ¬ k.matched.stop < blen k.parser.src := by
        rw [hm, hp.parser]
        show ¬ E.at_ [] < blen E.p.src
        unfold Setting.at_
        simp [blen]
      rw [bind_run (getTok_ok.mpr ⟨hk, rfl⟩), if_neg hn, ← ha, ← hv]
      show Res.ok _ s = Res.ok _ (s.put i k)
      rw [put_same hk]
    have hr' : BReads E none none (Script.patternScope uni) w (.tok [] (nodeT E "PatternScope".toList w [] ts)) := by
      rw [patternScope_eq]
      exact .map hr hd rfl
    refine ⟨[], [nodeT E "PatternScope".toList w [] ts], List.nil_suffix, .tok (.optional hr'), fun _ => ⟨_, List.mem_singleton.mpr rfl, rfl⟩, ?_⟩
    · refine .leaf (fun toks lo i hi => ?_) (toList_ne (by decide)) b3
      obtain ⟨k, -, hk, -, hinf, hc⟩ := hi.root
      exact ItemSays.own (.scope hk (congrArg Info.name hinf) (b5 _ _ _ hc))

/-! ### Comments in front -/

theorem comments_rounds (h : Comments w rest) (hw : E.Has w) :
    ∀ (k : List Tr) (c : List Range), ∃ ts r, Rounds E [Script.wsn0, Script.comment] none ⟨w, E.at_ w, k, c, false⟩ none r ∧
      Pass E none [Script.wsn0, Script.comment] r (.fails none ⟨rest, E.at_ rest, k ++ ts, c ++ ts.map Tr.captured, false⟩) ∧
      (∀ t ∈ ts, Quiet t) ∧ (ts = [] → Gap w rest) ∧ rest <:+ w ∧ Gap rest rest := by
  induction h with
  | done h hn =>
    intro k c
    refine ⟨[], _, .zero, ?_, (fun _ h => by cases h), fun _ => h, h.suffix, h.again⟩
    rw [List.map_nil, List.append_nil, List.append_nil]
    exact Pass.cons (reads_gap h) <| Pass.fail (reads_comment_fail hn)
  | @more w w1 w2 rest h1 h2 _ ih =>
    intro k c
    have s2 : w2 <:+ w := h2.suffix.trans h1.suffix
    obtain ⟨t, a1, a2, a3⟩ : ∃ t, BReads E none none Script.comment w1 (.tok w2 t) ∧ t.name = "Comment".toList ∧ Quiet t :=
      ⟨_, reads_comment h2, rfl, quiet_leaf⟩
    obtain ⟨ts, r, b1, b2, b3, b4, b5, b6⟩ := ih (hw.tail s2) (k ++ [t]) (c ++ [t.captured])
    refine ⟨t :: ts, r, .next (Pass.cons (reads_gap h1) <| Pass.cons a1 .nil) ?_ b1, ?_, ?_, (fun h => by cases h), b5.trans s2, b6⟩
    · show blen w2 < blen w
      obtain ⟨h⟩ := h2
      rename_i x _
      have := suffix_blen h.suffix
      have := cons_lt '#' x
      have := gap_length h1
      omega
    · simpa using b2
    · intro t' ht
      rcases List.mem_cons.mp ht with rfl | ht
      · exact a3
      · exact b3 t' ht

theorem part_comments (h : Comments w rest) (hw : E.Has w) :
    rest <:+ w ∧ Gap rest rest ∧ ∃ w' ts, Part E none none (optional (loopN "PreHead" [Script.wsn0, Script.comment])) w w' ts ∧ Gap w' rest ∧
      ∀ t ∈ ts, Quiet t := by
  obtain ⟨ts, r, b1, b2, b3, b4, b5, b6⟩ := comments_rounds h hw [] []
  have b2 : Pass E none [Script.wsn0, Script.comment] r (.fails none ⟨rest, E.at_ rest, ts, ts.map Tr.captured, false⟩) := b2
  refine ⟨b5, b6, ?_⟩
  by_cases ht : ts = []
  · subst ht
    exact ⟨w, [], .past (.optional (g := .fail) (.loopN b1 b2 (.fails (.nothing (Or.inl rfl))))), b4 rfl, fun _ h => by cases h⟩
  · refine ⟨rest, [Run.tree E "PreHead".toList w ⟨rest, E.at_ rest, ts, ts.map Tr.captured, false⟩],
      .tok (.optional (g := .tok _ _) (.loopN b1 b2 (.fails (.tok ht (by simpa using ht) rfl b5 rfl)))), b6, ?_⟩
    intro t ht
    rw [List.mem_singleton.mp ht]
    exact .node (Cold.names (n := "PreHead") (by decide)) b3

/-! ### Patterns are no headers -/

theorem _root_.Adx.Syntax.Matcher.head {g : Gram} (h : Syntax.Matcher env w g rest) : ∃ c, w.head? = some c ∧ c ≠ '-' ∧ c ≠ '!' := by
  cases h with
  | equals => exact ⟨_, rfl, by decide⟩
  | regex => exact ⟨_, rfl, by decide⟩
  | sequence => exact ⟨_, rfl, by decide⟩
  | custom h =>
    obtain ⟨c, h1, h2⟩ := h.head
    refine ⟨c, h1, ?_, ?_⟩ <;> rintro rfl <;> exact absurd h2 (by decide)
  | switch => exact ⟨_, rfl, by decide⟩
  | program => exact ⟨_, rfl, by decide⟩

theorem _root_.Adx.Syntax.Definition.not_header {name : Str} {g : Gram} (h : Syntax.Definition env name w g rest) :
    ¬ "<!--[adextopa".toList <+: w := by
  rintro ⟨v, hv⟩
  cases h with
  | mk h1 h2 =>
    rename_i w1 w2 _ _ _ outer inner _ _ _ _ _ _
    have hh : ∀ c, w1.head? = some c → c ≠ '-' ∧ c ≠ '!' := by
      intro c hc
      obtain ⟨u, hu⟩ := h1
      have hs := hu.split
      cases u with
      | nil =>
        obtain ⟨d, h3, h4⟩ := h2.head
        rw [hs, List.nil_append, h3] at hc
        cases hc
        exact h4
      | cons d u =>
        have := hu.all d (List.mem_cons_self ..)
        rw [hs] at hc
        cases hc
        constructor <;> rintro rfl <;> exact absurd this (by decide)
    have hv : '<' :: '!' :: '-' :: ("-[adextopa".toList ++ v) = outer.text ++ '<' :: (inner.text ++ w1) := hv
    cases outer with
    | none =>
      have hv := (List.cons.inj hv).2
      cases inner with
      | none => exact (hh '!' (by rw [show w1 = _ from hv.symm]; rfl)).2 rfl
      | opt => exact absurd (List.cons.inj hv).1 (by decide)
      | not => exact (hh '-' (by rw [show w1 = _ from (List.cons.inj hv).2.symm]; rfl)).1 rfl
    | opt => exact absurd (List.cons.inj hv).1 (by decide)
    | not => exact absurd (List.cons.inj hv).1 (by decide)

theorem _root_.Adx.Syntax.Pattern.not_header {g : Gram} (h : Syntax.Pattern env w g rest) : ¬ "<!--[adextopa".toList <+: w := by
  cases h with
  | plain h => exact h.not_header
  | captured => rintro ⟨v, hv⟩; exact absurd (List.cons.inj hv).1 (by decide)
  | named => rintro ⟨v, hv⟩; exact absurd (List.cons.inj hv).1 (by decide)

/-! ### Scripts -/

theorem findChild_any {s : State} {lo : Nat} {k : Token} {trees : List Tr} {n : Str} (h : Reps E s.toks lo k.children trees) :
    ∃ o, k.findChild n s = .ok o s ∧ (o = none → ∀ t ∈ trees, t.name ≠ n) := by
  have : (∀ t ∈ trees, t.name ≠ n) ∨ ∃ pre t post, trees = pre ++ t :: post ∧ (∀ t ∈ pre, t.name ≠ n) ∧ t.name = n := by
    clear h
    induction trees with
    | nil => exact Or.inl (fun _ h => by cases h)
    | cons t ts ih =>
      by_cases ht : t.name = n
      · exact Or.inr ⟨[], t, ts, rfl, (fun _ h => by cases h), ht⟩
      · rcases ih with ih | ⟨pre, t', post, rfl, h1, h2⟩
        · refine Or.inl fun t' h => ?_
          rcases List.mem_cons.mp h with rfl | h
          · exact ht
          · exact ih t' h
        · refine Or.inr ⟨t :: pre, t', post, rfl, fun t' h => ?_, h2⟩
          rcases List.mem_cons.mp h with rfl | h
          · exact ht
          · exact h1 t' h
  rcases this with h1 | ⟨pre, t, post, rfl, h1, h2⟩
  · exact ⟨none, findChild_none h h1, fun _ => h1⟩
  · obtain ⟨i, h3, -⟩ := findChild_first h h1 h2
    exact ⟨some i, h3, fun h => by cases h⟩

/-- The end of a script: one of the scopes is there. -/
theorem script_done {w' : Str} {ts : List Tr} (hs : w' <:+ w) (h : ∃ t ∈ ts, t.name = "AdextopaScope".toList ∨ t.name = "PatternScope".toList) :
    Calls E none none Script.scriptDone w (nodeT E "Script".toList w w' ts) (.tok w' (nodeT E "Script".toList w w' ts)) := by
  refine Calls.retag (v := none) (as := []) hs rfl (toList_ne (by decide)) ?_
  intro c sc s i k _ hk hi hp hch
  have ha : k.attributes = [] := congrArg Info.attributes hi
  have hv : k.value = none := congrArg Info.value hi
  obtain ⟨o, h1, h2⟩ := findChild_any (n := "AdextopaScope".toList) hch
  obtain ⟨p, h3, h4⟩ := findChild_any (n := "PatternScope".toList) hch
  unfold Script.scriptDone
  rw [bind_run (getTok_ok.mpr ⟨hk, rfl⟩), bind_run h1, bind_run h3, if_neg (by
    rintro ⟨e1, e2⟩
    obtain ⟨t, ht, ht' | ht'⟩ := h
    · exact h2 e1 t ht ht'
    · exact h4 e2 t ht ht'), ← ha, ← hv]
  show Res.ok _ s = Res.ok _ (s.put i k)
  rw [put_same hk]

/-- **The parser reads a script, and what it reads says what the script says.** -/
theorem Scripts.script (hS : Scripts E uni) {name : Option Str} {gs : List Gram} {ss : List Stmt} (h : Syntax.Script env w name gs ss)
    (hw : E.Has w) :
    ∃ w' t, BReads E none none (Script.script uni) w (.tok w' t) ∧ t.name = "Script".toList ∧ Bears E env [t] gs ss name := by
  cases h with
  | headed h1 h2 h3 =>
    rename_i w1 w2
    obtain ⟨a1, a2, w0, ts0, a3, a4, a5⟩ := part_comments h1 hw
    obtain ⟨b1, t, b2, b3, b4⟩ := reads_header hS h2 (hw.tail a1)
    obtain ⟨w', ts, c1, c2, c3, c4⟩ := part_items hS h3 (hw.tail (b1.trans a1))
    have hs : w' <:+ w := c1.trans (b1.trans a1)
    refine ⟨w', nodeT E "Script".toList w w' (ts0 ++ (t :: (ts ++ []))), .map (Parts.programN ?_ (by simp) hs) (script_done hs ?_) (by trivial),
      rfl, .over (n := "Script") rfl (by decide) ?_⟩
    · exact .cons a3 <| .past (reads_gap a4) <| .tok (.optional (g := .tok _ _) b2) <| .cons c2 .nil
    · exact ⟨t, by simp, Or.inl b3⟩
    · have := (Bears.quiet (E := E) (env := env) a5).append (b4.append c4)
      rw [List.append_nil] at this
      show Bears E env (ts0 ++ (t :: (ts ++ []))) _ _ _
      rw [List.append_nil]
      cases name <;> exact this
  | bare h1 h2 h3 =>
    rename_i w1 w2 g gs
    obtain ⟨a1, a2, w0, ts0, a3, a4, a5⟩ := part_comments h1 hw
    obtain ⟨w', ts, c1, c2, c3, c4⟩ := part_items hS (Items.pattern a2 h2 h3) (hw.tail a1)
    have hs : w' <:+ w := c1.trans a1
    obtain ⟨t, ht, ht'⟩ := c3 (by simp)
    refine ⟨w', nodeT E "Script".toList w w' (ts0 ++ (ts ++ [])), .map (Parts.programN ?_ ?_ hs) (script_done hs ?_) (by trivial),
      rfl, .over (n := "Script") rfl (by decide) ?_⟩
    · refine .cons a3 <| .past (reads_gap a4) <| .past (.optional (g := .fail) (.map_fail (.programN (.fail
        (reads_adextopa_fail h2.not_header)) .fails))) <| .cons c2 .nil
    · intro h0
      have : t ∈ ts0 ++ (ts ++ []) := by simp [ht]
      rw [h0] at this
      cases this
    · exact ⟨t, by simp [ht], Or.inr ht'⟩
    · show Bears E env (ts0 ++ (ts ++ [])) _ _ _
      rw [List.append_nil]
      exact (Bears.quiet (E := E) (env := env) a5).append c4

end

end Adx.Read
