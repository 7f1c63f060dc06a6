import Verif.Proofs.TotalScript
import Verif.Proofs.ScriptText
/-
  Reading any text with the matchers of the grammar of scripts: statements and scopes.
-/
namespace Adx.Read

open B

section
variable {E : Setting} {K : Option Nat} {w w' : Str} {x : B MatcherId} {xs : List (B MatcherId)} {N M : List Tr → Prop} {strict : Bool}
  {n : String} {a b : Nat} {u : Uni}

/-! ### Import statements -/

theorem tot_as (hw : E.Has w) : Tot E K false (discard (regex Script.rxAs)) w Nil := Tot.skipRegex hw

theorem tot_asName (hw : E.Has w) :
    Tot E K true (proxyChildren (program [discard (regex Script.rxAs), Script.identifier "ImportAsName"])) w Any := by
  obtain ⟨g, h1, h2, h3⟩ := tot_as (K := K) hw
  have hi := Inv.start hw
  rcases hi.nice hw (show g.Good E (Run.start E w).rest from h2) h3 with rfl | rfl | ⟨ht, hi, hs, -, l, hl, rfl, -⟩
  · exact ⟨_, .proxyChildren (.program (.fail h1) .fails) .fail, trivial, .fail⟩
  · exact ⟨_, .proxyChildren (.program (.fatal h1) .fatal) .fatal, trivial, .fatal⟩
  · generalize hr : (Run.start E w).take E g = r at hi hs hl
    have hwr := hw.tail hs
    have hp : ∀ {o : End}, Pass E K [Script.identifier "ImportAsName"] r o →
        Pass E K [discard (regex Script.rxAs), Script.identifier "ImportAsName"] (.start E w) o := by
      intro o ho
      rw [← hr] at ho
      exact .cons h1 ho ht
    rcases rx_cases (pattern := "[a-zA-Z$_][a-zA-Z0-9$_]*") (as := [[.one (fun c => c.isAlpha || c == '$' || c == '_'),
      .star (fun c => c.isAlpha || c.isDigit || c == '$' || c == '_')]]) r.rest with h | h | ⟨v, w', he, hv, h⟩
    · exact ⟨_, .proxyChildren (.program (hp (.fail (.regexN_fail h))) .fails) .fail, trivial, .fail⟩
    · exact (leads_one.find h).elim
    · obtain ⟨rest, far, kids, caps, loose⟩ := r
      dsimp only at he
      subst he
      have hk : kids = [] := hl
      subst hk
      have g1 : (Got.tok w' (leafT E "ImportAsName".toList (v ++ w') w')).Good E (v ++ w') := leaf_good hwr hv
      obtain ⟨hi2, -⟩ := hi.tok hw g1 (well_leaf (n := "ImportAsName"))
      have hpp := hp (.cons (.regexN hv h (n := "ImportAsName")) .nil rfl hi.sync)
      rcases gives_any hw hi2.ok hi2.tight (name := "Program".toList) with h8 | ⟨w'', h8, h9, h10, -, h11⟩
      · exact ⟨_, .proxyChildren (.program hpp (.done h8)) .fail, trivial, .fail⟩
      · have hg := h11.good hi2.ok
        have hne : ∀ k ∈ [leafT E "ImportAsName".toList (v ++ w') w'], NotError k := by
          intro k hk
          rw [List.mem_singleton.mp hk]
          exact error_ne
        refine ⟨_, .proxyChildren (.program hpp (.done h11)) (.tok (List.suffix_refl _) h8 rfl h9 hne), splice_good hw hg (List.suffix_refl _) h8 rfl h9 hne,
          .splice (fun k hk => hi2.well k hk) trivial h9⟩

theorem tot_importId (hw : E.Has w) : Tot1 E K importId w "ImportIdentifier" Any := by
  have hl : Line E K (blen w + 1) _ _ :=
    .sure (fun _ hw => tot_identifier (n := "ImportName") hw) <|
    .free (fun _ hw => (tot_asName hw).optional trivial) <|
    .free (N := Nil) (x := discard (optional (equals ","))) (fun w hw => by
      by_cases h : [','] <+: w
      · obtain ⟨w', rfl⟩ := h
        exact ⟨_, .discard (g := .tok w' _) (.optional (.equals (l := [',']))), List.suffix_append _ _, .past rfl (fun h => by cases h)⟩
      · exact ⟨_, .discard (g := .past w) (.optional (g := .fail) (.equals_fail h)), List.suffix_refl _, .past rfl (fun h => by cases h)⟩) .nil
  obtain ⟨g, h1, h2, h3⟩ := Tot1.programN (n := "ImportIdentifier") hl hw (Nat.lt_succ_self _) fun i l hM hn _ => fit_at 12 rfl hn (Holds.here _ hM)
  refine ⟨g, h1, h2, ?_⟩
  cases h3 with
  | fail => exact .fail
  | fatal => exact .fatal
  | tok a b c d => exact .tok a b c trivial

theorem import_turn : Turn E K b "IdentifiersLoop".toList (Named "ImportIdentifier") true importRound := by
  refine .cons (s := false) (fun w hw _ => (tot_wsn0 hw).turn ?_) (.cons (s := true) (fun w hw _ => .switch ?_) .nil)
  · rintro l rfl k hk
    cases hk
  · intro x hx
    simp only [List.mem_cons, List.not_mem_nil, or_false] at hx
    rcases hx with rfl | rfl
    · exact turn_close (Or.inl rfl) hw
    · refine (tot_importId hw).tot.turn ?_
      rintro l ⟨t, rfl, h, -⟩ k hk
      rw [List.mem_singleton.mp hk]
      exact h

theorem tot_importIds (hw : E.Has w) :
    Tot E K true (programN "ImportIdentifiers" [discard (equals "{"), proxyChildren (loopN "IdentifiersLoop" importRound)]) w (One "ImportIdentifiers" Any) := by
  obtain ⟨o, g, h1, h2, h3, h4⟩ := Tot.group (K := K) (n := "ImportIdentifiers") (y := proxyChildren (loopN "IdentifiersLoop" importRound))
    (Q := Named "ImportIdentifier") hw (Tot.skip (s := "{") hw) (fun w' hw' _ => by
      obtain ⟨g, b1, b2, b3⟩ := (import_turn (E := E) (K := K) (b := blen w' + 1)).round.loopN (lo := .unbounded) hw' (by omega)
      exact b3.splice hw' b1 b2 fun k hk => by
        show k.name ≠ errorName
        rw [hk]
        exact error_ne) (fun i l hJ hn _ => fit_at 11 rfl hn (by
      obtain ⟨l1, l2, rfl, rfl, h⟩ := hJ
      exact h))
  have h5 : Tot1 E K (programN "ImportIdentifiers" [discard (equals "{"), proxyChildren (loopN "IdentifiersLoop" importRound)]) w "ImportIdentifiers" _ :=
    ⟨g, .programN h1 h2, h3, h4⟩
  exact h5.tot.mono one_any

theorem tot_import (hw : E.Has w) : Tot E K true Script.importStatement w (One "ImportStatement" Any) := by
  have hl : Line E K (blen w + 1) _ _ :=
    .sure (fun _ hw => Tot.skip (s := "import") hw) <| .free (fun _ => tot_ws0) <| .sure (fun _ hw => tot_importIds hw) <| .free (fun _ => tot_ws0) <|
    .sure (fun _ hw => Tot.skip (s := "from") hw) <| .free (fun _ => tot_ws0) <| .sure (fun _ hw => tot_string (n := "Path") hw) .nil
  rw [importStatement_eq]
  refine (Tot.programN (n := "ImportStatement") hl hw (by omega) ?_).mono one_any
  intro i l hM hn hf
  exact fit_at 10 rfl hn ⟨(Holds.skip <| .skip .here) _ hM, (Holds.skip <| .skip <| .skip <| .skip <| .skip <| .skip .here) _ hM⟩

/-! ### Assignments -/

theorem tot_assignment (hE : E.errs = true) (hS : Scripts E u) (hw : E.Has w) :
    Tot E none true (Script.assignmentExpression u) w (One "AssignmentExpression" Any) := by
  have hl : Line E none (blen w + 1) _ _ :=
    .sure (fun _ hw => tot_identifier (n := "Identifier") hw) <| .free (fun _ => tot_wsn0) <| .sure (fun _ hw => Tot.skip (s := "=") hw) <|
    .free (fun _ => tot_wsn0) <|
    .sure (N := fun l => ∃ n, One n Any l) (x := switch [Script.identifier, Script.patternDefinition u]) (fun w hw => Tot.switch hw (by
      intro x hx
      simp only [List.mem_cons, List.not_mem_nil, or_false] at hx
      rcases hx with rfl | rfl
      · exact (tot_identifier (n := "Identifier") hw).mono fun l h => ⟨_, one_any l h⟩
      · exact (tot_definition hE hS (Patterns.all hE hS (blen w)) hw (Nat.lt_succ_self _)).tot.mono fun l h => ⟨_, h⟩)) .nil
  refine (Tot.programN (n := "AssignmentExpression") hl hw (by omega) ?_).mono one_any
  intro i l hM hn hf
  exact fit_at 9 rfl hn ((Big.next <| .skip <| .skip <| .skip <| .rest (a := 1) (fun l h => by
    obtain ⟨n, h⟩ := h
    exact Big.one l h)) _ hM)

/-! ### The statements of a header -/

theorem tot_scopeEnd : BReads E K K scopeEnd w .fail := by
  by_cases h : "-->".toList <+: w
  · obtain ⟨w', rfl⟩ := h
    exact fails_scopeEnd
  · refine .discard (g := .fail) (.program (.fail ?_) .fails)
    intro m hm
    obtain ⟨b, h1, h2⟩ := Is.wrap (f := fun b => .pin (some b) (.str []) "Pin".toList false) hm
    exact reads_aside_fail h2 (fun h => by cases h) (BReads.equals_fail (s := "-->") h rfl b h1)

theorem scope_turn (hE : E.errs = true) (hS : Scripts E u) {name : Str} : Turn E none b name (fun _ => True) true (scopeRound u) := by
  refine .cons (s := false) (fun w hw _ => (tot_wsn0 hw).turn fun _ _ _ _ => trivial) (.cons (s := true) (fun w hw _ => .switch ?_) .nil)
  intro x hx
  simp only [List.mem_cons, List.not_mem_nil, or_false] at hx
  rcases hx with rfl | rfl | rfl | rfl
  · exact (tot_comment hw).turn fun _ _ _ _ => trivial
  · exact (tot_import hw).turn fun _ _ _ _ => trivial
  · exact (tot_assignment hE hS hw).turn fun _ _ _ _ => trivial
  · exact ⟨_, tot_scopeEnd, trivial, Or.inl .fail⟩

theorem tot_scope (hE : E.errs = true) (hS : Scripts E u) (hw : E.Has w) : Tot E none false (optional (loopN "Scope" (scopeRound u))) w (Maybe (One "Scope" Any)) := by
  obtain ⟨g, h1, h2, h3⟩ := (scope_turn (b := blen w + 1) (name := "Scope".toList) hE hS).round.loopN (name := "Scope") (lo := .unbounded) hw (Nat.lt_succ_self _)
  have h4 := h3.solo fun i l _ hn _ => Loose.fit (n := "Scope") (by decide) hn
  exact Tot.optional (strict := true) ⟨g, h1, h2, h4.nice.mono fun l h => Or.inr (one_any l h)⟩ (Or.inl rfl)

/-! ### Headers -/

/-- As `Tot1.programN`, with what is known of a new token. -/
theorem Tot1.programN_new {n : String} [AddsAll xs] {b : Nat} (h : Line E K b xs M) (hw : E.Has w) (hb : blen w < b)
    (hfit : ∀ i l, M l → i.name = n.toList → i.flags = 0 → Fit i l) (hn : Free n := by decide) :
    ∃ g, BReads E K K (B.programN n xs) w g ∧ g.Good E w ∧ Solo n M g ∧
      ∀ w' t, g = .tok w' t → t.info.attributes = [] ∧ t.info.value = none := by
  obtain ⟨o, h1, h2⟩ := h.go hw (.start hw) hb
  cases o with
  | done K' a =>
    obtain ⟨rfl, h3, h4, l, h5, h6, h7⟩ := h2
    rcases gives_any hw h3.ok h3.tight (name := n.toList) with h8 | ⟨w', h8, h9, -, -, h10⟩
    · exact ⟨_, .programN h1 (.done h8) hn, trivial, .fail, fun _ _ h => by cases h⟩
    · refine ⟨_, .programN h1 (.done h10) hn, h10.good h3.ok, .tok (.node ?_ h3.well) rfl rfl ?_, fun _ _ h => by cases h; exact ⟨rfl, rfl⟩⟩
      · refine hfit _ _ ?_ rfl rfl
        rw [h5]
        exact h6
      · show M a.kids
        rw [h5]
        exact h6
  | fails K' a =>
    obtain ⟨rfl, -⟩ := h2
    exact ⟨_, .programN h1 .fails hn, trivial, .fail, fun _ _ h => by cases h⟩
  | breaks => exact h2.elim
  | fatal K' =>
    obtain rfl := h2
    exact ⟨_, .programN h1 .fatal hn, trivial, .fatal, fun _ _ h => by cases h⟩

theorem tot_adextopa (hw : E.Has w) : Tot E K false (discard (regex Script.rxAdextopa)) w Nil := Tot.skipRegex hw

/-- The outcomes at the top: tokens that look as they should, of any place. -/
inductive Fair (Q : Tr → Prop) : Got → Prop
  | fail : Fair Q .fail
  | fatal : Fair Q .fatal
  | past {w' : Str} : Fair Q (.past w')
  | tok {w' : Str} {t : Tr} (h : Well t) (hQ : Q t) : Fair Q (.tok w' t)
  | odd {t : Tr} (h : Well t) (hf : t.info.flags = IS_ERROR) (hn : t.name = errorName) : Fair Q (.odd t)

theorem calls_error (hE : E.errs = true) {sf : TokId → Ctx → SCtxId → Adx.M R} {t : Tr} {msg : Str} {r : Range} {g : Got}
    (hg : ∀ toks lo i, Reps E toks lo [i] [errorT E msg r] → ShowsS E w toks lo (.token i) g) (hgood : g.Good E w)
    (h1 : r.start ≤ blen E.p.src) (h2 : r.stop ≤ blen E.p.src)
    (h : ∀ (c : Ctx) (sc : SCtxId) (s : State) (i : TokId) (k : Token), E.Here w c → s.toks[i]? = some k → k.info = t.info → Plain E k →
      Reps E s.toks (i + 1) k.children t.kids →
      ∃ s1, (∀ s', newErrorTokenWithRange c msg r s1 = .ok s1.toks.length s' → sf i c sc s = .ok (.ok (.token s1.toks.length)) s') ∧
        s1.toks.length = s.toks.length ∧ ∀ {K}, Scoped E K sc s → Scoped E K sc s1) :
    Calls E K K sf w t g := by
  intro c sc s lo i hw hc hS hr hok
  obtain ⟨k, hl, hk, hp, hi, hch⟩ := hr.root
  obtain ⟨s1, h3, h4, h5⟩ := h c sc s i k hc hk hi hp hch
  have hlen : lo ≤ s1.toks.length := by
    rw [h4]
    exact Nat.le_of_lt (Nat.lt_of_le_of_lt hl (List.getElem?_eq_some_iff.mp hk).1)
  obtain ⟨s', h6, h7, h8⟩ := newError_run (msg := msg) hE hc.parser h1 h2 hlen
  exact ⟨hgood, _, _, h3 s' h6, .ok (hg _ _ _ h7), h8 (h5 hS)⟩

theorem put_len {s : State} {i : TokId} {k : Token} : (s.put i k).toks.length = s.toks.length := List.length_set

theorem calls_adextopa (hE : E.errs = true) {t : Tr} (hw : E.Has w) (hwell : Well t) (hn : t.name = "AdextopaScope".toList)
    (ha : t.info.attributes = []) (hv0 : t.info.value = none) (hend : ∀ k ∈ t.kids, k.name ≠ "EndOfScopeHeader".toList)
    (hg : (Got.tok w' t).Good E w) :
    ∃ g, Calls E K K Script.adextopaScopeDone w t g ∧ g.Con w true ∧ g.Good E w ∧
      Fair (fun t => t.name = "AdextopaScope".toList ∨ t.name = errorName) g := by
  obtain ⟨f, o, ho, hnone, hf'⟩ := copyAll_any (E := E) hwell
  obtain ⟨g1, g2, g3⟩ := hg
  obtain ⟨f1, f2, f3, f4, f5⟩ := g3.facts
  have hrun : ∀ {s : State} {i : TokId} {k : Token}, s.toks[i]? = some k → k.info = t.info → Reps E s.toks (i + 1) k.children t.kids →
      ∃ ver, Script.copyAllAttributes i s = .ok ver (s.put i { k with attributes := f [] }) ∧
        ∀ t', o = some t' → ∃ j, ver = some j ∧ Reps E s.toks (i + 1) [j] [t'] := by
    intro s i k hk hi hr
    have := hf' hk hr
    rwa [show k.attributes = [] from (congrArg Info.attributes hi).trans ha] at this
  have hkeep : ∀ {s : State} {i : TokId} {k k' : Token} {j : Nat} {ids : List TokId} {l : List Tr}, s.toks[i]? = some k → i < j →
      Reps E s.toks j ids l → Reps E (s.put i k').toks j ids l := by
    intro s i k k' j ids l hk hj h
    refine h.change fun q kq hq hkq => ⟨kq.parent, ?_⟩
    show (s.toks.set i _)[q]? = _
    rw [List.getElem?_set_ne (Nat.ne_of_lt (Nat.lt_of_lt_of_le hj hq)), hkq]
  cases hv : (f []).get "version".toList with
  | none =>
    have hgood : (Got.tok w' (errorT E "Adextopa scope must have a 'version' attribute".toList t.matched)).Good E w := by
      refine ⟨g1, g2, .node ?_ ?_ ?_ ?_ (fun _ h => by cases h)⟩
      · exact f1
      · exact f2
      · exact f3
      · exact Nat.le_of_lt f2
    refine ⟨_, calls_error (r := t.matched) hE (fun _ _ _ h => .tok h) hgood (Nat.le_of_lt (Nat.lt_of_lt_of_le f2 f3)) f3 ?_, rfl, hgood,
      .tok well_error (Or.inr rfl)⟩
    intro c sc s i k hc hk hi hp hch
    obtain ⟨ver, h1, -⟩ := hrun hk hi hch
    refine ⟨s.put i { k with attributes := f [] }, fun s' h2 => ?_, put_len, fun hS => hS.put hk hp.kind⟩
    unfold Script.adextopaScopeDone
    rw [bind_run h1, bind_run (getTok_ok.mpr ⟨put_get hk, rfl⟩)]
    unfold Token.getAttribute
    dsimp only
    rw [hv]
    dsimp only
    have h3 : Token.findChild { k with attributes := f [] } "EndOfScopeHeader".toList (s.put i { k with attributes := f [] }) =
        .ok none (s.put i { k with attributes := f [] }) := findChild_none (hkeep hk (Nat.lt_succ_self _) hch) hend
    rw [bind_run h3]
    dsimp only
    rw [show t.matched = k.matched from (congrArg Info.matched hi).symm] at h2
    rw [bind_run (pure_ok.mpr ⟨rfl, rfl⟩), bind_run h2]
    rfl
  | some v =>
    cases hu : parseUsize v with
    | none =>
      cases o with
      | none =>
        rw [hnone rfl] at hv
        cases hv
      | some t' =>
        obtain ⟨a, a1, a2, a3, a4⟩ := ho t' rfl
        have hok := ((f5 a a1 (by rw [a2]; exact toList_ne (by decide))).facts.2.2.2.2 t' a3 (by rw [a4]; exact toList_ne (by decide)))
        have hst := (f5 a a1 (by rw [a2]; exact toList_ne (by decide))).facts
        obtain ⟨e1, e2, e3, e4, e5⟩ := hok.facts
        have hgood : (Got.odd (errorT E "Adextopa 'version' attribute must be a valid integer number".toList t'.matched)).Good E w := by
          refine ⟨rfl, ?_, ?_, ?_, rfl⟩
          · exact e1
          · exact Nat.le_of_lt e2
          · show t'.matched.stop ≤ _
            omega
        refine ⟨_, calls_error (r := t'.matched) hE (fun _ _ _ h => .odd h) hgood (by omega) (by omega) ?_, rfl, hgood, .odd well_error rfl rfl⟩
        intro c sc s i k hc hk hi hp hch
        obtain ⟨ver, h1, h1'⟩ := hrun hk hi hch
        obtain ⟨j, rfl, hj⟩ := h1' t' rfl
        refine ⟨s.put i { k with attributes := f [] }, fun s' h2 => ?_, put_len, fun hS => hS.put hk hp.kind⟩
        unfold Script.adextopaScopeDone
        rw [bind_run h1, bind_run (getTok_ok.mpr ⟨put_get hk, rfl⟩)]
        unfold Token.getAttribute
        dsimp only
        rw [hv]
        dsimp only
        rw [hu]
        dsimp only
        obtain ⟨kj, -, hkj, -, hij, -⟩ := (hkeep (k' := { k with attributes := f [] }) hk (Nat.lt_succ_self _) hj).root
        rw [bind_run (ofOpt_ok.mpr ⟨rfl, rfl⟩), bind_run (getTok_ok.mpr ⟨hkj, rfl⟩), show kj.matched = t'.matched from congrArg Info.matched hij,
          bind_run h2]
        rfl
    | some z =>
      have hgood : (Got.tok w' (.node { t.info with value := none, attributes := f [] } t.kids)).Good E w := by
        refine ⟨g1, g2, ?_⟩
        cases g3 with
        | node h1 h2 h3 h4 h5 => exact .node h1 h2 h3 h4 h5
      refine ⟨_, Calls.retag (v := none) (as := f []) g1 g2 (by rw [hn]; exact toList_ne (by decide)) ?_, rfl, hgood,
        .tok (.node (Loose.fit (n := "AdextopaScope") (by decide) (by exact hn)) hwell.kids) (Or.inl hn)⟩
      intro c sc s i k _ hk hi hp hch
      obtain ⟨ver, h1, -⟩ := hrun hk hi hch
      unfold Script.adextopaScopeDone
      rw [bind_run h1, bind_run (getTok_ok.mpr ⟨put_get hk, rfl⟩)]
      unfold Token.getAttribute
      dsimp only
      rw [hv]
      dsimp only
      rw [hu, show k.value = none from (congrArg Info.value hi).trans hv0]
      rfl

/-- What is known of each of the tokens. -/
theorem each_join {Q : Tr → Prop} (h1 : ∀ l, N l → ∀ k ∈ l, Q k) (h2 : ∀ l, M l → ∀ k ∈ l, Q k) : ∀ l, Join N M l → ∀ k ∈ l, Q k := by
  rintro l ⟨l1, l2, rfl, h3, h4⟩ k hk
  rcases List.mem_append.mp hk with hk | hk
  · exact h1 _ h3 k hk
  · exact h2 _ h4 k hk

theorem each_nil {Q : Tr → Prop} : ∀ l, Nil l → ∀ k ∈ l, Q k := by
  rintro l rfl k hk
  cases hk

theorem each_maybe {Q : Tr → Prop} (h : ∀ t, t.name = n.toList → Q t) : ∀ l, Maybe (One n M) l → ∀ k ∈ l, Q k := by
  rintro l (rfl | ⟨t, rfl, h1, -⟩) k hk
  · cases hk
  · rw [List.mem_singleton.mp hk]
    exact h _ h1

theorem tot_header (hE : E.errs = true) (hS : Scripts E u) (hw : E.Has w) :
    ∃ g, BReads E none none (Script.adextopaScope u) w g ∧ g.Good E w ∧
      Fair (fun t => t.name = "AdextopaScope".toList ∨ t.name = errorName) g := by
  have hl : Line E none (blen w + 1) _ _ :=
    .free (fun _ => tot_adextopa) <| .free (fun _ => tot_ws0) <| .free (fun _ => tot_attributes (u := u) hE) <| .sure (fun _ hw => Tot.skip (s := "]") hw) <|
    .free (N := Nil) (x := mk (.pin none (.str []) "EndOfScopeHeader".toList true)) (fun _ _ =>
      ⟨_, fun m hm => reads_pin hm.mk fun _ => Free.names (n := "EndOfScopeHeader") (by decide), trivial, .pin rfl rfl⟩) <|
    .free (fun _ => tot_scope hE hS) <| .sure (fun _ hw => Tot.skip (s := "-->") hw) .nil
  have hend : ∀ l, _ → ∀ k ∈ (l : List Tr), Tr.name k ≠ "EndOfScopeHeader".toList :=
    each_join each_nil <| each_join each_nil <| each_join (each_maybe (n := "Attributes") (M := Any) (fun t h => by rw [h]; exact toList_ne (by decide))) <|
    each_join each_nil <| each_join each_nil <| each_join (each_maybe (n := "Scope") (M := Any) (fun t h => by rw [h]; exact toList_ne (by decide))) <|
    each_join each_nil each_nil
  obtain ⟨g, h1, h2, h3, h4⟩ := Tot1.programN_new (n := "AdextopaScope") hl hw (Nat.lt_succ_self _) fun i l _ hn _ =>
    Loose.fit (n := "AdextopaScope") (by decide) hn
  rw [adextopaScope_eq]
  cases h3 with
  | fail => exact ⟨_, .map_fail h1, trivial, .fail⟩
  | fatal => exact ⟨_, .map_fatal h1, trivial, .fatal⟩
  | @tok w' t hwell hn hf hM =>
    obtain ⟨ha, hv⟩ := h4 _ _ rfl
    obtain ⟨g, c1, c2, c3, c4⟩ := calls_adextopa (K := none) hE hw hwell hn ha hv (hend _ hM) h2
    exact ⟨g, .map h1 c1 c2, c3, c4⟩

/-! ### Patterns -/

theorem item_turn (hE : E.errs = true) (hS : Scripts E u) {name : Str} : Turn E none b name (fun _ => True) true (itemRound u) := by
  refine .cons (s := false) (fun w hw _ => (tot_wsn0 hw).turn fun _ _ _ _ => trivial) (.cons (s := true) (fun w hw _ => .switch ?_) .nil)
  intro x hx
  simp only [List.mem_cons, List.not_mem_nil, or_false] at hx
  rcases hx with rfl | rfl
  · exact (tot_comment hw).turn fun _ _ _ _ => trivial
  · exact (tot_pattern hE hS (Patterns.all hE hS (blen w)) hw (Nat.lt_succ_self _)).turn fun _ _ _ _ => trivial

theorem calls_patterns (hE : E.errs = true) {t : Tr} (hw : E.Has w) (hwell : Well t) (hn : t.name = "PatternScope".toList)
    (hg : (Got.tok w' t).Good E w) :
    ∃ g, Calls E K K Script.patternScopeDone w t g ∧ g.Con w true ∧ g.Good E w ∧ Fair (fun t => t.name = "PatternScope".toList) g := by
  have hg' := hg
  obtain ⟨g1, g2, g3⟩ := hg
  obtain ⟨f1, f2, f3, f4, f5⟩ := g3.facts
  by_cases hlt : t.matched.stop < blen E.p.src
  · obtain ⟨rest, hrest⟩ : ∃ rest, bdrop t.matched.stop E.p.src = some rest := by
      have hw' := hw.tail g1
      have := hw'.len
      obtain ⟨pre, hpre⟩ := hw'
      refine ⟨w', bdrop_iff.mpr ⟨pre, hpre.symm, ?_⟩⟩
      have h3 : blen E.p.src = blen pre + blen w' := by rw [← hpre, blen_append]
      rw [g2]
      show E.at_ w' = _
      omega
    let msg : Str := "Syntax error. Expected a pattern defintion, but instead found: ".toList ++ rest
    have hgood : (Got.odd (errorT E msg ⟨E.at_ w, E.at_ w⟩)).Good E w := ⟨rfl, Nat.le_refl _, Nat.le_refl _, hw.le, rfl⟩
    refine ⟨_, calls_error (r := ⟨E.at_ w, E.at_ w⟩) hE (fun _ _ _ h => .odd h) hgood hw.le hw.le ?_, rfl, hgood, .odd well_error rfl rfl⟩
    intro c sc s i k hc hk hi hp hch
    refine ⟨s, fun s' h2 => ?_, rfl, fun hS => hS⟩
    unfold Script.patternScopeDone
    rw [bind_run (getTok_ok.mpr ⟨hk, rfl⟩), hp.parser, show k.matched = t.matched from congrArg Info.matched hi, if_pos hlt,
      bind_run (ofOpt_ok.mpr ⟨hrest, rfl⟩)]
    unfold newErrorToken
    rw [hc.offset]
    rw [bind_run h2]
    rfl
  · refine ⟨.tok w' t, ?_, rfl, hg', .tok hwell hn⟩
    intro c sc s lo i _ hc hS hr hok
    obtain ⟨k, hl, hk, hp, hi, hch⟩ := hr.root
    refine ⟨hg', _, s, ?_, .ok (.tok hr), hS⟩
    unfold Script.patternScopeDone
    rw [bind_run (getTok_ok.mpr ⟨hk, rfl⟩), hp.parser, show k.matched = t.matched from congrArg Info.matched hi, if_neg hlt]
    rfl

theorem tot_patterns (hE : E.errs = true) (hS : Scripts E u) (hw : E.Has w) :
    ∃ g, BReads E none none (Script.patternScope u) w g ∧ g.Good E w ∧ Fair (fun t => t.name = "PatternScope".toList) g := by
  obtain ⟨g, h1, h2, h3⟩ := (item_turn (b := blen w + 1) (name := "PatternScope".toList) hE hS).round.loopN (name := "PatternScope")
    (lo := .included 1) hw (Nat.lt_succ_self _)
  have h4 := h3.solo fun i l _ hn _ => Loose.fit (n := "PatternScope") (by decide) hn
  rw [patternScope_eq]
  cases h4 with
  | fail => exact ⟨_, .map_fail h1, trivial, .fail⟩
  | fatal => exact ⟨_, .map_fatal h1, trivial, .fatal⟩
  | @tok w' t hwell hn hf hM =>
    obtain ⟨g, c1, c2, c3, c4⟩ := calls_patterns (K := none) hE hw hwell hn h2
    exact ⟨g, .map h1 c1 c2, c3, c4⟩

end

end Adx.Read
