import Verif.Proofs.LaxStatements
/-
  Reading any text: headers.
-/
namespace Adx.Read

open Syntax (Munch Gap Blanks Identifier Quoted Comment Stmt Attr Comments)
open B

/-- The outcomes at the top: a token may also be an error of another place, behind which
the text goes on. -/
inductive Lands (E : Setting) (w : Str) (N : Str → List Tr → Prop) : Got → Prop
  | fail (h : N w []) : Lands E w N .fail
  | fatal : Lands E w N .fatal
  | past {w' : Str} (h : N w' []) : Lands E w N (.past w')
  | tok {w' : Str} {t : Tr} (h : N w' [t]) : Lands E w N (.tok w' t)
  | odd {w' : Str} {t : Tr} (hf : t.info.flags = IS_ERROR) (hn : t.name = errorName) (hs : t.matched.stop = E.at_ w') (hw : w' <:+ w)
      (h : ∀ t' : Tr, t'.info.flags = IS_ERROR → t'.name = errorName → N w' [t']) : Lands E w N (.odd t)

section
variable {E : Setting} {K : Option Nat} {w w' : Str} {uni : Uni} {env : Env} {N M : Str → List Tr → Prop} {g : Got}

theorem Lands.mono (h : Lands E w N g) (hN : ∀ w' l, N w' l → M w' l) : Lands E w M g := by
  cases h with
  | fail h => exact .fail (hN _ _ h)
  | fatal => exact .fatal
  | past h => exact .past (hN _ _ h)
  | tok h => exact .tok (hN _ _ h)
  | odd hf hn hs hw h => exact .odd hf hn hs hw fun t h1 h2 => hN _ _ (h t h1 h2)

theorem Lands.optional {x : B MatcherId} (h : Lands E w N g) (hx : BReads E K K x w g) (hg : g.Good E w) :
    ∃ g', BReads E K K (B.optional x) w g' ∧ g'.Good E w ∧ Lands E w N g' := by
  cases h with
  | fail h => exact ⟨_, .optional hx, List.suffix_refl _, .past h⟩
  | fatal => exact ⟨_, .optional hx, trivial, .fatal⟩
  | past h => exact ⟨_, .optional hx, hg, .past h⟩
  | tok h => exact ⟨_, .optional hx, hg, .tok h⟩
  | odd hf hn hs hw h => exact ⟨_, .optional hx, hg, .odd hf hn hs hw h⟩

/-! ### Attributes of headers -/

theorem RawAttrs.of {ts : List Tr} {as : List Attr} (h : RawAttrs E ts as) : ∀ m, attrsOf E ts m = attrMap as m := by
  induction h with
  | nil => exact fun _ => rfl
  | @cons t ts a as h _ ih =>
    intro m
    obtain ⟨n, v, es, h1, h2, h3⟩ := h.kids
    cases t with
    | node i ks =>
      have h1 : ks = n :: v :: es := h1
      subst h1
      show attrsOf E ts (m.insert (valueOf E n.info) (valueOf E v.info)) = attrMap as (m.insert a.name a.val)
      rw [ih, h2, h3]

/-- What the attributes of a header are copied to. -/
theorem copyAll_header {l l' : List Tr} {as : List Attr} (h : (as = [] ∧ l = []) ∨
      ∃ ts c, l = [blockT E "Attributes".toList c w w' ts] ∧ RawAttrs E ts as ∧ ∀ t ∈ ts, Behind E w w' t)
    (hl' : ∀ t ∈ l', t.name ≠ "Attributes".toList) : ∃ o : Option Tr,
    (∀ t', o = some t' → Behind E w w' t' ∧ t'.name = "Attribute".toList ∧ ∃ a ∈ l, a.name = "Attributes".toList ∧ t' ∈ a.kids) ∧
    (o = none → ∀ m, (attrMap as m).get "version".toList = m.get "version".toList) ∧
    ∀ {s : State} {i : TokId} {k : Token}, s.toks[i]? = some k → Reps E s.toks (i + 1) k.children (l ++ l') →
      ∃ ver, Script.copyAllAttributes i s = .ok ver (s.put i { k with attributes := attrMap as k.attributes }) ∧
        ∀ t', o = some t' → ∃ j, ver = some j ∧ Reps E s.toks (i + 1) [j] [t'] := by
  rcases h with ⟨rfl, rfl⟩ | ⟨ts, c, rfl, h1, h2⟩
  · refine ⟨none, (fun _ h => by cases h), (fun _ _ => rfl), fun {s i k} hk hr => ⟨none, ?_, fun _ h => by cases h⟩⟩
    unfold Script.copyAllAttributes
    rw [bind_run (getTok_ok.mpr ⟨hk, rfl⟩), bind_run (findChild_none hr hl')]
    show Res.ok _ s = Res.ok _ (s.put i k)
    rw [put_same hk]
  · refine ⟨verOf E ts, fun t' ht' => ⟨h2 _ (verOf_mem ht'), (h1.names _ (verOf_mem ht')).2, _, List.mem_singleton.mpr rfl, rfl, verOf_mem ht'⟩,
      fun hv m => by rw [← h1.of]; exact attrsOf_version h1.len hv m, fun {s i k} hk hr => ?_⟩
    obtain ⟨j, h3, h4⟩ := findChild_first (pre := []) hr (fun _ h => by cases h) rfl
    have h3 : k.findChild "Attributes".toList s = .ok (some j) s := h3
    obtain ⟨jk, hl, h5, -, -, h6⟩ := h4.root
    have hij : i < j + 1 := Nat.lt_succ_of_lt hl
    obtain ⟨ver, h7, h8⟩ := copy_any h1.len none hij h6 hk
    rw [h1.of] at h7
    refine ⟨ver, ?_, ?_⟩
    · unfold Script.copyAllAttributes
      rw [bind_run (getTok_ok.mpr ⟨hk, rfl⟩), bind_run h3]
      show (getTok j >>= fun ak => Script.copyAttributes i ak.children none) s = _
      rw [bind_run (getTok_ok.mpr ⟨h5, rfl⟩), h7]
    · intro t' ht'
      rcases h8 with ⟨-, h8, -⟩ | ⟨j', t2, rfl, ht, hR⟩
      · rw [h8] at ht'
        cases ht'
      · rw [ht] at ht'
        cases ht'
        exact ⟨j', rfl, hR.lower (Nat.succ_le_succ (Nat.le_of_lt hl))⟩

/-! ### Headers -/

/-- Neither a pattern nor a comment begins here. -/
def Barred (w : Str) : Prop := ∀ c, w.head? = some c → Syntax.attrChar c = true ∨ c = ']'

/-- A header without a version. -/
def Unversioned (w w' : Str) : Prop := ∃ w1 w2 w3 u as, w = "<!--[adextopa".toList ++ w1 ∧ Blanks w1 w2 ∧ Lax.AttrList w2 as (']' :: w3) ∧
  Syntax.attrOf as "version" = none ∧ w3 = u ++ "-->".toList ++ w'

/-- A header, or none. -/
def HeadR (E : Setting) (env : Env) : Rel := fun w w' l => (l = [] ∧ w' = w) ∨
  (∃ t, l = [t] ∧ t.info.flags = 0 ∧ t.name = "AdextopaScope".toList ∧
    Told E env [t.purge] (fun gs ss nm => gs = [] ∧ Lax.Header env w nm ss w')) ∨
  (∃ t, l = [t] ∧ t.info.flags = IS_ERROR ∧ t.name = errorName ∧ (Unversioned w w' ∨ ∃ v, Gap w' v ∧ Barred v))

theorem yields_adextopa (hw : E.Has w) : Yields E K true (discard (regex Script.rxAdextopa)) w (SkipR "<!--[adextopa" w) True := by
  by_cases h : "<!--[adextopa".toList <+: w
  · obtain ⟨w', rfl⟩ := h
    exact ⟨_, reads_adextopa, List.suffix_append .., .past ⟨rfl, rfl⟩ fun _ => suffix_lt (List.suffix_append ..) (fun h => by have := congrArg List.length h; simp at this; omega)⟩
  · exact ⟨_, reads_adextopa_fail h, trivial, .fail trivial⟩

theorem version_of {v : Str} {n : Nat} (h : parseUsize v = some n) : Lax.Version v := by
  obtain ⟨h1, h2⟩ := parseUsize_iff.mp h
  refine ⟨n, ?_, h2⟩
  unfold usizeMax at h1
  omega

theorem barred_attrs {as : List Attr} (h : Lax.AttrList w as (']' :: w')) : Barred w := by
  intro c hc
  cases h with
  | nil =>
    cases hc
    exact Or.inr rfl
  | @cons _ n _ _ _ _ _ _ _ _ _ h3 h4 =>
    have hs := h3.split
    cases n with
    | nil => exact (h4 rfl).elim
    | cons d n =>
      rw [hs] at hc
      cases hc
      exact Or.inl (h3.all _ (by simp))

/-- What is read of a header, before anything is looked up. -/
def RawHeadR (E : Setting) (env : Env) : Rel := fun w w' ks => ∃ w1 w2 w3 w5 as l l', w = "<!--[adextopa".toList ++ w1 ∧ Blanks w1 w2 ∧
  Lax.AttrList w2 as (']' :: w3) ∧ ((as = [] ∧ l = []) ∨
    ∃ ts c, l = [blockT E "Attributes".toList c w2 (']' :: w3) ts] ∧ RawAttrs E ts as ∧ ∀ t ∈ ts, Behind E w2 (']' :: w3) t) ∧
  MayScopeR E env w3 w5 l' ∧ w5 <:+ w3 ∧ w5 = "-->".toList ++ w' ∧ ks = l ++ l'

theorem rawHead_yields (hE : E.errs = true) (hS : Scripts E uni) (hw : E.Has w) : Yields E none true (programN "AdextopaScope" [
    discard (regex Script.rxAdextopa),
    Script.ws0,
    Script.attributes uni,
    discard (equals "]"),
    mk (.pin none (.str []) "EndOfScopeHeader".toList true),
    optional (loopN "Scope" (scopeRound uni)),
    discard (equals "-->")]) w (fun w' l => ∃ ks, l = [nodeT E "AdextopaScope".toList w w' ks] ∧ RawHeadR E env w w' ks) True := by
  have hl : Row E none (blen w + 1) _ _ :=
    .free (N := SkipR "<!--[adextopa") (fun _ hw => yields_adextopa hw) <| .free (N := BlanksR) (fun _ _ => yields_ws0) <|
    .free (N := AttrsR E) (fun _ hw => attributes_yields (uni := uni) hE hw) <| .free (N := SkipR "]") (fun _ hw => yields_skip (s := "]") hw) <|
    .free (strict := false) (N := Stop) (Y := fun _ => False) (x := mk (.pin none (.str []) "EndOfScopeHeader".toList true)) (fun _ _ =>
      ⟨_, fun m hm => reads_pin hm.mk fun _ => Free.names (n := "EndOfScopeHeader") (by decide), trivial, .pin ⟨rfl, rfl⟩ rfl⟩) <|
    .free (N := fun w w' l => MayScopeR E env w w' l ∧ w' <:+ w) (fun _ hw => scope_yields (uni := uni) hE hS hw) <|
    .free (N := SkipR "-->") (fun _ hw => yields_skip (s := "-->") hw) .nil
  refine (Yields.programN (n := "AdextopaScope") hl hw (by omega)).mono ?_
  rintro w' l ⟨ks, rfl, -, w1, l1, m1, rfl, ⟨rfl, h1⟩, w2, l2, m2, rfl, ⟨rfl, h2⟩, w3, l3, m3, rfl, ⟨as, h3, h3'⟩, w4, l4, m4, rfl, ⟨rfl, rfl⟩,
    w5, l5, m5, rfl, ⟨rfl, rfl⟩, w6, l6, m6, rfl, ⟨h6, h6'⟩, w7, l7, m7, rfl, ⟨rfl, h7⟩, rfl, rfl⟩
  refine ⟨_, rfl, w1, w2, _, w6, as, l3, l6, h1, h2, h3, h3'.imp_right ?_, h6, h6', h7, by simp⟩
  rintro ⟨ts, c, rfl, -, a, b⟩
  exact ⟨ts, c, rfl, a, b⟩

theorem header_lands (hE : E.errs = true) (hS : Scripts E uni) (hw : E.Has w) :
    ∃ g, BReads E none none (Script.adextopaScope uni) w g ∧ g.Good E w ∧ Lands E w (HeadR E env w) g := by
  obtain ⟨g, h1, h2, h3⟩ := rawHead_yields (env := env) hE hS hw
  rw [adextopaScope_eq]
  cases h3 with
  | fail h => exact ⟨_, .map_fail h1, trivial, .fail (Or.inl ⟨rfl, rfl⟩)⟩
  | fatal => exact ⟨_, .map_fatal h1, trivial, .fatal⟩
  | past h =>
    obtain ⟨ks, h, -⟩ := h
    cases h
  | pin h =>
    obtain ⟨ks, h, -⟩ := h
    cases h
  | @tok w' t h =>
    obtain ⟨ks, h, w1, w2, w3, w5, as, l, l', rfl, b1, b2, b3, b4, b5, rfl, rfl⟩ := h
    obtain rfl := (List.cons.inj h).1
    have hl' : ∀ n : String, n ≠ "Scope" → ∀ t ∈ l', t.name ≠ n.toList := by
      intro n hn t ht
      rcases b4 with ⟨rfl, -⟩ | ⟨c, ks, rfl, -⟩
      · cases ht
      · rw [List.mem_singleton.mp ht]
        show "Scope".toList ≠ _
        exact toList_ne hn.symm
    have hl : ∀ n : String, n ≠ "Attributes" → ∀ t ∈ l, t.name ≠ n.toList := by
      intro n hn t ht
      rcases b3 with ⟨-, rfl⟩ | ⟨ts, c, rfl, -⟩
      · cases ht
      · rw [List.mem_singleton.mp ht]
        show "Attributes".toList ≠ _
        exact toList_ne hn.symm
    have hend : ∀ k ∈ l ++ l', k.name ≠ "EndOfScopeHeader".toList := by
      intro k hk
      rcases List.mem_append.mp hk with hk | hk
      · exact hl _ (by decide) k hk
      · exact hl' _ (by decide) k hk
    obtain ⟨o, ho, hnone, hf'⟩ := copyAll_header (E := E) b3 (hl' _ (by decide))
    obtain ⟨g1, g2, g3⟩ := h2
    obtain ⟨f1, f2, f3, f4, f5⟩ := g3.facts
    have hrun : ∀ {s : State} {i : TokId} {k : Token}, s.toks[i]? = some k → k.info = (nodeT E "AdextopaScope".toList ("<!--[adextopa".toList ++ w1) w' (l ++ l')).info →
        Reps E s.toks (i + 1) k.children (l ++ l') →
        ∃ ver, Script.copyAllAttributes i s = .ok ver (s.put i { k with attributes := attrMap as [] }) ∧
          ∀ t', o = some t' → ∃ j, ver = some j ∧ Reps E s.toks (i + 1) [j] [t'] := by
      intro s i k hk hi hr
      have := hf' hk hr
      rwa [show k.attributes = [] from congrArg Info.attributes hi] at this
    have hkeep : ∀ {s : State} {i : TokId} {k k' : Token} {j : Nat} {ids : List TokId} {l : List Tr}, s.toks[i]? = some k → i < j →
        Reps E s.toks j ids l → Reps E (s.put i k').toks j ids l := by
      intro s i k k' j ids l hk hj h
      refine h.change fun q kq hq hkq => ⟨kq.parent, ?_⟩
      show (s.toks.set i _)[q]? = _
      rw [List.getElem?_set_ne (Nat.ne_of_lt (Nat.lt_of_lt_of_le hj hq)), hkq]
    have hget : ∀ n : String, (attrMap as []).get n.toList = Syntax.attrOf as n := by
      intro n
      rw [attrMap_get]
      exact Option.or_none
    cases hv : (attrMap as []).get "version".toList with
    | none =>
      generalize ht : nodeT E "AdextopaScope".toList ("<!--[adextopa".toList ++ w1) w' (l ++ l') = t at *
      have hgood : (Got.tok w' (errorT E "Adextopa scope must have a 'version' attribute".toList t.matched)).Good E ("<!--[adextopa".toList ++ w1) := by
        refine ⟨g1, g2, .node ?_ ?_ ?_ ?_ (fun _ h => by cases h)⟩
        · exact f1
        · exact f2
        · exact f3
        · exact Nat.le_of_lt f2
      have hkids : t.kids = l ++ l' := by rw [← ht]; rfl
      refine ⟨_, .map h1 (calls_error (r := t.matched) (t := t) hE (fun _ _ _ h => .tok h) hgood (Nat.le_of_lt (Nat.lt_of_lt_of_le f2 f3)) f3 ?_) rfl, hgood,
        .tok (Or.inr (Or.inr ⟨_, rfl, rfl, rfl, Or.inl ?_⟩))⟩
      · intro c sc s i k hc hk hi hp hch
        rw [hkids] at hch
        obtain ⟨ver, h1, -⟩ := hrun hk hi hch
        refine ⟨s.put i { k with attributes := attrMap as [] }, fun s' h2 => ?_, put_len, fun hS => hS.put hk hp.kind⟩
        unfold Script.adextopaScopeDone
        rw [bind_run h1, bind_run (getTok_ok.mpr ⟨put_get hk, rfl⟩)]
        unfold Token.getAttribute
        dsimp only
        rw [hv]
        dsimp only
        have h3 : Token.findChild { k with attributes := attrMap as [] } "EndOfScopeHeader".toList (s.put i { k with attributes := attrMap as [] }) =
            .ok none (s.put i { k with attributes := attrMap as [] }) := findChild_none (hkeep hk (Nat.lt_succ_self _) hch) hend
        rw [bind_run h3]
        dsimp only
        rw [show t.matched = k.matched from (congrArg Info.matched hi).symm] at h2
        rw [bind_run (pure_ok.mpr ⟨rfl, rfl⟩), bind_run h2]
        rfl
      · obtain ⟨u, hu⟩ := b5
        refine ⟨w1, w2, w3, u, as, rfl, b1, b2, (hget "version") ▸ hv, ?_⟩
        rw [← hu, List.append_assoc]
    | some v =>
      cases hu : parseUsize v with
      | none =>
        cases o with
        | none =>
          rw [hnone rfl] at hv
          cases hv
        | some t' =>
          obtain ⟨⟨v1, v2, as', p1, p2, p3, p4⟩, a4, a, a1, a2, a3⟩ := ho t' rfl
          have ha1 : a ∈ (nodeT E "AdextopaScope".toList ("<!--[adextopa".toList ++ w1) w' (l ++ l')).kids := List.mem_append_left _ a1
          have hok := ((f5 a ha1 (by rw [a2]; exact toList_ne (by decide))).facts.2.2.2.2 t' a3 (by rw [a4]; exact toList_ne (by decide)))
          have hst := (f5 a ha1 (by rw [a2]; exact toList_ne (by decide))).facts
          generalize ht : nodeT E "AdextopaScope".toList ("<!--[adextopa".toList ++ w1) w' (l ++ l') = t at *
          have hkids : t.kids = l ++ l' := by rw [← ht]; rfl
          obtain ⟨e1, e2, e3, e4, e5⟩ := hok.facts
          have hgood : (Got.odd (errorT E "Adextopa 'version' attribute must be a valid integer number".toList t'.matched)).Good E ("<!--[adextopa".toList ++ w1) := by
            refine ⟨rfl, ?_, ?_, ?_, rfl⟩
            · exact e1
            · exact Nat.le_of_lt e2
            · show t'.matched.stop ≤ _
              omega
          refine ⟨_, .map h1 (calls_error (r := t'.matched) (t := t) hE (fun _ _ _ h => .odd h) hgood (by omega) (by omega) ?_) rfl, hgood,
            .odd (w' := v1) rfl rfl p1 (p2.trans (b1.suffix.trans (List.suffix_append ..))) fun t'' t1 t2 =>
              Or.inr (Or.inr ⟨_, rfl, t1, t2, Or.inr ⟨v2, p3, barred_attrs p4⟩⟩)⟩
          intro c sc s i k hc hk hi hp hch
          rw [hkids] at hch
          obtain ⟨ver, h1, h1'⟩ := hrun hk hi hch
          obtain ⟨j, rfl, hj⟩ := h1' t' rfl
          refine ⟨s.put i { k with attributes := attrMap as [] }, fun s' h2 => ?_, put_len, fun hS => hS.put hk hp.kind⟩
          unfold Script.adextopaScopeDone
          rw [bind_run h1, bind_run (getTok_ok.mpr ⟨put_get hk, rfl⟩)]
          unfold Token.getAttribute
          dsimp only
          rw [hv]
          dsimp only
          rw [hu]
          dsimp only
          obtain ⟨kj, -, hkj, -, hij, -⟩ := (hkeep (k' := { k with attributes := attrMap as [] }) hk (Nat.lt_succ_self _) hj).root
          rw [bind_run (ofOpt_ok.mpr ⟨rfl, rfl⟩), bind_run (getTok_ok.mpr ⟨hkj, rfl⟩), show kj.matched = t'.matched from congrArg Info.matched hij,
            bind_run h2]
          rfl
      | some z =>
        have hgood : (Got.tok w' (.node { (nodeT E "AdextopaScope".toList ("<!--[adextopa".toList ++ w1) w' (l ++ l')).info with
            value := none, attributes := attrMap as [] } (l ++ l'))).Good E ("<!--[adextopa".toList ++ w1) := by
          refine ⟨g1, g2, ?_⟩
          cases g3 with
          | node h1 h2 h3 h4 h5 => exact .node h1 h2 h3 h4 h5
        refine ⟨_, .map h1 (Calls.retag (v := none) (as := attrMap as []) g1 g2 (toList_ne (by decide)) ?_) rfl, hgood,
          .tok (Or.inr (Or.inl ⟨_, rfl, rfl, rfl, ?_⟩))⟩
        · intro c sc s i k _ hk hi hp hch
          obtain ⟨ver, h1, -⟩ := hrun hk hi hch
          unfold Script.adextopaScopeDone
          rw [bind_run h1, bind_run (getTok_ok.mpr ⟨put_get hk, rfl⟩)]
          unfold Token.getAttribute
          dsimp only
          rw [hv]
          dsimp only
          rw [hu, show k.value = none from congrArg Info.value hi]
          rfl
        · rw [purge_node]
          have hpu : purges (l ++ l') = purges l ++ purges l' := purges_append
          have hq : Told E env (purges l ++ purges l') (fun gs ss nm => gs = [] ∧ nm = none ∧ Lax.Statements env w3 ss w' ∧
              ∀ v, Gap w3 ("-->".toList ++ v) → w3 = "-->".toList ++ v) := by
            have h7 : Told E env (purges l') (fun gs ss nm => gs = [] ∧ nm = none ∧ Lax.Statements env w3 ss w' ∧
                ∀ v, Gap w3 ("-->".toList ++ v) → w3 = "-->".toList ++ v) := by
              rcases b4 with ⟨rfl, hw5⟩ | ⟨c, ks, rfl, hne, c1, -, c2, c3⟩
              · rw [purges_nil]
                refine (Told.quiet (E := E) (env := env) (ts := []) (fun _ h => by cases h)).mono ?_
                rintro gs ss nm ⟨rfl, rfl, rfl⟩
                have hg : Gap w3 w3 := ⟨[], rfl, (fun _ h => by cases h), fun c hc => by
                  rw [← hw5] at hc
                  cases hc
                  decide⟩
                refine ⟨rfl, rfl, .done (hw5 ▸ hg), fun v hv => hg.unique hv⟩
              · rw [purges_cons rfl, purges_nil]
                unfold blockT
                rw [purge_node]
                refine (Told.over (n := "Scope") rfl (by decide) c3).mono ?_
                rintro gs ss nm ⟨rfl, rfl, h⟩
                refine ⟨rfl, rfl, h _ rfl, fun v hv => ?_⟩
                obtain ⟨x, x1, x2⟩ := c2 hne
                have := x1.unique hv
                subst this
                exact (x2 rfl).elim
            have hqa : ∀ t ∈ purges l, Quiet t := by
              rcases b3 with ⟨-, rfl⟩ | ⟨ts, c, rfl, d1, -⟩
              · rw [purges_nil]
                exact fun _ h => by cases h
              · rw [purges_cons rfl, purges_nil]
                intro t ht
                rw [List.mem_singleton.mp ht]
                unfold blockT
                rw [purge_node]
                exact .node (Cold.names (n := "Attributes") (by decide)) d1.purge.quiet
            refine Told.append (Told.quiet hqa) h7 ?_
            rintro _ _ _ gs ss nm ⟨rfl, rfl, rfl⟩ ⟨rfl, rfl, h⟩
            exact ⟨rfl, rfl, h⟩
          show Told E env [Tr.node _ (purges (l ++ l'))] _
          rw [hpu]
          refine Told.root (nm0 := Syntax.attrOf as "name") (R := fun gs ss => gs = [] ∧ ss = []) (fun toks lo i hi gs ss hs => ?_) (fun toks lo i hi => ?_) hq ?_
          · obtain ⟨k, hk, hkn⟩ := desc_name (n := "AdextopaScope".toList) rfl _ _ _ hi
            refine hs.unique (ItemSays.nothing hk ?_ ?_ ?_ ?_) <;> rw [hkn] <;> exact toList_ne (by decide)
          · obtain ⟨k, -, hk, -, hinf, -⟩ := hi.root
            refine ⟨k, hk, Or.inl ⟨congrArg Info.name hinf, ?_⟩⟩
            unfold Token.getAttribute
            have : k.attributes = attrMap as [] := congrArg Info.attributes hinf
            rw [this, hget]
          · rintro _ _ gs ss nm ⟨rfl, rfl⟩ ⟨rfl, rfl, h8, h9⟩
            exact ⟨rfl, .mk b1 b2 ((hget "version") ▸ hv) (version_of hu) h8 h9⟩

end

end Adx.Read
