import Verif.Proofs.ScriptRegex
/-
  Definitions `<..>` in scripts, given their matcher.
-/
namespace Adx.Read

open Syntax (Munch Gap Identifier Quoted Attr AttrList Repeat Mod)
open B

section
variable {E : Setting} {K : Option Nat} {w rest : Str} {uni : Uni}

/-! ### Finding children -/

theorem findLoop_none {s : State} {lo : Nat} {l : List TokId} {trees : List Tr} {n : Str} (h : Reps E s.toks lo l trees)
    (hn : ∀ t ∈ trees, t.name ≠ n) : findLoop (· == n) l s = .ok none s := by
  generalize hS : s.toks = S at h
  induction h with
  | nil => rfl
  | @cons lo t k ts cs trees hl hk hp hc hr _ ih =>
    unfold findLoop
    rw [← hS] at hk
    rw [bind_run (getTok_ok.mpr ⟨hk, rfl⟩), if_neg (by
      have : k.name ≠ n := hn _ (List.mem_cons_self ..)
      simpa using this)]
    exact ih fun t ht => hn t (List.mem_cons_of_mem _ ht)

theorem findLoop_first {s : State} {lo : Nat} {l : List TokId} {pre post : List Tr} {t : Tr} {n : Str}
    (h : Reps E s.toks lo l (pre ++ t :: post)) (hn : ∀ t ∈ pre, t.name ≠ n) (ht : t.name = n) :
    ∃ i, findLoop (· == n) l s = .ok (some i) s ∧ Reps E s.toks lo [i] [t] := by
  induction pre generalizing l with
  | nil =>
    cases h with
    | @cons _ i k ts cs trees hl hk hp hc hr =>
      refine ⟨i, ?_, .cons hl hk hp hc .nil⟩
      unfold findLoop
      rw [bind_run (getTok_ok.mpr ⟨hk, rfl⟩), if_pos (by
        have : k.name = n := ht
        simpa using this)]
      rfl
  | cons t' pre ih =>
    cases h with
    | @cons _ i k ts cs trees hl hk hp hc hr =>
      obtain ⟨j, h1, h2⟩ := ih hr fun t ht => hn t (List.mem_cons_of_mem _ ht)
      refine ⟨j, ?_, h2⟩
      unfold findLoop
      rw [bind_run (getTok_ok.mpr ⟨hk, rfl⟩), if_neg (by
        have : k.name ≠ n := hn _ (List.mem_cons_self ..)
        simpa using this)]
      exact h1

theorem findChild_none {s : State} {lo : Nat} {k : Token} {trees : List Tr} {n : Str} (h : Reps E s.toks lo k.children trees)
    (hn : ∀ t ∈ trees, t.name ≠ n) : k.findChild n s = .ok none s := by
  unfold Token.findChild
  split
  · rfl
  · exact findLoop_none h hn

theorem findChild_first {s : State} {lo : Nat} {k : Token} {pre post : List Tr} {t : Tr} {n : Str}
    (h : Reps E s.toks lo k.children (pre ++ t :: post)) (hn : ∀ t ∈ pre, t.name ≠ n) (ht : t.name = n) :
    ∃ i, k.findChild n s = .ok (some i) s ∧ Reps E s.toks lo [i] [t] := by
  unfold Token.findChild
  rw [if_neg (by
    intro h0
    rw [List.length_eq_zero_iff] at h0
    rw [h0] at h
    have := h.nil_iff.mp rfl
    simp at this)]
  exact findLoop_first h hn ht

/-! ### Copying attributes -/

theorem put_same {s : State} {i : TokId} {k : Token} (hk : s.toks[i]? = some k) : s.put i k = s := by
  show (⟨s.toks.set i k, s.scopes, s.sctxs⟩ : State) = s
  obtain ⟨h, rfl⟩ := List.getElem?_eq_some_iff.mp hk
  rw [List.set_getElem_self]

/-- Changes below do not matter. -/
theorem Reps.beneath {s : State} {i : TokId} {k' : Token} {l : List TokId} {trees : List Tr} {lo : Nat} (hlo : i < lo)
    (h : Reps E s.toks lo l trees) : Reps E (s.put i k').toks lo l trees := by
  refine h.change fun j k hj hk => ⟨k.parent, ?_⟩
  show (s.toks.set i _)[j]? = _
  rw [List.getElem?_set_ne (Nat.ne_of_lt (Nat.lt_of_lt_of_le hlo hj)), hk]

/-- Attributes as they end up on the token. -/
def attrMap (as : List Attr) (m : AMap Str) : AMap Str := as.foldl (fun m a => m.insert a.name a.val) m

theorem copy_attrs {ts : List Tr} {as : List Attr} (h : AttrTs E ts as) :
    ∀ {l : List TokId} {s : State} {i : TokId} {k : Token} (ver : Option TokId) {lo : Nat} (_ : i < lo), Reps E s.toks lo l ts →
      s.toks[i]? = some k →
      ∃ ver', Script.copyAttributes i l ver s = .ok ver' (s.put i { k with attributes := attrMap as k.attributes }) := by
  induction h with
  | nil =>
    intro l s i k ver lo hlo hr hk
    cases hr
    refine ⟨ver, ?_⟩
    have : s.put i { k with attributes := attrMap [] k.attributes } = s := put_same hk
    rw [this]
    rfl
  | @cons t ts a as ht h ih =>
    intro l s i k ver lo hlo hr hk
    obtain ⟨inf, n, v, rfl, -, hn, hv⟩ := ht
    cases hr with
    | @cons _ j jk l' cs trees hl hjk hp hc hr =>
      obtain ⟨a1, b1, b2⟩ := hc.get (j := 0) rfl
      obtain ⟨a2, b3, b4⟩ := hc.get (j := 1) rfl
      obtain ⟨nk, c1, -, c2⟩ := hn _ _ _ b2
      obtain ⟨vk, c3, -, c4⟩ := hv _ _ _ b4
      obtain ⟨ver', hih⟩ := ih (l := l') (s := s.put i { k with attributes := k.attributes.insert a.name a.val })
        (k := { k with attributes := k.attributes.insert a.name a.val })
        (if a.name = "version".toList then some j else ver) hlo (hr.beneath hlo) (put_get hk)
      refine ⟨ver', ?_⟩
      unfold Script.copyAttributes
      rw [bind_run (getTok_ok.mpr ⟨hjk, rfl⟩), bind_run (ofOpt_ok.mpr ⟨b1, rfl⟩), bind_run (ofOpt_ok.mpr ⟨b3, rfl⟩),
        bind_run (getTok_ok.mpr ⟨c1, rfl⟩), bind_run (getTok_ok.mpr ⟨c3, rfl⟩), c2, c4]
      have e : modTok i (fun x => x.setAttribute a.name a.val) s
          = .ok () (s.put i { k with attributes := k.attributes.insert a.name a.val }) :=
        modTok_ok.mpr ⟨k, hk, rfl⟩
      rw [bind_run e, hih, put_put]
      rfl

/-- Names of trees. -/
def InNames (ts : List Tr) (ns : List String) : Prop := ∀ t ∈ ts, ∃ n ∈ ns, t.name = n.toList

theorem InNames.apart {ts : List Tr} {ns ms : List String} (h : InNames ts ns) (hd : ∀ a ∈ ns, ∀ b ∈ ms, a ≠ b := by decide) :
    ∀ t ∈ ts, ∀ n ∈ ms, t.name ≠ n.toList := by
  intro t ht n hn
  obtain ⟨a, ha, he⟩ := h t ht
  rw [he]
  exact toList_ne (hd a ha n hn)

theorem InNames.nil {ns : List String} : InNames [] ns := fun _ h => by cases h

theorem InNames.one {t : Tr} {n : String} {ns : List String} (hn : n ∈ ns) (ht : t.name = n.toList) : InNames [t] ns := by
  intro t' h
  rw [List.mem_singleton.mp h]
  exact ⟨n, hn, ht⟩

theorem InNames.mono {ts : List Tr} {ns ms : List String} (h : InNames ts ns) (hs : ∀ n ∈ ns, n ∈ ms) : InNames ts ms := by
  intro t ht
  obtain ⟨n, hn, he⟩ := h t ht
  exact ⟨n, hs n hn, he⟩

theorem InNames.append {ts ts' : List Tr} {ns ns' : List String} (h : InNames ts ns) (h' : InNames ts' ns') :
    InNames (ts ++ ts') (ns ++ ns') := by
  intro t ht
  rcases List.mem_append.mp ht with ht | ht
  · obtain ⟨n, hn, he⟩ := h t ht
    exact ⟨n, List.mem_append_left _ hn, he⟩
  · obtain ⟨n, hn, he⟩ := h' t ht
    exact ⟨n, List.mem_append_right _ hn, he⟩

theorem Reps.present {toks : List Token} {E : Setting} {lo : Nat} {l : List TokId} {trees : List Tr} {t : Tr} {n : String}
    (h : Reps E toks lo l trees) (ht : t ∈ trees) (hn : t.name = n.toList) : ¬ Absent toks [n] l := by
  obtain ⟨j, hj⟩ := List.mem_iff_getElem?.mp ht
  obtain ⟨i, h1, h2⟩ := h.get hj
  intro ha
  refine ha i (List.mem_iff_getElem?.mpr ⟨j, h1⟩) n (List.mem_singleton.mpr rfl) ?_
  rw [h2.name_at, hn]

/-! ### Modifiers -/

/-- The tokens of a modifier. -/
inductive ModTs (n1 n2 : String) : Mod → List Tr → Prop
  | none : ModTs n1 n2 .none []
  | opt {t : Tr} (hn : t.name = n1.toList) (hq : Quiet t) : ModTs n1 n2 .opt [t]
  | not {t : Tr} (hn : t.name = n2.toList) (hq : Quiet t) : ModTs n1 n2 .not [t]

theorem ModTs.names {n1 n2 : String} {m : Mod} {ts : List Tr} (h : ModTs n1 n2 m ts) : InNames ts [n1, n2] := by
  cases h with
  | none => exact .nil
  | opt h => exact .one (by simp) h
  | not h => exact .one (by simp) h

theorem ModTs.quiet {n1 n2 : String} {m : Mod} {ts : List Tr} (h : ModTs n1 n2 m ts) : ∀ t ∈ ts, Quiet t := by
  cases h with
  | none => intro _ h; cases h
  | opt _ h => intro t ht; rw [List.mem_singleton.mp ht]; exact h
  | not _ h => intro t ht; rw [List.mem_singleton.mp ht]; exact h

theorem reads_modifier {n1 n2 : String} {m : Mod} (f1 : Free n1) (f2 : Free n2) (c1 : Cold n1) (c2 : Cold n2)
    (h : m = .none → ∀ c, w.head? = some c → c ≠ '?' ∧ c ≠ '!') :
    ∃ ts, ModTs n1 n2 m ts ∧ Part E K K (optional (switch [equalsN n1 "?", equalsN n2 "!"])) (m.text ++ w) w ts := by
  cases m with
  | none =>
    have h' := h rfl
    refine ⟨[], .none, .past (.optional (g := .fail) (.switch ?_))⟩
    exact .next (.equalsN_fail (l := ['?']) (head_prefix fun hh => (h' _ hh).1 rfl) f1) <|
      .next (.equalsN_fail (l := ['!']) (head_prefix fun hh => (h' _ hh).2 rfl) f2) .nil
  | opt =>
    exact ⟨_, .opt rfl (quiet_leaf c1), .tok (.optional (g := .tok _ _) (.switch (.here (.equalsN (l := ['?']) f1) trivial)))⟩
  | not =>
    exact ⟨_, .not rfl (quiet_leaf c2), .tok (.optional (g := .tok _ _) (.switch
      (.next (.equalsN_fail (l := ['?']) (head_prefix (head_ne (by decide))) f1) <| .here (.equalsN (l := ['!']) f2) trivial)))⟩

/-- Modifiers say what they should. -/
theorem ModTs.desc {n1 n2 : String} {m : Mod} {pre ts post : List Tr} (h : ModTs n1 n2 m ts) (hne : n1 ≠ n2)
    (h1 : ∀ t ∈ pre ++ post, ∀ n ∈ [n1, n2], t.name ≠ n.toList) {toks : List Token} {lo : Nat} {l : List TokId}
    (hr : Reps E toks lo l (pre ++ (ts ++ post))) (g : Gram) :
    ∃ (opt neg : Prop) (_ : Decidable opt) (_ : Decidable neg), (opt ↔ ¬ Absent toks [n1] l) ∧ (neg ↔ ¬ Absent toks [n2] l) ∧
      g.modified opt neg = m.wrap g := by
  have hab : ∀ n ∈ [n1, n2], (∀ t ∈ ts, t.name ≠ n.toList) → Absent toks [n] l := by
    intro n hn hts
    refine hr.absent fun t ht n' hn' => ?_
    rw [List.mem_singleton.mp hn']
    rcases List.mem_append.mp ht with ht | ht
    · exact h1 t (List.mem_append_left _ ht) n hn
    · rcases List.mem_append.mp ht with ht | ht
      · exact hts t ht
      · exact h1 t (List.mem_append_right _ ht) n hn
  cases h with
  | none =>
    refine ⟨False, False, inferInstance, inferInstance, ?_, ?_, rfl⟩
    · exact ⟨False.elim, fun h => h (hab n1 (by simp) (fun _ h => by cases h))⟩
    · exact ⟨False.elim, fun h => h (hab n2 (by simp) (fun _ h => by cases h))⟩
  | @opt t hn hq =>
    refine ⟨True, False, inferInstance, inferInstance, ?_, ?_, rfl⟩
    · exact ⟨fun _ => hr.present (t := t) (by simp) hn, fun _ => trivial⟩
    · refine ⟨False.elim, fun h => h (hab n2 (by simp) fun t' ht' => ?_)⟩
      rw [List.mem_singleton.mp ht', hn]
      exact toList_ne hne
  | @not t hn hq =>
    refine ⟨False, True, inferInstance, inferInstance, ?_, ?_, rfl⟩
    · refine ⟨False.elim, fun h => h (hab n1 (by simp) fun t' ht' => ?_)⟩
      rw [List.mem_singleton.mp ht', hn]
      exact toList_ne hne.symm
    · exact ⟨fun _ => hr.present (t := t) (by simp) hn, fun _ => trivial⟩

/-! ### The two other optional parts -/

theorem part_repeat {r : Option (Nat × Nat)} (h : Repeat w r rest) (hw : E.Has w) :
    ∃ ts, Part E K K (optional (Script.repeatSpecifier uni)) w rest ts ∧ (∀ t ∈ ts, Quiet t) ∧ InNames ts repeatSpecifierNames ∧
      ((r = none ∧ ts = []) ∨ ∃ lo hi t, r = some (lo, hi) ∧ ts = [t] ∧ Desc E t fun toks i => Repeats toks i lo hi) := by
  rcases reads_repeat (K := K) (uni := uni) h hw with ⟨h1, rfl, h2⟩ | ⟨lo, hi, t, h1, h2, h3, h4, h5⟩
  · exact ⟨[], .past h2, (fun _ h => by cases h), .nil, Or.inl ⟨h1, rfl⟩⟩
  · refine ⟨[t], .tok h2, ?_, ?_, Or.inr ⟨lo, hi, t, h1, rfl, h5⟩⟩
    · intro t' ht
      rw [List.mem_singleton.mp ht]
      exact h3
    · obtain ⟨n, h6, h7⟩ := h4
      exact .one h6 h7

/-- The tokens of a list of attributes. -/
inductive AttrSeg (E : Setting) : List Attr → List Tr → Prop
  | none : AttrSeg E [] []
  | some {as : List Attr} {w rest : Str} {ts : List Tr} (hne : as ≠ []) (h : AttrTs E ts as) :
      AttrSeg E as [nodeT E "Attributes".toList w rest ts]

theorem AttrSeg.names {as : List Attr} {ts : List Tr} (h : AttrSeg E as ts) : InNames ts ["Attributes"] := by
  cases h with
  | none => exact .nil
  | some _ h => exact .one (List.mem_singleton.mpr rfl) rfl

theorem AttrSeg.quiet {as : List Attr} {ts : List Tr} (h : AttrSeg E as ts) : ∀ t ∈ ts, Quiet t := by
  cases h with
  | none => intro _ h; cases h
  | some _ h =>
    intro t ht
    rw [List.mem_singleton.mp ht]
    exact quiet_node h.quiet

theorem part_attributes {as : List Attr} (h : AttrList w as rest) (hw : E.Has w) :
    ∃ ts, AttrSeg E as ts ∧ Part E none none (Script.attributes uni) w rest ts := by
  rcases reads_attributes (uni := uni) h hw with ⟨rfl, rfl, h1⟩ | ⟨ts, h1, h2, h3⟩
  · exact ⟨[], .none, .past h1⟩
  · exact ⟨_, .some h1 h2, .tok h3⟩

/-- The callbacks copy attributes. -/
theorem copy_all {as : List Attr} {pre seg post : List Tr} (hseg : AttrSeg E as seg) (hpre : ∀ t ∈ pre ++ post, t.name ≠ "Attributes".toList)
    {s : State} {i : TokId} {k : Token} (hk : s.toks[i]? = some k) (hr : Reps E s.toks (i + 1) k.children (pre ++ (seg ++ post))) :
    ∃ ver, Script.copyAllAttributes i s = .ok ver (s.put i { k with attributes := attrMap as k.attributes }) := by
  unfold Script.copyAllAttributes
  rw [bind_run (getTok_ok.mpr ⟨hk, rfl⟩)]
  cases hseg with
  | none =>
    rw [bind_run (findChild_none hr hpre)]
    refine ⟨none, ?_⟩
    have : s.put i { k with attributes := attrMap [] k.attributes } = s := put_same hk
    rw [this]
    rfl
  | some hne h =>
    obtain ⟨j, h1, h2⟩ := findChild_first hr (fun t ht => hpre t (List.mem_append_left _ ht)) rfl
    rw [bind_run h1]
    obtain ⟨jk, h3, -, -, h4, -⟩ := h2.node
    have hij : i < j + 1 := by
      obtain ⟨_, hl, -⟩ := h2.root
      exact Nat.lt_succ_of_lt hl
    obtain ⟨ver, h5⟩ := copy_attrs h none hij h4 hk
    refine ⟨ver, ?_⟩
    show (getTok j >>= fun ak => Script.copyAttributes i ak.children none) s = _
    rw [bind_run (getTok_ok.mpr ⟨h3, rfl⟩), h5]

/-- The attributes of a definition. -/
theorem attrs_desc {ts : List Tr} {as : List Attr} (h : AttrTs E ts as) {toks : List Token} :
    ∀ {lo : Nat} {l : List TokId} (m : AMap Str), Reps E toks lo l ts →
      Attrs toks l m (as.foldl (fun m a => m.insert a.name a.raw) m) := by
  induction h with
  | nil =>
    intro lo l m hr
    cases hr
    exact .nil
  | @cons t ts a as ht h ih =>
    intro lo l m hr
    obtain ⟨inf, n, v, rfl, -, hn, hv⟩ := ht
    cases hr with
    | @cons _ j jk l' cs trees hl hjk hp hc hr =>
      obtain ⟨a1, b1, b2⟩ := hc.get (j := 0) rfl
      obtain ⟨a2, b3, b4⟩ := hc.get (j := 1) rfl
      obtain ⟨nk, c1, c2, -⟩ := hn _ _ _ b2
      obtain ⟨vk, c3, c4, -⟩ := hv _ _ _ b4
      refine .cons hjk b1 c1 b3 c3 ?_
      rw [c2, c4]
      exact ih _ hr

theorem AttrSeg.desc {as : List Attr} {pre seg post : List Tr} (h : AttrSeg E as seg)
    (hpre : ∀ t ∈ pre ++ post, ∀ n ∈ ["Attributes"], t.name ≠ n.toList) {toks : List Token} {lo : Nat} {l : List TokId}
    (hr : Reps E toks lo l (pre ++ (seg ++ post))) (g : Gram) : WithAttrs toks l g (Syntax.attributed as g) := by
  cases h with
  | none => exact .none (hr.absent hpre)
  | @some _ _ _ ts hne h =>
    unfold Syntax.attributed
    rw [if_neg hne]
    obtain ⟨j, h1, h2⟩ := hr.first (fun t ht => hpre t (List.mem_append_left _ ht)) ⟨"Attributes", List.mem_singleton.mpr rfl, rfl⟩
    obtain ⟨jk, h3, -, -, h4, -⟩ := h2.node
    refine .some h1 h3 ?_ (attrs_desc h [] h4)
    intro h0
    rw [h0] at h4
    exact hne (h.nil_iff.mp (h4.nil_iff.mp rfl))

/-! ### Definitions -/

/-- What is known of a text that a matcher reads. -/
structure MatcherRead (E : Setting) (env : Env) (w : Str) (g : Gram) (rest : Str) : Prop where
  sfx : rest <:+ w
  lt : blen rest < blen w
  head : ∃ c, w.head? = some c ∧ (c = '=' ∨ c = '/' ∨ c = '%' ∨ c = '[' ∨ c = '{' ∨ Syntax.idStart c = true)
  reads : E.Has w → ∃ t, BReads E none none Script.matcher w (.tok rest t) ∧ (∃ n ∈ patternMatcherNames, t.name = n.toList) ∧ Quiet t ∧
    Desc E t fun toks i => DescribesMatcher env toks i g

/-- What is known of a text that a definition reads. -/
structure DefinitionRead (E : Setting) (uni : Uni) (env : Env) (name w : Str) (g : Gram) (rest : Str) : Prop where
  sfx : rest <:+ w
  lt : blen rest < blen w
  head : (∃ w', w = '<' :: w') ∨ (∃ w', w = '?' :: '<' :: w') ∨ ∃ w', w = '!' :: '<' :: w'
  reads : E.Has w → ∃ t, BReads E none none (Script.patternDefinition uni) w (.tok rest t) ∧ t.name = "PatternDefinition".toList ∧
    t.matched = ⟨E.at_ w, E.at_ rest⟩ ∧ Quiet t ∧ Desc E t fun toks i => DescribesDefinition env toks i name g

theorem matcher_head {env : Env} {g : Gram} {w1 w2 : Str} (h1 : Gap w1 w2) (h2 : MatcherRead E env w2 g rest) :
    ∀ c, w1.head? = some c → c ≠ '?' ∧ c ≠ '!' := by
  intro c hc
  obtain ⟨u, hu⟩ := h1
  have hs := hu.split
  cases u with
  | nil =>
    obtain ⟨d, h3, h4⟩ := h2.head
    rw [hs, List.nil_append, h3] at hc
    cases hc
    rcases h4 with rfl | rfl | rfl | rfl | rfl | h4 <;> try decide
    constructor
    · rintro rfl
      exact absurd h4 (by decide)
    · rintro rfl
      exact absurd h4 (by decide)
  | cons d u =>
    have := hu.all d (List.mem_cons_self ..)
    rw [hs] at hc
    cases hc
    constructor
    · rintro rfl
      exact absurd this (by decide)
    · rintro rfl
      exact absurd this (by decide)

theorem not_both {m : Mod} (h : ∀ c, w.head? = some c → c ≠ '?' ∧ c ≠ '!') : ¬ ['?', '!'] <+: m.text ++ w ∧ ¬ ['!', '?'] <+: m.text ++ w := by
  have key : ∀ (a b : Char), (a = '?' ∨ a = '!') → (b = '?' ∨ b = '!') → a ≠ b → ¬ [a, b] <+: m.text ++ w := by
    rintro a b ha hb hab ⟨v, hv⟩
    cases m with
    | none =>
      obtain ⟨h1, h2⟩ := h a (by
        show w.head? = _
        have : w = a :: b :: v := hv.symm
        rw [this]
        rfl)
      rcases ha with rfl | rfl
      · exact h1 rfl
      · exact h2 rfl
    | opt =>
      have hv' : a :: b :: v = '?' :: w := hv
      obtain ⟨h1, h2⟩ := h b (by
        rw [← (List.cons.inj hv').2]
        rfl)
      rcases hb with rfl | rfl
      · exact h1 rfl
      · exact h2 rfl
    | not =>
      have hv' : a :: b :: v = '!' :: w := hv
      obtain ⟨h1, h2⟩ := h b (by
        rw [← (List.cons.inj hv').2]
        rfl)
      rcases hb with rfl | rfl
      · exact h1 rfl
      · exact h2 rfl
  exact ⟨key _ _ (by simp) (by simp) (by decide), key _ _ (by simp) (by simp) (by decide)⟩

theorem definitionRead {env : Env} {name w1 w2 w3 w4 w5 : Str} {outer inner : Mod} {g : Gram} {as : List Attr} {r : Option (Nat × Nat)}
    (h1 : Gap w1 w2) (h2 : MatcherRead E env w2 g w3) (h3 : Gap w3 w4) (h4 : AttrList w4 as ('>' :: w5)) (h5 : Repeat w5 r rest) :
    DefinitionRead E uni env name (outer.text ++ '<' :: (inner.text ++ w1))
      (outer.wrap (Syntax.repeated r (inner.wrap (Syntax.attributed as (g.called name))))) rest := by
  have s5 : rest <:+ w4 := h5.suffix.trans ((List.suffix_cons ..).trans h4.suffix)
  have s3 : rest <:+ w3 := s5.trans h3.suffix
  have s1 : rest <:+ inner.text ++ w1 := ((s3.trans h2.sfx).trans h1.suffix).trans (List.suffix_append ..)
  have s0 : rest <:+ '<' :: (inner.text ++ w1) := adv s1 _
  have sw : rest <:+ outer.text ++ '<' :: (inner.text ++ w1) := s0.trans (List.suffix_append ..)
  refine ⟨sw, ?_, ?_, ?_⟩
  · have a1 := suffix_blen s1
    have a2 := suffix_blen (List.suffix_append outer.text ('<' :: (inner.text ++ w1)))
    have a3 := blen_lt (List.suffix_cons '<' (inner.text ++ w1)) (by
      intro h
      have := congrArg List.length h
      rw [List.length_cons] at this
      omega)
    omega
  · cases outer with
    | none => exact Or.inl ⟨_, rfl⟩
    | opt => exact Or.inr (Or.inl ⟨_, rfl⟩)
    | not => exact Or.inr (Or.inr ⟨_, rfl⟩)
  · intro hw
    have hwi : E.Has w1 := hw.tail (((List.suffix_append ..).trans (List.suffix_cons ..)).trans (List.suffix_append ..))
    have hw2 : E.Has w2 := hwi.tail h1.suffix
    have hw4 : E.Has w4 := hw2.tail (h3.suffix.trans h2.sfx)
    have hw5 : E.Has w5 := hw4.tail ((List.suffix_cons ..).trans h4.suffix)
    have hh := matcher_head h1 h2
    have hlt : ∀ c, ('<' :: (inner.text ++ w1)).head? = some c → c ≠ '?' ∧ c ≠ '!' := by
      intro c hc
      cases hc
      decide
    obtain ⟨b1, b2⟩ := not_both (m := outer) hlt
    obtain ⟨b3, b4⟩ := not_both (m := inner) hh
    obtain ⟨ts1, c1, c2⟩ := reads_modifier (E := E) (K := none) (n1 := "OuterOptionalModifier") (n2 := "OuterNotModifier") (m := outer)
      (by decide) (by decide) (by decide) (by decide) (fun _ => hlt)
    obtain ⟨ts2, d1, d2⟩ := reads_modifier (E := E) (K := none) (n1 := "InnerOptionalModifier") (n2 := "InnerNotModifier") (m := inner)
      (by decide) (by decide) (by decide) (by decide) (fun _ => hh)
    obtain ⟨m, m1, m2, m3, m4⟩ := h2.reads hw2
    obtain ⟨ts3, e1, e2⟩ := part_attributes (uni := uni) h4 hw4
    obtain ⟨ts4, f1, f2, f3, f4⟩ := part_repeat (K := none) (uni := uni) h5 hw5
    have hN1 := c1.names
    have hN2 := d1.names
    have hNm : InNames [m] patternMatcherNames := by
      obtain ⟨n, h6, h7⟩ := m2
      exact .one h6 h7
    have hN3 := e1.names
    -- reading
    have hread : BReads E none none (programN "PatternDefinition" [
        assertIf (regex Script.rxBothModifiers) Script.bothModifiersMsg,
        optional (switch [equalsN "OuterOptionalModifier" "?", equalsN "OuterNotModifier" "!"]),
        discard (equals "<"),
        assertIf (regex Script.rxBothModifiers) Script.bothModifiersMsg,
        optional (switch [equalsN "InnerOptionalModifier" "?", equalsN "InnerNotModifier" "!"]),
        Script.wsn0,
        Script.matcher,
        Script.wsn0,
        Script.attributes uni,
        discard (equals ">"),
        optional (Script.repeatSpecifier uni)]) (outer.text ++ '<' :: (inner.text ++ w1))
        (.tok rest (nodeT E "PatternDefinition".toList (outer.text ++ '<' :: (inner.text ++ w1)) rest
          (ts1 ++ (ts2 ++ (m :: (ts3 ++ (ts4 ++ []))))))) := by
      refine Parts.programN ?_ (by simp) sw
      exact .past (reads_modifiers b1 b2) <| .cons c2 <| .past reads_char <| .past (reads_modifiers b3 b4) <| .cons d2 <|
        .past (reads_gap h1) <| .tok m1 <| .past (reads_gap h3) <| .cons e2 <| .past reads_char <| .cons f1 .nil
    refine ⟨_, .map (g := .tok rest _) hread (Calls.retag (v := none) (as := attrMap as []) sw rfl (toList_ne (by decide)) ?_) (by trivial), rfl, rfl, ?_, ?_⟩
    · intro c sc s i k _ hk hi hp hch
      have hch' : Reps E s.toks (i + 1) k.children ((ts1 ++ (ts2 ++ [m])) ++ (ts3 ++ ts4)) := by
        have hch' : Reps E s.toks (i + 1) k.children (ts1 ++ (ts2 ++ (m :: (ts3 ++ (ts4 ++ []))))) := hch
        simpa using hch'
      have ha : k.attributes = [] := congrArg Info.attributes hi
      have hv : k.value = none := congrArg Info.value hi
      obtain ⟨ver, h6⟩ := copy_all e1 (by
        have := InNames.apart (ms := ["Attributes"]) ((hN1.append (hN2.append hNm)).append f3)
        exact fun t ht => this t ht _ (List.mem_singleton.mpr rfl)) hk hch'
      unfold Script.patternDefinitionDone
      rw [bind_run h6, ha, ← hv]
      rfl
    · refine .node (Cold.names (n := "PatternDefinition") (by decide)) ?_
      intro t ht
      have ht : t ∈ ts1 ++ (ts2 ++ (m :: (ts3 ++ (ts4 ++ [])))) := ht
      simp only [List.mem_append, List.mem_cons, List.not_mem_nil, or_false] at ht
      rcases ht with ht | ht | rfl | ht | ht
      · exact c1.quiet t ht
      · exact d1.quiet t ht
      · exact m3
      · exact e1.quiet t ht
      · exact f2 t ht
    · intro toks lo i hi
      obtain ⟨k, -, hk, hp, hinf, hch⟩ := hi.root
      have hch0 : Reps E toks (i + 1) k.children (ts1 ++ (ts2 ++ (m :: (ts3 ++ (ts4 ++ []))))) := hch
      rw [List.append_nil] at hch0
      have hchm : Reps E toks (i + 1) k.children ((ts1 ++ ts2) ++ m :: (ts3 ++ ts4)) := by simpa using hch0
      have hcha : Reps E toks (i + 1) k.children ((ts1 ++ (ts2 ++ [m])) ++ (ts3 ++ ts4)) := by simpa using hch0
      have hcho : Reps E toks (i + 1) k.children ([] ++ (ts1 ++ (ts2 ++ ([m] ++ (ts3 ++ ts4))))) := by simpa using hch0
      have hchi : Reps E toks (i + 1) k.children (ts1 ++ (ts2 ++ ([m] ++ (ts3 ++ ts4)))) := by simpa using hch0
      have hchr : Reps E toks (i + 1) k.children ((ts1 ++ (ts2 ++ ([m] ++ ts3))) ++ ts4) := by simpa using hch0
      obtain ⟨j, j1, j2⟩ := hchm.first (names := patternMatcherNames) (InNames.apart (hN1.append hN2)) m2
      have hA := e1.desc (InNames.apart ((hN1.append (hN2.append hNm)).append f3)) hcha (g.called name)
      obtain ⟨o1, o2, o3, o4, o5, o6, o7⟩ := d1.desc (by decide) (InNames.apart (hN1.append (hNm.append (hN3.append f3)))) hchi
        (Syntax.attributed as (g.called name))
      have hR : WithRepeat toks k.children (inner.wrap (Syntax.attributed as (g.called name)))
          (Syntax.repeated r (inner.wrap (Syntax.attributed as (g.called name)))) := by
        rcases f4 with ⟨rfl, rfl⟩ | ⟨lo, hi, t, rfl, rfl, f5⟩
        · refine .none (hchr.absent ?_)
          rw [List.append_nil]
          exact InNames.apart (hN1.append (hN2.append (hNm.append hN3)))
        · obtain ⟨q, q1, q2⟩ := hchr.first (names := repeatSpecifierNames) (InNames.apart (hN1.append (hN2.append (hNm.append hN3))))
            (f3 t (List.mem_singleton.mpr rfl))
          exact .some q1 (f5 _ _ _ q2)
      obtain ⟨p1, p2, p3, p4, p5, p6, p7⟩ := c1.desc (by decide) (InNames.apart ((InNames.nil (ns := [])).append (hN2.append (hNm.append (hN3.append f3))))) hcho
        (Syntax.repeated r (inner.wrap (Syntax.attributed as (g.called name))))
      rw [← p7]
      rw [← o7] at hR ⊢
      exact .mk hk (congrArg Info.name hinf) j1 (m4 _ _ _ j2) hA o5 o6 hR p5 p6

end

end Adx.Read
