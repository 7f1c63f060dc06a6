import Verif.Spec.Kin
import Verif.Props.Tree
/-
  Running a matcher returns trees whose tokens know their parents.
-/
namespace Adx

variable {κ : Prop}

section heap
variable {toks : List Token} {n m : Nat} {ts us l l' : List TokId} {t : TokId} {s s1 s2 : State} {p : Option TokId}

theorem Nest.sublist (h : Nest κ toks n ts l) (hs : List.Sublist us ts) : ∃ l', Nest κ toks n us l' := by
  obtain ⟨l', h1, h2⟩ := h.grove.pre.sublist hs
  exact ⟨l', ⟨h2, h.grove.nodup.sublist h1, fun u hu => h.grove.above u (h1.subset hu),
    fun u hu => h.grove.errors u (h1.subset hu)⟩, fun hκ u hu => h.kin hκ u (h1.subset hu)⟩

theorem Nest.nil : Nest κ toks n [] [] := ⟨Grove.nil, fun _ u hu => by simp at hu⟩

theorem Nest.lift (h : Nest κ toks m ts l) (hn : n ≤ m) : Nest κ toks n ts l := ⟨h.grove.lift hn, h.kin⟩

theorem Kin.append (h : Kin toks l) (h' : Kin toks l') : Kin toks (l ++ l') := by
  intro u hu
  rcases List.mem_append.mp hu with hu | hu
  · exact h u hu
  · exact h' u hu

theorem Nest.append (h : Nest κ toks n ts l) (h' : Nest κ toks m us l') (hl : ∀ u ∈ l, u < m) (hn : n ≤ m) :
    Nest κ toks n (ts ++ us) (l ++ l') := ⟨h.grove.append h'.grove hl hn, fun hκ => (h.kin hκ).append (h'.kin hκ)⟩

theorem Keeps.refl (n : Nat) (s : State) : Keeps n s s := ⟨Nat.le_refl _, fun _ _ => rfl, id⟩

theorem Keeps.trans (h : Keeps n s s1) (h' : Keeps n s1 s2) : Keeps n s s2 :=
  ⟨Nat.le_trans h.len h'.len, fun i hi => (h'.same i hi).trans (h.same i hi), fun ho => h'.older (h.older ho)⟩

theorem Keeps.lift (h : Keeps m s s1) (hn : n ≤ m) : Keeps n s s1 :=
  ⟨h.len, fun i hi => h.same i (Nat.lt_of_lt_of_le hi hn), h.older⟩

theorem Keeps.toks_eq (h : s1.toks = s.toks) : Keeps n s s1 :=
  ⟨Nat.le_of_eq (by rw [h]), fun i _ => by rw [h], fun ho => by rw [h]; exact ho⟩

theorem Older.newTok {k : Token} (h : Older toks) (hk : k.parent = none) : Older (toks ++ [k]) := by
  intro i j p hj hp
  rcases Nat.lt_or_ge i toks.length with hi | hi
  · rw [List.getElem?_append_left hi] at hj
    exact h i j p hj hp
  · rw [List.getElem?_append_right hi] at hj
    cases hd : i - toks.length with
    | zero =>
      rw [hd] at hj
      cases hj
      rw [hk] at hp
      cases hp
    | succ q => rw [hd] at hj; simp at hj

theorem Older.set {k : Token} (h : Older toks) (hk : ∀ p, k.parent = some p → p < t) : Older (toks.set t k) := by
  intro i j p hj hp
  by_cases hi : i = t
  · subst hi
    rw [List.getElem?_set] at hj
    simp only [if_true] at hj
    split at hj
    · cases hj
      exact hk p hp
    · cases hj
  · rw [List.getElem?_set_ne (Ne.symm hi)] at hj
    exact h i j p hj hp

theorem Keeps.newTok {k : Token} (hn : n ≤ s.toks.length) (hk : k.parent = none) :
    Keeps n s { s with toks := s.toks ++ [k] } :=
  ⟨by simp, fun i hi => List.getElem?_append_left (Nat.lt_of_lt_of_le hi hn), fun ho => ho.newTok hk⟩

theorem Keeps.set {k : Token} (hn : n ≤ t) (hk : Older s.toks → ∀ p, k.parent = some p → p < t) :
    Keeps n s { s with toks := s.toks.set t k } := by
  refine ⟨by simp, fun i hi => ?_, fun ho => ho.set (hk ho)⟩
  have : t ≠ i := fun hx => by subst hx; exact Nat.lt_irrefl _ (Nat.lt_of_lt_of_le hi hn)
  exact List.getElem?_set_ne this

/-- What the tokens of the trees are, is all that matters. -/
theorem Nest.congr {toks' : List Token} (h : Nest κ toks n ts l) (hs : ∀ u ∈ l, toks'[u]? = toks[u]?) :
    Nest κ toks' n ts l := by
  refine ⟨⟨h.grove.pre.congr fun u hu k hk => ⟨k, (hs u hu).trans hk, rfl⟩, h.grove.nodup, h.grove.above,
    fun u hu k hk => h.grove.errors u hu k ((hs u hu).symm.trans hk)⟩, fun hκ u hu k hk c hc j hj => ?_⟩
  have hk' := (hs u hu).symm.trans hk
  have hcl := h.grove.pre.closed u hu k hk' c hc
  exact h.kin hκ u hu k hk' c hc j ((hs c hcl).symm.trans hj)

theorem Nest.keep (h : Nest κ s.toks n ts l) (hg : Keeps s.toks.length s s1) : Nest κ s1.toks n ts l :=
  h.congr fun u hu => hg.same u (h.grove.pre.valid u hu)

theorem Under.congr {toks' : List Token} (h : Under κ toks p ts) (hs : ∀ u ∈ ts, toks'[u]? = toks[u]?) :
    Under κ toks' p ts := fun hκ u hu j hj => h hκ u hu j ((hs u hu).symm.trans hj)

/-- A root may change its parent. -/
theorem Nest.adopt {k k' : Token} (h : Nest κ toks n ts l) (ht : t ∈ ts) (hk : toks[t]? = some k)
    (hc : k'.children = k.children) (hf : k'.flags = k.flags) : Nest κ (toks.set t k') n ts l := by
  have hlt := (List.getElem?_eq_some_iff.mp hk).1
  have hg : Grove (toks.set t k') n ts l :=
    Grove.grow_all (s := ⟨toks, [], []⟩) (s1 := ⟨toks.set t k', [], []⟩) h.grove
      (Grow.set (s := ⟨toks, [], []⟩) hk (Or.inr ⟨hc, hf⟩))
  refine ⟨hg, fun hκ u hu q hq c hcq j hj hjf => ?_⟩
  obtain ⟨q', hq', e⟩ : ∃ q', toks[u]? = some q' ∧ q.children = q'.children := by
    by_cases hut : u = t
    · subst hut
      rw [List.getElem?_set_self hlt] at hq
      cases hq
      exact ⟨k, hk, hc⟩
    · rw [List.getElem?_set_ne (Ne.symm hut)] at hq
      exact ⟨q, hq, rfl⟩
  rw [e] at hcq
  have hct : c ≠ t := fun hx => ((h.grove.pre.one_parent h.grove.nodup).2 u hu q' hq').2 c hcq |>.1 (hx ▸ ht)
  rw [List.getElem?_set_ne (Ne.symm hct)] at hj
  exact h.kin hκ u hu q' hq' c hcq j hj hjf

end heap

variable {T : Table} {cfg : Cfg}

theorem Nests.err {n : Nat} {s s' : State} {f : Failure} (h : Keeps n s s') : Nests κ n s (.err f) s' :=
  ⟨h, fun _ ht => by cases ht⟩

theorem Nests.skip {n : Nat} {s s' : State} {k : Int} (h : Keeps n s s') : Nests κ n s (.ok (.skip k)) s' :=
  ⟨h, fun _ ht => by cases ht⟩

theorem Nests.leaf {s : State} {k : Token} {n : Nat} (hk : k.children = []) (hp : k.parent = none)
    (hn : n ≤ s.toks.length) : Nests κ n s (.ok (.token s.toks.length)) { s with toks := s.toks ++ [k] } := by
  refine ⟨Keeps.newTok hn hp, fun t ht => ?_⟩
  obtain ⟨l, hl⟩ := (Grows.leaf hk hn).2 t ht
  cases ht
  have hg : (s.toks ++ [k])[s.toks.length]? = some k := List.getElem?_concat_length
  have hz : l = [s.toks.length] := by
    cases hl.pre with
    | cons hk' hc hs =>
      rw [hg] at hk'
      cases hk'
      rw [hk] at hc
      cases hc
      cases hs
      rfl
  refine ⟨l, ⟨hl, ?_⟩, ?_⟩
  · intro _ u hu j hj c hc
    rw [hz] at hu
    cases List.mem_singleton.mp hu
    rw [hg] at hj
    cases hj
    rw [hk] at hc
    simp at hc
  · intro _ u hu j hj _
    cases List.mem_singleton.mp hu
    rw [hg] at hj
    cases hj
    exact hp

theorem Nests.mono {m n : Nat} {s s' : State} {r : R} (h : Nests κ m s r s') (hn : n ≤ m) : Nests κ n s r s' :=
  ⟨h.1.lift hn, fun t ht => (h.2 t ht).imp fun _ hl => ⟨hl.1.lift hn, hl.2⟩⟩

theorem Nests.after {n : Nat} {s s1 s' : State} {r : R} (h : Nests κ n s1 r s') (hg : Keeps n s s1) : Nests κ n s r s' :=
  ⟨hg.trans h.1, h.2⟩

theorem Nests.retok {n : Nat} {s s' : State} {r r' : R} (h : Nests κ n s r s')
    (he : ∀ t, r'.tok = some t → r.tok = some t) : Nests κ n s r' s' := ⟨h.1, fun t ht => h.2 t (he t ht)⟩

theorem Nests.toks_eq {n : Nat} {s s1 s2 : State} {r : R} (h : Nests κ n s r s1) (he : s2.toks = s1.toks) :
    Nests κ n s r s2 := by
  refine ⟨h.1.trans (Keeps.toks_eq he), ?_⟩
  rw [he]
  exact h.2

/-- The specification of running a matcher. -/
def RecNest (κ : Prop) (f : ExecFn) : Prop := ∀ m c sc s, Post True (f m c sc) s (Nests κ s.toks.length s)

/-- The variables of a program whose token is `prog`; the trees below `rest` are about to be
added. -/
structure PSNest (κ : Prop) (n : Nat) (prog : TokId) (s : State) (ps : PS) (rest : List TokId) : Prop where
  n_le : n ≤ prog
  root : ∃ k, s.toks[prog]? = some k ∧ k.flags &&& IS_ERROR = 0 ∧ k.parent = none
  nest : ∃ l, Nest κ s.toks (prog + 1) (ps.children ++ rest) l
  under : Under κ s.toks (some prog) ps.children

theorem PSNest.lt {n : Nat} {prog : TokId} {s : State} {ps : PS} {rest : List TokId} (h : PSNest κ n prog s ps rest) :
    prog < s.toks.length := by
  obtain ⟨k, hk, _⟩ := h.root
  exact (List.getElem?_eq_some_iff.mp hk).1

theorem PSNest.keep {n : Nat} {prog : TokId} {s s' : State} {ps : PS} {rest : List TokId} (h : PSNest κ n prog s ps rest)
    (hg : Keeps s.toks.length s s') : PSNest κ n prog s' ps rest := by
  obtain ⟨k, hk, hf⟩ := h.root
  obtain ⟨l, hl⟩ := h.nest
  exact ⟨h.n_le, ⟨k, (hg.same prog h.lt).trans hk, hf⟩, ⟨l, hl.keep hg⟩,
    h.under.congr fun u hu => hg.same u (hl.grove.pre.valid u (hl.grove.pre.roots u (by simp [hu])))⟩

theorem PSNest.takes {n : Nat} {prog : TokId} {s s' : State} {ps : PS} {t : TokId} {l : List TokId}
    (h : PSNest κ n prog s ps []) (hg : Keeps s.toks.length s s') (hl : Nest κ s'.toks s.toks.length [t] l) :
    PSNest κ n prog s' ps [t] := by
  have h' := h.keep hg
  obtain ⟨l0, h0⟩ := h.nest
  rw [List.append_nil] at h0
  exact ⟨h'.n_le, h'.root, ⟨_, (h0.keep hg).append hl h0.grove.pre.valid h.lt⟩, h'.under⟩

theorem PSNest.children_eq {n : Nat} {prog : TokId} {s : State} {ps ps' : PS} {rest : List TokId}
    (h : PSNest κ n prog s ps rest) (hc : ps'.children = ps.children) : PSNest κ n prog s ps' rest :=
  ⟨h.n_le, h.root, by rw [hc]; exact h.nest, by rw [hc]; exact h.under⟩

theorem PSNest.drop {n : Nat} {prog : TokId} {s : State} {ps : PS} {rest rest' : List TokId} (h : PSNest κ n prog s ps rest)
    (hs : List.Sublist rest' rest) : PSNest κ n prog s ps rest' := by
  obtain ⟨l, hl⟩ := h.nest
  exact ⟨h.n_le, h.root, hl.sublist ((List.Sublist.refl _).append hs), h.under⟩

theorem addToken_nest {n : Nat} {prog : TokId} {s : State} {ps : PS} {t : TokId} {rest : List TokId} {a u : Bool}
    (h : PSNest κ n prog s ps (t :: rest)) :
    Post True (addToken prog ps t a u) s (fun ps' s' => Keeps n s s' ∧ PSNest κ n prog s' ps' rest) := by
  obtain ⟨l, hl⟩ := h.nest
  have htl : t ∈ ps.children ++ t :: rest := by simp
  have hab : prog + 1 ≤ t := hl.grove.above t (hl.grove.pre.roots t htl)
  have hne : prog ≠ t := fun hx => by subst hx; exact Nat.lt_irrefl _ hab
  have hnt : n ≤ t := Nat.le_trans h.n_le (Nat.le_of_succ_le hab)
  -- one change of the token
  have change : ∀ {s0 : State} {k k' : Token}, PSNest κ n prog s0 ps (t :: rest) → s0.toks[t]? = some k →
      k'.children = k.children → k'.flags = k.flags →
      PSNest κ n prog { s0 with toks := s0.toks.set t k' } ps (t :: rest) := by
    intro s0 k k' h0 hk hc hf
    obtain ⟨r, hr, hrf⟩ := h0.root
    obtain ⟨l0, hl0⟩ := h0.nest
    have hnd := (hl0.grove.pre.one_parent hl0.grove.nodup).1
    refine ⟨h0.n_le, ⟨r, (List.getElem?_set_ne (Ne.symm hne)).trans hr, hrf⟩,
      ⟨l0, hl0.adopt (by simp) hk hc hf⟩, h0.under.congr fun u hu => ?_⟩
    have : t ≠ u := fun hx => by
      subst hx
      exact (List.nodup_append.mp hnd).2.2 t hu t (by simp) rfl
    exact List.getElem?_set_ne this
  unfold addToken
  apply Post.bind
  have prep : Post True (prepToken ps t a u) s (fun _ s' => Keeps n s s' ∧ PSNest κ n prog s' ps (t :: rest)) := by
    unfold prepToken
    apply Post.bind
    apply Post.getTok _ (fun _ => trivial)
    intro k hk
    split
    · split
      · apply Post.modTok _ (fun _ => trivial)
        intro k' hk'
        obtain ⟨e1, e2⟩ := setBoth_shape k' ⟨ps.matched.start, k.matched.stop⟩ ⟨ps.matched.start, k.matched.stop⟩
        refine ⟨Keeps.set hnt fun ho p hp => ho t k' p hk' ?_, change h hk' e1 e2⟩
        revert hp
        obtain ⟨kind, _⟩ := k'
        cases kind <;> exact id
      · exact Post.pure ⟨Keeps.refl _ _, h⟩
    · split
      · trivial
      · exact Post.pure ⟨Keeps.refl _ _, h⟩
  refine prep.mono ?_
  rintro _ s1 ⟨g1, h1⟩
  apply Post.bind
  apply Post.getTok _ (fun _ => trivial)
  intro k hk
  apply Post.bind
  apply Post.modTok _ (fun _ => trivial)
  intro k' hk'
  apply Post.pure
  have h2 := change (k' := { k' with parent := some prog }) h1 hk' rfl rfl
  have hcs : ({ (if u = true then ps.cover k else ps) with
      children := (if u = true then ps.cover k else ps).children ++ [t] } : PS).children = ps.children ++ [t] := by
    cases u <;> rfl
  refine ⟨g1.trans (Keeps.set hnt fun _ p hp => ?_), h2.n_le, h2.root, ?_, ?_⟩
  · cases hp
    exact hab
  · rw [hcs, List.append_assoc]
    exact h2.nest
  · rw [hcs]
    intro hκ c hc
    rcases List.mem_append.mp hc with hc | hc
    · exact h2.under hκ c hc
    · cases List.mem_singleton.mp hc
      intro j hj _
      have hj' : (s1.toks.set t { k' with parent := some prog })[t]? = some j := hj
      rw [List.getElem?_set_self (List.getElem?_eq_some_iff.mp hk').1] at hj'
      cases hj'
      rfl

theorem handleToken_nest {n : Nat} {prog : TokId} {s : State} {ps : PS} {t : TokId} {a u : Bool}
    (h : PSNest κ n prog s ps [t]) :
    Post True (handleToken prog ps t a u) s (fun ps' s' => Keeps n s s' ∧ PSNest κ n prog s' ps' []) := by
  unfold handleToken
  apply Post.bind
  apply Post.getTok _ (fun _ => trivial)
  intro k _
  exact addToken_nest h

theorem extractLoop_nest {n : Nat} {prog : TokId} {u : Bool} (cs : List TokId) : ∀ {s : State} {ps : PS},
    PSNest κ n prog s ps cs →
    Post True (extractLoop prog u cs ps) s (fun ps' s' => Keeps n s s' ∧ PSNest κ n prog s' ps' []) := by
  induction cs with
  | nil => intro s ps h; exact Post.pure ⟨Keeps.refl _ _, h⟩
  | cons t cs ih =>
    intro s ps h
    unfold extractLoop
    apply Post.bind
    apply Post.getTok _ (fun _ => trivial)
    intro k _
    split
    · exact ih (h.drop (List.sublist_cons_self _ _))
    · apply Post.bind
      refine (addToken_nest h).mono ?_
      rintro ps1 s1 ⟨g1, h1⟩
      refine (ih h1).mono ?_
      rintro ps2 s2 ⟨g2, h2⟩
      exact ⟨g1.trans g2, h2⟩

theorem handleExtract_nest {n : Nat} {prog : TokId} {s : State} {ps : PS} {t : TokId} {u : Bool}
    (h : PSNest κ n prog s ps [t]) :
    Post True (handleExtract prog ps t u) s (fun ps' s' => Keeps n s s' ∧ PSNest κ n prog s' ps' []) := by
  unfold handleExtract
  apply Post.bind
  apply Post.getTok _ (fun _ => trivial)
  intro k hk
  dsimp only
  obtain ⟨l, hl⟩ := h.nest
  obtain ⟨l1, l2, rfl, p1, p2⟩ := hl.grove.pre.split
  have hn := List.nodup_append.mp hl.grove.nodup
  cases p2 with
  | @cons _ k' _ l3 l4 hk' hc' hs' =>
    rw [hk] at hk'
    cases hk'
    cases hs'
    have sub : ∀ u ∈ l1 ++ l3, u ∈ l1 ++ t :: (l3 ++ []) := by
      intro u hu
      rcases List.mem_append.mp hu with hu | hu <;> simp [hu]
    have g2 : Nest κ s.toks (prog + 1) (ps.children ++ k.children) (l1 ++ l3) := by
      refine ⟨⟨p1.append hc', ?_, fun u hu => hl.grove.above u (sub u hu),
        fun u hu => hl.grove.errors u (sub u hu)⟩, fun hκ u hu => hl.kin hκ u (sub u hu)⟩
      refine List.nodup_append.mpr ⟨hn.1, ?_, fun a ha b hb => hn.2.2 a ha b (by simp [hb])⟩
      have := (List.nodup_cons.mp hn.2.1).2
      simpa using this
    refine extractLoop_nest k.children ?_
    refine PSNest.children_eq (ps := ps) ⟨h.n_le, h.root, ⟨_, g2⟩, h.under⟩ ?_
    split <;> rfl

theorem handleSkip_nest {n a : Nat} {prog : TokId} {ps : PS} {k : Int} {s : State} (h : PSNest κ n prog s ps []) :
    Post True (handleSkip cfg ps a k) s (fun ps' s' => Keeps n s s' ∧ PSNest κ n prog s' ps' []) := by
  refine handleSkip_grow.mono ?_
  rintro ps2 s2 ⟨rfl, h2⟩
  exact ⟨Keeps.refl _ _, h.children_eq h2⟩

theorem finalize_nest {n : Nat} {prog : TokId} {s : State} {ps : PS} {iter : Option (Nat × Nat)} {lc : Nat} {fm : Bool}
    (h : PSNest κ n prog s ps []) : Post True (finalizeProgram prog ps iter lc fm) s (Nests κ n s) := by
  have hfin : Post (α := R) True (if ps.captured.start = usizeMax ∨ ps.matched.start = usizeMax then pure (.err .fail)
      else if ps.children = [] then pure (.err .fail)
      else do
        modTok prog (fun k =>
          ((({ k with children := ps.children } : Token).setCaptured ps.captured).setMatched
            ps.matched))
        pure (.ok (.token prog))) s (Nests κ n s) := by
    split
    · exact Post.pure (Nests.err (Keeps.refl _ _))
    · split
      · exact Post.pure (Nests.err (Keeps.refl _ _))
      · apply Post.bind
        apply Post.modTok _ (fun _ => trivial)
        intro k hk
        obtain ⟨k', hk', hf, hp⟩ := h.root
        rw [hk] at hk'
        cases hk'
        obtain ⟨e1, e2⟩ := setBoth_shape ({ k with children := ps.children } : Token) ps.captured ps.matched
        have e1' : (((({ k with children := ps.children } : Token)).setCaptured ps.captured).setMatched
            ps.matched).children = ps.children := e1
        have e2' : (((({ k with children := ps.children } : Token)).setCaptured ps.captured).setMatched
            ps.matched).flags = k.flags := e2
        have e3 : (((({ k with children := ps.children } : Token)).setCaptured ps.captured).setMatched
            ps.matched).parent = none := by
          rw [← hp]
          obtain ⟨kind, _⟩ := k
          cases kind <;> rfl
        generalize ((({ k with children := ps.children } : Token).setCaptured ps.captured).setMatched
          ps.matched) = k2 at e1' e2' e3 ⊢
        obtain ⟨l, hl⟩ := h.nest
        rw [List.append_nil] at hl
        have hnp : prog ∉ l := fun hx => Nat.lt_irrefl _ (hl.grove.above _ hx)
        have hset : (s.toks.set prog k2)[prog]? = some k2 := List.getElem?_set_self h.lt
        have hother : ∀ u, u ≠ prog → (s.toks.set prog k2)[u]? = s.toks[u]? :=
          fun u hu => List.getElem?_set_ne (Ne.symm hu)
        have hne : ∀ u ∈ l, u ≠ prog := fun u hu hx => hnp (hx ▸ hu)
        refine Post.pure ⟨Keeps.set h.n_le (fun _ p hp => by rw [e3] at hp; cases hp), fun t ht => ?_⟩
        cases ht
        have hn' : Nest κ (s.toks.set prog k2) (prog + 1) ps.children l := hl.congr fun u hu => hother u (hne u hu)
        refine ⟨prog :: l, ⟨⟨?_, List.nodup_cons.mpr ⟨hnp, hl.grove.nodup⟩, ?_, ?_⟩, ?_⟩, ?_⟩
        · have := Pre.cons hset (by rw [e1']; exact hn'.grove.pre) .nil
          rw [List.append_nil] at this
          exact this
        · intro u hu
          rcases List.mem_cons.mp hu with rfl | hu
          · exact h.n_le
          · exact Nat.le_trans h.n_le (Nat.le_of_succ_le (hl.grove.above u hu))
        · intro u hu j hj hfl
          rcases List.mem_cons.mp hu with rfl | hu
          · have hj' : (s.toks.set u k2)[u]? = some j := hj
            rw [hset] at hj'
            cases hj'
            rw [e2', hf] at hfl
            exact (hfl rfl).elim
          · exact hn'.grove.errors u hu j hj hfl
        · intro hκ u hu j hj c hc q hq hqf
          rcases List.mem_cons.mp hu with rfl | hu
          · have hj' : (s.toks.set u k2)[u]? = some j := hj
            rw [hset] at hj'
            cases hj'
            rw [e1'] at hc
            have hq' : (s.toks.set u k2)[c]? = some q := hq
            rw [hother c (hne c (hl.grove.pre.roots c hc))] at hq'
            exact h.under hκ c hc q hq' hqf
          · exact hn'.kin hκ u hu j hj c hc q hq hqf
        · intro _ u hu j hj _
          cases List.mem_singleton.mp hu
          have hj' : (s.toks.set prog k2)[prog]? = some j := hj
          rw [hset] at hj'
          cases hj'
          exact e3
  unfold finalizeProgram
  dsimp only
  split
  · cases iter with
    | none => exact hfin
    | some lh =>
      obtain ⟨lo, hi⟩ := lh
      dsimp only
      split
      · exact Post.pure (Nests.skip (Keeps.refl _ _))
      · split
        · exact Post.pure (Nests.err (Keeps.refl _ _))
        · exact hfin
  · exact hfin

/-- How one pass over the patterns may end. -/
def FlowNest (κ : Prop) (n : Nat) (prog : TokId) (s : State) : Flow → Prop
  | .next ps => PSNest κ n prog s ps []
  | .action x ps => PSNest κ n prog s ps [] ∧ ∀ t, x.tok = some t → PSNest κ n prog s ps [t] ∧
      ∃ l, Nest κ s.toks n [t] l ∧ Under κ s.toks none [t]
  | .ret r => ∀ t, r.tok = some t → ∃ l, Nest κ s.toks n [t] l ∧ Under κ s.toks none [t]

theorem runPatterns_nest {rec_ : ExecFn} (hrec : RecNest κ rec_) {n a : Nat} {prog : TokId} {sc : SCtxId}
    {iter : Option (Nat × Nat)} {first : Bool} {lc : Nat} :
    ∀ (ms : List MatcherId) {s : State} {ps : PS}, PSNest κ n prog s ps [] →
      Post True (runPatterns T cfg rec_ prog sc a iter first lc ms ps) s (fun f s' => Keeps n s s' ∧
        FlowNest κ n prog s' f) := by
  intro ms
  induction ms with
  | nil => intro s ps h; exact Post.pure ⟨Keeps.refl _ _, h⟩
  | cons m ms ih =>
    intro s ps h
    have hlen : n ≤ s.toks.length := Nat.le_trans h.n_le (Nat.le_of_lt h.lt)
    unfold runPatterns
    dsimp only
    apply Post.bind
    refine (hrec m _ sc s).mono ?_
    rintro r s1 ⟨g1, ht⟩
    have h' := h.keep g1
    have g1' : Keeps n s s1 := g1.lift hlen
    have go : ∀ {s2 : State} {ps2 : PS}, Keeps n s1 s2 → PSNest κ n prog s2 ps2 [] →
        Post True (runPatterns T cfg rec_ prog sc a iter first lc ms ps2) s2 (fun f s' => Keeps n s s' ∧
          FlowNest κ n prog s' f) := by
      intro s2 ps2 g2 h2
      refine (ih h2).mono ?_
      rintro f s3 ⟨g3, h3⟩
      exact ⟨(g1'.trans g2).trans g3, h3⟩
    have low : ∀ t, r.tok = some t → ∃ l, Nest κ s1.toks n [t] l ∧ Under κ s1.toks none [t] :=
      fun t htk => (ht t htk).imp fun _ hl => ⟨hl.1.lift hlen, hl.2⟩
    cases r with
    | err f =>
      dsimp only
      apply Post.bind
      apply Post.dbgT
      cases f with
      | error e => exact Post.pure ⟨g1', fun _ ht => by cases ht⟩
      | fail =>
        dsimp only
        split
        · exact go (Keeps.refl _ _) h'
        · split
          · apply Post.bind
            refine (finalize_nest h').mono ?_
            rintro r s2 ⟨g2, h2⟩
            exact Post.pure ⟨g1'.trans g2, h2⟩
          · exact Post.pure ⟨g1', fun _ ht => by cases ht⟩
    | ok x =>
      have act : ∀ t, (R.ok x).tok = some t → PSNest κ n prog s1 ps [t] ∧
          ∃ l, Nest κ s1.toks n [t] l ∧ Under κ s1.toks none [t] := fun t htk =>
        ⟨h.takes g1 (ht t htk).choose_spec.1, low t htk⟩
      cases x with
      | token t =>
        dsimp only
        apply Post.bind
        apply Post.getTok _ (fun _ => trivial)
        intro k hk
        split
        · exact go (Keeps.refl _ _) h'
        · split
          · exact Post.pure ⟨g1', low⟩
          · apply Post.bind
            refine (handleToken_nest (act t rfl).1).mono ?_
            rintro ps2 s2 ⟨g2, h2⟩
            exact go g2 h2
      | proxyChildren t =>
        dsimp only
        apply Post.bind
        apply Post.getTok _ (fun _ => trivial)
        intro k hk
        split
        · exact go (Keeps.refl _ _) h'
        · split
          · exact Post.pure ⟨g1', low⟩
          · apply Post.bind
            refine (handleExtract_nest (act t rfl).1).mono ?_
            rintro ps2 s2 ⟨g2, h2⟩
            exact go g2 h2
      | skip k =>
        dsimp only
        split
        · exact Post.pure ⟨g1', fun _ ht => by cases ht⟩
        · split
          · apply Post.bind
            refine (handleSkip_nest h').mono ?_
            rintro ps2 s2 ⟨g2, h2⟩
            exact go g2 h2
          · exact go (Keeps.refl _ _) h'
      | brk nm d => exact Post.pure ⟨g1', h', act⟩
      | cont nm d => exact Post.pure ⟨g1', h', act⟩
      | stop => exact Post.pure ⟨g1', h', act⟩
      | none => exact Post.pure ⟨g1', h', act⟩

theorem handlePayload_nest {n a : Nat} {prog : TokId} {s : State} {ps : PS} {d : Success} (h : PSNest κ n prog s ps [])
    (hd : ∀ t, d.tok = some t → PSNest κ n prog s ps [t]) :
    Post True (handlePayload cfg prog ps a d) s (fun ps' s' => Keeps n s s' ∧ PSNest κ n prog s' ps' []) := by
  unfold handlePayload
  cases d with
  | token t => exact handleToken_nest (hd t rfl)
  | proxyChildren t => exact handleExtract_nest (hd t rfl)
  | skip k => exact handleSkip_nest h
  | brk _ _ => exact Post.pure ⟨Keeps.refl _ _, h⟩
  | cont _ _ => exact Post.pure ⟨Keeps.refl _ _, h⟩
  | none => exact Post.pure ⟨Keeps.refl _ _, h⟩
  | stop => exact Post.pure ⟨Keeps.refl _ _, h⟩

theorem runIterations_nest {rec_ : ExecFn} (hrec : RecNest κ rec_) {n a : Nat} {prog : TokId} {sc : SCtxId} {self : Str}
    {ms : List MatcherId} {iter : Option (Nat × Nat)} {first : Bool} :
    ∀ (k lc : Nat) {s : State} {ps : PS}, PSNest κ n prog s ps [] →
      Post True (runIterations T cfg rec_ prog sc a self ms iter first k lc ps) s (Nests κ n s) := by
  intro k
  induction k with
  | zero =>
    intro lc s ps h
    unfold runIterations
    exact finalize_nest h
  | succ k ih =>
    intro lc s ps h
    unfold runIterations
    dsimp only
    apply Post.bind
    refine (runPatterns_nest hrec ms h).mono ?_
    rintro f s1 ⟨g1, hf⟩
    cases f with
    | ret r => exact Post.pure ⟨g1, hf⟩
    | next ps1 => exact (ih (lc + 1) hf).mono fun r s2 h2 => h2.after g1
    | action x ps1 =>
      obtain ⟨h1, hx⟩ := hf
      cases x with
      | token _ => trivial
      | proxyChildren _ => trivial
      | skip _ => trivial
      | none => trivial
      | stop => exact (finalize_nest h1).mono fun r s2 h2 => h2.after g1
      | brk nm d =>
        dsimp only
        split
        · exact Post.pure ⟨g1, fun t ht => (hx t ht).2⟩
        · apply Post.bind
          refine (handlePayload_nest (d := d) h1 fun t ht => (hx t ht).1).mono ?_
          rintro ps2 s2 ⟨g2, h2⟩
          apply Post.bind
          refine (finalize_nest h2).mono ?_
          intro r s3 h3
          have h3' := h3.after (g1.trans g2)
          split
          · exact Post.pure h3'
          · cases r with
            | ok x => exact Post.pure (h3'.retok fun t ht => ht)
            | err f => exact Post.pure (h3'.retok fun t ht => ht)
      | cont nm d =>
        dsimp only
        split
        · exact Post.pure ⟨g1, fun t ht => (hx t ht).2⟩
        · apply Post.bind
          refine (handlePayload_nest (d := d) h1 fun t ht => (hx t ht).1).mono ?_
          rintro ps2 s2 ⟨g2, h2⟩
          split
          · exact (ih (lc + 1) h2).mono fun r s3 h3 => h3.after (g1.trans g2)
          · exact (finalize_nest h2).mono fun r s3 h3 => h3.after (g1.trans g2)

theorem execProgram_nest {rec_ : ExecFn} (hrec : RecNest κ rec_) {ms : List MatcherId} {name : Str}
    {iter : Option (Nat × Nat)} {first : Bool} {c : Ctx} {sc : SCtxId} {s : State} :
    Post True (execProgram T cfg rec_ ms name iter first c sc) s (Nests κ s.toks.length s) := by
  unfold execProgram
  dsimp only
  apply Post.bind
  apply Post.newTok
  have hf : (Token.mk' (c.withName name).parser name Range.blank).flags &&& IS_ERROR = 0 :=
    (by decide : (0 : Flags) &&& IS_ERROR = 0)
  have hp : (Token.mk' (c.withName name).parser name Range.blank).parent = none := rfl
  generalize Token.mk' (c.withName name).parser name Range.blank = k at hf hp ⊢
  refine (runIterations_nest (n := s.toks.length) hrec (iterCount iter) 0
    (ps := ⟨c.withName name, [], ⟨usizeMax, 0⟩, ⟨usizeMax, 0⟩⟩)
    ⟨Nat.le_refl _, ⟨k, List.getElem?_concat_length, hf, hp⟩, ⟨[], Nest.nil⟩, fun _ u hu => by simp at hu⟩).mono ?_
  intro r s' h
  exact h.after (Keeps.newTok (Nat.le_refl _) hp)

theorem skipToken_nest {c : Ctx} {a n : Nat} {s : State} {t : TokId} {l : List TokId} (hN : Nest κ s.toks n [t] l)
    (hn : n ≤ s.toks.length) :
    Post True (skipToken cfg c a t) s (fun x s' => Nests κ n s (.ok x) s' ∧ ∀ nm d, x ≠ .brk nm d ∧ x ≠ .cont nm d) := by
  have h := hN.grove
  unfold skipToken
  apply Post.bind
  apply Post.getTok _ (fun _ => trivial)
  intro k hk
  apply Post.bind
  apply Post.newTok
  have hu : UpToDate (Token.mk' c.parser "Error".toList ⟨a, k.matched.stop⟩) := ⟨rfl, rfl⟩
  have hch : (Token.mk' c.parser "Error".toList ⟨a, k.matched.stop⟩).children = [] := rfl
  have hfl : (Token.mk' c.parser "Error".toList ⟨a, k.matched.stop⟩).flags &&& IS_ERROR = 0 :=
    (by decide : (0 : Flags) &&& IS_ERROR = 0)
  have hpa : (Token.mk' c.parser "Error".toList ⟨a, k.matched.stop⟩).parent = none := rfl
  generalize Token.mk' c.parser "Error".toList ⟨a, k.matched.stop⟩ = ek at hu hch hfl hpa ⊢
  apply Post.bind
  apply Post.getState
  apply Post.bind
  have hnew : s.toks.length ∉ l := fun hx => Nat.lt_irrefl _ (h.pre.valid _ hx)
  have hcol := discardCollect_run (e := s.toks.length) (h.pre.walk (m := (s.toks ++ [ek]).length + 1) (by
      rw [List.length_append]; omega)) { s with toks := s.toks ++ [ek] } ek
    (fun u hu => List.getElem?_append_left (h.pre.valid u hu)) hnew List.getElem?_concat_length hu
  have hset : (s.toks ++ [ek]).set s.toks.length (absorb s.toks ek l) = s.toks ++ [absorb s.toks ek l] := by simp
  have hdc : discardCollect ((s.toks ++ [ek]).length + 1) s.toks.length t { s with toks := s.toks ++ [ek] } =
      .ok () { s with toks := s.toks ++ [absorb s.toks ek l] } := by
    unfold forEach at hcol
    obtain ⟨u, s2, h3, h4⟩ := bind_ok.mp hcol
    unfold forEach at h4
    obtain ⟨_, rfl⟩ := pure_ok.mp h4
    rw [h3]
    dsimp only
    rw [hset]
  have hcoll : Post True (discardCollect ((s.toks ++ [ek]).length + 1) s.toks.length t)
      { s with toks := s.toks ++ [ek] } (fun _ s' => s' = { s with toks := s.toks ++ [absorb s.toks ek l] }) := by
    unfold Post
    rw [hdc]
  refine Post.mono hcoll ?_
  rintro _ _ rfl
  apply Post.bind
  apply Post.getTok _ (fun _ => trivial)
  intro ek2 hek2
  have hget : (s.toks ++ [absorb s.toks ek l])[s.toks.length]? = some (absorb s.toks ek l) := List.getElem?_concat_length
  split
  · refine Post.pure ⟨⟨(Keeps.newTok hn hpa), fun u hu => ?_⟩, fun _ _ => ⟨by simp, by simp⟩⟩
    cases hu
    have hce : (absorb s.toks ek l).children = l.filter (isErrorTok s.toks) := by
      show ek.children ++ _ = _
      rw [hch]
      rfl
    have herr : ∀ u, isErrorTok s.toks u = true → ∃ j, s.toks[u]? = some j ∧ j.flags &&& IS_ERROR ≠ 0 := by
      intro u hu
      unfold isErrorTok at hu
      cases hj : s.toks[u]? with
      | none => rw [hj] at hu; simp at hu
      | some j => rw [hj] at hu; exact ⟨j, rfl, by simpa using hu⟩
    have kids : ∀ l0 : List TokId, (∀ u ∈ l0, u ∈ l) →
        Pre (s.toks ++ [absorb s.toks ek l]) (l0.filter (isErrorTok s.toks)) (l0.filter (isErrorTok s.toks)) := by
      intro l0
      induction l0 with
      | nil => intro _; exact .nil
      | cons u l0 ih =>
        intro hsub
        have := ih fun v hv => hsub v (List.mem_cons_of_mem _ hv)
        rw [List.filter_cons]
        split
        · rename_i hu
          obtain ⟨j, hj, hjf⟩ := herr u hu
          refine Pre.cons (l := []) (k := j) ?_ ?_ this
          · rw [List.getElem?_append_left (List.getElem?_eq_some_iff.mp hj).1]
            exact hj
          · rw [h.errors u (hsub u List.mem_cons_self) j hj hjf]
            exact .nil
        · exact this
    refine ⟨s.toks.length :: l.filter (isErrorTok s.toks), ⟨⟨?_, ?_, ?_, ?_⟩, ?_⟩, ?_⟩
    · have := Pre.cons hget (by rw [hce]; exact kids l fun _ h => h) .nil
      rw [List.append_nil] at this
      exact this
    · exact List.nodup_cons.mpr ⟨fun hx => hnew (List.mem_filter.mp hx).1, h.nodup.filter _⟩
    · intro u hu
      rcases List.mem_cons.mp hu with rfl | hu
      · exact hn
      · exact h.above u (List.mem_filter.mp hu).1
    · intro u hu j hj hjf
      rcases List.mem_cons.mp hu with rfl | hu
      · rw [hget] at hj
        cases hj
        exact (hjf hfl).elim
      · have hul := (List.mem_filter.mp hu).1
        rw [List.getElem?_append_left (h.pre.valid u hul)] at hj
        exact h.errors u hul j hj hjf
    · intro hκ u hu j hj c hc q hq hqf
      rcases List.mem_cons.mp hu with rfl | hu
      · rw [hget] at hj
        cases hj
        rw [hce] at hc
        obtain ⟨i, hi, hif⟩ := herr c (List.mem_filter.mp hc).2
        rw [List.getElem?_append_left (List.getElem?_eq_some_iff.mp hi).1, hi] at hq
        cases hq
        exact (hif hqf).elim
      · obtain ⟨i, hi, hif⟩ := herr u (List.mem_filter.mp hu).2
        rw [List.getElem?_append_left (List.getElem?_eq_some_iff.mp hi).1, hi] at hj
        cases hj
        rw [h.errors u (List.mem_filter.mp hu).1 _ hi hif] at hc
        simp at hc
    · intro _ u hu j hj _
      cases List.mem_singleton.mp hu
      rw [hget] at hj
      cases hj
      exact hpa
  · apply Post.bind
    unfold subOffset
    dsimp only
    have fin : ∀ d : Int, Post True (pure (Success.skip d)) { s with toks := s.toks ++ [absorb s.toks ek l] }
        (fun x s' => Nests κ n s (.ok x) s' ∧ ∀ nm d, x ≠ .brk nm d ∧ x ≠ .cont nm d) := fun d =>
      Post.pure ⟨Nests.skip (Keeps.newTok hn hpa), fun _ _ => ⟨by simp, by simp⟩⟩
    split
    · exact Post.pure (fin _)
    · split
      · trivial
      · exact Post.pure (fin _)

theorem execDiscard_nest {rec_ : ExecFn} (hrec : RecNest κ rec_) {m : MatcherId} {c : Ctx} {sc : SCtxId} {s : State} :
    Post True (execDiscard cfg rec_ m c sc) s (Nests κ s.toks.length s) := by
  unfold execDiscard
  dsimp only
  apply Post.bind
  refine (hrec m _ sc s).mono ?_
  intro r s1 h1
  have go : ∀ t, r.tok = some t → ∀ (f : Success → Success), (∀ x, (f x).tok = x.tok) →
      Post True (do let x ← skipToken cfg (c.withName "Discard".toList) c.offset.start t; pure (R.ok (f x))) s1
        (Nests κ s.toks.length s) := by
    intro t ht f hf
    apply Post.bind
    obtain ⟨l, hl, _⟩ := h1.2 t ht
    refine (skipToken_nest hl h1.1.len).mono ?_
    rintro x s2 ⟨h2, _⟩
    exact Post.pure ((h2.after h1.1).retok fun t ht => by rw [← ht]; exact (hf x).symm)
  cases r with
  | err f => exact Post.pure h1
  | ok x =>
    cases x with
    | token t => exact go t rfl id (fun _ => rfl)
    | proxyChildren t => exact go t rfl id (fun _ => rfl)
    | brk nm d =>
      cases d with
      | token t => exact go t rfl (fun x => .brk nm x) (fun _ => rfl)
      | proxyChildren t => exact go t rfl (fun x => .brk nm x) (fun _ => rfl)
      | brk _ _ => trivial
      | cont _ _ => trivial
      | _ => exact Post.pure h1
    | cont nm d =>
      cases d with
      | token t => exact go t rfl (fun x => .cont nm x) (fun _ => rfl)
      | proxyChildren t => exact go t rfl (fun x => .cont nm x) (fun _ => rfl)
      | brk _ _ => trivial
      | cont _ _ => trivial
      | _ => exact Post.pure h1
    | _ => exact Post.pure h1

theorem execExpandRange_nest {rec_ : ExecFn} (hrec : RecNest κ rec_) (hκ : ¬κ) {m : MatcherId} {c : Ctx} {sc : SCtxId}
    {s : State} : Post True (execExpandRange rec_ m c sc) s (Nests κ s.toks.length s) := by
  unfold execExpandRange
  dsimp only
  apply Post.bind
  refine (hrec m _ sc s).mono ?_
  intro r s1 h1
  cases r with
  | err f => exact Post.pure h1
  | ok x =>
    cases x with
    | token t =>
      obtain ⟨l, hl, -⟩ := h1.2 t rfl
      dsimp only
      apply Post.bind
      apply Post.getTok _ (fun _ => trivial)
      intro k hk
      apply Post.bind
      apply Post.newTok
      apply Post.bind
      apply Post.modTok _ (fun _ => trivial)
      intro w hw
      have hw' : w = Token.mkMatched (c.withName "Catch".toList).parser "ExpandRange".toList k.matched k.matched := by
        have hx : (s1.toks ++ [Token.mkMatched (c.withName "Catch".toList).parser "ExpandRange".toList k.matched
          k.matched])[s1.toks.length]? = some w := hw
        rw [List.getElem?_concat_length] at hx
        exact (Option.some.inj hx).symm
      have hwc : w.children = [] := by rw [hw']; rfl
      have hwp : w.parent = none := by rw [hw']; rfl
      have hwf : w.flags &&& IS_ERROR = 0 := by rw [hw']; exact (by decide : (0 : Flags) &&& IS_ERROR = 0)
      rw [← hw']
      have hset : (s1.toks ++ [w]).set s1.toks.length ({ w with children := w.children ++ [t] } : Token) =
        s1.toks ++ [({ w with children := w.children ++ [t] } : Token)] := by simp
      dsimp only
      rw [hset, hwc, List.nil_append]
      have hg : (s1.toks ++ [({ w with children := [t] } : Token)])[s1.toks.length]? = some { w with children := [t] } :=
        List.getElem?_concat_length
      have hl2 : Grove (s1.toks ++ [({ w with children := [t] } : Token)]) s.toks.length [t] l :=
        Grove.grow_all hl.grove (s1 := { s1 with toks := s1.toks ++ [({ w with children := [t] } : Token)] }) Grow.newTok
      refine Post.pure ⟨h1.1.trans (Keeps.newTok h1.1.len hwp), fun u hu => ?_⟩
      cases hu
      refine ⟨s1.toks.length :: l, ⟨⟨?_, ?_, ?_, ?_⟩, fun h => (hκ h).elim⟩, fun h => (hκ h).elim⟩
      · have := Pre.cons hg hl2.pre .nil
        rw [List.append_nil] at this
        exact this
      · exact List.nodup_cons.mpr ⟨fun hx => Nat.lt_irrefl _ (hl.grove.pre.valid _ hx), hl.grove.nodup⟩
      · intro u hu
        rcases List.mem_cons.mp hu with rfl | hu
        · exact h1.1.len
        · exact hl.grove.above u hu
      · intro u hu j hj hjf
        rcases List.mem_cons.mp hu with rfl | hu
        · rw [hg] at hj
          cases hj
          exact (hjf hwf).elim
        · exact hl2.errors u hu j hj hjf
    | proxyChildren t =>
      obtain ⟨l, hl, -⟩ := h1.2 t rfl
      dsimp only
      apply Post.bind
      apply Post.modTok _ (fun _ => trivial)
      intro k hk
      have hs : (k.setCaptured k.matched).children = k.children ∧ (k.setCaptured k.matched).flags = k.flags ∧
          (k.setCaptured k.matched).parent = k.parent := by
        obtain ⟨kind, _⟩ := k
        cases kind <;> exact ⟨rfl, rfl, rfl⟩
      have ht : s.toks.length ≤ t := hl.grove.above t (hl.grove.pre.roots t (by simp))
      refine Post.pure ⟨h1.1.trans (Keeps.set ht fun ho p hp => ho t k p hk (hs.2.2 ▸ hp)), fun u hu => ?_⟩
      cases hu
      exact ⟨l, hl.adopt (by simp) hk hs.1 hs.2.1, fun h => (hκ h).elim⟩
    | _ => exact Post.pure h1

theorem newErrorToken_nest {c : Ctx} {msg : Str} {q : Range} {s : State} {n : Nat} (hn : n ≤ s.toks.length) :
    Post True (do let t ← newErrorTokenWithRange c msg q; pure (R.ok (.token t))) s (Nests κ n s) := by
  apply Post.bind
  unfold newErrorTokenWithRange
  apply Post.bind
  apply Post.ofOpt _ (fun _ => trivial)
  intro w _
  apply Post.newTok
  exact Post.pure (Nests.leaf rfl rfl hn)

theorem execNode_nest {rec_ : ExecFn} (hrec : RecNest κ rec_) {nd : Node} (hnd : nd.NestsIf κ) {c : Ctx} {sc : SCtxId}
    {s : State} : Post True (execNode T cfg rec_ nd c sc) s (Nests κ s.toks.length s) := by
  have skip0 : Nests κ s.toks.length s (.ok (.skip 0)) s := Nests.skip (Keeps.refl _ _)
  have errs : ∀ f, Nests κ s.toks.length s (.err f) s := fun f => Nests.err (Keeps.refl _ _)
  cases nd with
  | equals name cu pat =>
    unfold execNode execEquals
    dsimp only
    apply Post.bind
    apply Post.fetchValue
    intro v
    cases v with
    | inr _ => exact Post.pure (errs _)
    | inl w =>
      dsimp only
      apply Post.bind
      apply Post.ofOpt _ (fun _ => trivial)
      intro o _
      cases o with
      | none => exact Post.bind (Post.dbgT (Post.pure (errs _)))
      | some q => exact Post.bind (Post.dbgT (Post.bind (Post.newTok (Post.pure (Nests.leaf rfl rfl (Nat.le_refl _))))))
  | regex name cu re =>
    unfold execNode execMatches
    dsimp only
    apply Post.bind
    apply Post.ofOpt _ (fun _ => trivial)
    intro o _
    cases o with
    | none => exact Post.bind (Post.dbgT (Post.pure (errs _)))
    | some q =>
      dsimp only
      split
      · exact Post.bind (Post.dbgT (Post.pure skip0))
      · exact Post.bind (Post.newTok (Post.pure (Nests.leaf rfl rfl (Nat.le_refl _))))
  | sequence name cu a b e =>
    unfold execNode execSequence
    dsimp only
    apply Post.bind
    apply Post.fetchValue
    intro v
    cases v with
    | inr _ => exact Post.pure (errs _)
    | inl w1 =>
      dsimp only
      split
      · trivial
      apply Post.bind
      apply Post.fetchValue
      intro v
      cases v with
      | inr _ => exact Post.pure (errs _)
      | inl w2 =>
        dsimp only
        split
        · trivial
        apply Post.bind
        apply Post.fetchValue
        intro v
        cases v with
        | inr _ => exact Post.pure (errs _)
        | inl w3 =>
          dsimp only
          apply Post.bind
          apply Post.ofOpt _ (fun _ => trivial)
          intro o _
          cases o with
          | none => exact Post.bind (Post.dbgT (Post.pure (errs _)))
          | some q =>
            dsimp only
            split
            · trivial
            · exact Post.bind (Post.dbgT (Post.pure (errs _)))
            · exact Post.bind (Post.newTok (Post.bind (Post.dbgT (Post.pure (Nests.leaf rfl rfl (Nat.le_refl _))))))
  | program ps name cu iter fs => exact execProgram_nest hrec
  | optional m =>
    unfold execNode execOptional
    dsimp only
    apply Post.bind
    refine (hrec m _ sc s).mono ?_
    intro r s1 h1
    split
    · exact Post.pure (Nests.skip h1.1)
    · exact Post.pure h1
  | not m =>
    unfold execNode execNot
    dsimp only
    apply Post.bind
    refine (hrec m _ sc s).mono ?_
    intro r s1 h1
    split
    · exact Post.pure (Nests.err h1.1)
    · exact Post.pure (Nests.err h1.1)
    · split
      · exact Post.pure (Nests.err h1.1)
      · exact Post.pure (Nests.skip h1.1)
    · exact Post.pure (Nests.skip h1.1)
    · exact Post.pure h1
  | discard m => exact execDiscard_nest hrec
  | proxyChildren m name cu =>
    unfold execNode execProxyChildren
    dsimp only
    apply Post.bind
    refine (hrec m _ sc s).mono ?_
    intro r s1 h1
    split
    · exact Post.pure (h1.retok fun t ht => ht)
    · exact Post.pure (h1.retok fun t ht => ht)
    · exact Post.pure (h1.retok fun t ht => ht)
    · exact Post.pure h1
  | expandRange m => exact execExpandRange_nest hrec hnd
  | catch_ m f =>
    unfold execNode execCatch
    dsimp only
    apply Post.bind
    refine (hrec m _ sc s).mono ?_
    intro r s1 h1
    cases r with
    | ok x => exact Post.pure h1
    | err e => exact Post.intro fun r s2 h2 => ((hnd _ e s1 r s2 h2).mono h1.1.len).after h1.1
  | map m sf ff =>
    obtain ⟨hs, hf⟩ := hnd
    unfold execNode execMap
    dsimp only
    apply Post.bind
    refine (hrec m _ sc s).mono ?_
    intro r s1 h1
    have tok : ∀ t, r.tok = some t → Post True (sf t (c.withName "Map".toList) sc) s1 (Nests κ s.toks.length s) := by
      intro t ht
      obtain ⟨l, hl, hu⟩ := h1.2 t ht
      exact Post.intro fun r s2 h2 => (hs _ t _ sc s1 l r s2 h1.1.len hl hu h2).after h1.1
    cases r with
    | err e => exact Post.intro fun r s2 h2 => ((hf e _ sc s1 r s2 h2).mono h1.1.len).after h1.1
    | ok x =>
      cases x with
      | token t => exact tok t rfl
      | proxyChildren t => exact tok t rfl
      | _ => exact Post.pure h1
  | store m name cu =>
    unfold execNode execStore
    dsimp only
    apply Post.bind
    refine (hrec m _ sc s).mono ?_
    intro r s1 h1
    split
    · exact Post.bind (Post.bindVar (Post.pure (h1.toks_eq (State.bindVar_toks ..))))
    · exact Post.pure h1
  | storeStr v name cu => exact Post.bind (Post.bindVar (Post.pure (skip0.toks_eq (State.bindVar_toks ..))))
  | fetch _ => exact Post.pure skip0
  | ref target name cu =>
    unfold execNode execRef
    dsimp only
    apply Post.bind
    apply Post.fetchValue
    intro v
    cases v with
    | inr m => exact hrec m _ sc s
    | inl w =>
      dsimp only
      apply Post.bind
      apply Post.lookupVar
      split
      · exact hrec _ _ sc s
      · exact Post.pure (errs _)
  | register ps =>
    unfold execNode
    dsimp only
    suffices h : ∀ s1 : State, s1.toks = s.toks → Post True (execRegister T sc ps) s1 (Nests κ s.toks.length s) from h s rfl
    induction ps with
    | nil => intro s1 h; exact Post.pure (skip0.toks_eq h)
    | cons p ps ih =>
      intro s1 h
      unfold execRegister
      exact Post.bind (Post.bindVar (ih trivial _ ((State.bindVar_toks ..).trans h)))
  | setScope scope m =>
    unfold execNode execSetScope
    dsimp only
    cases scope with
    | some k => exact hrec m _ k s
    | none =>
      dsimp only
      apply Post.bind
      apply Post.pushScope
      apply Post.bind
      refine (hrec m _ _ _).mono ?_
      intro r s1 h1
      exact Post.bind (Post.popScope (Post.pure (Nests.toks_eq (Nests.after h1 (Keeps.toks_eq (State.pushScope_toks ..)))
        (State.popScope_toks ..))))
  | pin m offset name cu =>
    unfold execNode execPin
    dsimp only
    apply Post.bind
    apply Post.fetchValue
    intro v
    cases v with
    | inr _ => exact Post.pure (errs _)
    | inl w =>
      dsimp only
      have po : ∀ a b w, Post True (parseOffset cfg a b w) s (fun _ s' => s = s') := by
        intro a b w
        unfold parseOffset
        split
        · exact Post.pure rfl
        · split
          · trivial
          · dsimp only
            split
            · trivial
            · repeat' split
              all_goals first | exact Post.pure rfl | trivial
      apply Post.bind
      refine (po _ _ _).mono ?_
      rintro a _ rfl
      apply Post.bind
      have pe : ∀ a b ps, Post True (pinEnd cfg a b ps) s (fun _ s' => s = s') := by
        intro a b ps
        unfold pinEnd
        split
        · exact po _ _ _
        · exact Post.pure rfl
      refine (pe _ _ _).mono ?_
      rintro b _ rfl
      cases m with
      | some m => exact hrec m _ sc s
      | none => exact Post.bind (Post.newTok (Post.pure (Nests.leaf rfl rfl (Nat.le_refl _))))
  | debug m mode =>
    unfold execNode execDebug
    dsimp only
    apply Post.bind
    apply Post.ofOpt _ (fun _ => trivial)
    intro _ _
    cases m with
    | some m => exact hrec m _ sc s
    | none => exact Post.pure skip0
  | brk name => exact Post.pure ⟨Keeps.refl _ _, fun t ht => by cases ht⟩
  | null => exact Post.pure skip0
  | panic msg =>
    unfold execNode execPanic
    dsimp only
    apply Post.bind
    have pr : Post True (panicRange c) s (fun _ s' => s = s') := by
      unfold panicRange
      split
      · exact Post.bind (Post.getTok (fun _ _ => Post.pure rfl) (fun _ => trivial))
      · exact Post.pure rfl
    refine pr.mono ?_
    rintro q _ rfl
    apply Post.bind
    apply Post.ofOpt _ (fun _ => trivial)
    intro _ _
    exact Post.pure (errs _)
  | error msg => exact newErrorToken_nest (Nat.le_refl _)

/-- Every run. -/
theorem exec_nest (hT : ∀ m, (T m).NestsIf κ) : ∀ n, RecNest κ (exec T cfg n) := by
  intro n
  induction n with
  | zero => intro m c sc s; exact Post.diverge
  | succ n ih =>
    intro m c sc s
    unfold exec
    apply Post.bind
    unfold beforeExec
    split
    · apply Post.bindVar
      have hb := State.bindVar_toks (s := s) sc (T m).name (.matcher m)
      refine (execNode_nest ih (hT m)).mono ?_
      intro r s' h
      rw [hb] at h
      exact h.after (Keeps.toks_eq hb)
    · apply Post.pure
      exact execNode_nest ih (hT m)

end Adx
