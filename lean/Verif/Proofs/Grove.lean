import Verif.Spec.Grove
import Verif.Proofs.Forest
import Verif.Proofs.Post
import Verif.Props.Discard
/-
  Running a matcher returns proper trees of new tokens.
-/
namespace Adx

section heap
variable {toks : List Token} {n m : Nat} {ts us l l' : List TokId} {t : TokId} {s s1 s2 : State}

theorem Pre.sublist (h : Pre toks ts l) (hs : List.Sublist us ts) :
    ∃ l', List.Sublist l' l ∧ Pre toks us l' := by
  induction h generalizing us with
  | nil =>
    cases hs
    exact ⟨[], .slnil, .nil⟩
  | @cons t k ts l1 l2 hk hc _ _ ih2 =>
    cases hs with
    | cons _ hs =>
      obtain ⟨l', h1, h2⟩ := ih2 hs
      exact ⟨l', .cons _ (h1.trans (List.sublist_append_right _ _)), h2⟩
    | cons_cons _ hs =>
      obtain ⟨l', h1, h2⟩ := ih2 hs
      exact ⟨_, .cons_cons _ ((List.Sublist.refl l1).append h1), .cons hk hc h2⟩

theorem Grove.sublist (h : Grove toks n ts l) (hs : List.Sublist us ts) : ∃ l', Grove toks n us l' := by
  obtain ⟨l', h1, h2⟩ := h.pre.sublist hs
  exact ⟨l', h2, h.nodup.sublist h1, fun u hu => h.above u (h1.subset hu), fun u hu => h.errors u (h1.subset hu)⟩

theorem Grove.nil : Grove toks n [] [] := ⟨.nil, .nil, by simp, by simp⟩

theorem Grove.kids (h : Grove toks n [t] l) {k : Token} (hk : toks[t]? = some k) :
    ∃ l', Grove toks n k.children l' := by
  obtain ⟨hp, hn, ha, he⟩ := h
  cases hp with
  | cons hk' hc hs =>
    rw [hk] at hk'
    cases hk'
    cases hs
    rw [List.append_nil] at *
    exact ⟨_, hc, (List.nodup_cons.mp hn).2, fun u hu => ha u (List.mem_cons_of_mem _ hu),
      fun u hu => he u (List.mem_cons_of_mem _ hu)⟩

theorem Grove.lift (h : Grove toks m ts l) (hn : n ≤ m) : Grove toks n ts l :=
  ⟨h.pre, h.nodup, fun u hu => Nat.le_trans hn (h.above u hu), h.errors⟩

theorem Grove.append (h : Grove toks n ts l) (h' : Grove toks m us l') (hl : ∀ u ∈ l, u < m) (hn : n ≤ m) :
    Grove toks n (ts ++ us) (l ++ l') := by
  refine ⟨h.pre.append h'.pre, List.nodup_append.mpr ⟨h.nodup, h'.nodup, ?_⟩, ?_, ?_⟩
  · intro a ha b hb hab
    subst hab
    exact Nat.lt_irrefl _ (Nat.lt_of_lt_of_le (hl a ha) (h'.above a hb))
  · intro u hu
    rcases List.mem_append.mp hu with hu | hu
    · exact h.above u hu
    · exact Nat.le_trans hn (h'.above u hu)
  · intro u hu
    rcases List.mem_append.mp hu with hu | hu
    · exact h.errors u hu
    · exact h'.errors u hu

theorem Grow.refl (n : Nat) (s : State) : Grow n s s := ⟨Nat.le_refl _, fun _ _ k hk => ⟨k, hk, rfl, rfl⟩⟩

theorem Grow.trans (h : Grow n s s1) (h' : Grow n s1 s2) : Grow n s s2 := by
  refine ⟨Nat.le_trans h.len h'.len, fun i hi k hk => ?_⟩
  obtain ⟨k1, hk1, e1, e2⟩ := h.keep i hi k hk
  obtain ⟨k2, hk2, e3, e4⟩ := h'.keep i hi k1 hk1
  exact ⟨k2, hk2, e3.trans e1, e4.trans e2⟩

theorem Grow.lift (h : Grow m s s1) (hn : n ≤ m) : Grow n s s1 :=
  ⟨h.len, fun i hi => h.keep i (Nat.lt_of_lt_of_le hi hn)⟩

/-- Beyond the end of the heap there is nothing to keep. -/
theorem Grow.any (h : Grow s.toks.length s s1) (n : Nat) : Grow n s s1 :=
  ⟨h.len, fun i _ k hk => h.keep i (List.getElem?_eq_some_iff.mp hk).1 k hk⟩

theorem Grow.toks_eq (h : s1.toks = s.toks) : Grow n s s1 :=
  ⟨Nat.le_of_eq (by rw [h]), fun i _ k hk => ⟨k, by rw [h]; exact hk, rfl, rfl⟩⟩

theorem Grow.newTok {k : Token} : Grow n s { s with toks := s.toks ++ [k] } := by
  refine ⟨by simp, fun i _ j hj => ⟨j, ?_, rfl, rfl⟩⟩
  show (s.toks ++ [k])[i]? = some j
  rw [List.getElem?_append_left (List.getElem?_eq_some_iff.mp hj).1]
  exact hj

theorem Grow.set {i : TokId} {k k' : Token} (hk : s.toks[i]? = some k)
    (h : n ≤ i ∨ k'.children = k.children ∧ k'.flags = k.flags) :
    Grow n s { s with toks := s.toks.set i k' } := by
  refine ⟨by simp, fun j hj q hq => ?_⟩
  show ∃ q', (s.toks.set i k')[j]? = some q' ∧ _
  by_cases hij : j = i
  · subst hij
    rw [hk] at hq
    cases hq
    rw [List.getElem?_set_self (List.getElem?_eq_some_iff.mp hk).1]
    rcases h with h | h
    · exact (Nat.not_lt.mpr h hj).elim
    · exact ⟨k', rfl, h.1, h.2⟩
  · rw [List.getElem?_set_ne (Ne.symm hij)]
    exact ⟨q, hq, rfl, rfl⟩

theorem Grove.grow (h : Grove s.toks n ts l) (hg : Grow m s s1) (hm : ∀ u ∈ l, u < m) : Grove s1.toks n ts l := by
  refine ⟨h.pre.congr fun u hu k hk => ?_, h.nodup, h.above, fun u hu k1 hk1 hf => ?_⟩
  · obtain ⟨k', h1, h2, _⟩ := hg.keep u (hm u hu) k hk
    exact ⟨k', h1, h2⟩
  · obtain ⟨k, hk⟩ : ∃ k, s.toks[u]? = some k := ⟨_, List.getElem?_eq_getElem (h.pre.valid u hu)⟩
    obtain ⟨k', h1, h2, h3⟩ := hg.keep u (hm u hu) k hk
    rw [hk1] at h1
    cases h1
    rw [h2]
    exact h.errors u hu k hk (by rw [← h3]; exact hf)

theorem Grove.grow_all (h : Grove s.toks n ts l) (hg : Grow s.toks.length s s1) : Grove s1.toks n ts l :=
  h.grow hg h.pre.valid

end heap

variable {T : Table} {cfg : Cfg}

theorem Grows.err {n : Nat} {s s' : State} {f : Failure} (h : Grow n s s') : Grows n s (.err f) s' :=
  ⟨h, fun _ ht => by cases ht⟩

theorem Grows.skip {n : Nat} {s s' : State} {k : Int} (h : Grow n s s') : Grows n s (.ok (.skip k)) s' :=
  ⟨h, fun _ ht => by cases ht⟩

theorem Grows.leaf {s : State} {k : Token} {n : Nat} (hk : k.children = []) (hn : n ≤ s.toks.length) :
    Grows n s (.ok (.token s.toks.length)) { s with toks := s.toks ++ [k] } := by
  refine ⟨Grow.newTok, fun t ht => ?_⟩
  cases ht
  have hg : (s.toks ++ [k])[s.toks.length]? = some k := List.getElem?_concat_length
  refine ⟨[s.toks.length], .cons (l := []) (l' := []) hg (by rw [hk]; exact .nil) .nil, by simp, by simpa using hn, ?_⟩
  intro u hu j hj _
  have : u = s.toks.length := by simpa using hu
  subst this
  rw [hg] at hj
  cases hj
  exact hk

theorem Grows.mono {m n : Nat} {s s' : State} {r : R} (h : Grows m s r s') (hn : n ≤ m) : Grows n s r s' :=
  ⟨h.1.lift hn, fun t ht => (h.2 t ht).imp fun _ hl => hl.lift hn⟩

theorem Grows.after {n : Nat} {s s1 s' : State} {r : R} (h : Grows n s1 r s') (hg : Grow n s s1) : Grows n s r s' :=
  ⟨hg.trans h.1, h.2⟩

theorem Grows.retok {n : Nat} {s s' : State} {r r' : R} (h : Grows n s r s')
    (he : ∀ t, r'.tok = some t → r.tok = some t) : Grows n s r' s' := ⟨h.1, fun t ht => h.2 t (he t ht)⟩

theorem Grows.toks_eq {n : Nat} {s s1 s2 : State} {r : R} (h : Grows n s r s1) (he : s2.toks = s1.toks) :
    Grows n s r s2 := by
  refine ⟨h.1.trans (Grow.toks_eq he), ?_⟩
  rw [he]
  exact h.2

/-- The specification of running a matcher. -/
def RecGrow (f : ExecFn) : Prop := ∀ m c sc s, Post True (f m c sc) s (Grows s.toks.length s)

theorem setBoth_shape (k : Token) (a b : Range) : ((k.setCaptured a).setMatched b).children = k.children ∧
    ((k.setCaptured a).setMatched b).flags = k.flags := by
  obtain ⟨kind, _⟩ := k
  cases kind <;> exact ⟨rfl, rfl⟩

theorem addToken_grow {prog : TokId} {ps : PS} {t : TokId} {a u : Bool} {s : State} :
    Post True (addToken prog ps t a u) s (fun ps' s' => Grow s.toks.length s s' ∧ ps'.children = ps.children ++ [t]) := by
  unfold addToken
  apply Post.bind
  have prep : Post True (prepToken ps t a u) s (fun _ s' => Grow s.toks.length s s') := by
    unfold prepToken
    apply Post.bind
    apply Post.getTok _ (fun _ => trivial)
    intro k hk
    split
    · split
      · apply Post.modTok _ (fun _ => trivial)
        intro k' hk'
        exact Grow.set hk' (Or.inr (setBoth_shape _ _ _))
      · exact Post.pure (Grow.refl _ _)
    · split
      · trivial
      · exact Post.pure (Grow.refl _ _)
  refine prep.mono ?_
  intro _ s1 g1
  apply Post.bind
  apply Post.getTok _ (fun _ => trivial)
  intro k hk
  apply Post.bind
  apply Post.modTok _ (fun _ => trivial)
  intro k' hk'
  apply Post.pure
  refine ⟨g1.trans (Grow.set hk' (Or.inr ⟨rfl, rfl⟩)), ?_⟩
  cases u <;> rfl

theorem handleToken_grow {prog : TokId} {ps : PS} {t : TokId} {a u : Bool} {s : State} :
    Post True (handleToken prog ps t a u) s (fun ps' s' => Grow s.toks.length s s' ∧ ps'.children = ps.children ++ [t]) := by
  unfold handleToken
  apply Post.bind
  apply Post.getTok _ (fun _ => trivial)
  intro k _
  exact addToken_grow

theorem extractLoop_grow {prog : TokId} {u : Bool} (cs : List TokId) : ∀ {s : State} {ps : PS},
    Post True (extractLoop prog u cs ps) s (fun ps' s' => Grow s.toks.length s s' ∧
      ∃ sub, List.Sublist sub cs ∧ ps'.children = ps.children ++ sub) := by
  induction cs with
  | nil =>
    intro s ps
    exact Post.pure ⟨Grow.refl _ _, [], .slnil, (List.append_nil _).symm⟩
  | cons t cs ih =>
    intro s ps
    unfold extractLoop
    apply Post.bind
    apply Post.getTok _ (fun _ => trivial)
    intro k _
    split
    · refine ih.mono ?_
      rintro ps' s' ⟨g, sub, h1, h2⟩
      exact ⟨g, sub, .cons _ h1, h2⟩
    · apply Post.bind
      refine addToken_grow.mono ?_
      rintro ps1 s1 ⟨g1, h1⟩
      refine ih.mono ?_
      rintro ps2 s2 ⟨g2, sub, h2, h3⟩
      refine ⟨g1.trans (g2.any _), t :: sub, .cons_cons _ h2, ?_⟩
      rw [h3, h1, List.append_assoc]
      rfl

theorem handleExtract_grow {prog : TokId} {ps : PS} {t : TokId} {u : Bool} {s : State} {k : Token}
    (hk : s.toks[t]? = some k) :
    Post True (handleExtract prog ps t u) s (fun ps' s' => Grow s.toks.length s s' ∧
      ∃ sub, List.Sublist sub k.children ∧ ps'.children = ps.children ++ sub) := by
  unfold handleExtract
  apply Post.bind
  apply Post.getTok _ (fun _ => trivial)
  intro k' hk'
  rw [hk] at hk'
  cases hk'
  dsimp only
  refine (extractLoop_grow _).mono ?_
  rintro ps' s' ⟨g, sub, h1, h2⟩
  refine ⟨g, sub, h1, ?_⟩
  rw [h2]
  split <;> rfl

theorem handleSkip_grow {ps : PS} {a : Nat} {k : Int} {s : State} :
    Post True (handleSkip cfg ps a k) s (fun ps' s' => s' = s ∧ ps'.children = ps.children) := by
  unfold handleSkip
  apply Post.bind
  unfold addOffset
  dsimp only
  split
  · exact Post.pure (Post.pure ⟨rfl, rfl⟩)
  · split
    · trivial
    · exact Post.pure (Post.pure ⟨rfl, rfl⟩)

/-- The variables of a program whose token is `prog`. -/
structure PSGrove (n : Nat) (prog : TokId) (s : State) (ps : PS) : Prop where
  n_le : n ≤ prog
  root : ∃ k, s.toks[prog]? = some k ∧ k.flags &&& IS_ERROR = 0
  kids : ∃ l, Grove s.toks (prog + 1) ps.children l

theorem PSGrove.lt {n : Nat} {prog : TokId} {s : State} {ps : PS} (h : PSGrove n prog s ps) : prog < s.toks.length := by
  obtain ⟨k, hk, _⟩ := h.root
  exact (List.getElem?_eq_some_iff.mp hk).1

theorem PSGrove.grow {n : Nat} {prog : TokId} {s s' : State} {ps : PS} (h : PSGrove n prog s ps)
    (hg : Grow s.toks.length s s') : PSGrove n prog s' ps := by
  obtain ⟨k, hk, hf⟩ := h.root
  obtain ⟨l, hl⟩ := h.kids
  obtain ⟨k', h1, _, h3⟩ := hg.keep prog h.lt k hk
  exact ⟨h.n_le, ⟨k', h1, by rw [h3]; exact hf⟩, l, hl.grow_all hg⟩

/-- A new tree goes behind the children. -/
def PSGrove.Takes (prog : TokId) (s : State) (ps : PS) (t : TokId) : Prop :=
  ∃ l, Grove s.toks (prog + 1) (ps.children ++ [t]) l

theorem PSGrove.takes {n : Nat} {prog : TokId} {s s' : State} {ps : PS} {t : TokId} {l : List TokId}
    (h : PSGrove n prog s ps) (hg : Grow s.toks.length s s') (hl : Grove s'.toks s.toks.length [t] l) :
    PSGrove.Takes prog s' ps t := by
  obtain ⟨l0, h0⟩ := h.kids
  exact ⟨_, (h0.grow_all hg).append hl h0.pre.valid h.lt⟩

theorem handleToken_ps {n : Nat} {prog : TokId} {s : State} {ps : PS} {t : TokId} {a u : Bool} (h : PSGrove n prog s ps)
    (ht : PSGrove.Takes prog s ps t) : Post True (handleToken prog ps t a u) s (fun ps' s' =>
      Grow s.toks.length s s' ∧ PSGrove n prog s' ps') := by
  obtain ⟨l, hl⟩ := ht
  refine handleToken_grow.mono ?_
  rintro ps' s' ⟨g, hc⟩
  have h' := h.grow g
  exact ⟨g, h'.n_le, h'.root, l, by rw [hc]; exact hl.grow_all g⟩

theorem handleExtract_ps {n : Nat} {prog : TokId} {s : State} {ps : PS} {t : TokId} {u : Bool} (h : PSGrove n prog s ps)
    (ht : PSGrove.Takes prog s ps t) : Post True (handleExtract prog ps t u) s (fun ps' s' =>
      Grow s.toks.length s s' ∧ PSGrove n prog s' ps') := by
  obtain ⟨l, hl⟩ := ht
  obtain ⟨l1, l2, rfl, p1, p2⟩ := hl.pre.split
  obtain ⟨k, hk⟩ : ∃ k, s.toks[t]? = some k := by
    cases p2 with
    | cons hk _ _ => exact ⟨_, hk⟩
  refine (handleExtract_grow hk).mono ?_
  rintro ps' s' ⟨g, sub, h1, hc⟩
  have h' := h.grow g
  refine ⟨g, h'.n_le, h'.root, ?_⟩
  rw [hc]
  have hn := List.nodup_append.mp hl.nodup
  have g1 : Grove s.toks (prog + 1) ps.children l1 := ⟨p1, hn.1, fun u hu => hl.above u (by simp [hu]),
    fun u hu => hl.errors u (by simp [hu])⟩
  cases p2 with
  | @cons _ k' _ l3 l4 hk' hc' hs' =>
    rw [hk] at hk'
    cases hk'
    cases hs'
    have g2 : Grove s.toks (prog + 1) (ps.children ++ k.children) (l1 ++ l3) := by
      refine ⟨p1.append hc', ?_, ?_, ?_⟩
      · refine List.nodup_append.mpr ⟨hn.1, ?_, fun a ha b hb => hn.2.2 a ha b (by simp [hb])⟩
        have := (List.nodup_cons.mp hn.2.1).2
        simpa using this
      · intro u hu
        refine hl.above u ?_
        rcases List.mem_append.mp hu with hu | hu <;> simp [hu]
      · intro u hu
        refine hl.errors u ?_
        rcases List.mem_append.mp hu with hu | hu <;> simp [hu]
    obtain ⟨l', hl'⟩ := (g2.grow_all g).sublist ((List.Sublist.refl ps.children).append h1)
    exact ⟨l', hl'⟩

theorem PSGrove.children_eq {n : Nat} {prog : TokId} {s : State} {ps ps' : PS} (h : PSGrove n prog s ps)
    (hc : ps'.children = ps.children) : PSGrove n prog s ps' :=
  ⟨h.n_le, h.root, by rw [hc]; exact h.kids⟩

theorem finalize_grow {n : Nat} {prog : TokId} {s : State} {ps : PS} {iter : Option (Nat × Nat)} {lc : Nat} {fm : Bool}
    (h : PSGrove n prog s ps) : Post True (finalizeProgram prog ps iter lc fm) s (Grows n s) := by
  have hfin : Post (α := R) True (if ps.captured.start = usizeMax ∨ ps.matched.start = usizeMax then pure (.err .fail)
      else if ps.children = [] then pure (.err .fail)
      else do
        modTok prog (fun k =>
          ((({ k with children := ps.children } : Token).setCaptured ps.captured).setMatched
            ps.matched))
        pure (.ok (.token prog))) s (Grows n s) := by
    split
    · exact Post.pure (Grows.err (Grow.refl _ _))
    · split
      · exact Post.pure (Grows.err (Grow.refl _ _))
      · apply Post.bind
        apply Post.modTok _ (fun _ => trivial)
        intro k hk
        obtain ⟨k', hk', hf⟩ := h.root
        rw [hk] at hk'
        cases hk'
        obtain ⟨e1, e2⟩ := setBoth_shape ({ k with children := ps.children } : Token) ps.captured ps.matched
        have e1' : (((({ k with children := ps.children } : Token)).setCaptured ps.captured).setMatched
            ps.matched).children = ps.children := e1
        have e2' : (((({ k with children := ps.children } : Token)).setCaptured ps.captured).setMatched
            ps.matched).flags = k.flags := e2
        generalize ((({ k with children := ps.children } : Token).setCaptured ps.captured).setMatched
          ps.matched) = k2 at e1' e2' ⊢
        obtain ⟨l, hl⟩ := h.kids
        have hnp : prog ∉ l := fun hx => Nat.lt_irrefl _ (hl.above _ hx)
        have hset : (s.toks.set prog k2)[prog]? = some k2 := List.getElem?_set_self h.lt
        have hother : ∀ u, u ≠ prog → (s.toks.set prog k2)[u]? = s.toks[u]? :=
          fun u hu => List.getElem?_set_ne (Ne.symm hu)
        refine Post.pure ⟨Grow.set hk (Or.inl h.n_le), fun t ht => ?_⟩
        cases ht
        have hpre : Pre (s.toks.set prog k2) ps.children l := hl.pre.congr fun u hu j hj =>
          ⟨j, by rw [hother u (fun hx => hnp (hx ▸ hu))]; exact hj, rfl⟩
        refine ⟨prog :: l, ?_, List.nodup_cons.mpr ⟨hnp, hl.nodup⟩, ?_, ?_⟩
        · have := Pre.cons hset (by rw [e1']; exact hpre) .nil
          rw [List.append_nil] at this
          exact this
        · intro u hu
          rcases List.mem_cons.mp hu with rfl | hu
          · exact h.n_le
          · have := hl.above u hu
            have := h.n_le
            omega
        · intro u hu j hj hfl
          rcases List.mem_cons.mp hu with rfl | hu
          · have hj' : (s.toks.set u k2)[u]? = some j := hj
            rw [hset] at hj'
            cases hj'
            rw [e2', hf] at hfl
            exact (hfl rfl).elim
          · have hj' : (s.toks.set prog k2)[u]? = some j := hj
            rw [hother u (fun hx => hnp (hx ▸ hu))] at hj'
            exact hl.errors u hu j hj' hfl
  unfold finalizeProgram
  dsimp only
  split
  · cases iter with
    | none => exact hfin
    | some lh =>
      obtain ⟨lo, hi⟩ := lh
      dsimp only
      split
      · exact Post.pure (Grows.skip (Grow.refl _ _))
      · split
        · exact Post.pure (Grows.err (Grow.refl _ _))
        · exact hfin
  · exact hfin

/-- How one pass over the patterns may end. -/
def FlowGrow (n : Nat) (prog : TokId) (s : State) : Flow → Prop
  | .next ps => PSGrove n prog s ps
  | .action x ps => PSGrove n prog s ps ∧ ∀ t, x.tok = some t → PSGrove.Takes prog s ps t ∧
      ∃ l, Grove s.toks n [t] l
  | .ret r => ∀ t, r.tok = some t → ∃ l, Grove s.toks n [t] l

theorem runPatterns_grow {rec_ : ExecFn} (hrec : RecGrow rec_) {n a : Nat} {prog : TokId} {sc : SCtxId}
    {iter : Option (Nat × Nat)} {first : Bool} {lc : Nat} :
    ∀ (ms : List MatcherId) {s : State} {ps : PS}, PSGrove n prog s ps →
      Post True (runPatterns T cfg rec_ prog sc a iter first lc ms ps) s (fun f s' => Grow n s s' ∧
        FlowGrow n prog s' f) := by
  intro ms
  induction ms with
  | nil => intro s ps h; exact Post.pure ⟨Grow.refl _ _, h⟩
  | cons m ms ih =>
    intro s ps h
    have hlen : n ≤ s.toks.length := Nat.le_trans h.n_le (Nat.le_of_lt h.lt)
    unfold runPatterns
    dsimp only
    apply Post.bind
    refine (hrec m _ sc s).mono ?_
    rintro r s1 ⟨g1, ht⟩
    have h' := h.grow g1
    have g1' : Grow n s s1 := g1.lift hlen
    have go : ∀ {s2 : State} {ps2 : PS}, Grow n s1 s2 → PSGrove n prog s2 ps2 →
        Post True (runPatterns T cfg rec_ prog sc a iter first lc ms ps2) s2 (fun f s' => Grow n s s' ∧
          FlowGrow n prog s' f) := by
      intro s2 ps2 g2 h2
      refine (ih h2).mono ?_
      rintro f s3 ⟨g3, h3⟩
      exact ⟨(g1'.trans g2).trans g3, h3⟩
    have low : ∀ t, r.tok = some t → ∃ l, Grove s1.toks n [t] l := fun t htk => (ht t htk).imp fun _ hl => hl.lift hlen
    cases r with
    | err f =>
      dsimp only
      apply Post.bind
      apply Post.dbgT
      cases f with
      | error e => exact Post.pure ⟨g1', fun _ ht => by cases ht⟩
      | fail =>
        dsimp only
        split
        · exact go (Grow.refl _ _) h'
        · split
          · apply Post.bind
            refine (finalize_grow h').mono ?_
            rintro r s2 ⟨g2, h2⟩
            exact Post.pure ⟨g1'.trans g2, h2⟩
          · exact Post.pure ⟨g1', fun _ ht => by cases ht⟩
    | ok x =>
      cases x with
      | token t =>
        dsimp only
        obtain ⟨l, hl⟩ := ht t rfl
        apply Post.bind
        apply Post.getTok _ (fun _ => trivial)
        intro k hk
        split
        · exact go (Grow.refl _ _) h'
        · split
          · exact Post.pure ⟨g1', low⟩
          · apply Post.bind
            refine (handleToken_ps h' (h.takes g1 hl)).mono ?_
            rintro ps2 s2 ⟨g2, h2⟩
            exact go (g2.any _) h2
      | proxyChildren t =>
        dsimp only
        obtain ⟨l, hl⟩ := ht t rfl
        apply Post.bind
        apply Post.getTok _ (fun _ => trivial)
        intro k hk
        split
        · exact go (Grow.refl _ _) h'
        · split
          · exact Post.pure ⟨g1', low⟩
          · apply Post.bind
            refine (handleExtract_ps h' (h.takes g1 hl)).mono ?_
            rintro ps2 s2 ⟨g2, h2⟩
            exact go (g2.any _) h2
      | skip k =>
        dsimp only
        split
        · exact Post.pure ⟨g1', fun _ ht => by cases ht⟩
        · split
          · apply Post.bind
            refine handleSkip_grow.mono ?_
            rintro ps2 s2 ⟨rfl, h2⟩
            exact go (Grow.refl _ _) (h'.children_eq h2)
          · exact go (Grow.refl _ _) h'
      | brk nm d => exact Post.pure ⟨g1', h', fun t htk => ⟨h.takes g1 (ht t htk).choose_spec, low t htk⟩⟩
      | cont nm d => exact Post.pure ⟨g1', h', fun t htk => ⟨h.takes g1 (ht t htk).choose_spec, low t htk⟩⟩
      | stop => exact Post.pure ⟨g1', h', fun t htk => ⟨h.takes g1 (ht t htk).choose_spec, low t htk⟩⟩
      | none => exact Post.pure ⟨g1', h', fun t htk => ⟨h.takes g1 (ht t htk).choose_spec, low t htk⟩⟩

theorem handlePayload_grow {n a : Nat} {prog : TokId} {s : State} {ps : PS} {d : Success} (h : PSGrove n prog s ps)
    (hd : ∀ t, d.tok = some t → PSGrove.Takes prog s ps t) :
    Post True (handlePayload cfg prog ps a d) s (fun ps' s' => Grow s.toks.length s s' ∧ PSGrove n prog s' ps') := by
  unfold handlePayload
  cases d with
  | token t => exact handleToken_ps h (hd t rfl)
  | proxyChildren t => exact handleExtract_ps h (hd t rfl)
  | skip k =>
    refine handleSkip_grow.mono ?_
    rintro ps2 s2 ⟨rfl, h2⟩
    exact ⟨Grow.refl _ _, h.children_eq h2⟩
  | brk _ _ => exact Post.pure ⟨Grow.refl _ _, h⟩
  | cont _ _ => exact Post.pure ⟨Grow.refl _ _, h⟩
  | none => exact Post.pure ⟨Grow.refl _ _, h⟩
  | stop => exact Post.pure ⟨Grow.refl _ _, h⟩

theorem runIterations_grow {rec_ : ExecFn} (hrec : RecGrow rec_) {n a : Nat} {prog : TokId} {sc : SCtxId} {self : Str}
    {ms : List MatcherId} {iter : Option (Nat × Nat)} {first : Bool} :
    ∀ (k lc : Nat) {s : State} {ps : PS}, PSGrove n prog s ps →
      Post True (runIterations T cfg rec_ prog sc a self ms iter first k lc ps) s (Grows n s) := by
  intro k
  induction k with
  | zero =>
    intro lc s ps h
    unfold runIterations
    exact finalize_grow h
  | succ k ih =>
    intro lc s ps h
    unfold runIterations
    dsimp only
    apply Post.bind
    refine (runPatterns_grow hrec ms h).mono ?_
    rintro f s1 ⟨g1, hf⟩
    cases f with
    | ret r => exact Post.pure ⟨g1, hf⟩
    | next ps1 => exact (ih (lc + 1) hf).mono fun r s2 h2 => h2.after g1
    | action x ps1 =>
      obtain ⟨h1, hx⟩ := hf
      cases x with
      | token _ => trivial
      | proxyChildren _ => trivial
      | skip _ => trivial
      | none => trivial
      | stop => exact (finalize_grow h1).mono fun r s2 h2 => h2.after g1
      | brk nm d =>
        dsimp only
        split
        · exact Post.pure ⟨g1, fun t ht => (hx t ht).2⟩
        · apply Post.bind
          refine (handlePayload_grow (d := d) h1 fun t ht => (hx t ht).1).mono ?_
          rintro ps2 s2 ⟨g2, h2⟩
          apply Post.bind
          refine (finalize_grow h2).mono ?_
          intro r s3 h3
          have h3' := h3.after (g1.trans (g2.any _))
          split
          · exact Post.pure h3'
          · cases r with
            | ok x => exact Post.pure (h3'.retok fun t ht => ht)
            | err f => exact Post.pure (h3'.retok fun t ht => ht)
      | cont nm d =>
        dsimp only
        split
        · exact Post.pure ⟨g1, fun t ht => (hx t ht).2⟩
        · apply Post.bind
          refine (handlePayload_grow (d := d) h1 fun t ht => (hx t ht).1).mono ?_
          rintro ps2 s2 ⟨g2, h2⟩
          split
          · exact (ih (lc + 1) h2).mono fun r s3 h3 => h3.after (g1.trans (g2.any _))
          · exact (finalize_grow h2).mono fun r s3 h3 => h3.after (g1.trans (g2.any _))

theorem execProgram_grow {rec_ : ExecFn} (hrec : RecGrow rec_) {ms : List MatcherId} {name : Str}
    {iter : Option (Nat × Nat)} {first : Bool} {c : Ctx} {sc : SCtxId} {s : State} :
    Post True (execProgram T cfg rec_ ms name iter first c sc) s (Grows s.toks.length s) := by
  unfold execProgram
  dsimp only
  apply Post.bind
  apply Post.newTok
  have hf : (Token.mk' (c.withName name).parser name Range.blank).flags &&& IS_ERROR = 0 :=
    (by decide : (0 : Flags) &&& IS_ERROR = 0)
  generalize Token.mk' (c.withName name).parser name Range.blank = k at hf ⊢
  refine (runIterations_grow (n := s.toks.length) hrec (iterCount iter) 0
    (ps := ⟨c.withName name, [], ⟨usizeMax, 0⟩, ⟨usizeMax, 0⟩⟩)
    ⟨Nat.le_refl _, ⟨k, List.getElem?_concat_length, hf⟩, [], Grove.nil⟩).mono ?_
  intro r s' h
  exact h.after Grow.newTok

theorem skipToken_grow {c : Ctx} {a n : Nat} {s : State} {t : TokId} {l : List TokId} (h : Grove s.toks n [t] l)
    (hn : n ≤ s.toks.length) :
    Post True (skipToken cfg c a t) s (fun x s' => Grows n s (.ok x) s' ∧ ∀ nm d, x ≠ .brk nm d ∧ x ≠ .cont nm d) := by
  unfold skipToken
  apply Post.bind
  apply Post.getTok _ (fun _ => trivial)
  intro k hk
  apply Post.bind
  apply Post.newTok
  have hu : UpToDate (Token.mk' c.parser "Error".toList ⟨a, k.matched.stop⟩) := ⟨rfl, rfl⟩
  have hch : (Token.mk' c.parser "Error".toList ⟨a, k.matched.stop⟩).children = [] := rfl
  have hfl : (Token.mk' c.parser "Error".toList ⟨a, k.matched.stop⟩).flags &&& IS_ERROR = 0 :=
    (by decide : (0 : Flags) &&& IS_ERROR = 0)
  generalize Token.mk' c.parser "Error".toList ⟨a, k.matched.stop⟩ = ek at hu hch hfl ⊢
  apply Post.bind
  apply Post.getState
  apply Post.bind
  have hnew : s.toks.length ∉ l := fun hx => Nat.lt_irrefl _ (h.pre.valid _ hx)
  have hcol := discardCollect_run (e := s.toks.length) (h.pre.walk (m := (s.toks ++ [ek]).length + 1) (by
      rw [List.length_append]; omega)) { s with toks := s.toks ++ [ek] } ek
    (fun u hu => List.getElem?_append_left (h.pre.valid u hu)) hnew List.getElem?_concat_length hu
  have hset : (s.toks ++ [ek]).set s.toks.length (absorb s.toks ek l) = s.toks ++ [absorb s.toks ek l] := by simp
  have hdc : discardCollect ((s.toks ++ [ek]).length + 1) s.toks.length t { s with toks := s.toks ++ [ek] } =
      .ok () { s with toks := s.toks ++ [absorb s.toks ek l] } := by
    unfold forEach at hcol
    obtain ⟨u, s2, h3, h4⟩ := bind_ok.mp hcol
    unfold forEach at h4
    obtain ⟨_, rfl⟩ := pure_ok.mp h4
    rw [h3]
    dsimp only
    rw [hset]
  have hcoll : Post True (discardCollect ((s.toks ++ [ek]).length + 1) s.toks.length t)
      { s with toks := s.toks ++ [ek] } (fun _ s' => s' = { s with toks := s.toks ++ [absorb s.toks ek l] }) := by
    unfold Post
    rw [hdc]
  refine Post.mono hcoll ?_
  rintro _ _ rfl
  apply Post.bind
  apply Post.getTok _ (fun _ => trivial)
  intro ek2 hek2
  have hget : (s.toks ++ [absorb s.toks ek l])[s.toks.length]? = some (absorb s.toks ek l) := List.getElem?_concat_length
  split
  · refine Post.pure ⟨⟨Grow.newTok, fun u hu => ?_⟩, fun _ _ => ⟨by simp, by simp⟩⟩
    cases hu
    have hce : (absorb s.toks ek l).children = l.filter (isErrorTok s.toks) := by
      show ek.children ++ _ = _
      rw [hch]
      rfl
    have herr : ∀ u, isErrorTok s.toks u = true → ∃ j, s.toks[u]? = some j ∧ j.flags &&& IS_ERROR ≠ 0 := by
      intro u hu
      unfold isErrorTok at hu
      cases hj : s.toks[u]? with
      | none => rw [hj] at hu; simp at hu
      | some j => rw [hj] at hu; exact ⟨j, rfl, by simpa using hu⟩
    have kids : ∀ l0 : List TokId, (∀ u ∈ l0, u ∈ l) →
        Pre (s.toks ++ [absorb s.toks ek l]) (l0.filter (isErrorTok s.toks)) (l0.filter (isErrorTok s.toks)) := by
      intro l0
      induction l0 with
      | nil => intro _; exact .nil
      | cons u l0 ih =>
        intro hsub
        have := ih fun v hv => hsub v (List.mem_cons_of_mem _ hv)
        rw [List.filter_cons]
        split
        · rename_i hu
          obtain ⟨j, hj, hjf⟩ := herr u hu
          refine Pre.cons (l := []) (k := j) ?_ ?_ this
          · rw [List.getElem?_append_left (List.getElem?_eq_some_iff.mp hj).1]
            exact hj
          · rw [h.errors u (hsub u List.mem_cons_self) j hj hjf]
            exact .nil
        · exact this
    refine ⟨s.toks.length :: l.filter (isErrorTok s.toks), ?_, ?_, ?_, ?_⟩
    · have := Pre.cons hget (by rw [hce]; exact kids l fun _ h => h) .nil
      rw [List.append_nil] at this
      exact this
    · exact List.nodup_cons.mpr ⟨fun hx => hnew (List.mem_filter.mp hx).1, h.nodup.filter _⟩
    · intro u hu
      rcases List.mem_cons.mp hu with rfl | hu
      · exact hn
      · exact h.above u (List.mem_filter.mp hu).1
    · intro u hu j hj hjf
      rcases List.mem_cons.mp hu with rfl | hu
      · rw [hget] at hj
        cases hj
        exact (hjf hfl).elim
      · have hul := (List.mem_filter.mp hu).1
        rw [List.getElem?_append_left (h.pre.valid u hul)] at hj
        exact h.errors u hul j hj hjf
  · apply Post.bind
    unfold subOffset
    dsimp only
    have fin : ∀ d : Int, Post True (pure (Success.skip d)) { s with toks := s.toks ++ [absorb s.toks ek l] }
        (fun x s' => Grows n s (.ok x) s' ∧ ∀ nm d, x ≠ .brk nm d ∧ x ≠ .cont nm d) := fun d =>
      Post.pure ⟨Grows.skip Grow.newTok, fun _ _ => ⟨by simp, by simp⟩⟩
    split
    · exact Post.pure (fin _)
    · split
      · trivial
      · exact Post.pure (fin _)

theorem execDiscard_grow {rec_ : ExecFn} (hrec : RecGrow rec_) {m : MatcherId} {c : Ctx} {sc : SCtxId} {s : State} :
    Post True (execDiscard cfg rec_ m c sc) s (Grows s.toks.length s) := by
  unfold execDiscard
  dsimp only
  apply Post.bind
  refine (hrec m _ sc s).mono ?_
  intro r s1 h1
  have go : ∀ t, r.tok = some t → ∀ (f : Success → Success), (∀ x, (f x).tok = x.tok) →
      Post True (do let x ← skipToken cfg (c.withName "Discard".toList) c.offset.start t; pure (R.ok (f x))) s1
        (Grows s.toks.length s) := by
    intro t ht f hf
    apply Post.bind
    obtain ⟨l, hl⟩ := h1.2 t ht
    refine (skipToken_grow hl h1.1.len).mono ?_
    rintro x s2 ⟨h2, _⟩
    exact Post.pure ((h2.after h1.1).retok fun t ht => by rw [← ht]; exact (hf x).symm)
  cases r with
  | err f => exact Post.pure h1
  | ok x =>
    cases x with
    | token t => exact go t rfl id (fun _ => rfl)
    | proxyChildren t => exact go t rfl id (fun _ => rfl)
    | brk nm d =>
      cases d with
      | token t => exact go t rfl (fun x => .brk nm x) (fun _ => rfl)
      | proxyChildren t => exact go t rfl (fun x => .brk nm x) (fun _ => rfl)
      | brk _ _ => trivial
      | cont _ _ => trivial
      | _ => exact Post.pure h1
    | cont nm d =>
      cases d with
      | token t => exact go t rfl (fun x => .cont nm x) (fun _ => rfl)
      | proxyChildren t => exact go t rfl (fun x => .cont nm x) (fun _ => rfl)
      | brk _ _ => trivial
      | cont _ _ => trivial
      | _ => exact Post.pure h1
    | _ => exact Post.pure h1

theorem execExpandRange_grow {rec_ : ExecFn} (hrec : RecGrow rec_) {m : MatcherId} {c : Ctx} {sc : SCtxId} {s : State} :
    Post True (execExpandRange rec_ m c sc) s (Grows s.toks.length s) := by
  unfold execExpandRange
  dsimp only
  apply Post.bind
  refine (hrec m _ sc s).mono ?_
  intro r s1 h1
  cases r with
  | err f => exact Post.pure h1
  | ok x =>
    cases x with
    | token t =>
      obtain ⟨l, hl⟩ := h1.2 t rfl
      dsimp only
      apply Post.bind
      apply Post.getTok _ (fun _ => trivial)
      intro k hk
      apply Post.bind
      apply Post.newTok
      apply Post.bind
      apply Post.modTok _ (fun _ => trivial)
      intro w hw
      have hw' : w = Token.mkMatched (c.withName "Catch".toList).parser "ExpandRange".toList k.matched k.matched := by
        have hx : (s1.toks ++ [Token.mkMatched (c.withName "Catch".toList).parser "ExpandRange".toList k.matched
          k.matched])[s1.toks.length]? = some w := hw
        rw [List.getElem?_concat_length] at hx
        exact (Option.some.inj hx).symm
      have hwc : w.children = [] := by rw [hw']; rfl
      have hwf : w.flags &&& IS_ERROR = 0 := by rw [hw']; exact (by decide : (0 : Flags) &&& IS_ERROR = 0)
      rw [← hw']
      have hset : (s1.toks ++ [w]).set s1.toks.length ({ w with children := w.children ++ [t] } : Token) =
        s1.toks ++ [({ w with children := w.children ++ [t] } : Token)] := by simp
      dsimp only
      rw [hset, hwc, List.nil_append]
      have hg : (s1.toks ++ [({ w with children := [t] } : Token)])[s1.toks.length]? = some { w with children := [t] } :=
        List.getElem?_concat_length
      have hl2 : Grove (s1.toks ++ [({ w with children := [t] } : Token)]) s.toks.length [t] l :=
        Grove.grow_all hl (s1 := { s1 with toks := s1.toks ++ [({ w with children := [t] } : Token)] }) Grow.newTok
      refine Post.pure ⟨h1.1.trans Grow.newTok, fun u hu => ?_⟩
      cases hu
      refine ⟨s1.toks.length :: l, ?_, ?_, ?_, ?_⟩
      · have := Pre.cons hg hl2.pre .nil
        rw [List.append_nil] at this
        exact this
      · exact List.nodup_cons.mpr ⟨fun hx => Nat.lt_irrefl _ (hl.pre.valid _ hx), hl.nodup⟩
      · intro u hu
        rcases List.mem_cons.mp hu with rfl | hu
        · exact h1.1.len
        · exact hl.above u hu
      · intro u hu j hj hjf
        rcases List.mem_cons.mp hu with rfl | hu
        · rw [hg] at hj
          cases hj
          exact (hjf hwf).elim
        · exact hl2.errors u hu j hj hjf
    | proxyChildren t =>
      obtain ⟨l, hl⟩ := h1.2 t rfl
      dsimp only
      apply Post.bind
      apply Post.modTok _ (fun _ => trivial)
      intro k hk
      have hg : ∀ n, Grow n s1 { s1 with toks := s1.toks.set t (k.setCaptured k.matched) } := fun n =>
        Grow.set hk (Or.inr (by obtain ⟨kind, _⟩ := k; cases kind <;> exact ⟨rfl, rfl⟩))
      refine Post.pure ⟨h1.1.trans (hg _), fun u hu => ?_⟩
      cases hu
      exact ⟨l, hl.grow_all (hg _)⟩
    | _ => exact Post.pure h1

theorem newErrorToken_grow {c : Ctx} {msg : Str} {q : Range} {s : State} {n : Nat} (hn : n ≤ s.toks.length) :
    Post True (do let t ← newErrorTokenWithRange c msg q; pure (R.ok (.token t))) s (Grows n s) := by
  apply Post.bind
  unfold newErrorTokenWithRange
  apply Post.bind
  apply Post.ofOpt _ (fun _ => trivial)
  intro w _
  apply Post.newTok
  exact Post.pure (Grows.leaf rfl hn)

theorem execNode_grow {rec_ : ExecFn} (hrec : RecGrow rec_) {nd : Node} (hnd : nd.Grafts) {c : Ctx} {sc : SCtxId}
    {s : State} : Post True (execNode T cfg rec_ nd c sc) s (Grows s.toks.length s) := by
  have skip0 : Grows s.toks.length s (.ok (.skip 0)) s := Grows.skip (Grow.refl _ _)
  have errs : ∀ f, Grows s.toks.length s (.err f) s := fun f => Grows.err (Grow.refl _ _)
  cases nd with
  | equals name cu pat =>
    unfold execNode execEquals
    dsimp only
    apply Post.bind
    apply Post.fetchValue
    intro v
    cases v with
    | inr _ => exact Post.pure (errs _)
    | inl w =>
      dsimp only
      apply Post.bind
      apply Post.ofOpt _ (fun _ => trivial)
      intro o _
      cases o with
      | none => exact Post.bind (Post.dbgT (Post.pure (errs _)))
      | some q => exact Post.bind (Post.dbgT (Post.bind (Post.newTok (Post.pure (Grows.leaf rfl (Nat.le_refl _))))))
  | regex name cu re =>
    unfold execNode execMatches
    dsimp only
    apply Post.bind
    apply Post.ofOpt _ (fun _ => trivial)
    intro o _
    cases o with
    | none => exact Post.bind (Post.dbgT (Post.pure (errs _)))
    | some q =>
      dsimp only
      split
      · exact Post.bind (Post.dbgT (Post.pure skip0))
      · exact Post.bind (Post.newTok (Post.pure (Grows.leaf rfl (Nat.le_refl _))))
  | sequence name cu a b e =>
    unfold execNode execSequence
    dsimp only
    apply Post.bind
    apply Post.fetchValue
    intro v
    cases v with
    | inr _ => exact Post.pure (errs _)
    | inl w1 =>
      dsimp only
      split
      · trivial
      apply Post.bind
      apply Post.fetchValue
      intro v
      cases v with
      | inr _ => exact Post.pure (errs _)
      | inl w2 =>
        dsimp only
        split
        · trivial
        apply Post.bind
        apply Post.fetchValue
        intro v
        cases v with
        | inr _ => exact Post.pure (errs _)
        | inl w3 =>
          dsimp only
          apply Post.bind
          apply Post.ofOpt _ (fun _ => trivial)
          intro o _
          cases o with
          | none => exact Post.bind (Post.dbgT (Post.pure (errs _)))
          | some q =>
            dsimp only
            split
            · trivial
            · exact Post.bind (Post.dbgT (Post.pure (errs _)))
            · exact Post.bind (Post.newTok (Post.bind (Post.dbgT (Post.pure (Grows.leaf rfl (Nat.le_refl _))))))
  | program ps name cu iter fs => exact execProgram_grow hrec
  | optional m =>
    unfold execNode execOptional
    dsimp only
    apply Post.bind
    refine (hrec m _ sc s).mono ?_
    intro r s1 h1
    split
    · exact Post.pure (Grows.skip h1.1)
    · exact Post.pure h1
  | not m =>
    unfold execNode execNot
    dsimp only
    apply Post.bind
    refine (hrec m _ sc s).mono ?_
    intro r s1 h1
    split
    · exact Post.pure (Grows.err h1.1)
    · exact Post.pure (Grows.err h1.1)
    · split
      · exact Post.pure (Grows.err h1.1)
      · exact Post.pure (Grows.skip h1.1)
    · exact Post.pure (Grows.skip h1.1)
    · exact Post.pure h1
  | discard m => exact execDiscard_grow hrec
  | proxyChildren m name cu =>
    unfold execNode execProxyChildren
    dsimp only
    apply Post.bind
    refine (hrec m _ sc s).mono ?_
    intro r s1 h1
    split
    · exact Post.pure (h1.retok fun t ht => ht)
    · exact Post.pure (h1.retok fun t ht => ht)
    · exact Post.pure (h1.retok fun t ht => ht)
    · exact Post.pure h1
  | expandRange m => exact execExpandRange_grow hrec
  | catch_ m f =>
    unfold execNode execCatch
    dsimp only
    apply Post.bind
    refine (hrec m _ sc s).mono ?_
    intro r s1 h1
    cases r with
    | ok x => exact Post.pure h1
    | err e => exact Post.intro fun r s2 h2 => ((hnd _ e s1 r s2 h2).mono h1.1.len).after h1.1
  | map m sf ff =>
    obtain ⟨hs, hf⟩ := hnd
    unfold execNode execMap
    dsimp only
    apply Post.bind
    refine (hrec m _ sc s).mono ?_
    intro r s1 h1
    have tok : ∀ t, r.tok = some t → Post True (sf t (c.withName "Map".toList) sc) s1 (Grows s.toks.length s) := by
      intro t ht
      obtain ⟨l, hl⟩ := h1.2 t ht
      exact Post.intro fun r s2 h2 => (hs _ t _ sc s1 l r s2 h1.1.len hl h2).after h1.1
    cases r with
    | err e => exact Post.intro fun r s2 h2 => ((hf e _ sc s1 r s2 h2).mono h1.1.len).after h1.1
    | ok x =>
      cases x with
      | token t => exact tok t rfl
      | proxyChildren t => exact tok t rfl
      | _ => exact Post.pure h1
  | store m name cu =>
    unfold execNode execStore
    dsimp only
    apply Post.bind
    refine (hrec m _ sc s).mono ?_
    intro r s1 h1
    split
    · exact Post.bind (Post.bindVar (Post.pure (h1.toks_eq (State.bindVar_toks ..))))
    · exact Post.pure h1
  | storeStr v name cu => exact Post.bind (Post.bindVar (Post.pure (skip0.toks_eq (State.bindVar_toks ..))))
  | fetch _ => exact Post.pure skip0
  | ref target name cu =>
    unfold execNode execRef
    dsimp only
    apply Post.bind
    apply Post.fetchValue
    intro v
    cases v with
    | inr m => exact hrec m _ sc s
    | inl w =>
      dsimp only
      apply Post.bind
      apply Post.lookupVar
      split
      · exact hrec _ _ sc s
      · exact Post.pure (errs _)
  | register ps =>
    unfold execNode
    dsimp only
    suffices h : ∀ s1 : State, s1.toks = s.toks → Post True (execRegister T sc ps) s1 (Grows s.toks.length s) from h s rfl
    induction ps with
    | nil => intro s1 h; exact Post.pure (skip0.toks_eq h)
    | cons p ps ih =>
      intro s1 h
      unfold execRegister
      exact Post.bind (Post.bindVar (ih trivial _ ((State.bindVar_toks ..).trans h)))
  | setScope scope m =>
    unfold execNode execSetScope
    dsimp only
    cases scope with
    | some k => exact hrec m _ k s
    | none =>
      dsimp only
      apply Post.bind
      apply Post.pushScope
      apply Post.bind
      refine (hrec m _ _ _).mono ?_
      intro r s1 h1
      exact Post.bind (Post.popScope (Post.pure (Grows.toks_eq (Grows.after h1 (Grow.toks_eq (State.pushScope_toks ..)))
        (State.popScope_toks ..))))
  | pin m offset name cu =>
    unfold execNode execPin
    dsimp only
    apply Post.bind
    apply Post.fetchValue
    intro v
    cases v with
    | inr _ => exact Post.pure (errs _)
    | inl w =>
      dsimp only
      have po : ∀ a b w, Post True (parseOffset cfg a b w) s (fun _ s' => s = s') := by
        intro a b w
        unfold parseOffset
        split
        · exact Post.pure rfl
        · split
          · trivial
          · dsimp only
            split
            · trivial
            · repeat' split
              all_goals first | exact Post.pure rfl | trivial
      apply Post.bind
      refine (po _ _ _).mono ?_
      rintro a _ rfl
      apply Post.bind
      have pe : ∀ a b ps, Post True (pinEnd cfg a b ps) s (fun _ s' => s = s') := by
        intro a b ps
        unfold pinEnd
        split
        · exact po _ _ _
        · exact Post.pure rfl
      refine (pe _ _ _).mono ?_
      rintro b _ rfl
      cases m with
      | some m => exact hrec m _ sc s
      | none => exact Post.bind (Post.newTok (Post.pure (Grows.leaf rfl (Nat.le_refl _))))
  | debug m mode =>
    unfold execNode execDebug
    dsimp only
    apply Post.bind
    apply Post.ofOpt _ (fun _ => trivial)
    intro _ _
    cases m with
    | some m => exact hrec m _ sc s
    | none => exact Post.pure skip0
  | brk name => exact Post.pure ⟨Grow.refl _ _, fun t ht => by cases ht⟩
  | null => exact Post.pure skip0
  | panic msg =>
    unfold execNode execPanic
    dsimp only
    apply Post.bind
    have pr : Post True (panicRange c) s (fun _ s' => s = s') := by
      unfold panicRange
      split
      · exact Post.bind (Post.getTok (fun _ _ => Post.pure rfl) (fun _ => trivial))
      · exact Post.pure rfl
    refine pr.mono ?_
    rintro q _ rfl
    apply Post.bind
    apply Post.ofOpt _ (fun _ => trivial)
    intro _ _
    exact Post.pure (errs _)
  | error msg => exact newErrorToken_grow (Nat.le_refl _)

/-- Every run. -/
theorem exec_grow (hT : ∀ m, (T m).Grafts) : ∀ n, RecGrow (exec T cfg n) := by
  intro n
  induction n with
  | zero => intro m c sc s; exact Post.diverge
  | succ n ih =>
    intro m c sc s
    unfold exec
    apply Post.bind
    unfold beforeExec
    split
    · apply Post.bindVar
      have hb := State.bindVar_toks (s := s) sc (T m).name (.matcher m)
      refine (execNode_grow ih (hT m)).mono ?_
      intro r s' h
      rw [hb] at h
      exact h.after (Grow.toks_eq hb)
    · apply Post.pure
      exact execNode_grow ih (hT m)

end Adx
