import Verif.Spec.Gather
import Verif.Spec.Heap
import Verif.Spec.Runs
import Verif.Proofs.Forest
import Verif.Proofs.Step
/-
  C23: `tokenize` gathers the error tokens at the root.
-/
namespace Adx

theorem isErrorTok_some {toks : List Token} {t : TokId} {k : Token} (h : toks[t]? = some k) :
    isErrorTok toks t = k.flagsEnabled IS_ERROR := by
  unfold isErrorTok Token.flagsEnabled
  rw [h]

theorem splitErrors_eq {s : State} {cs : List TokId} (hv : ∀ c ∈ cs, c < s.toks.length) :
    splitErrors cs s = .ok (cs.filter (fun c => ! isErrorTok s.toks c), cs.filter (isErrorTok s.toks)) s := by
  induction cs with
  | nil => rfl
  | cons c cs ih =>
    obtain ⟨kc, hc⟩ : ∃ kc, s.toks[c]? = some kc := ⟨_, List.getElem?_eq_getElem (hv c (by simp))⟩
    have hi := ih (fun d hd => hv d (by simp [hd]))
    unfold splitErrors
    rw [bind_eq]
    unfold M.bind
    have : getTok c s = .ok kc s := by
      unfold getTok
      rw [hc]
    rw [this]
    dsimp only
    rw [bind_eq]
    unfold M.bind
    rw [hi]
    dsimp only
    have he := isErrorTok_some hc
    rw [List.filter_cons, List.filter_cons, he]
    cases kc.flagsEnabled IS_ERROR <;> rfl

/-- A token without its error children. -/
def Token.pruned (toks : List Token) (k : Token) : Token :=
  { k with children := k.children.filter (fun c => ! isErrorTok toks c) }

/-- `s'` is `s` with the tokens of `l` pruned and `es` appended to the children of
`root`. -/
structure Gathered (toks0 : List Token) (root : TokId) (l es : List TokId) (s s' : State) : Prop where
  scopes : s'.scopes = s.scopes
  sctxs : s'.sctxs = s.sctxs
  length : s'.toks.length = s.toks.length
  atRoot : ∀ k, s.toks[root]? = some k → s'.toks[root]? = some { k with children := k.children ++ es }
  inside : ∀ u ∈ l, ∀ k, s.toks[u]? = some k → s'.toks[u]? = some (k.pruned toks0)
  outside : ∀ u, u ≠ root → u ∉ l → s'.toks[u]? = s.toks[u]?

theorem Gathered.flags {toks0 : List Token} {root : TokId} {l es : List TokId} {s s' : State}
    (h : Gathered toks0 root l es s s') (u : TokId) : isErrorTok s'.toks u = isErrorTok s.toks u := by
  unfold isErrorTok
  cases hu : s.toks[u]? with
  | none =>
    have : s'.toks[u]? = none := by
      rw [List.getElem?_eq_none_iff, h.length]
      exact List.getElem?_eq_none_iff.mp hu
    rw [this]
  | some k =>
    by_cases hr : u = root
    · subst hr
      rw [h.atRoot k hu]
    · by_cases hl : u ∈ l
      · rw [h.inside u hl k hu]
        rfl
      · rw [h.outside u hr hl, hu]

theorem Gathered.trans {toks0 : List Token} {root : TokId} {l l' es es' : List TokId} {s s1 s' : State}
    (h : Gathered toks0 root l es s s1) (h' : Gathered toks0 root l' es' s1 s')
    (hr' : root ∉ l) (hr : root ∉ l') (hd : ∀ u ∈ l, u ∉ l') : Gathered toks0 root (l ++ l') (es ++ es') s s' where
  scopes := h'.scopes.trans h.scopes
  sctxs := h'.sctxs.trans h.sctxs
  length := h'.length.trans h.length
  atRoot := by
    intro k hk
    rw [h'.atRoot _ (h.atRoot k hk)]
    simp
  inside := by
    intro u hu k hk
    rcases List.mem_append.mp hu with hu | hu
    · rw [h'.outside u (fun he => hr' (he ▸ hu)) (hd u hu), h.inside u hu k hk]
    · have hl : u ∉ l := fun hx => hd u hx hu
      refine h'.inside u hu k ?_
      rw [h.outside u (fun he => hr (he ▸ hu)) hl, hk]
  outside := by
    intro u hu hul
    rw [h'.outside u hu (fun hx => hul (by simp [hx])), h.outside u hu (fun hx => hul (by simp [hx]))]

theorem collect_forest {toks0 : List Token} {root : TokId} {n : Nat} {ts l : List TokId}
    (h : Walk toks0 n ts l) : ∀ (s : State), l.Nodup → root ∉ l → root < s.toks.length →
    (∀ u ∈ l, s.toks[u]? = toks0[u]?) → (∀ u, isErrorTok s.toks u = isErrorTok toks0 u) →
    ∃ es s', Buried toks0 ts es ∧ forEach (fun c => collectErrors n root c false) ts s = .ok () s' ∧
      Gathered toks0 root l es s s' := by
  induction h with
  | nil n =>
    intro s _ _ _ _ _
    exact ⟨[], s, .nil, rfl, rfl, rfl, rfl, fun k hk => by simp [hk], by simp, fun _ _ _ => rfl⟩
  | @cons n t k ts l l' hk hc hs ih1 ih2 =>
    intro s hnd hroot hlt hag hfl
    have hnd' := List.nodup_cons.mp hnd
    have htl : t ∉ l := fun hx => hnd'.1 (by simp [hx])
    have htl' : t ∉ l' := fun hx => hnd'.1 (by simp [hx])
    obtain ⟨hndl, hndl', hdis⟩ := List.nodup_append.mp hnd'.2
    have hrt : root ≠ t := fun he => hroot (by simp [he])
    have hrl : root ∉ l := fun hx => hroot (by simp [hx])
    have hrl' : root ∉ l' := fun hx => hroot (by simp [hx])
    have hst : s.toks[t]? = some k := by rw [hag t (by simp), hk]
    obtain ⟨es, s1, hb1, he1, hg1⟩ := ih1 s hndl hrl hlt (fun u hu => hag u (by simp [hu])) hfl
    have hs1t : s1.toks[t]? = some k := by rw [hg1.outside t (Ne.symm hrt) htl, hst]
    have hvalid : ∀ c ∈ k.children, c < s1.toks.length := by
      intro c hcm
      have hcl : c ∈ l := hc.pre.roots c hcm
      have : c < toks0.length := hc.pre.valid c hcl
      have h2 : s.toks[c]? = some toks0[c] := by
        rw [hag c (by simp [hcl]), List.getElem?_eq_getElem this]
      rw [hg1.length]
      exact (List.getElem?_eq_some_iff.mp h2).1
    have hfl1 : isErrorTok s1.toks = isErrorTok toks0 := by
      funext u
      rw [hg1.flags, hfl]
    -- the step for `t` itself
    let s2 : State := { s1 with toks := s1.toks.set t (k.pruned toks0) }
    have hr2 : root < s2.toks.length := by
      show root < (s1.toks.set t _).length
      rw [List.length_set, hg1.length]
      exact hlt
    obtain ⟨kr, hroot2⟩ : ∃ kr, s2.toks[root]? = some kr := ⟨_, List.getElem?_eq_getElem hr2⟩
    let s3 : State := { s2 with toks := s2.toks.set root { kr with
      children := kr.children ++ k.children.filter (isErrorTok toks0) } }
    have hstep : collectErrors (n + 1) root t false s = .ok () s3 := by
      unfold collectErrors
      rw [bind_eq]; unfold M.bind
      have e1 : getTok t s = .ok k s := by unfold getTok; rw [hst]
      rw [e1]
      dsimp only
      rw [bind_eq]; unfold M.bind
      rw [he1]
      dsimp only
      rw [if_neg (by simp)]
      rw [bind_eq]; unfold M.bind
      have e2 : getTok t s1 = .ok k s1 := by unfold getTok; rw [hs1t]
      rw [e2]
      dsimp only
      rw [bind_eq]; unfold M.bind
      rw [splitErrors_eq hvalid]
      dsimp only
      rw [bind_eq]; unfold M.bind
      rw [hfl1]
      have e3 : modTok t (fun k => { k with children := List.filter (fun c => !isErrorTok toks0 c) k.children }) s1
          = .ok () s2 := by
        unfold modTok
        rw [bind_eq]; unfold M.bind
        rw [e2]
        rfl
      have e3' : modTok t (fun x => { x with children := List.filter (fun c => !isErrorTok toks0 c) k.children }) s1
          = .ok () s2 := by
        unfold modTok
        rw [bind_eq]; unfold M.bind
        rw [e2]
        rfl
      rw [e3']
      dsimp only
      unfold modTok
      rw [bind_eq]; unfold M.bind
      have e4 : getTok root s2 = .ok kr s2 := by unfold getTok; rw [hroot2]
      rw [e4]
      rfl
    have hg2 : Gathered toks0 root [t] (k.children.filter (isErrorTok toks0)) s1 s3 := by
      refine ⟨rfl, rfl, ?_, ?_, ?_, ?_⟩
      · show (List.set (List.set s1.toks t _) root _).length = _
        simp
      · intro r hr
        have : s2.toks[root]? = some r := by
          show (s1.toks.set t _)[root]? = _
          rw [List.getElem?_set_ne (Ne.symm hrt), hr]
        have hrr : kr = r := by
          rw [hroot2] at this
          exact Option.some.inj this
        show (s2.toks.set root _)[root]? = _
        rw [List.getElem?_set_self hr2, hrr]
      · intro u hu r hr
        have hu' : u = t := by simpa using hu
        subst hu'
        rw [hs1t] at hr
        cases hr
        show (s2.toks.set root _)[u]? = _
        rw [List.getElem?_set_ne hrt]
        show (s1.toks.set u _)[u]? = _
        rw [List.getElem?_set_self (List.getElem?_eq_some_iff.mp hs1t).1]
      · intro u hu hut
        have hut' : u ≠ t := by simpa using hut
        show (s2.toks.set root _)[u]? = _
        rw [List.getElem?_set_ne (Ne.symm hu)]
        show (s1.toks.set t _)[u]? = _
        rw [List.getElem?_set_ne (Ne.symm hut')]
    have hg12 := hg1.trans hg2 hrl (by simpa using hrt) (fun u hu hx => htl ((List.mem_singleton.mp hx) ▸ hu))
    have hlt3 : root < s3.toks.length := by rw [hg12.length]; exact hlt
    have hmem : ∀ u, u ∈ l ++ [t] ↔ u ∈ t :: l := by
      intro u
      simp [or_comm]
    obtain ⟨es', s', hb2, he2, hg3⟩ := ih2 s3 hndl' hrl' hlt3 (by
      intro u hu
      rw [hg12.outside u (fun he => hrl' (he ▸ hu)) ?_]
      · exact hag u (by simp [hu])
      · intro hx
        rcases List.mem_append.mp hx with hx | hx
        · exact hdis u hx u hu rfl
        · exact htl' ((List.mem_singleton.mp hx) ▸ hu)) (by
      intro u
      rw [hg12.flags, hfl])
    refine ⟨_, s', .cons hk hb1 hb2, ?_, ?_⟩
    · unfold forEach
      rw [bind_eq]; unfold M.bind
      rw [hstep]
      exact he2
    · have hg := hg12.trans hg3 (by
        intro hx
        rcases List.mem_append.mp hx with hx | hx
        · exact hrl hx
        · exact hrt (List.mem_singleton.mp hx)) hrl' (by
        intro u hu hx
        rcases List.mem_append.mp hu with hu | hu
        · exact hdis u hu u hx rfl
        · exact htl' ((List.mem_singleton.mp hu) ▸ hx))
      refine ⟨hg.scopes, hg.sctxs, hg.length, hg.atRoot, fun u hu => hg.inside u ?_, fun u hu hul => hg.outside u hu ?_⟩
      · simp only [List.mem_append, List.mem_cons] at hu ⊢
        tauto
      · intro hx
        refine hul ?_
        simp only [List.mem_append, List.mem_cons] at hx ⊢
        simp at hx
        tauto

/-- C23: `collect_errors` on a token tree.  The root gets the buried error tokens behind
its own children, in document order, deepest first; every other token of the tree loses
its error children; no other token, no range, no text, no scope changes. -/
theorem C23_gather {s : State} {t : TokId} {k : Token} {l : List TokId} (hk : s.toks[t]? = some k)
    (hp : Pre s.toks k.children l) (hnd : (t :: l).Nodup) :
    ∃ es s', Buried s.toks k.children es ∧ collectErrorsTop t s = .ok () s' ∧
      s'.scopes = s.scopes ∧ s'.sctxs = s.sctxs ∧ s'.toks.length = s.toks.length ∧
      s'.toks[t]? = some { k with children := k.children ++ es } ∧
      (∀ u ∈ l, ∀ j, s.toks[u]? = some j →
        s'.toks[u]? = some { j with children := j.children.filter (fun c => ! isErrorTok s.toks c) }) ∧
      (∀ u, u ≠ t → u ∉ l → s'.toks[u]? = s.toks[u]?) := by
  have hnd' := List.nodup_cons.mp hnd
  obtain ⟨es, s', hb, he, hg⟩ := collect_forest (root := t) (hp.walk (Nat.le_refl _)) s hnd'.2 hnd'.1
    (List.getElem?_eq_some_iff.mp hk).1 (fun _ _ => rfl) (fun _ => rfl)
  refine ⟨es, s', hb, ?_, hg.scopes, hg.sctxs, hg.length, hg.atRoot k hk, hg.inside, hg.outside⟩
  unfold collectErrorsTop
  rw [bind_eq]; unfold M.bind
  show collectErrors (s.toks.length + 1) t t true s = _
  unfold collectErrors
  rw [bind_eq]; unfold M.bind
  have e1 : getTok t s = .ok k s := by unfold getTok; rw [hk]
  rw [e1]
  dsimp only
  rw [bind_eq]; unfold M.bind
  rw [he]
  rfl

/-- Every error token of a forest is one of its roots or buried in it. -/
theorem Buried.perm {toks : List Token} {ts l es : List TokId} (hp : Pre toks ts l)
    (hb : Buried toks ts es) :
    (ts.filter (isErrorTok toks) ++ es).Perm (l.filter (isErrorTok toks)) := by
  induction hp generalizing es with
  | nil => cases hb; exact .nil
  | @cons t k ts l l' hk _ _ ih1 ih2 =>
    cases hb with
    | @cons _ k' _ e1 e2 hk' h1 h2 =>
      rw [hk] at hk'
      cases hk'
      have p1 := ih1 h1
      have p2 := ih2 h2
      have hcore : (ts.filter (isErrorTok toks) ++ (e1 ++ k.children.filter (isErrorTok toks) ++ e2)).Perm
          (l.filter (isErrorTok toks) ++ l'.filter (isErrorTok toks)) := by
        refine List.Perm.trans ?_ (List.Perm.append p1 p2)
        refine List.Perm.trans (l₂ := (e1 ++ k.children.filter (isErrorTok toks)) ++
          (ts.filter (isErrorTok toks) ++ e2)) ?_ (List.Perm.append List.perm_append_comm (List.Perm.refl _))
        exact List.perm_append_comm_assoc _ _ _
      rw [List.filter_cons, List.filter_cons, List.filter_append]
      split
      · rw [List.cons_append]
        exact hcore.cons t
      · exact hcore

/-- C23: afterwards every error token of the tree is a child of the root exactly once,
and nothing but the root's own children and error tokens is. -/
theorem C23_once {s s' : State} {t : TokId} {k : Token} {l : List TokId} (hk : s.toks[t]? = some k)
    (hp : Pre s.toks k.children l) (hnd : (t :: l).Nodup) (hr : collectErrorsTop t s = .ok () s') :
    ∃ k', s'.toks[t]? = some k' ∧ k.children <+: k'.children ∧ k'.children.Nodup ∧
      (∀ u ∈ l, isErrorTok s.toks u = true → k'.children.count u = 1) ∧
      (∀ u ∈ k'.children, u ∈ k.children ∨ u ∈ l ∧ isErrorTok s.toks u = true) ∧
      (∀ u ∈ l, ∀ j, s'.toks[u]? = some j → ∀ c ∈ j.children, isErrorTok s'.toks c = false) := by
  obtain ⟨es, s1, hb, hc, -, -, hlen, h1, h2, h3⟩ := C23_gather hk hp hnd
  rw [hr] at hc
  cases hc
  have hnd' := (List.nodup_cons.mp hnd).2
  have hperm := hb.perm hp
  have hes : ∀ u ∈ es, u ∈ l ∧ isErrorTok s.toks u = true := by
    intro u hu
    have : u ∈ l.filter (isErrorTok s.toks) := hperm.mem_iff.mp (by simp [hu])
    exact List.mem_filter.mp this
  have hndf : (k.children.filter (isErrorTok s.toks) ++ es).Nodup := hperm.nodup_iff.mpr (hnd'.filter _)
  have hndk : ∀ {ts l : List TokId}, Pre s.toks ts l → l.Nodup → ts.Nodup := by
    intro ts l h
    induction h with
    | nil => intro _; exact .nil
    | cons hk _ hs _ ih2 =>
      intro hn
      obtain ⟨a, b⟩ := List.nodup_cons.mp hn
      refine List.nodup_cons.mpr ⟨fun hx => a ?_, ih2 (List.nodup_append.mp b).2.1⟩
      exact List.mem_append.mpr (Or.inr (hs.roots _ hx))
  have hchild := hndk hp hnd'
  have hall : (k.children ++ es).Nodup := by
    refine List.nodup_append.mpr ⟨hchild, (List.nodup_append.mp hndf).2.1, fun u hu v hv huv => ?_⟩
    subst huv
    have := (List.nodup_append.mp hndf).2.2 u (List.mem_filter.mpr ⟨hu, (hes u hv).2⟩) u hv
    exact this rfl
  have hflag : ∀ c, isErrorTok s'.toks c = isErrorTok s.toks c := by
    intro c
    unfold isErrorTok
    by_cases hct : c = t
    · subst hct
      rw [h1, hk]
    · by_cases hcl : c ∈ l
      · have hcv : c < s.toks.length := hp.valid c hcl
        rw [h2 c hcl _ (List.getElem?_eq_getElem hcv), List.getElem?_eq_getElem hcv]
      · rw [h3 c hct hcl]
  refine ⟨_, h1, List.prefix_append _ _, hall, ?_, ?_, ?_⟩
  · intro u hu he
    have hmem : u ∈ k.children ++ es := by
      have : u ∈ k.children.filter (isErrorTok s.toks) ++ es :=
        hperm.mem_iff.mpr (List.mem_filter.mpr ⟨hu, he⟩)
      rcases List.mem_append.mp this with h | h
      · exact List.mem_append.mpr (Or.inl (List.mem_filter.mp h).1)
      · exact List.mem_append.mpr (Or.inr h)
    exact List.count_eq_one_of_mem hall hmem
  · intro u hu
    rcases List.mem_append.mp hu with h | h
    · exact Or.inl h
    · exact Or.inr (hes u h)
  · intro u hu j hj c hcj
    have huv : u < s.toks.length := hp.valid u hu
    rw [h2 u hu _ (List.getElem?_eq_getElem huv)] at hj
    cases hj
    rw [hflag]
    have := (List.mem_filter.mp hcj).2
    simpa using this

/-- Children of tokens of a forest are tokens of the forest. -/
theorem Pre.closed {toks : List Token} {ts l : List TokId} (h : Pre toks ts l) :
    ∀ u ∈ l, ∀ j, toks[u]? = some j → ∀ c ∈ j.children, c ∈ l := by
  induction h with
  | nil => intro u hu; simp at hu
  | @cons t k ts l l' hk hc _ ih1 ih2 =>
    intro u hu j hj c hcj
    rcases List.mem_cons.mp hu with rfl | hu
    · rw [hk] at hj
      cases hj
      exact List.mem_cons_of_mem _ (List.mem_append.mpr (Or.inl (hc.roots c hcj)))
    · rcases List.mem_append.mp hu with hu | hu
      · exact List.mem_cons_of_mem _ (List.mem_append.mpr (Or.inl (ih1 u hu j hj c hcj)))
      · exact List.mem_cons_of_mem _ (List.mem_append.mpr (Or.inr (ih2 u hu j hj c hcj)))

/-- The tokens of a finite tree are those that can be reached from its root. -/
theorem Pre.reach {toks : List Token} {t : TokId} {k : Token} {l : List TokId} (hk : toks[t]? = some k)
    (hp : Pre toks k.children l) {u : TokId} (h : Reach toks t u) : u = t ∨ u ∈ l := by
  induction h with
  | refl => exact Or.inl rfl
  | step _ hku hcu ih =>
    rcases ih with rfl | ih
    · rw [hk] at hku
      cases hku
      exact Or.inr (hp.roots _ hcu)
    · exact Or.inr (hp.closed _ ih _ hku _ hcu)

theorem Pre.reached {toks : List Token} {t : TokId} {k : Token} {l : List TokId} (hk : toks[t]? = some k)
    (hp : Pre toks k.children l) {u : TokId} (h : u ∈ l) : Reach toks t u := by
  have main : ∀ {ts l : List TokId}, Pre toks ts l → ∀ r, (∀ c ∈ ts, Reach toks r c) → ∀ u ∈ l, Reach toks r u := by
    intro ts l hp
    induction hp with
    | nil => intro r _ u hu; simp at hu
    | @cons t k ts l l' hk _ _ ih1 ih2 =>
      intro r hr u hu
      rcases List.mem_cons.mp hu with rfl | hu
      · exact hr _ (by simp)
      · rcases List.mem_append.mp hu with hu | hu
        · exact ih1 r (fun c hc => .step (hr t (by simp)) hk hc) u hu
        · exact ih2 r (fun c hc => hr c (by simp [hc])) u hu
  exact main hp t (fun c hc => .step (.refl t) hk hc) u h

/-- C23: nothing is lost and nothing is added: the same tokens hang below the root. -/
theorem C23_nothing_lost {s s' : State} {t : TokId} {k : Token} {l : List TokId} (hk : s.toks[t]? = some k)
    (hp : Pre s.toks k.children l) (hnd : (t :: l).Nodup) (hr : collectErrorsTop t s = .ok () s')
    (u : TokId) : Reach s'.toks t u ↔ Reach s.toks t u := by
  obtain ⟨es, s1, hb, hc, -, -, hlen, h1, h2, h3⟩ := C23_gather hk hp hnd
  rw [hr] at hc
  cases hc
  have hperm := hb.perm hp
  constructor
  · intro h
    have : u = t ∨ u ∈ l := by
      induction h with
      | refl => exact Or.inl rfl
      | @step a b j _ hj hcj ih =>
        rcases ih with rfl | ih
        · rw [h1] at hj
          cases hj
          rcases List.mem_append.mp hcj with hx | hx
          · exact Or.inr (hp.roots _ hx)
          · have : b ∈ l.filter (isErrorTok s.toks) := hperm.mem_iff.mp (by simp [hx])
            exact Or.inr (List.mem_filter.mp this).1
        · have hav : a < s.toks.length := hp.valid a ih
          rw [h2 a ih _ (List.getElem?_eq_getElem hav)] at hj
          cases hj
          have := (List.mem_filter.mp hcj).1
          have hreach := Reach.step (hp.reached hk ih) (List.getElem?_eq_getElem hav) this
          exact hp.reach hk hreach
    rcases this with rfl | h
    · exact .refl _
    · exact hp.reached hk h
  · intro h
    induction h with
    | refl => exact .refl _
    | @step a b j hab hj hcj ih =>
      by_cases he : isErrorTok s.toks b = true
      · -- an error token: the root has it
        have hbl : b ∈ l := by
          rcases hp.reach hk (Reach.step hab hj hcj) with rfl | h
          · -- the root is not its own descendant
            exfalso
            rcases hp.reach hk hab with rfl | ha
            · rw [hk] at hj
              cases hj
              exact (List.nodup_cons.mp hnd).1 (hp.roots _ hcj)
            · exact (List.nodup_cons.mp hnd).1 (hp.closed a ha j hj b hcj)
          · exact h
        refine .step (.refl t) h1 ?_
        have : b ∈ k.children.filter (isErrorTok s.toks) ++ es :=
          hperm.mem_iff.mpr (List.mem_filter.mpr ⟨hbl, he⟩)
        rcases List.mem_append.mp this with h | h
        · exact List.mem_append.mpr (Or.inl (List.mem_filter.mp h).1)
        · exact List.mem_append.mpr (Or.inr h)
      · rcases hp.reach hk hab with rfl | ha
        · rw [hk] at hj
          cases hj
          exact .step (.refl _) h1 (List.mem_append.mpr (Or.inl hcj))
        · exact .step ih (h2 a ha j hj) (List.mem_filter.mpr ⟨hcj, by simpa using he⟩)

/-- The results of a matcher that `tokenize` makes into a root. -/
inductive RootOf : Success → TokId → Prop
  | token {t} : RootOf (.token t) t
  | proxy {t} : RootOf (.proxyChildren t) t
  | brk {n t} : RootOf (.brk n (.token t)) t
  | cont {n t} : RootOf (.cont n (.token t)) t

/-- C23: `tokenize` runs the matcher once and gathers the errors below its token. -/
theorem C23_tokenize {T : Table} {cfg : Cfg} {n : Nat} {c : Ctx} {m : MatcherId} {s s1 : State}
    {x : Success} {t : TokId} {k : Token} {l : List TokId}
    (hx : exec T cfg n m c c.scope s = .ok (.ok x) s1) (hroot : RootOf x t)
    (hk : s1.toks[t]? = some k) (hp : Pre s1.toks k.children l) (hnd : (t :: l).Nodup) :
    ∃ es s', Buried s1.toks k.children es ∧ tokenize T cfg n c m s = .ok (.ok t) s' ∧
      collectErrorsTop t s1 = .ok () s' ∧ s'.toks[t]? = some { k with children := k.children ++ es } := by
  obtain ⟨es, s', hb, hc, -, -, -, h1, -, -⟩ := C23_gather hk hp hnd
  refine ⟨es, s', hb, ?_, hc, h1⟩
  unfold tokenize
  rw [bind_eq]; unfold M.bind
  rw [hx]
  cases hroot <;> (dsimp only; rw [bind_eq]; unfold M.bind; rw [hc]; rfl)

/-- C23: results that carry no token, and failures, leave the heap alone. -/
theorem C23_tokenize_none {T : Table} {cfg : Cfg} {n : Nat} {c : Ctx} {m : MatcherId} {s s1 : State} {r : R}
    (hx : exec T cfg n m c c.scope s = .ok r s1) (hr : ∀ x t, r = .ok x → ¬ RootOf x t) :
    ∃ f, tokenize T cfg n c m s = .ok (.error f) s1 ∧ (∀ e, r = .err e → f = e) ∧
      ((∃ x, r = .ok x) → f = .fail) := by
  unfold tokenize
  rw [bind_eq]; unfold M.bind
  rw [hx]
  cases r with
  | err e => exact ⟨e, rfl, fun e' h => by cases h; rfl, fun ⟨x, h⟩ => by simp at h⟩
  | ok x =>
    refine ⟨.fail, ?_, fun e h => by simp at h, fun _ => rfl⟩
    cases x with
    | token t => exact (hr _ t rfl .token).elim
    | proxyChildren t => exact (hr _ t rfl .proxy).elim
    | skip _ => rfl
    | none => rfl
    | stop => rfl
    | brk n d =>
      cases d with
      | token t => exact (hr _ t rfl .brk).elim
      | _ => rfl
    | cont n d =>
      cases d with
      | token t => exact (hr _ t rfl .cont).elim
      | _ => rfl

/-- C23, boundary: a gathered error token keeps its old parent. -/
theorem C23_stale_parent_counterexample :
    let T : Table := fun
      | 0 => .program [1] "P".toList false none false
      | 1 => .program [2, 3] "Q".toList false none false
      | 2 => .equals "E".toList false (.str "a".toList)
      | _ => .error "m".toList
    (tokenize T ⟨true⟩ 9 (Ctx.new ⟨"ab".toList, []⟩ 0 []) 0 ⟨[], [], [[]]⟩).holds (fun r s' =>
      match r with
      | .ok t => t == 0 && (s'.toks[0]?.map Token.children) == some [1, 3] &&
        (s'.toks[1]?.map Token.children) == some [2] && (s'.toks[3]?.bind Token.parent) == some 1
      | .error _ => false) = true := by
  decide +kernel

/-- Non-vacuity: errors on two levels come deepest first, behind the root's own. -/
example :
    let k (cs : List TokId) (f : Flags) : Token :=
      { Token.mk' ⟨[], []⟩ [] ⟨0, 0⟩ with children := cs, flags := f }
    let s : State := ⟨[k [1, 2] 0, k [3, 4] 0, k [] IS_ERROR, k [5] 0, k [] IS_ERROR, k [] IS_ERROR], [], []⟩
    (collectErrorsTop 0 s).holds (fun _ s' =>
      s'.toks.map Token.children == [[1, 2, 5, 4], [3], [], [], [], []]) = true := by
  decide +kernel

end Adx
