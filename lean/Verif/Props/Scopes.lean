import Verif.Spec.Scopes
/-
  C09: scope lookup is lexical.
-/
namespace Adx

theorem AMap.get_insert {V : Type} (m : AMap V) (k : Str) (v : V) (x : Str) :
    AMap.get (AMap.insert m k v) x = if x = k then some v else AMap.get m x := by
  induction m with
  | nil =>
    unfold AMap.insert AMap.get
    by_cases h : k = x
    · subst h; simp
    · simp only [if_neg h, if_neg (fun h' : x = k => h h'.symm), AMap.get]
  | cons kv m ih =>
    obtain ⟨k', v'⟩ := kv
    unfold AMap.insert
    by_cases hk : k' = k
    · subst hk
      simp only [if_true]
      unfold AMap.get
      by_cases h : k' = x
      · subst h; simp
      · simp only [if_neg h, if_neg (fun h' : x = k' => h h'.symm)]
    · simp only [if_neg hk]
      unfold AMap.get
      by_cases h : k' = x
      · subst h; simp [hk]
      · simp only [if_neg h]
        exact ih

theorem lookup_eq_view (s : State) (sc : SCtxId) (k : Str) :
    s.lookup sc k = viewGet (s.views sc) k := by
  unfold State.lookup State.views
  generalize s.sctxs[sc]?.getD [] = st
  induction st with
  | nil => rfl
  | cons i st ih =>
    unfold lookupStack
    simp only [List.map_cons, viewGet]
    cases AMap.get (s.scopes[i]?.getD []) k with
    | none => exact ih
    | some v => rfl

/-- The abstract and the concrete step agree, and validity is kept. -/
theorem scopeStep_refines {s : State} (h : ScopesOK s) (op : SOp) (hop : op.ctx < s.sctxs.length) :
    (s.scopeStep op).views = s.views.step op ∧ ScopesOK (s.scopeStep op) ∧
    (s.scopeStep op).sctxs.length = s.sctxs.length := by
  obtain ⟨st, hst⟩ : ∃ st, s.sctxs[op.ctx]? = some st := ⟨_, List.getElem?_eq_getElem hop⟩
  have hold : ∀ sc st', s.sctxs[sc]? = some st' → ∀ i ∈ st', i ≠ s.scopes.length :=
    fun sc st' hs i hi => Nat.ne_of_lt (h.valid sc st' hs i hi)
  cases op with
  | push sc =>
    simp only [SOp.ctx] at hst hop
    refine ⟨?_, ⟨?_, ?_, ?_⟩, by simp [State.scopeStep, State.pushScope]⟩
    · funext i
      simp only [State.views, State.scopeStep, State.pushScope, Views.step]
      rw [List.getElem?_set]
      by_cases hi : sc = i
      · subst hi
        simp only [if_true, if_pos hop, Option.getD_some, List.map_cons, hst]
        congr 1
        · funext k
          simp [AMap.get]
        · apply List.map_congr_left
          intro j hj
          rw [List.getElem?_append_left (h.valid _ _ hst j hj)]
      · simp only [if_neg hi, if_neg (fun h' : i = sc => hi h'.symm)]
        cases hs : s.sctxs[i]? with
        | none => rfl
        | some st' =>
          simp only [Option.getD_some]
          apply List.map_congr_left
          intro j hj
          rw [List.getElem?_append_left (h.valid _ _ hs j hj)]
    · intro sc' st' hs j hj
      simp only [State.scopeStep, State.pushScope] at hs ⊢
      rw [List.getElem?_set] at hs
      simp only [List.length_append, List.length_singleton]
      split at hs
      · simp only [Option.some.injEq] at hs
        subst hs
        simp only [hst, Option.getD_some, List.mem_cons] at hj
        rcases hj with rfl | hj
        · exact Nat.lt_succ_self _
        · exact Nat.lt_succ_of_lt (h.valid _ _ hst j hj)
      · exact Nat.lt_succ_of_lt (h.valid _ _ hs j hj)
    · intro sc' st' hs
      simp only [State.scopeStep, State.pushScope] at hs
      rw [List.getElem?_set] at hs
      split at hs
      · simp only [Option.some.injEq] at hs
        subst hs
        simp only [hst, Option.getD_some, List.nodup_cons]
        exact ⟨fun hm => hold _ _ hst _ hm rfl, h.nodup _ _ hst⟩
      · exact h.nodup _ _ hs
    · intro a b sa sb ha hb hne j hj hj'
      simp only [State.scopeStep, State.pushScope] at ha hb
      rw [List.getElem?_set] at ha hb
      split at ha <;> split at hb
      · subst_vars; exact hne rfl
      · simp only [Option.some.injEq] at ha
        subst ha
        simp only [hst, Option.getD_some, List.mem_cons] at hj
        rcases hj with rfl | hj
        · exact hold _ _ hb _ hj' rfl
        · subst_vars
          exact h.apart _ _ _ _ hst hb hne j hj hj'
      · simp only [Option.some.injEq] at hb
        subst hb
        simp only [hst, Option.getD_some, List.mem_cons] at hj'
        rcases hj' with rfl | hj'
        · exact hold _ _ ha _ hj rfl
        · subst_vars
          exact h.apart _ _ _ _ ha hst hne j hj hj'
      · exact h.apart _ _ _ _ ha hb hne j hj hj'
  | pop sc =>
    simp only [SOp.ctx] at hst hop
    have hsub : ∀ (a : SCtxId) (sa : List ScopeId), (s.popScope sc).sctxs[a]? = some sa →
        ∃ sa', s.sctxs[a]? = some sa' ∧ sa.Sublist sa' := by
      intro a sa ha
      simp only [State.popScope] at ha
      rw [List.getElem?_set] at ha
      split at ha
      · rename_i heq
        simp only [Option.some.injEq] at ha
        subst ha heq
        refine ⟨st, hst, ?_⟩
        rw [hst]
        exact List.tail_sublist st
      · exact ⟨sa, ha, List.Sublist.refl _⟩
    refine ⟨?_, ⟨?_, ?_, ?_⟩, by simp [State.scopeStep, State.popScope]⟩
    · funext i
      simp only [State.views, State.scopeStep, State.popScope, Views.step]
      rw [List.getElem?_set]
      by_cases hi : sc = i
      · subst hi
        simp only [if_true, if_pos hop, Option.getD_some, hst, List.map_tail]
      · simp only [if_neg hi, if_neg (fun h' : i = sc => hi h'.symm)]
    · intro sc' st' hs j hj
      obtain ⟨sa, hsa, hsub⟩ := hsub _ _ hs
      exact h.valid _ _ hsa j (hsub.subset hj)
    · intro sc' st' hs
      obtain ⟨sa, hsa, hsub⟩ := hsub _ _ hs
      exact hsub.nodup (h.nodup _ _ hsa)
    · intro a b sa sb ha hb hne j hj hj'
      obtain ⟨sa', hsa, hsuba⟩ := hsub _ _ ha
      obtain ⟨sb', hsb, hsubb⟩ := hsub _ _ hb
      exact h.apart _ _ _ _ hsa hsb hne j (hsuba.subset hj) (hsubb.subset hj')
  | set sc k v =>
    simp only [SOp.ctx] at hst hop
    simp only [State.scopeStep, State.bindVar, hst, Option.getD_some]
    cases st with
    | nil =>
      simp only
      have hcase : ∀ (a : SCtxId) (sa : List ScopeId), (s.sctxs.set sc [s.scopes.length])[a]? = some sa →
          (a = sc ∧ sa = [s.scopes.length]) ∨ (a ≠ sc ∧ s.sctxs[a]? = some sa) := by
        intro a sa ha
        rw [List.getElem?_set] at ha
        split at ha
        · rename_i heq
          simp only [Option.some.injEq] at ha
          exact Or.inl ⟨heq.symm, ha.symm⟩
        · rename_i heq
          exact Or.inr ⟨fun h => heq h.symm, ha⟩
      refine ⟨?_, ⟨?_, ?_, ?_⟩, by simp⟩
      · funext i
        simp only [State.views, Views.step]
        rw [List.getElem?_set]
        by_cases hi : sc = i
        · subst hi
          simp only [if_true, if_pos hop, Option.getD_some, hst, List.map_cons, List.map_nil, viewSet]
          congr 1
          funext x
          rw [List.getElem?_append_right (Nat.le_refl _)]
          simp only [Nat.sub_self, List.getElem?_cons_zero, Option.getD_some]
          rw [AMap.get_insert]
          rfl
        · simp only [if_neg hi, if_neg (fun h' : i = sc => hi h'.symm)]
          cases hs : s.sctxs[i]? with
          | none => rfl
          | some st' =>
            simp only [Option.getD_some]
            apply List.map_congr_left
            intro j hj
            rw [List.getElem?_append_left (h.valid _ _ hs j hj)]
      · intro a sa ha j hj
        simp only [List.length_append, List.length_singleton]
        rcases hcase a sa ha with ⟨_, rfl⟩ | ⟨_, ha⟩
        · simp only [List.mem_singleton] at hj; subst hj; exact Nat.lt_succ_self _
        · exact Nat.lt_succ_of_lt (h.valid _ _ ha j hj)
      · intro a sa ha
        rcases hcase a sa ha with ⟨_, rfl⟩ | ⟨_, ha⟩
        · simp
        · exact h.nodup _ _ ha
      · intro a b sa sb ha hb hne j hj hj'
        rcases hcase a sa ha with ⟨ea, rfl⟩ | ⟨_, ha⟩ <;>
          rcases hcase b sb hb with ⟨eb, rfl⟩ | ⟨_, hb⟩
        · exact hne (ea.trans eb.symm)
        · simp only [List.mem_singleton] at hj; subst hj; exact hold _ _ hb _ hj' rfl
        · simp only [List.mem_singleton] at hj'; subst hj'; exact hold _ _ ha _ hj rfl
        · exact h.apart _ _ _ _ ha hb hne j hj hj'
    | cons top st =>
      simp only
      have htop := h.valid _ _ hst top (by simp)
      refine ⟨?_, ⟨?_, h.nodup, h.apart⟩, trivial⟩
      · funext i
        simp only [State.views, Views.step]
        by_cases hi : i = sc
        · subst hi
          simp only [if_true, hst, Option.getD_some, List.map_cons, viewSet]
          congr 1
          · funext x
            rw [List.getElem?_set_self htop]
            simp only [Option.getD_some]
            rw [AMap.get_insert]
          · apply List.map_congr_left
            intro j hj
            have hne : top ≠ j := by
              intro he; subst he
              exact (List.nodup_cons.mp (h.nodup _ _ hst)).1 hj
            rw [List.getElem?_set_ne hne]
        · simp only [if_neg hi]
          cases hs : s.sctxs[i]? with
          | none => rfl
          | some st' =>
            simp only [Option.getD_some]
            apply List.map_congr_left
            intro j hj
            have hne : top ≠ j := by
              intro he; subst he
              exact h.apart _ _ _ _ hs hst hi top hj (by simp)
            rw [List.getElem?_set_ne hne]
      · intro a sa ha j hj
        simp only [List.length_set]
        exact h.valid _ _ ha j hj

/-- C09: for every history of pushes, pops and bindings on any scope contexts, the
heap of scopes behaves like independent stacks of finite maps: lookup finds the
innermost binding of the abstract history. -/
theorem C09_scopes_refine_stacks (ops : List SOp) (s : State) (h : ScopesOK s)
    (hops : ∀ op ∈ ops, op.ctx < s.sctxs.length) (sc : SCtxId) (k : Str) :
    (ops.foldl State.scopeStep s).lookup sc k = viewGet (ops.foldl Views.step s.views sc) k ∧
    ScopesOK (ops.foldl State.scopeStep s) := by
  induction ops generalizing s with
  | nil => exact ⟨lookup_eq_view s sc k, h⟩
  | cons op ops ih =>
    obtain ⟨h1, h2, h3⟩ := scopeStep_refines h op (hops op (by simp))
    simp only [List.foldl_cons]
    rw [← h1]
    exact ih _ h2 (fun o ho => by rw [h3]; exact hops o (by simp [ho]))

/-- C09: reading back a binding; other names and other scope contexts are not
affected. -/
theorem C09_set_get (s : State) (h : ScopesOK s) (sc : SCtxId) (hsc : sc < s.sctxs.length)
    (k : Str) (v : Var) :
    (s.bindVar sc k v).lookup sc k = some v ∧
    (∀ x, x ≠ k → (s.bindVar sc k v).lookup sc x = s.lookup sc x) ∧
    (∀ sc' x, sc' ≠ sc → (s.bindVar sc k v).lookup sc' x = s.lookup sc' x) := by
  have hv := (scopeStep_refines h (.set sc k v) hsc).1
  simp only [State.scopeStep] at hv
  simp only [lookup_eq_view, hv, Views.step, if_true]
  refine ⟨?_, fun x hx => ?_, fun sc' x hne => by rw [if_neg hne]⟩
  · cases s.views sc <;> simp [viewSet, viewGet]
  · cases s.views sc <;> simp [viewSet, viewGet, hx]

/-- C09: a fresh scope hides nothing, and popping it restores exactly the view from
before the push, whatever was bound in between (in that scope context, at that
level). -/
theorem C09_push_set_pop (s : State) (h : ScopesOK s) (sc : SCtxId) (hsc : sc < s.sctxs.length)
    (binds : List (Str × Var)) :
    (∀ x, (s.pushScope sc).lookup sc x = s.lookup sc x) ∧
    (∀ sc' x, ((binds.foldl (fun s kv => s.bindVar sc kv.1 kv.2) (s.pushScope sc)).popScope sc).lookup
      sc' x = s.lookup sc' x) := by
  obtain ⟨hv, hok, hlen⟩ := scopeStep_refines h (.push sc) hsc
  simp only [State.scopeStep] at hv hok hlen
  constructor
  · intro x
    simp only [lookup_eq_view, hv, Views.step, if_true, viewGet]
  · have key : ∀ (binds : List (Str × Var)) (s1 : State), ScopesOK s1 →
        s1.sctxs.length = s.sctxs.length →
        (∃ f, s1.views sc = f :: s.views sc) → (∀ sc', sc' ≠ sc → s1.views sc' = s.views sc') →
        ((binds.foldl (fun s kv => s.bindVar sc kv.1 kv.2) s1).popScope sc).views = s.views := by
      intro binds
      induction binds with
      | nil =>
        intro s1 h1 hl ⟨f, hf⟩ ho
        have := (scopeStep_refines h1 (.pop sc) (by simp only [SOp.ctx]; rw [hl]; exact hsc)).1
        simp only [State.scopeStep] at this
        simp only [List.foldl_nil, this, Views.step]
        funext i
        by_cases hi : i = sc
        · subst hi; simp [hf]
        · simp only [if_neg hi]; exact ho i hi
      | cons kv binds ih =>
        intro s1 h1 hl ⟨f, hf⟩ ho
        obtain ⟨hv1, hok1, hl1⟩ := scopeStep_refines h1 (.set sc kv.1 kv.2)
          (by simp only [SOp.ctx]; rw [hl]; exact hsc)
        simp only [State.scopeStep] at hv1 hok1 hl1
        simp only [List.foldl_cons]
        refine ih _ hok1 (hl1.trans hl) ?_ ?_
        · rw [hv1]
          simp only [Views.step, if_true, hf, viewSet]
          exact ⟨_, rfl⟩
        · intro sc' hne
          rw [hv1]
          simp only [Views.step, if_neg hne]
          exact ho sc' hne
    intro sc' x
    rw [lookup_eq_view, key binds _ hok hlen ⟨_, by rw [hv]; simp [Views.step]; rfl⟩
      (fun sc' hne => by rw [hv]; simp only [Views.step, if_neg hne]), lookup_eq_view]

/-- Non-vacuity of C09: two scope contexts, shadowing in an inner scope, then a pop. -/
example :
    let s : State := ⟨[], [], [[], []]⟩
    let ops : List SOp := [.set 0 ['x'] (.str ['1']), .push 0, .set 0 ['x'] (.str ['2']),
      .set 1 ['y'] (.str ['3'])]
    (ops.foldl State.scopeStep s).lookup 0 ['x'] = some (.str ['2']) ∧
    ((ops ++ [SOp.pop 0]).foldl State.scopeStep s).lookup 0 ['x'] = some (.str ['1']) ∧
    (ops.foldl State.scopeStep s).lookup 0 ['y'] = none ∧ ScopesOK s := by
  refine ⟨by decide, by decide, by decide, ⟨?_, ?_, ?_⟩⟩
  · intro sc st h
    match sc with
    | 0 => cases h; simp
    | 1 => cases h; simp
    | _ + 2 => cases h
  · intro sc st h
    match sc with
    | 0 => cases h; simp
    | 1 => cases h; simp
    | _ + 2 => cases h
  · intro a b sa sb ha hb _
    match a with
    | 0 => cases ha; simp
    | 1 => cases ha; simp
    | _ + 2 => cases ha

end Adx
