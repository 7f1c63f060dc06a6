import Verif.Spec.Acyclic
import Verif.Proofs.Import
/-
  Runs of matchers in layers keep the layers, and in layers every chain of references ends.
-/
namespace Adx

/-! ### Lists and relations -/

theorem Scope.mem_parts {v : Scope} {x : MatcherId} : x ∈ Scope.parts v ↔ ∃ n, AMap.get v n = some (.matcher x) := by
  unfold Scope.parts
  rw [List.mem_filterMap]
  constructor
  · rintro ⟨e, _, h⟩
    refine ⟨e.1, ?_⟩
    split at h
    · rename_i m hm
      cases h
      exact hm
    · cases h
  · rintro ⟨n, h⟩
    have : ∃ e ∈ v, e.1 = n := by
      revert h
      generalize Var.matcher x = y
      intro h
      clear x
      induction v with
      | nil => cases h
      | cons e v ih =>
        unfold AMap.get at h
        by_cases he : e.1 = n
        · exact ⟨e, List.mem_cons_self, he⟩
        · rw [if_neg he] at h
          obtain ⟨e', h1, h2⟩ := ih h
          exact ⟨e', List.mem_cons_of_mem _ h1, h2⟩
    obtain ⟨e, he, rfl⟩ := this
    exact ⟨e, he, by rw [h]⟩

theorem Fetchable.mem_parts {f : Fetchable} {x : MatcherId} : x ∈ f.parts ↔ f = .matcher x := by
  cases f <;> simp [Fetchable.parts, eq_comm]

theorem refers_iff {nd : Node} {x : MatcherId} : nd.Refers x ↔ x ∈ nd.parts := by
  constructor
  · intro h
    cases h <;> simp_all [Node.parts, Fetchable.mem_parts]
  · intro h
    cases nd with
    | equals n c f =>
      cases Fetchable.mem_parts.mp h
      exact .equals
    | sequence n c a b e =>
      rcases List.mem_append.mp h with h | h
      · rcases List.mem_append.mp h with h | h
        · cases Fetchable.mem_parts.mp h
          exact .opening
        · cases Fetchable.mem_parts.mp h
          exact .closing
      · cases Fetchable.mem_parts.mp h
        exact .escape
    | program ps n c i f => exact .program h
    | register ps => exact .register h
    | pin m o n c =>
      rcases List.mem_append.mp h with h | h
      · cases Option.mem_toList.mp h
        exact .pinned
      · cases Fetchable.mem_parts.mp h
        exact .offset
    | debug m k =>
      cases Option.mem_toList.mp h
      exact .debug
    | ref t n c =>
      cases Fetchable.mem_parts.mp h
      exact .ref
    | optional m => cases List.mem_singleton.mp h; exact .optional
    | not m => cases List.mem_singleton.mp h; exact .not
    | discard m => cases List.mem_singleton.mp h; exact .discard
    | proxyChildren m n c => cases List.mem_singleton.mp h; exact .proxyChildren
    | expandRange m => cases List.mem_singleton.mp h; exact .expandRange
    | catch_ m f => cases List.mem_singleton.mp h; exact .catch_
    | map m sf ff => cases List.mem_singleton.mp h; exact .map
    | store m n c => cases List.mem_singleton.mp h; exact .store
    | setScope k m => cases List.mem_singleton.mp h; exact .setScope
    | _ => cases h

theorem holds_iff {T : Table} {s : State} {o o' : Obj} : Holds T s o o' ↔ o' ∈ o.refs T s := by
  cases o with
  | mat m =>
    unfold Obj.refs
    rw [List.mem_append, List.mem_map, List.mem_map]
    constructor
    · intro h
      cases h with
      | part h => exact .inr ⟨_, refers_iff.mp h, rfl⟩
      | scope h => exact .inl ⟨_, by rw [h]; exact List.mem_singleton.mpr rfl, rfl⟩
    · rintro (⟨k, h, rfl⟩ | ⟨x, h, rfl⟩)
      · cases hm : T m with
        | setScope j b =>
          rw [hm] at h
          cases j with
          | none => cases h
          | some j =>
            cases List.mem_singleton.mp h
            exact .scope hm
        | _ => rw [hm] at h; cases h
      · exact .part (refers_iff.mpr h)
  | ctx k =>
    unfold Obj.refs
    rw [List.mem_map]
    constructor
    · intro h
      cases h with
      | var h =>
        obtain ⟨st, i, n, h1, h2, h3⟩ := h
        refine ⟨_, List.mem_flatMap.mpr ⟨i, ?_, Scope.mem_parts.mpr ⟨n, h3⟩⟩, rfl⟩
        rw [h1]
        exact List.mem_reverse.mpr h2
    · rintro ⟨x, h, rfl⟩
      obtain ⟨i, h1, h2⟩ := List.mem_flatMap.mp h
      obtain ⟨n, h3⟩ := Scope.mem_parts.mp h2
      have h1 := List.mem_reverse.mp h1
      cases hs : s.sctxs[k]? with
      | none => rw [hs] at h1; cases h1
      | some st =>
        rw [hs] at h1
        exact .var ⟨st, i, n, hs, h1, h3⟩

/-! ### Scopes -/

theorem binds_views {s : State} {k : SCtxId} {x : MatcherId} :
    s.Binds k x ↔ ∃ f ∈ s.views k, ∃ n, f n = some (.matcher x) := by
  unfold State.Binds State.views
  constructor
  · rintro ⟨st, i, n, h1, h2, h3⟩
    rw [h1]
    exact ⟨_, List.mem_map.mpr ⟨i, h2, rfl⟩, n, h3⟩
  · rintro ⟨f, hf, n, h⟩
    cases hs : s.sctxs[k]? with
    | none => rw [hs] at hf; cases hf
    | some st =>
      rw [hs] at hf
      obtain ⟨i, hi, rfl⟩ := List.mem_map.mp hf
      exact ⟨st, i, n, rfl, hi, h⟩

theorem binds_bindVar {s : State} (h : ScopesOK s) {sc k : SCtxId} (hsc : sc < s.sctxs.length) {n : Str} {v : Var} {x : MatcherId}
    (hb : (s.bindVar sc n v).Binds k x) : s.Binds k x ∨ (k = sc ∧ v = .matcher x) := by
  rw [binds_views] at hb ⊢
  have := (scopeStep_refines h (.set sc n v) hsc).1
  change (s.bindVar sc n v).views = _ at this
  rw [this] at hb
  obtain ⟨f, hf, y, hy⟩ := hb
  change f ∈ (if k = sc then viewSet (s.views k) n v else s.views k) at hf
  split at hf
  · rename_i hk
    cases hv : s.views k with
    | nil =>
      rw [hv] at hf
      cases List.mem_singleton.mp hf
      dsimp only at hy
      split at hy
      · cases hy; exact .inr ⟨hk, rfl⟩
      · cases hy
    | cons g st =>
      rw [hv] at hf
      rcases List.mem_cons.mp hf with rfl | hf
      · dsimp only at hy
        split at hy
        · cases hy; exact .inr ⟨hk, rfl⟩
        · exact .inl ⟨g, List.mem_cons_self, y, hy⟩
      · exact .inl ⟨f, List.mem_cons_of_mem _ hf, y, hy⟩
  · exact .inl ⟨f, hf, y, hy⟩

theorem lookup_binds {s : State} {k : SCtxId} {n : Str} {x : MatcherId} (h : s.lookup k n = some (.matcher x)) : s.Binds k x := by
  unfold State.lookup at h
  cases hs : s.sctxs[k]? with
  | none => rw [hs] at h; cases h
  | some st =>
    rw [hs] at h
    change lookupStack s.scopes st n = some (.matcher x) at h
    suffices ∃ i, i ∈ st ∧ AMap.get (s.scopes[i]?.getD []) n = some (.matcher x) by
      obtain ⟨i, h1, h2⟩ := this
      exact ⟨st, i, n, hs, h1, h2⟩
    clear hs
    induction st with
    | nil => cases h
    | cons i st ih =>
      unfold lookupStack at h
      split at h
      · rename_i v hv
        cases h
        exact ⟨i, List.mem_cons_self, hv⟩
      · obtain ⟨j, h1, h2⟩ := ih h
        exact ⟨j, List.mem_cons_of_mem _ h1, h2⟩

/-- In a stack of at most one scope every variable can be seen. -/
theorem binds_lookup {s : State} {k : SCtxId} {x : MatcherId} (hs : ∀ st, s.sctxs[k]? = some st → st.length ≤ 1) (h : s.Binds k x) :
    ∃ n, s.lookup k n = some (.matcher x) := by
  obtain ⟨st, i, n, h1, h2, h3⟩ := h
  have := hs st h1
  refine ⟨n, ?_⟩
  unfold State.lookup
  rw [h1]
  match st, this, h2 with
  | [j], _, h2 =>
    cases List.mem_singleton.mp h2
    show lookupStack s.scopes [i] n = _
    unfold lookupStack
    rw [h3]

/-! ### Runs -/

section
variable {T : Table} {ρ : SCtxId → Nat} {D : SCtxId → Prop}

theorem InLayers.toks {s : State} (h : InLayers T ρ D s) (ts : List Token) : InLayers T ρ D { s with toks := ts } :=
  ⟨h.ok.toks ts, h.live, h.vars⟩

theorem InLayers.bindVar {s : State} (h : InLayers T ρ D s) {sc : SCtxId} (hsc : D sc) (n : Str) (v : Var)
    (hv : ∀ x, v = .matcher x → Layered T ρ D sc x) : InLayers T ρ D (s.bindVar sc n v) where
  ok := h.ok.bindVar (h.live sc hsc) n v
  live k hk := by rw [bindVar_length h.ok (h.live sc hsc)]; exact h.live k hk
  vars k hk x hb := by
    rcases binds_bindVar h.ok (h.live sc hsc) hb with hb | ⟨rfl, rfl⟩
    · exact h.vars k hk x hb
    · exact hv x rfl

theorem layers_keep {sc : SCtxId} (hsc : D sc) : VarKeep (Layered T ρ D sc) sc (InLayers T ρ D) where
  toks _ ts h := h.toks ts
  bindM _ n m h hm := h.bindVar hsc n _ fun x hx => by cases hx; exact hm
  bindT _ n t h := h.bindVar hsc n _ fun x hx => by cases hx
  bindS _ n t h := h.bindVar hsc n _ fun x hx => by cases hx
  look _ _ _ h hx := h.vars sc hsc _ (lookup_binds hx)

theorem Fetchable.parts_matcher {m : MatcherId} : m ∈ (Fetchable.matcher m).parts := List.mem_singleton.mpr rfl

theorem keep_node {S : MatcherId → Prop} {nd : Node} (hc : nd.LeavesScopes) (hs : ∀ j b, nd ≠ .setScope j b)
    (h : ∀ x ∈ nd.parts, S x) {I : State → Prop} (hI : ∀ s ts, I s → I { s with toks := ts }) : KeepNode S I nd := by
  have one : ∀ {m : MatcherId}, m ∈ [m] := List.mem_singleton.mpr rfl
  cases nd with
  | map m sf ff =>
    refine ⟨h m one, fun t c sc s r s' hi hr => ?_, fun e c sc s r s' hi hr => ?_⟩
    · obtain ⟨ts, rfl⟩ := hc.1 _ _ _ _ _ _ hr
      exact hI _ _ hi
    · obtain ⟨ts, rfl⟩ := hc.2 _ _ _ _ _ _ hr
      exact hI _ _ hi
  | catch_ m f =>
    refine ⟨h m one, fun c e s r s' hi hr => ?_⟩
    obtain ⟨ts, rfl⟩ := hc _ _ _ _ _ hr
    exact hI _ _ hi
  | setScope k m => exact (hs k m rfl).elim
  | pin m o n c =>
    cases m with
    | none => trivial
    | some m => exact h m (List.mem_append_left _ one)
  | debug m k =>
    cases m with
    | none => trivial
    | some m => exact h m one
  | ref t n c =>
    cases t with
    | matcher m => exact h m one
    | _ => trivial
  | program ps n c i f => exact h
  | register ps => exact h
  | optional m => exact h m one
  | not m => exact h m one
  | discard m => exact h m one
  | proxyChildren m n c => exact h m one
  | expandRange m => exact h m one
  | store m n c => exact h m one
  | _ => trivial

/-- A run keeps the layers. -/
theorem exec_layers {cfg : Cfg} (hT : ∀ m, (T m).LeavesScopes) (n : Nat) : ∀ m c sc, D sc → Layered T ρ D sc m →
    Keep (InLayers T ρ D) (exec T cfg n m c sc) := by
  induction n with
  | zero => exact fun _ _ _ _ _ => Keep.diverge
  | succ n ih =>
    intro m c sc hsc hm
    have H : VarKeep (Layered T ρ D sc) sc (InLayers T ρ D) := layers_keep hsc
    refine Keep.bind H ?_ (fun _ => ?_)
    · unfold beforeExec
      split
      · intro s a s' hI h
        cases h
        exact H.bindM s _ m hI hm
      · exact Keep.pure H ()
    · cases hm with
      | plain hs h => exact execNode_keep H (fun m c => ih m c sc hsc) (keep_node (hT m) hs (fun x hx => h x (refers_iff.mpr hx)) H.toks) c
      | scope hm hj hr hb =>
        rw [hm]
        exact ih _ _ _ hj hb

/-- A parse keeps the layers. -/
theorem tokenize_layers {cfg : Cfg} (hT : ∀ m, (T m).LeavesScopes) {n : Nat} {m : MatcherId} {c : Ctx} (hc : D c.scope)
    (hm : Layered T ρ D c.scope m) : Keep (InLayers T ρ D) (tokenize T cfg n c m) := by
  have H : VarKeep (Layered T ρ D c.scope) c.scope (InLayers T ρ D) := layers_keep hc
  have hcol : ∀ t, Keep (InLayers T ρ D) (do collectErrorsTop t; pure (.ok t) : M (Except Failure TokId)) := fun t =>
    Keep.bind H (Keep.bind H (Keep.getState H) fun _ => collectErrors_keep H _ _ _ _) fun _ => Keep.pure H _
  unfold tokenize
  refine Keep.bind H (exec_layers hT n m c _ hc hm) fun r => ?_
  split
  · exact hcol _
  · exact hcol _
  · exact hcol _
  · exact hcol _
  · exact Keep.pure H _
  · exact Keep.pure H _

/-! ### Chains of references -/

theorem Layered.bounded {s : State} {k : SCtxId} {m : MatcherId} (h : Layered T ρ D k m)
    (hk : ∀ j, D j → ρ j < ρ k → Bounded T s (.ctx j)) : Bounded T s (.mat m) := by
  induction h with
  | plain hs _ ih =>
    refine .mk fun o ho => ?_
    cases ho with
    | part hx => exact ih _ hx hk
    | scope hx => exact (hs _ _ hx).elim
  | scope hm hj hr _ ih =>
    refine .mk fun o ho => ?_
    cases ho with
    | part hx =>
      rw [hm] at hx
      cases hx
      exact ih fun j' h1 h2 => hk j' h1 (Nat.lt_trans h2 hr)
    | scope hx =>
      rw [hm] at hx
      cases hx
      exact hk _ hj hr

theorem InLayers.bounded {s : State} (h : InLayers T ρ D s) : ∀ n k, ρ k = n → D k → Bounded T s (.ctx k) := by
  intro n
  induction n using Nat.strongRecOn with
  | ind n ih =>
    intro k hn hk
    refine .mk fun o ho => ?_
    cases ho with
    | var hx => exact (h.vars k hk _ hx).bounded fun j h1 h2 => ih (ρ j) (hn ▸ h2) j rfl h1

theorem Layered.more {D' : SCtxId → Prop} (hD : ∀ k, D k → D' k) {k : SCtxId} {m : MatcherId} (h : Layered T ρ D k m) : Layered T ρ D' k m := by
  induction h with
  | plain hs _ ih => exact .plain hs ih
  | scope hm hj hr _ ih => exact .scope hm (hD _ hj) hr ih

end

end Adx
