import Verif.Proofs.Layers
/-
  Compiled scripts are made in layers.
-/
namespace Adx

/-! ### Contexts of compiled scripts have one scope at most -/

/-- From the context `n` on, no stack has more than one scope. -/
def SlimFrom (n : Nat) (s : State) : Prop := ∀ k st, n ≤ k → s.sctxs[k]? = some st → st.length ≤ 1

theorem SlimFrom.bindVar {n : Nat} {s : State} (h : SlimFrom n s) (sc : SCtxId) (x : Str) (v : Var) : SlimFrom n (s.bindVar sc x v) := by
  intro k st hk hs
  unfold State.bindVar at hs
  split at hs
  · change (s.sctxs.set sc [s.scopes.length])[k]? = some st at hs
    by_cases hkc : sc = k
    · subst hkc
      by_cases hlt : sc < s.sctxs.length
      · rw [List.getElem?_set_self hlt] at hs
        cases hs
        exact Nat.le_refl _
      · rw [List.getElem?_eq_none (by simpa using hlt)] at hs
        cases hs
    · rw [List.getElem?_set_ne hkc] at hs
      exact h k st hk hs
  · exact h k st hk hs

theorem SlimFrom.newSCtx {n : Nat} {s : State} (h : SlimFrom n s) : SlimFrom n s.newSCtx.2 := by
  intro k st hk hs
  change (s.sctxs ++ [[]])[k]? = some st at hs
  by_cases hlt : k < s.sctxs.length
  · rw [List.getElem?_append_left hlt] at hs
    exact h k st hk hs
  · rw [List.getElem?_append_right (Nat.le_of_not_lt hlt)] at hs
    have := List.mem_of_getElem? hs
    rw [List.mem_singleton.mp this]
    exact Nat.zero_le _

theorem slim_start (s : State) : SlimFrom s.sctxs.length s := by
  intro k st hk hs
  rw [List.getElem?_eq_none hk] at hs
  cases hs

theorem slim_keep {old : State} {sc : SCtxId} {lo n : Nat} : VarKeep (lo ≤ ·) sc (fun s => (OwnScope old sc s ∧
    ∀ k m, s.lookup sc k = some (.matcher m) → lo ≤ m) ∧ SlimFrom n s) := by
  have H := own_keep old sc lo
  exact ⟨fun s ts h => ⟨H.toks s ts h.1, h.2⟩, fun s k m h hm => ⟨H.bindM s k m h.1 hm, h.2.bindVar _ _ _⟩,
    fun s k m h => ⟨H.bindT s k m h.1, h.2.bindVar _ _ _⟩, fun s k m h => ⟨H.bindS s k m h.1, h.2.bindVar _ _ _⟩,
    fun s k m h => H.look s k m h.1⟩

section

/-- What a hook keeps. -/
abbrev HookSlim (n : Nat) : Except ParseError Unit × Build → Prop := HookDone (fun b => SlimFrom n b.w.st) fun _ _ => True

variable {n : Nat} {b : Build} {sc isc : SCtxId} {root : MatcherId} {file : Str}

theorem slim_step {α : Type} {x : C α} {k : α → Build → Except ParseError Unit × Build} {ke : Str → ParseError}
    (hk : ∀ a ns, HookSlim n (k a { b with w := { b.w with nodes := ns } })) : HookSlim n (Build.step x b k ke) := by
  unfold Build.step
  split
  · exact hk _ _
  · trivial
  · trivial
  · trivial

theorem slim_hookAssignment {env : Env} {depth : Nat} (h : SlimFrom n b.w.st) (t : TokId) :
    HookSlim n (hookAssignment env depth sc t b) := by
  refine slim_step fun r ns => ?_
  cases r with
  | none => exact h
  | some p => exact h.bindVar _ _ _

theorem slim_importIdentifier (h : SlimFrom n b.w.st) (c : TokId) : HookSlim n (importIdentifier sc isc root file c b) := by
  refine slim_step fun r ns => ?_
  obtain ⟨ik, name⟩ := r
  dsimp only
  split
  · split
    · trivial
    · exact slim_step fun _ _ => h.bindVar _ _ _
  · split
    · exact slim_step fun _ _ => h.bindVar _ _ _
    · trivial

theorem slim_importIdentifiers (cs : List TokId) : ∀ {b : Build}, SlimFrom n b.w.st →
    HookSlim n (importIdentifiers sc isc root file cs b) := by
  induction cs with
  | nil => exact fun h => h
  | cons c cs ih =>
    intro b h
    unfold importIdentifiers
    have h1 := slim_importIdentifier (sc := sc) (isc := isc) (root := root) (file := file) h c
    cases hx : importIdentifier sc isc root file c b with
    | mk r b' =>
      rw [hx] at h1
      cases r with
      | ok u => exact ih h1
      | error e => trivial

/-- What compiling keeps. -/
def FileSlim (n : Nat) : BuildRes → Prop
  | .ok _ _ w => SlimFrom n w.st
  | _ => True

theorem slim_hookImport {env : Env} {compileFile : Str → World → BuildRes} {fromFile : Option Str}
    (hf : ∀ file w, SlimFrom n w.st → FileSlim n (compileFile file w)) (h : SlimFrom n b.w.st) (t : TokId) :
    HookSlim n (hookImport env compileFile fromFile sc t b) := by
  unfold hookImport
  cases fromFile with
  | none => exact slim_step fun _ _ => trivial
  | some from_ =>
    refine slim_step fun r ns => ?_
    obtain ⟨ids, file⟩ := r
    dsimp only
    have := hf file { b.w with nodes := ns } h
    cases hc : compileFile file { b.w with nodes := ns } with
    | ok root isc w =>
      rw [hc] at this
      exact slim_importIdentifiers ids (b := { b with w := w }) this
    | err es => trivial
    | panic m => trivial
    | diverge => trivial

theorem slim_build {env : Env} {compileFile : Str → World → BuildRes} {fromFile : Option Str} {depth : Nat}
    {t : TokId} {ctx : Ctx} {name : Str} {w : World}
    (hf : ∀ file w, SlimFrom n w.st → FileSlim n (compileFile file w)) (hw : SlimFrom n w.st) :
    FileSlim n (buildMatcherFromTokens env compileFile depth t ctx name fromFile w) := by
  unfold buildMatcherFromTokens
  cases ht : w.st.toks[t]? with
  | none => trivial
  | some k =>
    dsimp only
    split
    · trivial
    · have h0 : SlimFrom n w.st.newSCtx.2 := hw.newSCtx
      have := visitGo_safe (toks := w.st.newSCtx.2.toks) (I := fun b => SlimFrom n b.w.st) (J := fun _ _ => True)
        (hooks := buildHooks env compileFile fromFile depth w.nodes.length (w.nodes.length + 1) w.st.newSCtx.1) ?_
        depth t ⟨⟨w.nodes ++ preamble w.nodes.length w.st.sctxs.length name, w.st.newSCtx.2⟩, [], none⟩ h0
      · have key : ∀ {r : VRes Build}, VisitDone (fun b => SlimFrom n b.w.st) (fun _ _ => True) r →
            FileSlim n (buildResult ctx w.nodes.length w.st.sctxs.length r) := by
          intro r h
          cases r with
          | ok b => exact h
          | err e b =>
            unfold buildResult
            dsimp only
            cases b.crash with
            | some c => cases c <;> trivial
            | none =>
              dsimp only
              split
              · split <;> trivial
              · trivial
          | dangling => trivial
          | diverge => trivial
        exact key this
      · intro x h hm t s hs
        simp only [buildHooks, List.mem_cons, List.not_mem_nil, or_false] at hm
        rcases hm with hm | hm | hm | hm | hm <;> cases hm
        · exact slim_step fun _ _ => hs
        · exact slim_step fun _ _ => hs
        · exact slim_hookAssignment hs t
        · exact slim_hookImport hf hs t
        · exact slim_step fun _ _ => hs

end

section

attribute [local irreducible] Script.switchMatcher Script.programMatcher Script.script tokenize
  buildMatcherFromTokens String.toList

theorem parse_slim {env : Env} {parser : Parser} {name : Str} {w : World} {fuel n : Nat} {r : Except Failure TokId}
    {st : State} (hw : SlimFrom n w.st)
    (h : tokenize (tableOf (setup env parser name w).nodes) env.cfg fuel (setup env parser name w).ctx
      (setup env parser name w).start (setup env parser name w).st = .ok r st) : SlimFrom n st := by
  obtain ⟨ys, h1, h2, h3, h4⟩ := setup_nodes env parser name w
  have H := slim_keep (old := w.st) (sc := w.st.sctxs.length) (lo := w.nodes.length) (n := n)
  refine (tokenize_keep H env.cfg (fun m hm => ?_) h3 rfl _ _ _
    ⟨⟨setup_own env parser name w, h4⟩, (hw.newSCtx.bindVar _ _ _).bindVar _ _ _⟩ h).2
  rw [h1]
  unfold tableOf
  cases hn : (w.nodes ++ ys)[m]? with
  | none => trivial
  | some nd =>
    rw [List.getElem?_append_right hm] at hn
    exact (h2 nd (List.mem_of_getElem? hn)).keep H.toks

theorem slim_compile (env : Env) (n fuel : Nat) : ∀ parser name fromFile w, SlimFrom n w.st →
    FileSlim n (compileScript env fuel parser name fromFile w) := by
  induction fuel with
  | zero => exact fun _ _ _ _ _ => trivial
  | succ fuel ih =>
    intro parser name fromFile w hw
    rw [compileScript_succ]
    cases ht : tokenize (tableOf (setup env parser name w).nodes) env.cfg fuel (setup env parser name w).ctx
        (setup env parser name w).start (setup env parser name w).st with
    | panic m => trivial
    | diverge => trivial
    | ok r st =>
      have hs := parse_slim hw ht
      cases r with
      | error f => cases f <;> trivial
      | ok t =>
        refine slim_build (fun file w hw => ?_) hs
        unfold importFile
        cases env.canonical file with
        | none => trivial
        | some full =>
          dsimp only
          cases env.read full with
          | none => trivial
          | some src => exact ih _ _ _ w hw

end

/-! ### Layers -/

/-- A scope of a script, from the context `n0` on. -/
def Described (w : World) (n0 k : Nat) : Prop := n0 ≤ k ∧ ∃ lo bs, InScope w lo k bs

/-- The scopes of a script, and the contexts made later, up to `L`. -/
def InReach (w : World) (n0 L k : Nat) : Prop := Described w n0 k ∨ (w.st.sctxs.length ≤ k ∧ k < L)

/-- Scopes of imported scripts rank lower than those of the scripts that import them; contexts that are
made later rank higher than all of them. -/
def scopeRank (N k : Nat) : Nat := if k < N then N - k else N + 1

theorem scopeRank_lt {N j k : Nat} (hj : j < N) (hk : k < j ∨ N ≤ k) : scopeRank N j < scopeRank N k := by
  unfold scopeRank
  rw [if_pos hj]
  split <;> omega

section

variable {w : World} {n0 L : Nat}

theorem layered_at {ρ : SCtxId → Nat} {D : SCtxId → Prop} {k : SCtxId} {m : MatcherId} {nd : Node} (hm : w.nodes[m]? = some nd)
    (hs : ∀ j b, nd ≠ .setScope j b) (h : ∀ x ∈ nd.parts, Layered (tableOf w.nodes) ρ D k x) : Layered (tableOf w.nodes) ρ D k m := by
  have : tableOf w.nodes m = nd := by
    unfold tableOf
    rw [hm]
    rfl
  exact .plain (by rw [this]; exact hs) (by rw [this]; exact fun x hx => h x (refers_iff.mp hx))

mutual

theorem Built.layered {ρ : SCtxId → Nat} {D : SCtxId → Prop} {k : SCtxId} {lo : Nat} {m : MatcherId} {g : Gram} :
    Built w.nodes lo m g → Layered (tableOf w.nodes) ρ D k m
  | .equals _ h => layered_at h (by simp) (by simp [Node.parts, Fetchable.parts])
  | .regex _ h => layered_at h (by simp) (by simp [Node.parts])
  | .sequence _ h => layered_at h (by simp) (by simp [Node.parts, Fetchable.parts])
  | .ref _ h => layered_at h (by simp) (by simp [Node.parts, Fetchable.parts])
  | .null _ h => layered_at h (by simp) (by simp [Node.parts])
  | .group _ h hs => layered_at h (by simp) (BuiltAll.layered hs)
  | .loop _ h hg => layered_at h (by simp) (by simpa [Node.parts] using Built.layered hg)
  | .opt _ h hg => layered_at h (by simp) (by simpa [Node.parts] using Built.layered hg)
  | .not _ h hg => layered_at h (by simp) (by simpa [Node.parts] using Built.layered hg)
  | .discard _ h hg => layered_at h (by simp) (by simpa [Node.parts] using Built.layered hg)
  | .attrs _ h hg => layered_at h (by simp) (by simpa [Node.parts] using Built.layered hg)
termination_by structural h => h

theorem BuiltAll.layered {ρ : SCtxId → Nat} {D : SCtxId → Prop} {k : SCtxId} {lo : Nat} {ms : List MatcherId} {gs : List Gram} :
    BuiltAll w.nodes lo ms gs → ∀ x ∈ ms, Layered (tableOf w.nodes) ρ D k x
  | .nil, _, hx => nomatch hx
  | .cons h hs, x, hx => by
    have h1 := Built.layered (ρ := ρ) (D := D) (k := k) h
    have h2 := BuiltAll.layered (ρ := ρ) (D := D) (k := k) hs
    rcases List.mem_cons.mp hx with rfl | hx
    · exact h1
    · exact h2 x hx
termination_by structural h => h

end

theorem scoped_at {ρ : SCtxId → Nat} {D : SCtxId → Prop} {k j : SCtxId} {m b : MatcherId} (hm : w.nodes[m]? = some (.setScope (some j) b))
    (hj : D j) (hr : ρ j < ρ k) (hb : Layered (tableOf w.nodes) ρ D j b) : Layered (tableOf w.nodes) ρ D k m := by
  refine .scope (j := j) (b := b) ?_ hj hr hb
  unfold tableOf
  rw [hm]
  rfl

mutual

theorem IsThing.layered {lo slo : Nat} {m : MatcherId} {th : Thing} : IsThing w lo slo m th → n0 ≤ slo →
    ∀ {k : SCtxId}, (k < slo ∨ w.st.sctxs.length ≤ k) →
      Layered (tableOf w.nodes) (scopeRank w.st.sctxs.length) (InReach w n0 L) k m
  | .own h, _, _, _ => h.layered
  | .file h, hs, _, hk => IsFile.layered h hs hk
  | .member _ _ hs hm ha hx hbs, h0, k, hk => by
    have h1 := hbs.lt
    refine scoped_at hm (.inl ⟨Nat.le_trans h0 hs, _, _, hbs⟩) (scopeRank_lt h1 (hk.imp_left fun h => Nat.lt_of_lt_of_le h hs)) ?_
    refine layered_at ha (by simp) ?_
    have := InScope.layered hbs (Nat.le_trans h0 hs) hx
    simpa [Node.parts] using this
termination_by structural h => h

theorem IsFile.layered {lo slo : Nat} {m : MatcherId} {sc : SCtxId} {n : Str} {gs : List Gram} {bs : List (Str × Thing)} :
    IsFile w lo slo m sc n gs bs → n0 ≤ slo → ∀ {k : SCtxId}, (k < slo ∨ w.st.sctxs.length ≤ k) →
      Layered (tableOf w.nodes) (scopeRank w.st.sctxs.length) (InReach w n0 L) k m
  | .mk _ hs hm _ ha _ hb _ hi hps hbs, h0, k, hk => by
    refine layered_at hm (by simp) ?_
    have hin : Layered (tableOf w.nodes) (scopeRank w.st.sctxs.length) (InReach w n0 L) sc _ :=
      layered_at hi (by simp) hps.layered
    have hfl : Layered (tableOf w.nodes) (scopeRank w.st.sctxs.length) (InReach w n0 L) sc _ :=
      layered_at hb (by simp) (by simpa [Node.parts] using hin)
    have := scoped_at (k := k) ha (.inl ⟨Nat.le_trans h0 hs, _, _, hbs⟩)
      (scopeRank_lt hbs.lt (hk.imp_left fun h => Nat.lt_of_lt_of_le h hs)) hfl
    simpa [Node.parts] using this
termination_by structural h => h

theorem InScope.layered {lo : Nat} {sc : SCtxId} {bs : List (Str × Thing)} : InScope w lo sc bs → n0 ≤ sc →
    ∀ {x : Str} {y : MatcherId}, w.st.lookup sc x = some (.matcher y) →
      Layered (tableOf w.nodes) (scopeRank w.st.sctxs.length) (InReach w n0 L) sc y
  | .mk hsc f hd ht hu, h0, x, y, hx => by
    cases hl : lastDef bs x with
    | none =>
      rw [hu x hl] at hx
      cases hx
    | some th =>
      have h1 := IsThing.layered (k := sc) (ht x th hl) (Nat.le_trans h0 (Nat.le_succ _)) (.inl (Nat.lt_succ_self _))
      have h2 := hd x th hl
      rw [hx] at h2
      cases h2
      exact h1
termination_by structural h => h

end

/-- A script that was just compiled is in layers. -/
theorem layers_start (hok : ScopesOK w.st) (hslim : SlimFrom n0 w.st) (hL : L = w.st.sctxs.length) :
    InLayers (tableOf w.nodes) (scopeRank w.st.sctxs.length) (InReach w n0 L) w.st where
  ok := hok
  live k hk := by
    rcases hk with ⟨_, _, _, h⟩ | h
    · exact h.lt
    · omega
  vars k hk x hx := by
    rcases hk with ⟨h0, _, _, h⟩ | h
    · obtain ⟨n, hn⟩ := binds_lookup (fun st => hslim k st h0) hx
      exact h.layered h0 hn
    · omega

theorem layers_newSCtx {s : State} (hN : w.st.sctxs.length ≤ s.sctxs.length)
    (h : InLayers (tableOf w.nodes) (scopeRank w.st.sctxs.length) (InReach w n0 s.sctxs.length) s) :
    InLayers (tableOf w.nodes) (scopeRank w.st.sctxs.length) (InReach w n0 s.newSCtx.2.sctxs.length) s.newSCtx.2 := by
  have hlen : s.newSCtx.2.sctxs.length = s.sctxs.length + 1 := by simp [State.newSCtx]
  have mono : ∀ k, InReach w n0 s.sctxs.length k → InReach w n0 s.newSCtx.2.sctxs.length k :=
    fun k hk => hk.imp_right fun h => ⟨h.1, by omega⟩
  refine ⟨h.ok.newSCtx, fun k hk => ?_, fun k hk x hx => ?_⟩
  · rcases hk with ⟨_, _, _, h⟩ | h
    · exact Nat.lt_of_lt_of_le h.lt (by omega)
    · exact h.2
  · obtain ⟨st, i, n, h1, h2, h3⟩ := hx
    change (s.sctxs ++ [[]])[k]? = some st at h1
    by_cases hlt : k < s.sctxs.length
    · rw [List.getElem?_append_left hlt] at h1
      refine (h.vars k ?_ x ⟨st, i, n, h1, h2, h3⟩).more mono
      rcases hk with hk | hk
      · exact .inl hk
      · exact .inr ⟨hk.1, hlt⟩
    · rw [List.getElem?_append_right (Nat.le_of_not_lt hlt)] at h1
      rw [List.mem_singleton.mp (List.mem_of_getElem? h1)] at h2
      cases h2

end

/-! ### Callbacks and parses -/

theorem Node.Mild.leaves {nd : Node} (h : nd.Mild) : nd.LeavesScopes := by
  cases nd with
  | catch_ m f => exact h.elim
  | map m sf ff =>
    obtain ⟨h1, h2⟩ := h
    refine ⟨fun t c sc s r s' hr => ?_, fun e c sc s r s' hr => ?_⟩
    · obtain ⟨s1, ht, h3⟩ := h1 _ _ _ _ _ _ hr
      obtain ⟨ts, rfl⟩ := ht.vars
      rcases h3 with ⟨rfl, _⟩ | ⟨msg, q, rfl, _⟩
      · exact ⟨_, rfl⟩
      · exact ⟨_, rfl⟩
    · obtain ⟨rfl, _⟩ := h2 _ _ _ _ _ _ hr
      exact ⟨_, rfl⟩
  | _ => trivial

theorem tokenize_count {T : Table} {cfg : Cfg} (hT : ∀ m, (T m).Mild) {n : Nat} {m : MatcherId} {c : Ctx} {s s' : State}
    {r : Except Failure TokId} (h : tokenize T cfg n c m s = .ok r s') : s'.sctxs.length = s.sctxs.length := by
  have hb : ∀ (s : State) sc k v, (s.bindVar sc k v).sctxs.length = s.sctxs.length := by
    intro s sc k v
    unfold State.bindVar
    split
    · exact List.length_set
    · rfl
  have H : VarKeep (fun _ => True) c.scope (fun x => x.sctxs.length = s.sctxs.length) :=
    ⟨fun _ _ h => h, fun x k m h _ => (hb x _ k _).trans h, fun x k m h => (hb x _ k _).trans h,
      fun x k m h => (hb x _ k _).trans h, fun _ _ _ _ _ => trivial⟩
  have hcol : ∀ t, Keep (fun x => x.sctxs.length = s.sctxs.length) (do collectErrorsTop t; pure (.ok t) : M (Except Failure TokId)) :=
    fun t => Keep.bind H (Keep.bind H (Keep.getState H) fun _ => collectErrors_keep H _ _ _ _) fun _ => Keep.pure H _
  unfold tokenize at h
  obtain ⟨r1, s1, h1, h2⟩ := bind_ok.mp h
  have hc := (exec_pres (balanced_varRel T) cfg (fun m => (hT m).pres (balanced_varRel T)) n m c _ s r1 s1 h1).count
  split at h2
  · exact hcol _ _ _ _ hc h2
  · exact hcol _ _ _ _ hc h2
  · exact hcol _ _ _ _ hc h2
  · exact hcol _ _ _ _ hc h2
  · cases h2; exact hc
  · cases h2; exact hc

end Adx
