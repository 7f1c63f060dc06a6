import Verif.Proofs.Pres
import Verif.Proofs.Step
import Verif.Props.Scopes
/-
  C08: variable scopes are balanced, and `SetScope` isolates its bindings.
-/
namespace Adx

/-- `s'` has the same stacks of scopes as `s`, up to base scopes created in empty
stacks; scopes that are not on top of a stack are untouched. -/
structure Balanced (s s' : State) : Prop where
  count : s'.sctxs.length = s.sctxs.length
  scopes : s.scopes.length ≤ s'.scopes.length
  stacks : ∀ (k : SCtxId) (st : List ScopeId), s.sctxs[k]? = some st →
    s'.sctxs[k]? = some st ∨ (st = [] ∧ ∃ i, s.scopes.length ≤ i ∧ s'.sctxs[k]? = some [i])
  below : ∀ i : ScopeId, i < s.scopes.length →
    (∀ (k : SCtxId) (st : List ScopeId), s.sctxs[k]? = some st → st.head? ≠ some i) →
    s'.scopes[i]? = s.scopes[i]?
  ok : ScopesOK s → ScopesOK s'

theorem State.bindVar_sctxs_length (s : State) (sc : SCtxId) (k : Str) (v : Var) :
    (s.bindVar sc k v).sctxs.length = s.sctxs.length := by
  unfold State.bindVar
  split <;> simp

theorem Balanced.refl (s : State) : Balanced s s :=
  ⟨rfl, Nat.le_refl _, fun _ _ h => Or.inl h, fun _ _ _ => rfl, id⟩

theorem Balanced.bindVar (s : State) (sc : SCtxId) (k : Str) (v : Var) :
    Balanced s (s.bindVar sc k v) := by
  by_cases hsc : sc < s.sctxs.length
  · have hok : ScopesOK s → ScopesOK (s.bindVar sc k v) :=
      fun h => (scopeStep_refines h (.set sc k v) hsc).2.1
    refine ⟨State.bindVar_sctxs_length s sc k v, ?_, ?_, ?_, hok⟩
    · unfold State.bindVar
      split <;> simp
    · intro i st hi
      unfold State.bindVar
      split
      · rename_i hemp
        simp only [List.getElem?_set]
        by_cases hik : sc = i
        · subst hik
          rw [hi, Option.getD_some] at hemp
          subst hemp
          refine Or.inr ⟨rfl, s.scopes.length, Nat.le_refl _, ?_⟩
          simp [hsc]
        · simp only [if_neg hik]
          exact Or.inl hi
      · exact Or.inl hi
    · intro i hi htop
      unfold State.bindVar
      split
      · simp only
        rw [List.getElem?_append_left hi]
      · rename_i top st hst
        simp only
        rw [List.getElem?_set_ne]
        intro he
        subst he
        apply htop sc (top :: st)
        · rw [List.getElem?_eq_getElem hsc] at hst ⊢
          rw [Option.getD_some] at hst
          rw [hst]
        · rfl
  · have hn : s.sctxs[sc]? = none := List.getElem?_eq_none (Nat.le_of_not_lt hsc)
    have heq : s.bindVar sc k v = { s with scopes := s.scopes ++ [AMap.insert [] k v] } := by
      unfold State.bindVar
      rw [hn]
      simp only [Option.getD_none]
      rw [List.set_eq_of_length_le (Nat.le_of_not_lt hsc)]
    rw [heq]
    refine ⟨rfl, by simp, fun _ _ h => Or.inl h, fun i hi _ => ?_, fun h => ⟨?_, h.nodup, h.apart⟩⟩
    · simp only
      rw [List.getElem?_append_left hi]
    · intro a st ha i hi
      simp only [List.length_append, List.length_singleton]
      exact Nat.lt_succ_of_lt (h.valid a st ha i hi)

theorem Balanced.trans {a b c : State} (h1 : Balanced a b) (h2 : Balanced b c) : Balanced a c := by
  refine ⟨h2.count.trans h1.count, Nat.le_trans h1.scopes h2.scopes, ?_, ?_, h2.ok ∘ h1.ok⟩
  · intro k st hk
    rcases h1.stacks k st hk with hb | ⟨rfl, i, hi, hb⟩
    · rcases h2.stacks k st hb with hc | ⟨rfl, i, hi, hc⟩
      · exact Or.inl hc
      · exact Or.inr ⟨rfl, i, Nat.le_trans h1.scopes hi, hc⟩
    · rcases h2.stacks k [i] hb with hc | ⟨hf, _⟩
      · exact Or.inr ⟨rfl, i, hi, hc⟩
      · cases hf
  · intro i hi htop
    rw [h2.below i (Nat.lt_of_lt_of_le hi h1.scopes), h1.below i hi htop]
    intro k st hk he
    have hlt : k < a.sctxs.length := by
      rw [← h1.count]
      exact (List.getElem?_eq_some_iff.mp hk).1
    have ha := List.getElem?_eq_getElem hlt
    rcases h1.stacks k _ ha with hb | ⟨_, j, hj, hb⟩
    · rw [hk] at hb
      cases hb
      exact htop k _ ha he
    · rw [hk] at hb
      cases hb
      cases he
      exact Nat.lt_irrefl _ (Nat.lt_of_lt_of_le hi hj)

/-- Opening a scope, running something balanced, closing it. -/
theorem Balanced.scope {s s2 : State} {k : SCtxId} (h : Balanced (s.pushScope k) s2) :
    Balanced s (s2.popScope k) ∧
    (ScopesOK s → (s2.popScope k).views k = s.views k) := by
  by_cases hk : k < s.sctxs.length
  · obtain ⟨st, hst⟩ : ∃ st, s.sctxs[k]? = some st := ⟨_, List.getElem?_eq_getElem hk⟩
    have hpush : (s.pushScope k).sctxs[k]? = some (s.scopes.length :: st) := by
      simp only [State.pushScope, hst, Option.getD_some]
      rw [List.getElem?_set_self hk]
    have hother : ∀ i, i ≠ k → (s.pushScope k).sctxs[i]? = s.sctxs[i]? := by
      intro i hi
      simp only [State.pushScope]
      rw [List.getElem?_set_ne (fun h => hi h.symm)]
    have hs2 : s2.sctxs[k]? = some (s.scopes.length :: st) := by
      rcases h.stacks k _ hpush with h | ⟨hf, _⟩
      · exact h
      · cases hf
    have hk2 : k < s2.sctxs.length := (List.getElem?_eq_some_iff.mp hs2).1
    have hpop : (s2.popScope k).sctxs[k]? = some st := by
      simp only [State.popScope, hs2, Option.getD_some, List.tail_cons]
      rw [List.getElem?_set_self hk2]
    have hpopo : ∀ i, i ≠ k → (s2.popScope k).sctxs[i]? = s2.sctxs[i]? := by
      intro i hi
      simp only [State.popScope]
      rw [List.getElem?_set_ne (fun h => hi h.symm)]
    have hlen : s.scopes.length + 1 ≤ s2.scopes.length := by
      have := h.scopes
      simpa [State.pushScope] using this
    have hbelow : ∀ i, i < s.scopes.length →
        (∀ (j : SCtxId) (st : List ScopeId), (s.pushScope k).sctxs[j]? = some st → st.head? ≠ some i) →
        s2.scopes[i]? = s.scopes[i]? := by
      intro i hi ht
      rw [h.below i (by simp only [State.pushScope, List.length_append, List.length_singleton]; exact Nat.lt_succ_of_lt hi) ht]
      simp only [State.pushScope]
      rw [List.getElem?_append_left hi]
    refine ⟨⟨?_, ?_, ?_, ?_, ?_⟩, ?_⟩
    · simp only [State.popScope, List.length_set]
      have := h.count
      simpa [State.pushScope] using this
    · simp only [State.popScope]
      exact Nat.le_trans (Nat.le_succ _) hlen
    · intro i sti hi
      by_cases hik : i = k
      · subst hik
        rw [hst] at hi
        cases hi
        exact Or.inl hpop
      · rw [hpopo i hik]
        rcases h.stacks i sti (by rw [hother i hik]; exact hi) with h | ⟨rfl, j, hj, h⟩
        · exact Or.inl h
        · refine Or.inr ⟨rfl, j, ?_, h⟩
          simp only [State.pushScope, List.length_append, List.length_singleton] at hj
          exact Nat.le_trans (Nat.le_succ _) hj
    · intro i hi ht
      simp only [State.popScope]
      apply hbelow i hi
      intro j stj hj he
      by_cases hjk : j = k
      · subst hjk
        rw [hpush] at hj
        cases hj
        simp only [List.head?_cons, Option.some.injEq] at he
        exact Nat.ne_of_lt hi he.symm
      · rw [hother j hjk] at hj
        exact ht j stj hj he
    · intro hok
      have h1 := (scopeStep_refines hok (.push k) hk).2.1
      exact (scopeStep_refines (h.ok h1) (.pop k) hk2).2.1
    · intro hok
      unfold State.views
      rw [hpop, hst]
      simp only [Option.getD_some]
      apply List.map_congr_left
      intro i hi
      have hlt := hok.valid k st hst i hi
      simp only [State.popScope]
      rw [hbelow i hlt]
      intro j stj hj he
      by_cases hjk : j = k
      · subst hjk
        rw [hpush] at hj
        cases hj
        simp only [List.head?_cons, Option.some.injEq] at he
        exact Nat.ne_of_lt hlt he.symm
      · rw [hother j hjk] at hj
        exact hok.apart j k stj st hj hst hjk i (List.mem_of_mem_head? he) hi
  · have hpush : (s.pushScope k).sctxs = s.sctxs := by
      simp only [State.pushScope]
      rw [List.set_eq_of_length_le (Nat.le_of_not_lt hk)]
    have hk2 : s2.sctxs.length ≤ k := by
      have := h.count
      rw [hpush] at this
      rw [this]
      exact Nat.le_of_not_lt hk
    have hpop : (s2.popScope k).sctxs = s2.sctxs := by
      simp only [State.popScope]
      rw [List.set_eq_of_length_le hk2]
    have hlen : s.scopes.length + 1 ≤ s2.scopes.length := by
      have := h.scopes
      simpa [State.pushScope] using this
    refine ⟨⟨?_, ?_, ?_, ?_, ?_⟩, ?_⟩
    · rw [hpop]
      have := h.count
      rw [hpush] at this
      exact this
    · simp only [State.popScope]
      exact Nat.le_trans (Nat.le_succ _) hlen
    · intro i st hi
      rw [hpop]
      rcases h.stacks i st (by rw [hpush]; exact hi) with h | ⟨rfl, j, hj, h⟩
      · exact Or.inl h
      · refine Or.inr ⟨rfl, j, ?_, h⟩
        simp only [State.pushScope, List.length_append, List.length_singleton] at hj
        exact Nat.le_trans (Nat.le_succ _) hj
    · intro i hi ht
      simp only [State.popScope]
      rw [h.below i (by simp only [State.pushScope, List.length_append, List.length_singleton]; exact Nat.lt_succ_of_lt hi)]
      · simp only [State.pushScope]
        rw [List.getElem?_append_left hi]
      · rw [hpush]; exact ht
    · intro hok
      have h1 : ScopesOK (s.pushScope k) := by
        refine ⟨?_, ?_, ?_⟩
        · intro a st ha i hi
          rw [hpush] at ha
          simp only [State.pushScope, List.length_append, List.length_singleton]
          exact Nat.lt_succ_of_lt (hok.valid a st ha i hi)
        · rw [hpush]; exact hok.nodup
        · rw [hpush]; exact hok.apart
      have h2 := h.ok h1
      refine ⟨?_, ?_, ?_⟩
      · rw [hpop]; exact h2.valid
      · rw [hpop]; exact h2.nodup
      · rw [hpop]; exact h2.apart
    · intro _
      unfold State.views
      rw [hpop, List.getElem?_eq_none hk2, List.getElem?_eq_none (Nat.le_of_not_lt hk)]
      rfl

theorem balanced_varRel (T : Table) : VarRel T Balanced where
  refl := Balanced.refl
  trans := Balanced.trans
  toks := fun s _ => ⟨rfl, Nat.le_refl _, fun _ _ h => Or.inl h, fun _ _ _ => rfl,
    fun h => ⟨h.valid, h.nodup, h.apart⟩⟩
  bindM := fun s sc m => Balanced.bindVar s sc _ _
  bindT := fun s sc k t => Balanced.bindVar s sc k _
  bindS := fun s sc k v => Balanced.bindVar s sc k _
  scope := fun _ _ _ h => h.scope.1

/-- C08: whatever a matcher does and however it ends, every scope context has the
same stack of scopes afterwards as before, except that a stack that was empty may
have got its base scope; and only scopes on top of a stack were changed. -/
theorem C08_scopes_balanced {T : Table} {cfg : Cfg} (hT : ∀ m, PresNode Balanced (T m))
    {m : MatcherId} {c : Ctx} {sc : SCtxId} {s s' : State} {r : R}
    (h : Runs T cfg m c sc s r s') :
    s'.sctxs.length = s.sctxs.length ∧
    (∀ (k : SCtxId) (st : List ScopeId), s.sctxs[k]? = some st →
      s'.sctxs[k]? = some st ∨ (st = [] ∧ ∃ i, s'.sctxs[k]? = some [i])) ∧
    (∀ i : ScopeId, i < s.scopes.length →
      (∀ (k : SCtxId) (st : List ScopeId), s.sctxs[k]? = some st → st.head? ≠ some i) →
      s'.scopes[i]? = s.scopes[i]?) ∧
    (ScopesOK s → ScopesOK s') := by
  obtain ⟨n, h⟩ := h
  have hb := exec_pres (balanced_varRel T) cfg hT n m c sc s r s' h
  refine ⟨hb.count, fun k st hk => ?_, hb.below, hb.ok⟩
  rcases hb.stacks k st hk with h | ⟨h1, i, _, h2⟩
  · exact Or.inl h
  · exact Or.inr ⟨h1, i, h2⟩

/-- C08: after `SetScope(b)`, whatever `b` bound and however it ended, every
variable of the scope context is exactly as before. -/
theorem C08_setScope_isolates {T : Table} {cfg : Cfg} (hT : ∀ m, PresNode Balanced (T m))
    {m b : MatcherId} (hm : T m = .setScope none b) {c : Ctx} {sc : SCtxId} {s s' : State} {r : R}
    (hs : ScopesOK s) (h : Runs T cfg m c sc s r s') (k : Str) :
    s'.lookup c.scope k = s.lookup c.scope k := by
  obtain ⟨n, h⟩ := h
  cases n with
  | zero => cases h
  | succ n =>
    rw [exec_plain (by rw [hm]; rfl), hm] at h
    change execSetScope (exec T cfg n) none b c s = _ at h
    unfold execSetScope at h
    dsimp only at h
    obtain ⟨_, s1, h1, h⟩ := bind_ok.mp h
    cases h1
    obtain ⟨r1, s2, h2, h⟩ := bind_ok.mp h
    obtain ⟨_, s3, h3, h⟩ := bind_ok.mp h
    cases h3
    cases h
    have hb := exec_pres (balanced_varRel T) cfg hT n b _ _ _ _ _ h2
    rw [lookup_eq_view, lookup_eq_view, hb.scope.2 hs]

/-- The callbacks of the library's own macros keep scopes balanced. -/
theorem C08_library_callbacks (m : MatcherId) (msg : Str) :
    PresNode Balanced (.map m (fatalIfOk msg) failureIsFine) ∧
    PresNode Balanced (.map m successIsFine (fatalIfNotErr msg)) ∧
    PresNode Balanced (.map m (assertIfOk msg) failureIsFine) ∧
    PresNode Balanced (.map m successIsFine (assertIfNotErr msg)) := by
  have H := balanced_varRel (fun _ => .null)
  have hf : ∀ e c sc, Pres Balanced (failureIsFine e c sc) := by
    intro e c sc
    cases e <;> exact Pres.pure H _
  refine ⟨⟨?_, hf⟩, ⟨fun _ _ _ => Pres.pure H _, ?_⟩, ⟨?_, hf⟩, ⟨fun _ _ _ => Pres.pure H _, ?_⟩⟩
  · intro t c sc
    exact Pres.bind H (Pres.getTok H _) (fun _ => Pres.bind H (Pres.ofOpt H _ _)
      (fun _ => Pres.pure H _))
  · intro e c sc
    cases e with
    | error e => exact Pres.pure H _
    | fail => exact Pres.bind H (Pres.ofOpt H _ _) (fun _ => Pres.pure H _)
  · intro t c sc
    exact Pres.bind H (Pres.getTok H _) (fun _ => Pres.bind H (newErrorTokenWithRange_pres H _ _ _)
      (fun _ => Pres.pure H _))
  · intro e c sc
    cases e with
    | error e => exact Pres.pure H _
    | fail => exact Pres.bind H (newErrorTokenWithRange_pres H _ _ _) (fun _ => Pres.pure H _)

/-- Non-vacuity of C08: `SetScope` around a program that stores variables and then
fails, with a variable of the same name outside. -/
example :
    let T : Table := fun
      | 0 => .setScope none 1
      | 1 => .program [2, 3] "P".toList true none false
      | 2 => .storeStr ['2'] ['x'] true
      | _ => .equals "A".toList false (.str ['a'])
    let s : State := ⟨[], [[(['x'], .str ['1'])]], [[0]]⟩
    (∀ m, PresNode Balanced (T m)) ∧ ScopesOK s ∧
    (exec T ⟨true⟩ 9 0 (Ctx.new ⟨"b".toList, []⟩ 0 []) 0 s).holds (fun r s' =>
      r = .err .fail ∧ s'.lookup 0 ['x'] = some (.str ['1']) ∧ s'.scopes.length = 2) := by
  refine ⟨fun m => ?_, ⟨?_, ?_, ?_⟩, by decide +kernel⟩
  · match m with
    | 0 => trivial
    | 1 => trivial
    | 2 => trivial
    | _ + 3 => trivial
  · intro sc st h
    match sc with
    | 0 => cases h; simp
    | _ + 1 => cases h
  · intro sc st h
    match sc with
    | 0 => cases h; simp
    | _ + 1 => cases h
  · intro a b sa sb ha hb hne
    match a, b with
    | 0, 0 => exact (hne rfl).elim
    | 0, _ + 1 => cases hb
    | _ + 1, _ => cases ha

end Adx
