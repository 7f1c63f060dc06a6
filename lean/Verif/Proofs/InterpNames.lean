import Verif.Proofs.InterpSim
/-
  The names in the heap.
-/
namespace Adx.Interp

variable {T : Table} {G : Grammar MatcherId} {S : MatcherId → Prop} {K : SCtxId → Prop} {C : Str → Prop} {s : State} {m : MatcherId}
  {sc : SCtxId}

theorem get_vars {k : SCtxId} {x : Str} :
    heapNames.get (vars s) k x = match s.lookup k x with | some (.matcher m) => some m | _ => none := rfl

theorem get_vars_iff {k : SCtxId} {x : Str} :
    heapNames.get (vars s) k x = some m ↔ s.lookup k x = some (.matcher m) := by
  rw [get_vars]
  cases s.lookup k x with
  | none => simp
  | some v => cases v <;> simp

theorem vars_bind {k : SCtxId} {x : Str} :
    vars (s.bindVar k x (.matcher m)) = heapNames.set (vars s) k x m := by
  show vars _ = ((State.bindVar ⟨[], s.scopes, s.sctxs⟩ k x (.matcher m)).scopes,
    (State.bindVar ⟨[], s.scopes, s.sctxs⟩ k x (.matcher m)).sctxs)
  unfold State.bindVar
  dsimp only
  cases s.sctxs[k]?.getD [] <;> rfl

theorem vars_entered (hF : Forms T G S K C) (hm : S m) :
    vars (entered T m sc s) = enter G heapNames m sc (vars s) := by
  unfold entered enter
  rw [hF.label m hm]
  split
  · exact vars_bind
  · rfl

theorem lookupStack_insert {scopes : List Scope} {top : ScopeId} {l : Str} {st : List ScopeId} {x : Str} {v : Var}
    (h : lookupStack (scopes.set top ((scopes[top]?.getD []).insert l (.matcher m))) st x = some v) :
    v = .matcher m ∨ lookupStack scopes st x = some v := by
  induction st with
  | nil => cases h
  | cons i st ih =>
    unfold lookupStack at h ⊢
    by_cases hi : top = i ∧ top < scopes.length
    · obtain ⟨rfl, hlt⟩ := hi
      rw [List.getElem?_set_self hlt, Option.getD_some, AMap.get_insert] at h
      by_cases hx : x = l
      · rw [if_pos hx] at h
        exact Or.inl (Option.some.inj h).symm
      · rw [if_neg hx] at h
        split at h
        · exact Or.inr h
        · exact ih h
    · have : (scopes.set top ((scopes[top]?.getD []).insert l (.matcher m)))[i]? = scopes[i]? := by
        rw [List.getElem?_set]
        split
        · rename_i he
          subst he
          split
          · rename_i hlt
            exact (hi ⟨rfl, hlt⟩).elim
          · rename_i hlt
            rw [List.getElem?_eq_none (by omega)]
        · rfl
      rw [this] at h
      split at h
      · exact Or.inr h
      · exact ih h

theorem lookupStack_extend {scopes : List Scope} {l : Str} {st : List ScopeId} {x : Str} {v : Var}
    (h : lookupStack (scopes ++ [AMap.insert [] l (.matcher m)]) st x = some v) :
    v = .matcher m ∨ lookupStack scopes st x = some v := by
  induction st with
  | nil => cases h
  | cons i st ih =>
    unfold lookupStack at h ⊢
    by_cases hi : i = scopes.length
    · subst hi
      rw [List.getElem?_concat_length, Option.getD_some, AMap.get_insert] at h
      rw [List.getElem?_eq_none (Nat.le_refl _)]
      by_cases hx : x = l
      · rw [if_pos hx] at h
        exact Or.inl (Option.some.inj h).symm
      · rw [if_neg hx] at h
        exact ih h
    · have : (scopes ++ [AMap.insert [] l (.matcher m)])[i]? = scopes[i]? := by
        by_cases hlt : i < scopes.length
        · exact List.getElem?_append_left hlt
        · have hle : scopes.length + 1 ≤ i := Nat.lt_of_le_of_ne (Nat.le_of_not_lt hlt) (fun h => hi h.symm)
          rw [List.getElem?_eq_none (by simpa using hle), List.getElem?_eq_none (Nat.le_of_succ_le hle)]
      rw [this] at h
      split at h
      · exact Or.inr h
      · exact ih h

theorem lookup_bind {k : SCtxId} {l x : Str} {v : Var} (h : (s.bindVar sc l (.matcher m)).lookup k x = some v) :
    v = .matcher m ∨ s.lookup k x = some v := by
  unfold State.bindVar at h
  cases hst : s.sctxs[sc]?.getD [] with
  | nil =>
    rw [hst] at h
    dsimp only at h
    unfold State.lookup at h ⊢
    dsimp only at h
    by_cases hk : k = sc
    · subst hk
      rw [hst]
      by_cases hlt : k < s.sctxs.length
      · rw [List.getElem?_set_self hlt] at h
        rcases lookupStack_extend h with h | h
        · exact Or.inl h
        · refine Or.inr ?_
          rw [Option.getD_some] at h
          unfold lookupStack at h
          rw [List.getElem?_eq_none (Nat.le_refl _)] at h
          exact h
      · rw [List.set_eq_of_length_le (Nat.le_of_not_lt hlt), hst] at h
        exact lookupStack_extend h
    · rw [List.getElem?_set_ne (fun h => hk h.symm)] at h
      exact lookupStack_extend h
  | cons top st =>
    rw [hst] at h
    exact lookupStack_insert h

theorem Knows.congr {s' : State} (hv : vars s' = vars s) (h : Knows S K C s) : Knows S K C s' := by
  intro k hk x hxc m hx
  refine h k hk x hxc m ?_
  rw [← get_vars_iff, ← hv]
  exact get_vars_iff.mpr hx

theorem Knows.enter (hm : S m) (h : Knows S K C s) : Knows S K C (entered T m sc s) := by
  unfold entered
  split
  · intro k hk x hxc m' hx
    rcases lookup_bind hx with h1 | h1
    · cases h1
      exact hm
    · exact h k hk x hxc m' h1
  · exact h

end Adx.Interp
