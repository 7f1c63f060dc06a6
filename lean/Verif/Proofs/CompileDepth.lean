import Verif.Proofs.Compile
import Verif.Props.Depth
/-
  More fuel does not change what is compiled.
-/
namespace Adx

/-- The results are the same, unless the first ran out of fuel. -/
def HookLeq (r r' : Except ParseError Unit × Build) : Prop := r = r' ∨ ∃ e b, r = (.error e, b) ∧ b.crash = some none

@[inherit_doc HookLeq]
def VisitLeq (r r' : VRes Build) : Prop := r = r' ∨ ∃ e b, r = .err e b ∧ b.crash = some none

/-- Hooks of the same names, all of which are related. -/
def HooksLeq : List (Str × Hook Build) → List (Str × Hook Build) → Prop :=
  List.Forall₂ fun h h' => h.1 = h'.1 ∧ ∀ t b, HookLeq (h.2 t b) (h'.2 t b)

theorem HooksLeq.find {hs hs' : List (Str × Hook Build)} (h : HooksLeq hs hs') (k : Str) :
    (findHook hs k = none ∧ findHook hs' k = none) ∨
    ∃ f f', findHook hs k = some f ∧ findHook hs' k = some f' ∧ ∀ t b, HookLeq (f t b) (f' t b) := by
  induction h with
  | nil => exact .inl ⟨rfl, rfl⟩
  | @cons x y hs hs' h _ ih =>
    obtain ⟨n, f⟩ := x
    obtain ⟨n', f'⟩ := y
    obtain ⟨h1, h2⟩ := h
    dsimp only at h1 h2
    subst h1
    unfold findHook
    by_cases hn : n = k
    · rw [if_pos hn, if_pos hn]
      exact .inr ⟨f, f', rfl, rfl, h2⟩
    · rw [if_neg hn, if_neg hn]
      exact ih

theorem visitList_leq {v v' : TokId → Build → VRes Build} (h : ∀ t b, VisitLeq (v t b) (v' t b)) (cs : List TokId) :
    ∀ b, VisitLeq (visitList v cs b) (visitList v' cs b) := by
  induction cs with
  | nil => exact fun b => .inl rfl
  | cons c cs ih =>
    intro b
    unfold visitList
    rcases h c b with h | ⟨e, b', h, hb⟩
    · rw [h]
      cases v' c b with
      | ok b' => exact ih b'
      | err e b' => exact .inl rfl
      | dangling => exact .inl rfl
      | diverge => exact .inl rfl
    · rw [h]
      exact .inr ⟨e, b', rfl, hb⟩

theorem visit_leq {toks : List Token} {hs hs' : List (Str × Hook Build)} (h : HooksLeq hs hs') (n : Nat) :
    ∀ t b, VisitLeq (visit toks hs n t b) (visit toks hs' n t b) := by
  unfold visit
  have hd := h.find ['*']
  induction n with
  | zero => exact fun t b => .inl rfl
  | succ n ih =>
    intro t b
    unfold visitGo
    cases toks[t]? with
    | none => exact .inl rfl
    | some k =>
      dsimp only
      have key : ∀ {r r' : Except ParseError Unit × Build}, HookLeq r r' →
          VisitLeq (match r with
            | (.error e, s) => .err e s
            | (.ok _, s) => visitList (visitGo toks hs (findHook hs ['*']) n) k.children s)
          (match r' with
            | (.error e, s) => .err e s
            | (.ok _, s) => visitList (visitGo toks hs' (findHook hs' ['*']) n) k.children s) := by
        rintro r r' (rfl | ⟨e, b', rfl, hb⟩)
        · obtain ⟨x, b1⟩ := r
          cases x with
          | error e => exact .inl rfl
          | ok u => exact visitList_leq ih _ b1
        · exact .inr ⟨e, b', rfl, hb⟩
      rcases h.find k.name with ⟨h1, h2⟩ | ⟨f, f', h1, h2, h3⟩
      · rw [h1, h2]
        rcases hd with ⟨g1, g2⟩ | ⟨f, f', g1, g2, g3⟩
        · have := key (r := (.ok (), b)) (.inl rfl)
          rw [g1, g2] at this ⊢
          exact this
        · have := key (g3 t b)
          rw [g1, g2] at this ⊢
          rcases hf : f t b with ⟨x, b1⟩
          rcases hf' : f' t b with ⟨x', b1'⟩
          rw [hf, hf'] at this
          dsimp only
          rw [hf, hf']
          cases x <;> cases x' <;> exact this
      · rw [h1, h2]
        have := key (h3 t b)
        rcases hf : f t b with ⟨x, b1⟩
        rcases hf' : f' t b with ⟨x', b1'⟩
        rw [hf, hf'] at this
        dsimp only
        rw [hf, hf']
        cases x <;> cases x' <;> exact this

theorem hookImport_leq {env : Env} {cf cf' : Str → World → BuildRes} (h : ∀ file w, cf file w ≠ .diverge → cf' file w = cf file w)
    (fromFile : Option Str) (sc : SCtxId) (t : TokId) (b : Build) :
    HookLeq (hookImport env cf fromFile sc t b) (hookImport env cf' fromFile sc t b) := by
  unfold hookImport
  cases fromFile with
  | none => exact .inl rfl
  | some base =>
    dsimp only
    unfold Build.step
    split
    · rename_i p ns _
      obtain ⟨ids, file⟩ := p
      dsimp only
      have := h file { b.w with nodes := ns }
      cases hc : cf file { b.w with nodes := ns } with
      | diverge => exact .inr ⟨_, _, rfl, rfl⟩
      | ok root isc w => rw [hc] at this; rw [this nofun]; exact .inl rfl
      | err es => rw [hc] at this; rw [this nofun]; exact .inl rfl
      | panic m => rw [hc] at this; rw [this nofun]; exact .inl rfl
    · exact .inl rfl
    · exact .inl rfl
    · exact .inl rfl

theorem build_leq {env : Env} {cf cf' : Str → World → BuildRes} (h : ∀ file w, cf file w ≠ .diverge → cf' file w = cf file w)
    {depth : Nat} {t : TokId} {ctx : Ctx} {name : Str} {fromFile : Option Str} {w : World}
    (hd : buildMatcherFromTokens env cf depth t ctx name fromFile w ≠ .diverge) :
    buildMatcherFromTokens env cf' depth t ctx name fromFile w = buildMatcherFromTokens env cf depth t ctx name fromFile w := by
  unfold buildMatcherFromTokens at hd ⊢
  cases hk : w.st.toks[t]? with
  | none => rfl
  | some k =>
    rw [hk] at hd
    dsimp only at hd ⊢
    split
    · rfl
    · rename_i hk
      rw [if_neg hk] at hd
      have hl : HooksLeq (buildHooks env cf fromFile depth w.nodes.length (w.nodes.length + 1) w.st.sctxs.length)
          (buildHooks env cf' fromFile depth w.nodes.length (w.nodes.length + 1) w.st.sctxs.length) :=
        .cons ⟨rfl, fun _ _ => .inl rfl⟩ <| .cons ⟨rfl, fun _ _ => .inl rfl⟩ <| .cons ⟨rfl, fun _ _ => .inl rfl⟩ <|
          .cons ⟨rfl, hookImport_leq h fromFile _⟩ <| .cons ⟨rfl, fun _ _ => .inl rfl⟩ .nil
      rcases visit_leq (toks := w.st.newSCtx.2.toks) hl depth t
        ⟨⟨w.nodes ++ preamble w.nodes.length w.st.sctxs.length name, w.st.newSCtx.2⟩, [], none⟩ with he | ⟨e, b, he, hb⟩
      · exact (congrArg (buildResult ctx w.nodes.length w.st.sctxs.length) he).symm
      · refine (hd ?_).elim
        refine (congrArg (buildResult ctx w.nodes.length w.st.sctxs.length) he).trans ?_
        unfold buildResult
        dsimp only
        rw [hb]

section
attribute [local irreducible] Script.switchMatcher Script.programMatcher Script.script tokenize
  buildMatcherFromTokens String.toList

/-- More fuel does not change what is compiled. -/
theorem compile_depth {env : Env} {fuel : Nat} : ∀ {fuel' : Nat} {parser : Parser} {name : Str} {fromFile : Option Str} {w : World},
    fuel ≤ fuel' → compileScript env fuel parser name fromFile w ≠ .diverge →
    compileScript env fuel' parser name fromFile w = compileScript env fuel parser name fromFile w := by
  induction fuel with
  | zero => intro _ _ _ _ _ _ h; exact (h rfl).elim
  | succ fuel ih =>
    intro fuel' parser name fromFile w hf h
    obtain ⟨fuel', rfl⟩ : ∃ f, fuel' = f + 1 := ⟨fuel' - 1, by omega⟩
    have hf : fuel ≤ fuel' := by omega
    rw [compileScript_succ] at h ⊢
    rw [compileScript_succ]
    have ht : tokenize (tableOf (setup env parser name w).nodes) env.cfg fuel (setup env parser name w).ctx
        (setup env parser name w).start (setup env parser name w).st ≠ .diverge := by
      intro ht
      rw [ht] at h
      exact h rfl
    rw [C06_tokenize_depth_independent hf ht]
    cases hr : tokenize (tableOf (setup env parser name w).nodes) env.cfg fuel (setup env parser name w).ctx
        (setup env parser name w).start (setup env parser name w).st with
    | panic m => rfl
    | diverge => rfl
    | ok r st =>
      rw [hr] at h
      cases r with
      | error f => cases f <;> rfl
      | ok t =>
        dsimp only at h ⊢
        refine build_leq (fun file w hd => ?_) h
        unfold importFile at hd ⊢
        cases hc : env.canonical file with
        | none => rfl
        | some full =>
          rw [hc] at hd
          dsimp only at hd ⊢
          cases hr : env.read full with
          | none => rfl
          | some src =>
            rw [hr] at hd
            exact ih hf hd

end
end Adx
