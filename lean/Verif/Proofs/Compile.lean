import Verif.Proofs.Mild
import Verif.Props.Script
/-
  Compiling scripts, with imports: what is already there is left alone, the callbacks
  of all matchers are mild, and a failure comes with an error.
-/
namespace Adx

/-- All matchers are mild. -/
def Milds (ns : List Node) : Prop := ∀ nd ∈ ns, nd.Mild

theorem Milds.snoc {ns : List Node} {nd : Node} (h : Milds ns) (hn : nd.Mild) : Milds (ns ++ [nd]) := by
  intro x hx
  rcases List.mem_append.mp hx with hx | hx
  · exact h x hx
  · rw [List.mem_singleton.mp hx]; exact hn

theorem Milds.append {ns ms : List Node} (h : Milds ns) (hn : Milds ms) : Milds (ns ++ ms) := by
  intro x hx
  rcases List.mem_append.mp hx with hx | hx
  · exact h x hx
  · exact hn x hx

theorem Milds.set {ns : List Node} {nd : Node} {i : Nat} (h : Milds ns) (hn : nd.Mild) : Milds (ns.set i nd) := by
  intro x hx
  rcases List.mem_or_eq_of_mem_set hx with hx | rfl
  · exact h x hx
  · exact hn

theorem Milds.get {ns : List Node} {nd : Node} {i : Nat} (h : Milds ns) (hi : ns[i]? = some nd) : nd.Mild :=
  h nd (List.mem_of_getElem? hi)

theorem Milds.table {ns : List Node} (h : Milds ns) (m : MatcherId) : (tableOf ns m).Mild := by
  unfold tableOf
  cases hm : ns[m]? with
  | none => exact trivial
  | some nd => exact h.get hm

/-- A step of the builder that keeps this. -/
def CMild {α : Type} (x : C α) : Prop :=
  ∀ toks ns, Milds ns → CPost x toks ns (fun _ ns' => Milds ns') True True

namespace CMild
variable {α β : Type}

theorem bind {x : C α} {f : α → C β} (h : CMild x) (hf : ∀ a, CMild (f a)) : CMild (x >>= f) := by
  intro toks ns hn
  exact CPost.bind ((h toks ns hn).mono (fun a ns' h' => hf a toks ns' h') id id)

theorem pure {a : α} : CMild (Pure.pure a : C α) := fun _ _ hn => hn
theorem err {e : Str} : CMild (C.err e : C α) := fun _ _ _ => trivial
theorem panic {m : String} : CMild (C.panic m : C α) := fun _ _ _ => trivial
theorem diverge : CMild (fun _ _ => .diverge : C α) := fun _ _ _ => trivial
theorem tok {t : TokId} : CMild (C.tok t) := fun _ _ hn => CPost.tok (fun _ _ => hn) (fun _ => trivial)
theorem ofOpt {m : String} {o : Option α} : CMild (C.ofOpt m o) :=
  fun _ _ hn => CPost.ofOpt (fun _ _ => hn) (fun _ => trivial)
theorem child {k : Token} {i : Nat} : CMild (C.child k i) := ofOpt
theorem findChild {k : Token} {n : String} : CMild (C.findChild k n) := fun _ _ hn => hn
theorem findChildOf {k : Token} {n : List String} : CMild (C.findChildOf k n) := fun _ _ hn => hn
theorem hasChild {k : Token} {n : String} : CMild (C.hasChild k n) := fun _ _ hn => hn
theorem mk {nd : Node} (h : nd.Mild) : CMild (C.mk nd) := fun _ _ hn => hn.snoc h

theorem parseUsize {s : Str} : CMild (C.parseUsize s) := by
  unfold C.parseUsize
  split
  · exact pure
  · exact err

theorem setName {m : MatcherId} {n : Str} : CMild (C.setName m n) := by
  intro toks ns hn
  have : ∀ d m, CPost (fun _ ns => setNameGo n d m ns) toks ns (fun _ ns' => Milds ns') True True := by
    intro d
    induction d with
    | zero => intro m; trivial
    | succ d ih =>
      intro m
      unfold CPost setNameGo
      dsimp only
      cases hm : ns[m]? with
      | none => trivial
      | some nd =>
        dsimp only
        cases hp : nd.namePassedTo with
        | some m' => exact ih m'
        | none =>
          refine hn.set ?_
          have := hn.get hm
          cases nd <;> first | exact this | exact trivial
  exact this _ m

theorem addPattern {m p : MatcherId} : CMild (C.addPattern m p) := by
  intro toks ns hn
  unfold C.addPattern CPost
  dsimp only
  cases hm : ns[m]? with
  | none => trivial
  | some nd =>
    cases nd with
    | program ps n c i f => exact hn.set (nd := .program (ps ++ [p]) n c i f) trivial
    | register ps => exact hn.set (nd := .register (ps ++ [p])) trivial
    | _ => trivial

theorem collectAttributes (cs : List TokId) : ∀ m, CMild (collectAttributes cs m) := by
  induction cs with
  | nil => exact fun _ => pure
  | cons c cs ih =>
    intro m
    unfold Adx.collectAttributes
    exact bind tok fun _ => bind child fun _ => bind tok fun _ => bind child fun _ => bind tok fun _ => ih _

theorem getRepeatSpecifierRange (t : TokId) : CMild (getRepeatSpecifierRange t) := by
  intro toks ns hn
  exact (getRepeatSpecifierRange_spec toks ns t).mono (fun _ _ h => h.1 ▸ hn) (fun _ => trivial) (fun _ => trivial)

theorem withName {m : MatcherId} {n : Str} : CMild (withName m n) := by
  unfold Adx.withName
  split
  · exact setName
  · exact pure

theorem withModifiers {o n : Bool} {m : MatcherId} : CMild (withModifiers o n m) := by
  unfold Adx.withModifiers
  split
  · exact mk trivial
  · split
    · exact mk trivial
    · exact pure

theorem withAttributes {k : Token} {m : MatcherId} : CMild (withAttributes k m) := by
  unfold Adx.withAttributes
  refine bind findChild fun o => ?_
  cases o with
  | none => exact pure
  | some a =>
    refine bind tok fun ak => ?_
    split
    · exact bind (collectAttributes _ _) fun _ => mk ⟨mild_attributes _, mild_passFailure⟩
    · exact pure

theorem withRepeat {k : Token} {m : MatcherId} : CMild (withRepeat k m) := by
  unfold Adx.withRepeat
  refine bind findChildOf fun o => ?_
  cases o with
  | none => exact pure
  | some a => exact bind (getRepeatSpecifierRange _) fun _ => mk trivial

theorem withDiscard {b : Bool} {m : MatcherId} : CMild (withDiscard b m) := by
  unfold Adx.withDiscard
  split
  · exact pure
  · exact mk trivial

variable {env : Env} {pat : TokId → C (MatcherId × MatcherId)}

theorem constructChildren (h : ∀ t, CMild (pat t)) {into : MatcherId} (cs : List TokId) :
    CMild (constructChildren pat into cs) := by
  induction cs with
  | nil => exact pure
  | cons c cs ih =>
    unfold Adx.constructChildren
    exact bind (h c) fun _ => bind addPattern fun _ => ih

theorem constructInner (h : ∀ t, CMild (pat t)) (t : TokId) : CMild (constructInner env pat t) := by
  unfold Adx.constructInner
  refine bind tok fun k => ?_
  split
  · refine bind child fun _ => bind tok fun _ => ?_
    dsimp only
    split
    · exact err
    · exact mk trivial
  split
  · dsimp only
    split
    · exact err
    · refine bind findChild fun o => ?_
      cases o with
      | none => exact bind pure fun _ => bind ofOpt fun _ => mk trivial
      | some f => exact bind tok fun _ => bind pure fun _ => bind ofOpt fun _ => mk trivial
  split
  · refine bind child fun _ => bind tok fun _ => bind child fun _ => bind tok fun _ => bind child fun _ =>
      bind tok fun _ => ?_
    split
    · exact panic
    · split
      · exact panic
      · exact mk trivial
  split
  · refine bind child fun _ => bind tok fun _ => ?_
    dsimp only
    split
    · exact err
    · exact mk trivial
  split
  · split
    · exact mk trivial
    · exact bind (mk trivial) fun _ => bind (constructChildren h _) fun _ => pure
  split
  · split
    · exact mk trivial
    · exact bind (mk trivial) fun _ => bind (constructChildren h _) fun _ => pure
  · exact err

theorem constructDefinition (h : ∀ t, CMild (pat t)) (t : TokId) (name : Str) (b : Bool) :
    CMild (constructDefinition env pat t name b) := by
  unfold Adx.constructDefinition
  refine bind tok fun k => ?_
  split
  · exact err
  refine bind hasChild fun _ => bind hasChild fun _ => bind hasChild fun _ => bind hasChild fun _ =>
    bind findChildOf fun o => ?_
  cases o with
  | none => exact err
  | some mt =>
    exact bind (constructInner h _) fun _ => bind withName fun _ => bind withAttributes fun _ =>
      bind withModifiers fun _ => bind withRepeat fun _ => bind withModifiers fun _ => bind withDiscard fun _ =>
      pure

theorem constructPattern (d : Nat) : ∀ t, CMild (constructPattern env d t) := by
  induction d with
  | zero => exact fun _ => diverge
  | succ d ih =>
    intro t
    unfold Adx.constructPattern
    refine bind tok fun k => ?_
    split
    · refine bind findChild fun o => ?_
      cases o with
      | none => exact bind child fun _ => constructDefinition ih _ _ _
      | some n =>
        exact bind tok fun _ => bind child fun _ => bind tok fun _ => bind child fun _ =>
          constructDefinition ih _ _ _
    split
    · exact constructDefinition ih _ _ _
    · exact err

theorem constructScope {d : Nat} {i : MatcherId} (cs : List TokId) : CMild (constructScope env d i cs) := by
  induction cs with
  | nil => exact pure
  | cons c cs ih =>
    unfold Adx.constructScope
    refine bind tok fun k => ?_
    dsimp only
    split
    · exact bind (constructPattern _ _) fun _ => bind addPattern fun _ => ih
    · exact ih

end CMild

/-! ### The hooks -/

/-- The node of a program. -/
def IsProgram (ns : List Node) (m : MatcherId) : Prop := ∃ ps n c i f, ns[m]? = some (.program ps n c i f)

theorem IsProgram.prefix {ns ns' : List Node} {m : MatcherId} (h : IsProgram ns m) (hp : ns <+: ns') :
    IsProgram ns' m := by
  obtain ⟨ps, n, c, i, f, h⟩ := h
  exact ⟨ps, n, c, i, f, AgreeFrom.of_prefix hp 0 _ _ (Nat.zero_le _) h⟩

theorem IsProgram.set {ns : List Node} {m j : MatcherId} {ps : List MatcherId} {n : Str} {c : Bool}
    {i : Option (Nat × Nat)} {f : Bool} (h : IsProgram ns m) : IsProgram (ns.set j (.program ps n c i f)) m := by
  obtain ⟨ps', n', c', i', f', h⟩ := h
  have hlt := (List.getElem?_eq_some_iff.mp h).1
  by_cases hj : j = m
  · subst hj; exact ⟨ps, n, c, i, f, List.getElem?_set_self hlt⟩
  · exact ⟨ps', n', c', i', f', by rw [List.getElem?_set_ne hj]; exact h⟩

/-- The scopes of `old` are still there, and the context `sc` is a new one, whose stack
has at most one scope, a new one. -/
structure OwnScope (old : State) (sc : SCtxId) (s : State) : Prop where
  scopes : old.scopes <+: s.scopes
  sctxs : old.sctxs <+: s.sctxs
  new : old.sctxs.length ≤ sc
  stack : s.sctxs[sc]? = some [] ∨
    ∃ i, s.sctxs[sc]? = some [i] ∧ old.scopes.length ≤ i ∧ i < s.scopes.length

theorem prefix_set {α : Type} {ns ms : List α} {i : Nat} {nd : α} (h : ns <+: ms) (hi : ns.length ≤ i) :
    ns <+: ms.set i nd := by
  obtain ⟨y, rfl⟩ := h
  exact ⟨y.set (i - ns.length) nd, by rw [List.set_append_right _ _ hi]⟩

namespace OwnScope
variable {old s s' : State} {sc : SCtxId}

theorem start (s : State) : OwnScope s s.sctxs.length s.newSCtx.2 :=
  ⟨⟨[], by simp [State.newSCtx]⟩, ⟨[[]], rfl⟩, Nat.le_refl _, .inl List.getElem?_concat_length⟩

theorem usable (h : OwnScope old sc s) : Usable s sc := by
  rcases h.stack with h | ⟨i, h1, _, h2⟩
  · exact .inl h
  · exact .inr ⟨i, h1, h2⟩

theorem bindVar (h : OwnScope old sc s) (k : Str) (v : Var) : OwnScope old sc (s.bindVar sc k v) := by
  rcases h.stack with h1 | ⟨i, h1, h2, h3⟩
  · have hlt : sc < s.sctxs.length := (List.getElem?_eq_some_iff.mp h1).1
    have he : s.bindVar sc k v = { s with
        scopes := s.scopes ++ [AMap.insert [] k v]
        sctxs := s.sctxs.set sc [s.scopes.length] } := by
      unfold State.bindVar; simp [h1]
    rw [he]
    exact ⟨h.scopes.trans ⟨_, rfl⟩, prefix_set h.sctxs h.new, h.new,
      .inr ⟨s.scopes.length, by simp [hlt], h.scopes.length_le, by simp⟩⟩
  · have he : s.bindVar sc k v = { s with
        scopes := s.scopes.set i ((s.scopes[i]?.getD []).insert k v) } := by
      unfold State.bindVar; simp [h1]
    rw [he]
    exact ⟨prefix_set h.scopes h2, h.sctxs, h.new, .inr ⟨i, h1, h2, by simpa using h3⟩⟩

/-- More scopes. -/
theorem grow (h : OwnScope old sc s) (h1 : s.scopes <+: s'.scopes) (h2 : s.sctxs <+: s'.sctxs) :
    OwnScope old sc s' := by
  refine ⟨h.scopes.trans h1, h.sctxs.trans h2, h.new, ?_⟩
  have key : ∀ {st}, s.sctxs[sc]? = some st → s'.sctxs[sc]? = some st := by
    intro st hst
    obtain ⟨y, hy⟩ := h2
    rw [← hy, List.getElem?_append_left (List.getElem?_eq_some_iff.mp hst).1]
    exact hst
  rcases h.stack with h3 | ⟨i, h3, h4, h5⟩
  · exact .inl (key h3)
  · exact .inr ⟨i, key h3, h4, Nat.lt_of_lt_of_le h5 h1.length_le⟩

/-- Fewer old scopes. -/
theorem older (h : OwnScope old sc s) (h1 : s'.scopes <+: old.scopes) (h2 : s'.sctxs <+: old.sctxs) :
    OwnScope s' sc s := by
  refine ⟨h1.trans h.scopes, h2.trans h.sctxs, Nat.le_trans h2.length_le h.new, ?_⟩
  rcases h.stack with h3 | ⟨i, h3, h4, h5⟩
  · exact .inl h3
  · exact .inr ⟨i, h3, Nat.le_trans h1.length_le h4, h5⟩

end OwnScope

/-- What the build of a script that started in the world `w0` keeps. -/
structure Going (w0 : World) (b : Build) : Prop where
  nodes : w0.nodes <+: b.w.nodes
  toks : w0.st.toks <+: b.w.st.toks
  milds : Milds b.w.nodes
  root : IsProgram b.w.nodes w0.nodes.length
  inner : IsProgram b.w.nodes (w0.nodes.length + 1)
  own : OwnScope w0.st w0.st.sctxs.length b.w.st

/-- A hook ends with `I`, or with `J` when it fails. -/
def HookDone {σ : Type} (I : σ → Prop) (J : ParseError → σ → Prop) : Except ParseError Unit × σ → Prop
  | (.ok _, s) => I s
  | (.error e, s) => J e s

/-- The same for a visit. -/
def VisitDone {σ : Type} (I : σ → Prop) (J : ParseError → σ → Prop) : VRes σ → Prop
  | .ok s => I s
  | .err e s => J e s
  | _ => True

/-- What a hook does. -/
abbrev HookSafe (w0 : World) : Except ParseError Unit × Build → Prop :=
  HookDone (Going w0) (fun e b => b.crash = none → e.message ≠ [] ∨ b.errors ≠ [])

theorem patternError_message (e : Str) : (patternError e).message ≠ [] := by
  show "Error attempting to create matcher from parsed pattern token: ".toList ++ e ≠ []
  simp

variable {w0 : World} {b : Build}

theorem Going.grow (h : Going w0 b) {ns : List Node} (hp : b.w.nodes <+: ns) (hm : Milds ns) :
    Going w0 { b with w := { b.w with nodes := ns } } :=
  ⟨h.nodes.trans hp, h.toks, hm, h.root.prefix hp, h.inner.prefix hp, h.own⟩

theorem Going.bind (h : Going w0 b) (n : Str) (m : MatcherId) :
    Going w0 (b.bind w0.st.sctxs.length n m) := by
  refine ⟨h.nodes, ?_, h.milds, h.root, h.inner, h.own.bindVar _ _⟩
  have : (b.bind w0.st.sctxs.length n m).w.st.toks = b.w.st.toks := by
    unfold Build.bind State.bindVar
    dsimp only
    split <;> rfl
  rw [this]
  exact h.toks

theorem Going.setProgram (h : Going w0 b) {j : Nat} {ps : List MatcherId} {n : Str} {c : Bool}
    {i : Option (Nat × Nat)} {f : Bool} (hj : w0.nodes.length ≤ j) :
    Going w0 { b with w := { b.w with nodes := b.w.nodes.set j (.program ps n c i f) } } :=
  ⟨prefix_set h.nodes hj, h.toks, h.milds.set (nd := .program ps n c i f) trivial,
    h.root.set, h.inner.set, h.own⟩

theorem hookSafe_step {α : Type} {x : C α} {Q : α → List Node → Prop} (_ : Going w0 b)
    (hx : CPost x b.w.st.toks b.w.nodes Q True True)
    {k : α → Build → Except ParseError Unit × Build}
    (hk : ∀ a ns, Q a ns → HookSafe w0 (k a { b with w := { b.w with nodes := ns } })) :
    HookSafe w0 (Build.step x b k patternError) := by
  refine step_spec hx hk ?_ ?_ ?_
  · intro e _ _
    exact Or.inl (patternError_message e)
  · intro m _ h
    cases h
  · intro _ h
    cases h

theorem CPost.and {α : Type} {x : C α} {toks : List Token} {ns : List Node} {Q Q' : α → List Node → Prop}
    {E E' D D' : Prop} (h : CPost x toks ns Q E D) (h' : CPost x toks ns Q' E' D') :
    CPost x toks ns (fun a ns => Q a ns ∧ Q' a ns) True True := by
  unfold CPost at *
  cases hx : x toks ns with
  | ok a ns' => rw [hx] at h h'; exact ⟨h, h'⟩
  | err _ => trivial
  | panic _ => trivial
  | diverge => trivial

/-- A step that does not change the matchers. -/
def CReads {α : Type} (x : C α) : Prop :=
  ∀ toks ns, CPost x toks ns (fun _ ns' => ns' = ns) True True

namespace CReads
variable {α β : Type}

theorem bind {x : C α} {f : α → C β} (h : CReads x) (hf : ∀ a, CReads (f a)) : CReads (x >>= f) := by
  intro toks ns
  refine CPost.bind ((h toks ns).mono (fun a ns' h' => ?_) id id)
  rw [h']
  exact hf a toks ns

theorem pure {a : α} : CReads (Pure.pure a : C α) := fun _ _ => rfl
theorem tok {t : TokId} : CReads (C.tok t) := fun _ _ => CPost.tok (fun _ _ => rfl) (fun _ => trivial)
theorem ofOpt {m : String} {o : Option α} : CReads (C.ofOpt m o) :=
  fun _ _ => CPost.ofOpt (fun _ _ => rfl) (fun _ => trivial)
theorem child {k : Token} {i : Nat} : CReads (C.child k i) := ofOpt
theorem findChild {k : Token} {n : String} : CReads (C.findChild k n) := fun _ _ => rfl

end CReads

theorem setName_program {toks : List Token} {ns : List Node} {m : MatcherId} {n : Str} (h : IsProgram ns m) :
    ∃ ps i f, C.setName m n toks ns = .ok () (ns.set m (.program ps n true i f)) := by
  obtain ⟨ps, n', c, i, f, h⟩ := h
  refine ⟨ps, i, f, ?_⟩
  unfold C.setName setNameGo
  simp only [h, Node.namePassedTo, Node.setOwnName]

theorem hookError_safe (h : Going w0 b) (t : TokId) : HookSafe w0 (hookError t b) := by
  unfold hookError
  refine hookSafe_step h ?_ ?_ (Q := fun _ ns => ns = b.w.nodes)
  · exact CReads.bind CReads.tok (fun _ => CReads.bind CReads.ofOpt fun _ => CReads.pure) _ _
  · rintro e ns rfl
    exact ⟨h.nodes, h.toks, h.milds, h.root, h.inner, h.own⟩

theorem hookAdextopaScope_safe (h : Going w0 b) (t : TokId) :
    HookSafe w0 (hookAdextopaScope w0.nodes.length t b) := by
  unfold hookAdextopaScope
  refine hookSafe_step h (Q := fun _ ns => Going w0 { b with w := { b.w with nodes := ns } }) ?_ ?_
  · apply CPost.bind
    refine CPost.tok (fun k hk => ?_) (fun _ => trivial)
    cases ha : k.getAttribute "name".toList with
    | none => exact CPost.pure h
    | some n =>
      obtain ⟨ps, i, f, hs⟩ := setName_program (toks := b.w.st.toks) (n := n) h.root
      unfold CPost
      dsimp only
      rw [hs]
      exact h.setProgram (Nat.le_refl _)
  · intro _ ns hg
    exact hg

theorem hookAssignment_safe {env : Env} {depth : Nat} (h : Going w0 b) (t : TokId) :
    HookSafe w0 (hookAssignment env depth w0.st.sctxs.length t b) := by
  unfold hookAssignment
  refine hookSafe_step h (Q := fun _ ns => Going w0 { b with w := { b.w with nodes := ns } }) ?_ ?_
  · apply CPost.bind
    refine CPost.tok (fun k hk => ?_) (fun _ => trivial)
    apply CPost.bind
    refine CPost.child (fun _ _ => ?_) (fun _ => trivial)
    apply CPost.bind
    refine CPost.tok (fun _ _ => ?_) (fun _ => trivial)
    dsimp only
    apply CPost.bind
    refine CPost.child (fun _ _ => ?_) (fun _ => trivial)
    apply CPost.bind
    refine CPost.tok (fun _ _ => ?_) (fun _ => trivial)
    split
    · apply CPost.bind
      exact CPost.mk (h.grow ⟨_, rfl⟩ (h.milds.snoc trivial))
    split
    · apply CPost.bind
      refine ((constructDefinition_spec (constructPattern_spec env _ depth) _ _ _ _).and
        (CMild.constructDefinition (CMild.constructPattern depth) _ _ _ _ _ h.milds)).mono ?_ id id
      rintro p ns ⟨⟨hp, _⟩, hm⟩
      exact h.grow hp hm
    · exact h
  · rintro r ns hg
    cases r with
    | none => exact hg
    | some p => exact hg.bind _ _

theorem constructScope_prefix {env : Env} {depth : Nat} {toks : List Token} {i : MatcherId} {ns0 : List Node}
    (hi : ns0.length ≤ i) (cs : List TokId) : ∀ {ns : List Node}, ns0 <+: ns →
    (∀ m, IsProgram ns m → True) →
    CPost (constructScope env depth i cs) toks ns
      (fun _ ns' => ns0 <+: ns' ∧ ∀ m, IsProgram ns m → IsProgram ns' m) True True := by
  induction cs with
  | nil => exact fun h _ => ⟨h, fun _ h => h⟩
  | cons c cs ih =>
    intro ns h _
    unfold constructScope
    apply CPost.bind
    refine CPost.tok (fun k hk => ?_) (fun _ => trivial)
    dsimp only
    split
    · apply CPost.bind
      refine (constructPattern_spec env _ depth c ns).mono ?_ (fun _ => trivial) (fun _ => trivial)
      rintro p ns1 ⟨hp, _⟩
      apply CPost.bind
      unfold C.addPattern
      unfold CPost
      dsimp only
      cases hn : ns1[i]? with
      | none => trivial
      | some nd =>
        cases nd with
        | program ps n c i' f =>
          dsimp only
          refine (ih (prefix_set (h.trans hp) hi) (fun _ _ => trivial)).mono ?_ id id
          rintro _ ns2 ⟨h1, h2⟩
          exact ⟨h1, fun m hm => h2 m (hm.prefix hp).set⟩
        | register ps =>
          dsimp only
          refine (ih (prefix_set (h.trans hp) hi) (fun _ _ => trivial)).mono ?_ id id
          rintro _ ns2 ⟨h1, h2⟩
          refine ⟨h1, fun m hm => h2 m ?_⟩
          obtain ⟨ps', n', c', i', f', hm⟩ := hm.prefix hp
          have : i ≠ m := by
            rintro rfl
            rw [hn] at hm
            cases hm
          exact ⟨ps', n', c', i', f', by rw [List.getElem?_set_ne this]; exact hm⟩
        | _ => trivial
    · exact ih h (fun _ _ => trivial)

theorem hookPatternScope_safe {env : Env} {depth : Nat} (h : Going w0 b) (t : TokId) :
    HookSafe w0 (hookPatternScope env depth (w0.nodes.length + 1) t b) := by
  unfold hookPatternScope
  refine hookSafe_step h (Q := fun _ ns => Going w0 { b with w := { b.w with nodes := ns } }) ?_ ?_
  · apply CPost.bind
    refine CPost.tok (fun k hk => ?_) (fun _ => trivial)
    refine ((constructScope_prefix (Nat.le_succ _) k.children h.nodes fun _ _ => trivial).and
      (CMild.constructScope k.children _ _ h.milds)).mono ?_ id id
    rintro _ ns ⟨⟨h1, h2⟩, h3⟩
    exact ⟨h1, h.toks, h3, h2 _ h.root, h2 _ h.inner, h.own⟩
  · exact fun _ _ hg => hg

/-- What the compilation of an imported file does. -/
def FileSafe (w : World) : BuildRes → Prop
  | .ok root sc w1 => w.nodes <+: w1.nodes ∧ w.st.toks <+: w1.st.toks ∧ Milds w1.nodes ∧
      w.nodes.length ≤ root ∧ IsProgram w1.nodes root ∧ OwnScope w.st sc w1.st
  | .err es => es ≠ []
  | _ => True

theorem importIdentifier_safe {isc : SCtxId} {root : MatcherId} {file : Str} (h : Going w0 b)
    (hr : w0.nodes.length ≤ root) (hp : IsProgram b.w.nodes root) (c : TokId) :
    HookSafe w0 (importIdentifier w0.st.sctxs.length isc root file c b) ∧
      ∀ u b', importIdentifier w0.st.sctxs.length isc root file c b = (.ok u, b') → IsProgram b'.w.nodes root := by
  have main : ∀ P : Except ParseError Unit × Build → Prop,
      (∀ b', Going w0 b' → IsProgram b'.w.nodes root → P (.ok (), b')) →
      (∀ e b', (b'.crash = none → e.message ≠ []) → P (.error e, b')) →
      P (importIdentifier w0.st.sctxs.length isc root file c b) := by
    intro P h1 h2
    unfold importIdentifier
    refine step_spec (Q := fun _ ns => ns = b.w.nodes) (E := True) (D := True) ?_ ?_ ?_ ?_ ?_
    · refine CReads.bind CReads.tok (fun k => CReads.bind CReads.findChild fun _ => CReads.bind CReads.ofOpt fun _ =>
        CReads.bind CReads.tok fun _ => CReads.bind CReads.findChild fun o => ?_) _ _
      cases o with
      | none => exact CReads.bind CReads.pure fun _ => CReads.pure
      | some a => exact CReads.bind CReads.tok fun _ => CReads.bind CReads.pure fun _ => CReads.pure
    · rintro ⟨ik, name⟩ ns rfl
      dsimp only
      split
      · split
        · exact h2 _ _ fun _ => List.cons_ne_nil _ _
        · obtain ⟨ps, i, f, hs⟩ := setName_program (toks := b.w.st.toks) (n := name) hp
          unfold Build.step
          rw [hs]
          exact h1 _ ((h.setProgram hr).bind _ _) hp.set
      · split
        · rename_i m hm
          have hg1 := h.grow (ns := b.w.nodes ++ [Node.map m (renameToken name) passFailure])
            ⟨_, rfl⟩ (h.milds.snoc ⟨mild_rename name, mild_passFailure⟩)
          exact h1 _ ((hg1.grow (ns := _ ++ [Node.setScope (some isc) _]) ⟨_, rfl⟩
            (hg1.milds.snoc trivial)).bind _ _) ((hp.prefix ⟨_, rfl⟩).prefix ⟨_, rfl⟩)
        · exact h2 _ _ fun _ => List.cons_ne_nil _ _
    · intro e _
      exact h2 _ _ fun _ => patternError_message e
    · intro m _
      exact h2 _ _ fun h => by cases h
    · intro _
      exact h2 _ _ fun h => by cases h
  refine main (fun r => HookSafe w0 r ∧ ∀ u b', r = (.ok u, b') → IsProgram b'.w.nodes root) ?_ ?_
  · rintro b' h1 h2
    refine ⟨h1, ?_⟩
    rintro u b'' ⟨⟩
    exact h2
  · rintro e b' h1
    refine ⟨fun hc => Or.inl (h1 hc), ?_⟩
    rintro u b'' ⟨⟩

theorem importIdentifiers_safe {isc : SCtxId} {root : MatcherId} {file : Str} (hr : w0.nodes.length ≤ root)
    (cs : List TokId) : ∀ {b : Build}, Going w0 b → IsProgram b.w.nodes root →
    HookSafe w0 (importIdentifiers w0.st.sctxs.length isc root file cs b) := by
  induction cs with
  | nil => exact fun h _ => h
  | cons c cs ih =>
    intro b h hp
    unfold importIdentifiers
    obtain ⟨h1, h2⟩ := importIdentifier_safe (isc := isc) (file := file) h hr hp c
    cases hx : importIdentifier w0.st.sctxs.length isc root file c b with
    | mk r b' =>
      rw [hx] at h1
      cases r with
      | ok u => exact ih h1 (h2 u b' hx)
      | error e => exact h1

theorem hookImport_safe {env : Env} {compileFile : Str → World → BuildRes} {fromFile : Option Str}
    (hf : ∀ file w, Milds w.nodes → FileSafe w (compileFile file w)) (h : Going w0 b) (t : TokId) :
    HookSafe w0 (hookImport env compileFile fromFile w0.st.sctxs.length t b) := by
  unfold hookImport
  cases fromFile with
  | none =>
    refine hookSafe_step h (Q := fun _ _ => True) ?_ ?_
    · exact CPost.tok (fun _ _ => trivial) (fun _ => trivial)
    · intro k ns _ _
      exact Or.inl (List.cons_ne_nil _ _)
  | some from_ =>
    refine hookSafe_step h (Q := fun _ ns => ns = b.w.nodes) ?_ ?_
    · exact CReads.bind CReads.tok (fun _ => CReads.bind CReads.findChild fun _ => CReads.bind CReads.ofOpt fun _ =>
        CReads.bind CReads.tok fun _ => CReads.bind CReads.findChild fun _ => CReads.bind CReads.ofOpt fun _ =>
        CReads.bind CReads.tok fun _ => CReads.bind CReads.ofOpt fun _ => CReads.bind CReads.ofOpt fun _ =>
        CReads.pure) _ _
    · rintro ⟨ids, file⟩ ns rfl
      dsimp only
      have := hf file b.w h.milds
      cases hc : compileFile file b.w with
      | ok root isc w =>
        rw [hc] at this
        obtain ⟨h1, h2, h3, h4, h5, h6⟩ := this
        exact importIdentifiers_safe (Nat.le_trans h.nodes.length_le h4) ids
          (b := { b with w := w }) ⟨h.nodes.trans h1, h.toks.trans h2, h3, h.root.prefix h1, h.inner.prefix h1,
            h.own.grow h6.scopes h6.sctxs⟩ h5
      | err es =>
        rw [hc] at this
        intro _
        exact Or.inr (List.append_ne_nil_of_right_ne_nil _ this)
      | panic m => intro h; cases h
      | diverge => intro h; cases h

/-! ### The visit -/

/-- An invariant of the hooks is an invariant of the visit. -/
theorem visitGo_safe {σ : Type} {toks : List Token} {hooks : List (Str × Hook σ)} {I : σ → Prop}
    {J : ParseError → σ → Prop}
    (hh : ∀ n h, (n, h) ∈ hooks → ∀ t s, I s → HookDone I J (h t s)) (d : Nat) :
    ∀ t s, I s → VisitDone I J (visitGo toks hooks none d t s) := by
  induction d with
  | zero => intro t s _; trivial
  | succ d ih =>
    intro t s hs
    have hlist : ∀ (cs : List TokId) s, I s →
        VisitDone I J (visitList (visitGo toks hooks none d) cs s) := by
      intro cs
      induction cs with
      | nil => exact fun s h => h
      | cons c cs ihc =>
        intro s hs
        have := ih c s hs
        unfold visitList
        cases hv : visitGo toks hooks none d c s with
        | ok s' => rw [hv] at this; exact ihc s' this
        | err e s' => rw [hv] at this; exact this
        | dangling => trivial
        | diverge => trivial
    have hfind : ∀ (l : List (Str × Hook σ)) k h, findHook l k = some h → (k, h) ∈ l := by
      intro l
      induction l with
      | nil => intro k h hx; cases hx
      | cons a l ihl =>
        intro k h hx
        unfold findHook at hx
        split at hx
        · rename_i hk
          cases hx
          rw [← hk]
          exact List.mem_cons_self
        · exact List.mem_cons_of_mem _ (ihl k h hx)
    unfold visitGo
    cases ht : toks[t]? with
    | none => trivial
    | some tk =>
      dsimp only
      cases hf : findHook hooks tk.name with
      | none => exact hlist _ _ hs
      | some h =>
        have := hh _ _ (hfind _ _ _ hf) t s hs
        dsimp only
        cases hx : h t s with
        | mk r s' =>
          rw [hx] at this
          cases r with
          | ok u => exact hlist _ _ this
          | error e => exact this

theorem buildResult_safe {ctx : Ctx} {w : World} {r : VRes Build}
    (h : VisitDone (Going w) (fun e b => b.crash = none → e.message ≠ [] ∨ b.errors ≠ []) r) : FileSafe w (buildResult ctx w.nodes.length w.st.sctxs.length r) := by
  cases r with
  | ok b => exact ⟨h.nodes, h.toks, h.milds, Nat.le_refl _, h.root, h.own⟩
  | err e b =>
    unfold buildResult
    dsimp only at h ⊢
    cases hc : b.crash with
    | some c => cases c <;> trivial
    | none =>
      dsimp only
      split
      · split
        · exact List.append_ne_nil_of_right_ne_nil _ (List.cons_ne_nil _ _)
        · trivial
      · rename_i he
        exact (h hc).resolve_left he
  | dangling => trivial
  | diverge => trivial

theorem build_safe {env : Env} {compileFile : Str → World → BuildRes} {fromFile : Option Str} {depth : Nat}
    {t : TokId} {ctx : Ctx} {name : Str} {w : World}
    (hf : ∀ file w, Milds w.nodes → FileSafe w (compileFile file w)) (hw : Milds w.nodes) :
    FileSafe w (buildMatcherFromTokens env compileFile depth t ctx name fromFile w) := by
  unfold buildMatcherFromTokens
  cases ht : w.st.toks[t]? with
  | none => trivial
  | some k =>
    dsimp only
    split
    · exact List.cons_ne_nil _ _
    · have hat : ∀ i, (w.nodes ++ preamble w.nodes.length w.st.sctxs.length name)[w.nodes.length + i]? =
          (preamble w.nodes.length w.st.sctxs.length name)[i]? := by
        intro i
        rw [List.getElem?_append_right (by omega), Nat.add_sub_cancel_left]
      have h0 : Going w ⟨⟨w.nodes ++ preamble w.nodes.length w.st.sctxs.length name, w.st.newSCtx.2⟩, [], none⟩ := by
        refine ⟨⟨_, rfl⟩, ⟨[], by simp [State.newSCtx]⟩, hw.append ?_, ⟨_, _, _, _, _, hat 0⟩, ⟨_, _, _, _, _, hat 1⟩,
          OwnScope.start _⟩
        intro nd hnd
        simp only [preamble, List.mem_cons, List.not_mem_nil, or_false] at hnd
        rcases hnd with rfl | rfl | rfl | rfl <;> trivial
      have := visitGo_safe (toks := w.st.newSCtx.2.toks) (I := Going w)
        (J := fun e b => b.crash = none → e.message ≠ [] ∨ b.errors ≠ [])
        (hooks := buildHooks env compileFile fromFile depth w.nodes.length (w.nodes.length + 1) w.st.newSCtx.1) ?_
        depth t _ h0
      · exact buildResult_safe this
      · intro n h hm t s hs
        simp only [buildHooks, List.mem_cons, List.not_mem_nil, or_false] at hm
        rcases hm with hm | hm | hm | hm | hm <;> cases hm
        · exact hookError_safe hs t
        · exact hookAdextopaScope_safe hs t
        · exact hookAssignment_safe hs t
        · exact hookImport_safe hf hs t
        · exact hookPatternScope_safe hs t

/-! ### The parse of the script -/

attribute [local irreducible] Script.switchMatcher Script.programMatcher Script.script tokenize
  buildMatcherFromTokens String.toList

/-- What `compile_script` sets up before it parses: the context, the grammar of scripts,
and the heap, with two matchers bound in a new scope. -/
structure Setup where
  ctx : Ctx
  start : MatcherId
  nodes : List Node
  st : State

@[inherit_doc Setup]
def setup (env : Env) (parser : Parser) (name : Str) (w : World) : Setup :=
  let a := (Script.switchMatcher env.uni).run w.nodes
  let b := (Script.programMatcher env.uni).run a.2
  let c := (Script.script env.uni).run b.2
  ⟨Ctx.new parser w.st.sctxs.length name, c.1, c.2,
    (w.st.newSCtx.2.bindVar w.st.sctxs.length "SwitchMatcher".toList (.matcher a.1)).bindVar w.st.sctxs.length
      "ProgramMatcher".toList (.matcher b.1)⟩

/-- `compile_script_from_file_internal` with the given fuel. -/
def importFile (env : Env) (fuel : Nat) (file : Str) (w : World) : BuildRes :=
  match env.canonical file with
  | none => .panic "called `Result::unwrap()` on an `Err` value"
  | some full =>
    match env.read full with
    | none => .panic "called `Result::unwrap()` on an `Err` value"
    | some src => compileScript env fuel ⟨src, full⟩ file (some full) w

theorem compileScript_succ (env : Env) (fuel : Nat) (parser : Parser) (name : Str) (fromFile : Option Str)
    (w : World) : compileScript env (fuel + 1) parser name fromFile w =
      match tokenize (tableOf (setup env parser name w).nodes) env.cfg fuel (setup env parser name w).ctx
        (setup env parser name w).start (setup env parser name w).st with
      | .ok (.ok t) st =>
        buildMatcherFromTokens env (importFile env fuel) st.toks.length t (setup env parser name w).ctx name fromFile
          ⟨(setup env parser name w).nodes, st⟩
      | .ok (.error .fail) _ =>
        .err [⟨"Failed to parse script with an unknown error. This is likely a bug. Please report this issue to the adextopa maintainers.".toList,
          none⟩]
      | .ok (.error (.error e)) _ => .err [e]
      | .panic m => .panic m
      | .diverge => .diverge := rfl

theorem bindVar_toks (s : State) (sc : SCtxId) (k : Str) (v : Var) : (s.bindVar sc k v).toks = s.toks := by
  unfold State.bindVar
  split <;> rfl

theorem setup_toks (env : Env) (parser : Parser) (name : Str) (w : World) :
    (setup env parser name w).st.toks = w.st.toks := by
  unfold setup
  dsimp only
  rw [bindVar_toks, bindVar_toks]
  rfl

theorem setup_nodes (env : Env) (parser : Parser) (name : Str) (w : World) :
    ∃ ys, (setup env parser name w).nodes = w.nodes ++ ys ∧ (∀ nd ∈ ys, nd.Local w.nodes.length) ∧
      w.nodes.length ≤ (setup env parser name w).start ∧
      ∀ k m, (setup env parser name w).st.lookup w.st.sctxs.length k = some (.matcher m) → w.nodes.length ≤ m := by
  have hs := local_safe w.nodes.length
  obtain ⟨v1, y1, h1, g1⟩ := hs.switchMatcher env.uni w.nodes (Nat.le_refl _)
  obtain ⟨v2, y2, h2, g2⟩ := hs.programMatcher env.uni ((Script.switchMatcher env.uni).run w.nodes).2
    (by rw [h1]; simp)
  obtain ⟨v3, y3, h3, g3⟩ := hs.script' env.uni
    ((Script.programMatcher env.uni).run ((Script.switchMatcher env.uni).run w.nodes).2).2
    (by rw [h2, h1]; simp)
  refine ⟨y1 ++ (y2 ++ y3), ?_, ?_, v3, ?_⟩
  · show ((Script.script env.uni).run _).2 = _
    rw [h3, h2, h1]
    simp
  · intro nd hnd
    rcases List.mem_append.mp hnd with h | h
    · exact g1 nd h
    · rcases List.mem_append.mp h with h | h
      · exact g2 nd h
      · exact g3 nd h
  · have hu := OwnScope.start w.st
    have hu1 := hu.bindVar "SwitchMatcher".toList (.matcher ((Script.switchMatcher env.uni).run w.nodes).1)
    intro k m hk
    unfold setup at hk
    dsimp only at hk
    rw [(hu1.usable.bindVar _ _).2 k] at hk
    split at hk
    · cases hk; exact v2
    · rw [(hu.usable.bindVar _ _).2 k] at hk
      split at hk
      · cases hk; exact v1
      · unfold State.lookup State.newSCtx at hk
        dsimp only at hk
        rw [List.getElem?_concat_length] at hk
        cases hk

theorem setup_own (env : Env) (parser : Parser) (name : Str) (w : World) :
    OwnScope w.st w.st.sctxs.length (setup env parser name w).st :=
  ((OwnScope.start w.st).bindVar _ _).bindVar _ _

/-- A condition on the own scope that holds while a script is parsed. -/
theorem own_keep (old : State) (sc : SCtxId) (lo : Nat) : VarKeep (lo ≤ ·) sc (fun s => OwnScope old sc s ∧
    ∀ k m, s.lookup sc k = some (.matcher m) → lo ≤ m) where
  toks _ _ h := ⟨⟨h.1.scopes, h.1.sctxs, h.1.new, h.1.stack⟩, h.2⟩
  bindM s k m h hm := by
    refine ⟨h.1.bindVar k _, fun k' m' hk => ?_⟩
    rw [(h.1.usable.bindVar _ _).2 k'] at hk
    split at hk
    · cases hk; exact hm
    · exact h.2 _ _ hk
  bindT s k t h := by
    refine ⟨h.1.bindVar k _, fun k' m' hk => ?_⟩
    rw [(h.1.usable.bindVar _ _).2 k'] at hk
    split at hk
    · cases hk
    · exact h.2 _ _ hk
  bindS s k t h := by
    refine ⟨h.1.bindVar k _, fun k' m' hk => ?_⟩
    rw [(h.1.usable.bindVar _ _).2 k'] at hk
    split at hk
    · cases hk
    · exact h.2 _ _ hk
  look s k m h hk := h.2 k m hk

theorem setup_milds (env : Env) (parser : Parser) (name : Str) {w : World} (h : Milds w.nodes) :
    Milds (setup env parser name w).nodes := by
  obtain ⟨ys, h1, h2, -⟩ := setup_nodes env parser name w
  rw [h1]
  exact h.append fun nd hnd => (h2 nd hnd).mild

/-- Parsing a script changes no scope but its own. -/
theorem parse_own {env : Env} {parser : Parser} {name : Str} {w : World} {fuel : Nat} {r : Except Failure TokId}
    {st : State} (h : tokenize (tableOf (setup env parser name w).nodes) env.cfg fuel (setup env parser name w).ctx
      (setup env parser name w).start (setup env parser name w).st = .ok r st) :
    OwnScope w.st w.st.sctxs.length st := by
  obtain ⟨ys, h1, h2, h3, h4⟩ := setup_nodes env parser name w
  have H := own_keep w.st w.st.sctxs.length w.nodes.length
  refine (tokenize_keep H env.cfg (fun m hm => ?_) h3 rfl _ _ _ ⟨setup_own env parser name w, h4⟩ h).1
  rw [h1]
  unfold tableOf
  cases hn : (w.nodes ++ ys)[m]? with
  | none => trivial
  | some nd =>
    rw [List.getElem?_append_right hm] at hn
    exact (h2 nd (List.mem_of_getElem? hn)).keep H.toks

theorem prefix_of_same {α : Type} {l l' : List α} (h : ∀ i, i < l.length → l'[i]? = l[i]?) : l <+: l' := by
  rw [List.prefix_iff_eq_take]
  apply List.ext_getElem?
  intro i
  rw [List.getElem?_take]
  split
  · rename_i hi; exact (h i hi).symm
  · rename_i hi; exact List.getElem?_eq_none (Nat.le_of_not_lt hi)

theorem FileSafe.weaken {w w' : World} {r : BuildRes} (h : FileSafe w' r) (hn : w.nodes <+: w'.nodes)
    (ht : w.st.toks <+: w'.st.toks) (h1 : w.st.scopes <+: w'.st.scopes) (h2 : w.st.sctxs <+: w'.st.sctxs) :
    FileSafe w r := by
  cases r with
  | ok root sc w1 =>
    obtain ⟨g1, g2, g3, g4, g5, g6⟩ := h
    exact ⟨hn.trans g1, ht.trans g2, g3, Nat.le_trans hn.length_le g4, g5, g6.older h1 h2⟩
  | err es => exact h
  | panic m => trivial
  | diverge => trivial

theorem compile_safe (env : Env) (fuel : Nat) : ∀ parser name fromFile w, Milds w.nodes →
    FileSafe w (compileScript env fuel parser name fromFile w) := by
  induction fuel with
  | zero => exact fun _ _ _ _ _ => trivial
  | succ fuel ih =>
    intro parser name fromFile w hw
    rw [compileScript_succ]
    have hm := setup_milds env parser name hw
    cases ht : tokenize (tableOf (setup env parser name w).nodes) env.cfg fuel (setup env parser name w).ctx
        (setup env parser name w).start (setup env parser name w).st with
    | panic m => trivial
    | diverge => trivial
    | ok r st =>
      cases r with
      | error f => cases f <;> exact List.cons_ne_nil _ _
      | ok t =>
        have hfr := C05_tokenize_frame (fun m => (hm.table m).frame) ht
        rw [setup_toks] at hfr
        obtain ⟨ys, h1, -⟩ := setup_nodes env parser name w
        refine (build_safe (fun file w hw => ?_) hm).weaken ?_ (prefix_of_same hfr.1)
          (parse_own ht).scopes (parse_own ht).sctxs
        · unfold importFile
          cases env.canonical file with
          | none => trivial
          | some full =>
            dsimp only
            cases env.read full with
            | none => trivial
            | some src => exact ih _ _ _ w hw
        · exact ⟨ys, h1.symm⟩

end Adx
