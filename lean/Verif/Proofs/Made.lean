import Verif.Proofs.Compile
/-
  What the matchers made from scripts are.
-/
namespace Adx

/-- A property of all matchers that are made when scripts are compiled. -/
structure ScriptMade (P : Node → Prop) : Prop where
  grammar : ScriptSafe 0 P
  plain : ∀ nd : Node, (match nd with | .map .. => False | .catch_ .. => False | .expandRange _ => False | _ => True) → P nd
  attributes : ∀ m a, P (.map m (addMissingAttributes a) passFailure)
  rename : ∀ m n, P (.map m (renameToken n) passFailure)

/-- All matchers have it. -/
def Every (P : Node → Prop) (ns : List Node) : Prop := ∀ nd ∈ ns, P nd

section
variable {P : Node → Prop} {ns ms : List Node} {nd : Node} {i : Nat}

theorem Every.snoc (h : Every P ns) (hn : P nd) : Every P (ns ++ [nd]) := by
  intro x hx
  rcases List.mem_append.mp hx with hx | hx
  · exact h x hx
  · rw [List.mem_singleton.mp hx]; exact hn

theorem Every.append (h : Every P ns) (hn : Every P ms) : Every P (ns ++ ms) := by
  intro x hx
  rcases List.mem_append.mp hx with hx | hx
  · exact h x hx
  · exact hn x hx

theorem Every.set (h : Every P ns) (hn : P nd) : Every P (ns.set i nd) := by
  intro x hx
  rcases List.mem_or_eq_of_mem_set hx with hx | rfl
  · exact h x hx
  · exact hn

theorem Every.get (h : Every P ns) (hi : ns[i]? = some nd) : P nd := h nd (List.mem_of_getElem? hi)

end

/-- A step of the builder that keeps this. -/
def CEvery (P : Node → Prop) {α : Type} (x : C α) : Prop :=
  ∀ toks ns, Every P ns → CPost x toks ns (fun _ ns' => Every P ns') True True

namespace CEvery
variable {α β : Type} {P : Node → Prop}


theorem bind {x : C α} {f : α → C β} (h : CEvery P x) (hf : ∀ a, CEvery P (f a)) : CEvery P (x >>= f) := by
  intro toks ns hn
  exact CPost.bind ((h toks ns hn).mono (fun a ns' h' => hf a toks ns' h') id id)

theorem pure {a : α} : CEvery P (Pure.pure a : C α) := fun _ _ hn => hn
theorem err {e : Str} : CEvery P (C.err e : C α) := fun _ _ _ => trivial
theorem panic {m : String} : CEvery P (C.panic m : C α) := fun _ _ _ => trivial
theorem diverge : CEvery P (fun _ _ => .diverge : C α) := fun _ _ _ => trivial
theorem tok {t : TokId} : CEvery P (C.tok t) := fun _ _ hn => CPost.tok (fun _ _ => hn) (fun _ => trivial)
theorem ofOpt {m : String} {o : Option α} : CEvery P (C.ofOpt m o) :=
  fun _ _ hn => CPost.ofOpt (fun _ _ => hn) (fun _ => trivial)
theorem child {k : Token} {i : Nat} : CEvery P (C.child k i) := ofOpt
theorem findChild {k : Token} {n : String} : CEvery P (C.findChild k n) := fun _ _ hn => hn
theorem findChildOf {k : Token} {n : List String} : CEvery P (C.findChildOf k n) := fun _ _ hn => hn
theorem hasChild {k : Token} {n : String} : CEvery P (C.hasChild k n) := fun _ _ hn => hn
theorem mk {nd : Node} (h : P nd) : CEvery P (C.mk nd) := fun _ _ hn => hn.snoc h

theorem parseUsize {s : Str} : CEvery P (C.parseUsize s) := by
  unfold C.parseUsize
  split
  · exact pure
  · exact err

theorem collectAttributes (cs : List TokId) : ∀ m, CEvery P (collectAttributes cs m) := by
  induction cs with
  | nil => exact fun _ => pure
  | cons c cs ih =>
    intro m
    unfold Adx.collectAttributes
    exact bind tok fun _ => bind child fun _ => bind tok fun _ => bind child fun _ => bind tok fun _ => ih _

theorem getRepeatSpecifierRange (t : TokId) : CEvery P (getRepeatSpecifierRange t) := by
  intro toks ns hn
  exact (getRepeatSpecifierRange_spec toks ns t).mono (fun _ _ h => h.1 ▸ hn) (fun _ => trivial) (fun _ => trivial)

variable (hP : ScriptMade P)
include hP

theorem setName {m : MatcherId} {n : Str} : CEvery P (C.setName m n) := by
  intro toks ns hn
  have : ∀ d m, CPost (fun _ ns => setNameGo n d m ns) toks ns (fun _ ns' => Every P ns') True True := by
    intro d
    induction d with
    | zero => intro m; trivial
    | succ d ih =>
      intro m
      unfold CPost setNameGo
      dsimp only
      cases hm : ns[m]? with
      | none => trivial
      | some nd =>
        dsimp only
        cases hp : nd.namePassedTo with
        | some m' => exact ih m'
        | none =>
          refine hn.set ?_
          have := hn.get hm
          cases nd <;> first | exact this | exact hP.plain _ trivial
  exact this _ m

theorem addPattern {m p : MatcherId} : CEvery P (C.addPattern m p) := by
  intro toks ns hn
  unfold C.addPattern CPost
  dsimp only
  cases hm : ns[m]? with
  | none => trivial
  | some nd =>
    cases nd with
    | program ps n c i f => exact hn.set (nd := .program (ps ++ [p]) n c i f) (hP.plain _ trivial)
    | register ps => exact hn.set (nd := .register (ps ++ [p])) (hP.plain _ trivial)
    | _ => trivial

theorem withName {m : MatcherId} {n : Str} : CEvery P (withName m n) := by
  unfold Adx.withName
  split
  · exact (setName hP)
  · exact pure

theorem withModifiers {o n : Bool} {m : MatcherId} : CEvery P (withModifiers o n m) := by
  unfold Adx.withModifiers
  split
  · exact mk (hP.plain _ trivial)
  · split
    · exact mk (hP.plain _ trivial)
    · exact pure

theorem withAttributes {k : Token} {m : MatcherId} : CEvery P (withAttributes k m) := by
  unfold Adx.withAttributes
  refine bind findChild fun o => ?_
  cases o with
  | none => exact pure
  | some a =>
    refine bind tok fun ak => ?_
    split
    · exact bind (collectAttributes _ _) fun _ => mk (hP.attributes _ _)
    · exact pure

theorem withRepeat {k : Token} {m : MatcherId} : CEvery P (withRepeat k m) := by
  unfold Adx.withRepeat
  refine bind findChildOf fun o => ?_
  cases o with
  | none => exact pure
  | some a => exact bind (getRepeatSpecifierRange _) fun _ => mk (hP.plain _ trivial)

theorem withDiscard {b : Bool} {m : MatcherId} : CEvery P (withDiscard b m) := by
  unfold Adx.withDiscard
  split
  · exact pure
  · exact mk (hP.plain _ trivial)

variable {env : Env} {pat : TokId → C (MatcherId × MatcherId)}

theorem constructChildren (h : ∀ t, CEvery P (pat t)) {into : MatcherId} (cs : List TokId) :
    CEvery P (constructChildren pat into cs) := by
  induction cs with
  | nil => exact pure
  | cons c cs ih =>
    unfold Adx.constructChildren
    exact bind (h c) fun _ => bind (addPattern hP) fun _ => ih

theorem constructInner (h : ∀ t, CEvery P (pat t)) (t : TokId) : CEvery P (constructInner env pat t) := by
  unfold Adx.constructInner
  refine bind tok fun k => ?_
  split
  · refine bind child fun _ => bind tok fun _ => ?_
    dsimp only
    split
    · exact err
    · exact mk (hP.plain _ trivial)
  split
  · dsimp only
    split
    · exact err
    · refine bind findChild fun o => ?_
      cases o with
      | none => exact bind pure fun _ => bind ofOpt fun _ => mk (hP.plain _ trivial)
      | some f => exact bind tok fun _ => bind pure fun _ => bind ofOpt fun _ => mk (hP.plain _ trivial)
  split
  · refine bind child fun _ => bind tok fun _ => bind child fun _ => bind tok fun _ => bind child fun _ =>
      bind tok fun _ => ?_
    split
    · exact panic
    · split
      · exact panic
      · exact mk (hP.plain _ trivial)
  split
  · refine bind child fun _ => bind tok fun _ => ?_
    dsimp only
    split
    · exact err
    · exact mk (hP.plain _ trivial)
  split
  · split
    · exact mk (hP.plain _ trivial)
    · exact bind (mk (hP.plain _ trivial)) fun _ => bind ((constructChildren hP) h _) fun _ => pure
  split
  · split
    · exact mk (hP.plain _ trivial)
    · exact bind (mk (hP.plain _ trivial)) fun _ => bind ((constructChildren hP) h _) fun _ => pure
  · exact err

theorem constructDefinition (h : ∀ t, CEvery P (pat t)) (t : TokId) (name : Str) (b : Bool) :
    CEvery P (constructDefinition env pat t name b) := by
  unfold Adx.constructDefinition
  refine bind tok fun k => ?_
  split
  · exact err
  refine bind hasChild fun _ => bind hasChild fun _ => bind hasChild fun _ => bind hasChild fun _ =>
    bind findChildOf fun o => ?_
  cases o with
  | none => exact err
  | some mt =>
    exact bind ((constructInner hP) h _) fun _ => bind (withName hP) fun _ => bind (withAttributes hP) fun _ =>
      bind (withModifiers hP) fun _ => bind (withRepeat hP) fun _ => bind (withModifiers hP) fun _ => bind (withDiscard hP) fun _ =>
      pure

theorem constructPattern (d : Nat) : ∀ t, CEvery P (constructPattern env d t) := by
  induction d with
  | zero => exact fun _ => diverge
  | succ d ih =>
    intro t
    unfold Adx.constructPattern
    refine bind tok fun k => ?_
    split
    · refine bind findChild fun o => ?_
      cases o with
      | none => exact bind child fun _ => (constructDefinition hP) ih _ _ _
      | some n =>
        exact bind tok fun _ => bind child fun _ => bind tok fun _ => bind child fun _ =>
          (constructDefinition hP) ih _ _ _
    split
    · exact (constructDefinition hP) ih _ _ _
    · exact err

theorem constructScope {d : Nat} {i : MatcherId} (cs : List TokId) : CEvery P (constructScope env d i cs) := by
  induction cs with
  | nil => exact pure
  | cons c cs ih =>
    unfold Adx.constructScope
    refine bind tok fun k => ?_
    dsimp only
    split
    · exact bind ((constructPattern hP) _ _) fun _ => bind (addPattern hP) fun _ => ih
    · exact ih

end CEvery

/-! ### The hooks -/

section
variable {P : Node → Prop} (hP : ScriptMade P) {b : Build} {sc isc : SCtxId} {root : MatcherId} {file : Str}

/-- What a hook keeps. -/
abbrev HookEvery (P : Node → Prop) : Except ParseError Unit × Build → Prop :=
  HookDone (fun b => Every P b.w.nodes) fun _ _ => True

theorem every_step {α : Type} {x : C α} (hx : CEvery P x) (h : Every P b.w.nodes)
    {k : α → Build → Except ParseError Unit × Build}
    (hk : ∀ a ns, Every P ns → HookEvery P (k a { b with w := { b.w with nodes := ns } })) :
    HookEvery P (Build.step x b k patternError) :=
  step_spec (hx _ _ h) hk (fun _ _ => trivial) (fun _ _ => trivial) fun _ => trivial

theorem every_hookError (h : Every P b.w.nodes) (t : TokId) : HookEvery P (hookError t b) :=
  every_step (CEvery.bind CEvery.tok fun _ => CEvery.bind CEvery.ofOpt fun _ => CEvery.pure) h fun _ _ hn => hn

include hP

theorem every_hookAdextopaScope (h : Every P b.w.nodes) (t : TokId) : HookEvery P (hookAdextopaScope root t b) := by
  refine every_step (CEvery.bind CEvery.tok fun k => ?_) h fun _ _ hn => hn
  split
  · exact CEvery.setName hP
  · exact CEvery.pure

theorem every_hookAssignment {env : Env} {depth : Nat} (h : Every P b.w.nodes) (t : TokId) :
    HookEvery P (hookAssignment env depth sc t b) := by
  refine every_step ?_ h ?_
  · refine CEvery.bind CEvery.tok fun k => CEvery.bind CEvery.child fun _ => CEvery.bind CEvery.tok fun _ =>
      CEvery.bind CEvery.child fun _ => CEvery.bind CEvery.tok fun _ => ?_
    split
    · exact CEvery.bind (CEvery.mk (hP.plain _ trivial)) fun _ => CEvery.pure
    split
    · exact CEvery.bind (CEvery.constructDefinition hP (CEvery.constructPattern hP _) _ _ _) fun _ => CEvery.pure
    · exact CEvery.pure
  · intro r ns hn
    cases r with
    | none => exact hn
    | some p => exact hn

theorem every_hookPatternScope {env : Env} {depth : Nat} (h : Every P b.w.nodes) (t : TokId) :
    HookEvery P (hookPatternScope env depth root t b) :=
  every_step (CEvery.bind CEvery.tok fun _ => CEvery.constructScope hP _) h fun _ _ hn => hn

theorem every_importIdentifier (h : Every P b.w.nodes) (c : TokId) :
    HookEvery P (importIdentifier sc isc root file c b) := by
  refine every_step ?_ h ?_
  · refine CEvery.bind CEvery.tok fun k => CEvery.bind CEvery.findChild fun _ => CEvery.bind CEvery.ofOpt fun _ =>
      CEvery.bind CEvery.tok fun _ => CEvery.bind CEvery.findChild fun o => ?_
    cases o with
    | none => exact CEvery.bind CEvery.pure fun _ => CEvery.pure
    | some a => exact CEvery.bind CEvery.tok fun _ => CEvery.pure
  · rintro ⟨ik, name⟩ ns hn
    dsimp only
    split
    · split
      · trivial
      · exact every_step (CEvery.setName hP) hn fun _ _ hn => hn
    · split
      · exact every_step (CEvery.bind (CEvery.mk (hP.rename _ _)) fun _ => CEvery.mk (hP.plain _ trivial)) hn
          fun _ _ hn => hn
      · trivial

theorem every_importIdentifiers (cs : List TokId) : ∀ {b : Build}, Every P b.w.nodes →
    HookEvery P (importIdentifiers sc isc root file cs b) := by
  induction cs with
  | nil => exact fun h => h
  | cons c cs ih =>
    intro b h
    unfold importIdentifiers
    have h1 := every_importIdentifier hP (sc := sc) (isc := isc) (root := root) (file := file) h c
    cases hx : importIdentifier sc isc root file c b with
    | mk r b' =>
      rw [hx] at h1
      cases r with
      | ok u => exact ih h1
      | error e => trivial

/-- What compiling keeps. -/
def FileEvery (P : Node → Prop) : BuildRes → Prop
  | .ok _ _ w => Every P w.nodes
  | _ => True

theorem every_hookImport {env : Env} {compileFile : Str → World → BuildRes} {fromFile : Option Str}
    (hf : ∀ file w, Every P w.nodes → FileEvery P (compileFile file w)) (h : Every P b.w.nodes) (t : TokId) :
    HookEvery P (hookImport env compileFile fromFile sc t b) := by
  unfold hookImport
  cases fromFile with
  | none => exact every_step CEvery.tok h fun _ _ _ => trivial
  | some from_ =>
    refine every_step ?_ h ?_
    · exact CEvery.bind CEvery.tok fun _ => CEvery.bind CEvery.findChild fun _ => CEvery.bind CEvery.ofOpt fun _ =>
        CEvery.bind CEvery.tok fun _ => CEvery.bind CEvery.findChild fun _ => CEvery.bind CEvery.ofOpt fun _ =>
        CEvery.bind CEvery.tok fun _ => CEvery.bind CEvery.ofOpt fun _ => CEvery.bind CEvery.ofOpt fun _ =>
        CEvery.pure
    · rintro ⟨ids, file⟩ ns hn
      dsimp only
      have := hf file { b.w with nodes := ns } hn
      cases hc : compileFile file { b.w with nodes := ns } with
      | ok root isc w =>
        rw [hc] at this
        exact every_importIdentifiers hP ids (b := { b with w := w }) this
      | err es => trivial
      | panic m => trivial
      | diverge => trivial

theorem every_build {env : Env} {compileFile : Str → World → BuildRes} {fromFile : Option Str} {depth : Nat}
    {t : TokId} {ctx : Ctx} {name : Str} {w : World}
    (hf : ∀ file w, Every P w.nodes → FileEvery P (compileFile file w)) (hw : Every P w.nodes) :
    FileEvery P (buildMatcherFromTokens env compileFile depth t ctx name fromFile w) := by
  unfold buildMatcherFromTokens
  cases ht : w.st.toks[t]? with
  | none => trivial
  | some k =>
    dsimp only
    split
    · trivial
    · have h0 : Every P (w.nodes ++ preamble w.nodes.length w.st.sctxs.length name) := by
        refine hw.append fun nd hnd => ?_
        simp only [preamble, List.mem_cons, List.not_mem_nil, or_false] at hnd
        rcases hnd with rfl | rfl | rfl | rfl <;> exact hP.plain _ trivial
      have := visitGo_safe (toks := w.st.newSCtx.2.toks) (I := fun b => Every P b.w.nodes) (J := fun _ _ => True)
        (hooks := buildHooks env compileFile fromFile depth w.nodes.length (w.nodes.length + 1) w.st.newSCtx.1) ?_
        depth t ⟨⟨w.nodes ++ preamble w.nodes.length w.st.sctxs.length name, w.st.newSCtx.2⟩, [], none⟩ h0
      · have key : ∀ {r : VRes Build}, VisitDone (fun b => Every P b.w.nodes) (fun _ _ => True) r →
            FileEvery P (buildResult ctx w.nodes.length w.st.sctxs.length r) := by
          intro r h
          cases r with
          | ok b => exact h
          | err e b =>
            unfold buildResult
            dsimp only
            cases b.crash with
            | some c => cases c <;> trivial
            | none =>
              dsimp only
              split
              · split <;> trivial
              · trivial
          | dangling => trivial
          | diverge => trivial
        exact key this
      · intro n h hm t s hs
        simp only [buildHooks, List.mem_cons, List.not_mem_nil, or_false] at hm
        rcases hm with hm | hm | hm | hm | hm <;> cases hm
        · exact every_hookError hs t
        · exact every_hookAdextopaScope hP hs t
        · exact every_hookAssignment hP hs t
        · exact every_hookImport hP hf hs t
        · exact every_hookPatternScope hP hs t

attribute [local irreducible] Script.switchMatcher Script.programMatcher Script.script tokenize
  buildMatcherFromTokens String.toList

theorem every_setup (env : Env) (parser : Parser) (name : Str) {w : World} (h : Every P w.nodes) :
    Every P (setup env parser name w).nodes := by
  obtain ⟨_, y1, h1, g1⟩ := hP.grammar.switchMatcher env.uni w.nodes (Nat.zero_le _)
  obtain ⟨_, y2, h2, g2⟩ := hP.grammar.programMatcher env.uni ((Script.switchMatcher env.uni).run w.nodes).2 (Nat.zero_le _)
  obtain ⟨_, y3, h3, g3⟩ := hP.grammar.script' env.uni
    ((Script.programMatcher env.uni).run ((Script.switchMatcher env.uni).run w.nodes).2).2 (Nat.zero_le _)
  show Every P ((Script.script env.uni).run _).2
  rw [h3, h2, h1]
  exact ((h.append g1).append g2).append g3

/-- All matchers made by compiling a script have the property. -/
theorem every_compile (env : Env) (fuel : Nat) : ∀ parser name fromFile w, Every P w.nodes →
    FileEvery P (compileScript env fuel parser name fromFile w) := by
  induction fuel with
  | zero => exact fun _ _ _ _ _ => trivial
  | succ fuel ih =>
    intro parser name fromFile w hw
    rw [compileScript_succ]
    have hm := every_setup hP env parser name hw
    cases ht : tokenize (tableOf (setup env parser name w).nodes) env.cfg fuel (setup env parser name w).ctx
        (setup env parser name w).start (setup env parser name w).st with
    | panic m => trivial
    | diverge => trivial
    | ok r st =>
      cases r with
      | error f => cases f <;> trivial
      | ok t =>
        refine every_build hP (fun file w hw => ?_) hm
        unfold importFile
        cases env.canonical file with
        | none => trivial
        | some full =>
          dsimp only
          cases env.read full with
          | none => trivial
          | some src => exact ih _ _ _ w hw

end

end Adx
