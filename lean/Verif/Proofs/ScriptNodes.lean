import Verif.Model.Script
import Verif.Props.Frame
import Verif.Props.Tree
/-
  The matchers of the grammar of grammar scripts, and of the matchers built from
  scripts: their callbacks keep to the contracts of C05 and C36.
-/
namespace Adx

/-- The matchers that a matcher refers to. -/
def Node.refs : Node → List MatcherId
  | .program ps _ _ _ _ => ps
  | .optional m => [m]
  | .not m => [m]
  | .discard m => [m]
  | .proxyChildren m _ _ => [m]
  | .expandRange m => [m]
  | .catch_ m _ => [m]
  | .map m _ _ => [m]
  | .store m _ _ => [m]
  | .ref (.matcher m) _ _ => [m]
  | .register ps => ps
  | .setScope _ m => [m]
  | .pin (some m) _ _ _ => [m]
  | .debug (some m) _ => [m]
  | _ => []

/-- A builder that only adds nodes with `P`, and whose result has `V`, when the nodes from
`lo` on are its own. -/
def BGo (lo : Nat) (P : Node → Prop) {α : Type} (V : α → Prop) (x : B α) : Prop :=
  ∀ ns, lo ≤ ns.length → V (x.run ns).1 ∧ ∃ ys, (x.run ns).2 = ns ++ ys ∧ ∀ nd ∈ ys, P nd

namespace BGo
variable {lo : Nat} {P : Node → Prop} {α β : Type} {V : α → Prop} {W : β → Prop}

theorem pure {a : α} (h : V a) : BGo lo P V (Pure.pure a : B α) :=
  fun ns _ => ⟨h, [], by simp [StateT.run, Pure.pure, StateT.pure], by simp⟩

theorem bind {x : B α} {f : α → B β} (h : BGo lo P V x) (hf : ∀ a, V a → BGo lo P W (f a)) :
    BGo lo P W (x >>= f) := by
  intro ns hns
  obtain ⟨hv, ys, h1, h2⟩ := h ns hns
  obtain ⟨hw, zs, h3, h4⟩ := hf (x.run ns).1 hv (x.run ns).2 (by rw [h1]; simp; omega)
  refine ⟨hw, ys ++ zs, ?_, ?_⟩
  · rw [← List.append_assoc, ← h1]; exact h3
  · intro nd hnd
    rcases List.mem_append.mp hnd with h | h
    · exact h2 nd h
    · exact h4 nd h

theorem mk {nd : Node} (h : P nd) : BGo lo P (lo ≤ ·) (B.mk nd) :=
  fun _ hns => ⟨hns, [nd], rfl, by simpa using h⟩

theorem mapM {xs : List (B α)} (h : ∀ x ∈ xs, BGo lo P V x) :
    BGo lo P (fun l => ∀ a ∈ l, V a) (xs.mapM id) := by
  induction xs with
  | nil => rw [List.mapM_nil]; exact pure (by simp)
  | cons x xs ih =>
    rw [List.mapM_cons]
    refine bind (h x (by simp)) fun a ha => bind (ih fun y hy => h y (by simp [hy])) fun l hl => pure ?_
    intro b hb
    rcases List.mem_cons.mp hb with rfl | hb
    · exact ha
    · exact hl b hb

end BGo

/-- A builder of a matcher of its own. -/
abbrev BAll (lo : Nat) (P : Node → Prop) (x : B MatcherId) : Prop := BGo lo P (lo ≤ ·) x

/-- A list of such builders. -/
def BAlls (lo : Nat) (P : Node → Prop) (xs : List (B MatcherId)) : Prop := ∀ x ∈ xs, BAll lo P x

/-- What the nodes of the grammar of grammar scripts need. -/
structure ScriptSafe (lo : Nat) (P : Node → Prop) : Prop where
  plain : ∀ nd : Node, (match nd with
    | .map .. => False | .catch_ .. => False | .setScope .. => False | .expandRange _ => False | _ => True) →
    (∀ m ∈ nd.refs, lo ≤ m) → P nd
  fatalIf : ∀ m msg, lo ≤ m → P (.map m (fatalIfOk msg) failureIsFine)
  assertIf : ∀ m msg, lo ≤ m → P (.map m (assertIfOk msg) failureIsFine)
  regex : ∀ m, lo ≤ m → P (.map m Script.regexMatcherDone passFailure)
  definition : ∀ m, lo ≤ m → P (.map m Script.patternDefinitionDone passFailure)
  scope : ∀ m, lo ≤ m → P (.map m Script.patternScopeDone passFailure)
  header : ∀ m, lo ≤ m → P (.map m Script.adextopaScopeDone passFailure)
  script : ∀ m, lo ≤ m → P (.map m Script.scriptDone passFailure)

namespace ScriptSafe
variable {lo : Nat} {P : Node → Prop} (h : ScriptSafe lo P)
include h

theorem leaf {nd : Node} (hn : match nd with
    | .map .. => False | .catch_ .. => False | .setScope .. => False | .expandRange _ => False | _ => True)
    (hr : nd.refs = []) : BAll lo P (B.mk nd) := BGo.mk (h.plain _ hn (by rw [hr]; simp))

theorem one {nd : Node} {m : MatcherId} (hn : match nd with
    | .map .. => False | .catch_ .. => False | .setScope .. => False | .expandRange _ => False | _ => True)
    (hr : nd.refs = [m]) (hm : lo ≤ m) : BAll lo P (B.mk nd) :=
  BGo.mk (h.plain _ hn (by rw [hr]; simpa using hm))

theorem ws0 : BAll lo P Script.ws0 := by
  unfold Script.ws0 B.discard B.regexN
  exact BGo.bind (h.leaf trivial rfl) fun _ hm => h.one trivial rfl hm

theorem wsn0 : BAll lo P Script.wsn0 := by
  unfold Script.wsn0 B.discard B.regexN
  exact BGo.bind (h.leaf trivial rfl) fun _ hm => h.one trivial rfl hm

theorem programN {n : String} {ps : List (B MatcherId)} (hp : BAlls lo P ps) :
    BAll lo P (B.programN n ps) := BGo.bind (BGo.mapM hp) fun _ hm => BGo.mk (h.plain _ trivial hm)

theorem program {ps : List (B MatcherId)} (hp : BAlls lo P ps) :
    BAll lo P (B.program ps) := BGo.bind (BGo.mapM hp) fun _ hm => BGo.mk (h.plain _ trivial hm)

theorem switchN {n : String} {ps : List (B MatcherId)} (hp : BAlls lo P ps) :
    BAll lo P (B.switchN n ps) := BGo.bind (BGo.mapM hp) fun _ hm => BGo.mk (h.plain _ trivial hm)

theorem switch {ps : List (B MatcherId)} (hp : BAlls lo P ps) :
    BAll lo P (B.switch ps) := BGo.bind (BGo.mapM hp) fun _ hm => BGo.mk (h.plain _ trivial hm)

theorem loopN {n : String} {ps : List (B MatcherId)} {a b : Bound} (hp : BAlls lo P ps) :
    BAll lo P (B.loopN n ps a b) := BGo.bind (BGo.mapM hp) fun _ hm => BGo.mk (h.plain _ trivial hm)

theorem loop {ps : List (B MatcherId)} {a b : Bound} (hp : BAlls lo P ps) :
    BAll lo P (B.loop ps a b) := BGo.bind (BGo.mapM hp) fun _ hm => BGo.mk (h.plain _ trivial hm)

theorem optional {m : B MatcherId} (hm : BAll lo P m) : BAll lo P (B.optional m) :=
  BGo.bind hm fun _ hm => h.one trivial rfl hm

theorem discard {m : B MatcherId} (hm : BAll lo P m) : BAll lo P (B.discard m) :=
  BGo.bind hm fun _ hm => h.one trivial rfl hm

theorem proxyChildren {m : B MatcherId} (hm : BAll lo P m) : BAll lo P (B.proxyChildren m) :=
  BGo.bind hm fun _ hm => h.one trivial rfl hm

theorem store {n : String} {m : B MatcherId} (hm : BAll lo P m) : BAll lo P (B.store n m) :=
  BGo.bind hm fun _ hm => h.one trivial rfl hm

theorem pinN {n : String} {f : Fetchable} {m : B MatcherId} (hm : BAll lo P m) :
    BAll lo P (B.pinN n f m) :=
  BGo.bind hm fun _ hm => h.one trivial rfl hm

theorem fatalIf' {msg : String} {m : B MatcherId} (hm : BAll lo P m) : BAll lo P (B.fatalIf m msg) :=
  BGo.bind hm fun _ hm => BGo.mk (h.fatalIf _ _ hm)

theorem assertIf' {msg : String} {m : B MatcherId} (hm : BAll lo P m) : BAll lo P (B.assertIf m msg) :=
  BGo.bind hm fun _ hm => BGo.mk (h.assertIf _ _ hm)

omit h in
theorem nil' : BAlls lo P ([] : List (B MatcherId)) := by simp [BAlls]

omit h in
theorem cons' {p : B MatcherId} {ps : List (B MatcherId)} (hp : BAll lo P p) (hs : BAlls lo P ps) :
    BAlls lo P (p :: ps) := by
  intro q hq
  rcases List.mem_cons.mp hq with rfl | hq
  · exact hp
  · exact hs q hq

/-- Walk through a builder. -/
local macro "bwalk" : tactic => `(tactic| repeat' first
  | with_reducible assumption
  | with_reducible exact h.ws0
  | with_reducible exact h.wsn0
  | with_reducible exact nil'
  | with_reducible apply cons'
  | with_reducible apply h.programN
  | with_reducible apply h.program
  | with_reducible apply h.switchN
  | with_reducible apply h.switch
  | with_reducible apply h.loopN
  | with_reducible apply h.loop
  | with_reducible apply h.optional
  | with_reducible apply h.discard
  | with_reducible apply h.proxyChildren
  | with_reducible apply h.store
  | with_reducible apply h.pinN
  | with_reducible apply h.fatalIf'
  | with_reducible apply h.assertIf'
  | exact h.leaf trivial rfl)

theorem repeatSpecifier (u : Uni) : BAll lo P (Script.repeatSpecifier u) := by
  unfold Script.repeatSpecifier Script.repeatRange
  bwalk

theorem matcher : BAll lo P Script.matcher := by
  have hr : BAll lo P Script.regexMatcher := by
    unfold Script.regexMatcher B.map
    refine BGo.bind ?_ fun _ hm => BGo.mk (h.regex _ hm)
    bwalk
  unfold Script.matcher Script.equalsMatcher Script.sequenceMatcher Script.customMatcher
  bwalk

theorem attributes (u : Uni) : BAll lo P (Script.attributes u) := by
  unfold Script.attributes Script.attribute_
  bwalk

theorem patternDefinition (u : Uni) : BAll lo P (Script.patternDefinition u) := by
  have h1 := h.matcher
  have h2 := h.attributes u
  have h3 := h.repeatSpecifier u
  unfold Script.patternDefinition B.map
  refine BGo.bind ?_ fun _ hm => BGo.mk (h.definition _ hm)
  bwalk

theorem pattern (u : Uni) : BAll lo P (Script.pattern u) := by
  have h1 := h.patternDefinition u
  unfold Script.pattern Script.matcherName
  bwalk

theorem programMatcher (u : Uni) : BAll lo P (Script.programMatcher u) := by
  have h1 := h.pattern u
  unfold Script.programMatcher
  bwalk

theorem switchMatcher (u : Uni) : BAll lo P (Script.switchMatcher u) := by
  have h1 := h.pattern u
  unfold Script.switchMatcher
  bwalk

theorem patternScope (u : Uni) : BAll lo P (Script.patternScope u) := by
  have h1 := h.pattern u
  unfold Script.patternScope B.map
  refine BGo.bind ?_ fun _ hm => BGo.mk (h.scope _ hm)
  bwalk

theorem adextopaScope (u : Uni) : BAll lo P (Script.adextopaScope u) := by
  have h1 := h.patternDefinition u
  have h2 := h.attributes u
  have h3 : BAll lo P (do B.mk (.pin (some (← B.equals "-->")) (.str []) "Pin".toList false)) :=
    BGo.bind (h.leaf trivial rfl) fun _ hm => h.one trivial rfl hm
  unfold Script.adextopaScope B.map Script.importStatement Script.assignmentExpression
  refine BGo.bind ?_ fun _ hm => BGo.mk (h.header _ hm)
  bwalk

theorem script' (u : Uni) : BAll lo P (Script.script u) := by
  have h1 := h.adextopaScope u
  have h2 := h.patternScope u
  unfold Script.script B.map
  refine BGo.bind ?_ fun _ hm => BGo.mk (h.script _ hm)
  bwalk

end ScriptSafe

end Adx
