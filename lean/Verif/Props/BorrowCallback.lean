import Verif.Proofs.BorrowCallback
import Verif.Proofs.Made
import Verif.Props.Borrow
/-
  C61: what callbacks may borrow; the callbacks of the crate borrow no cell twice.
-/
namespace Adx

/-- The success callbacks of the crate, without and with borrow flags. -/
inductive CrateOk : (TokId → Ctx → SCtxId → M R) → (TokId → Nat → Ctx → SCtxId → Held R) → Prop
  | fatalIf (msg : Str) : CrateOk (fatalIfOk msg) (fatalIfOkB msg)
  | assertIf (msg : Str) : CrateOk (assertIfOk msg) (assertIfOkB msg)
  | fine : CrateOk successIsFine successIsFineB
  | regex : CrateOk Script.regexMatcherDone Script.regexMatcherDoneB
  | definition : CrateOk Script.patternDefinitionDone Script.patternDefinitionDoneB
  | scope : CrateOk Script.patternScopeDone Script.patternScopeDoneB
  | header : CrateOk Script.adextopaScopeDone Script.adextopaScopeDoneB
  | script : CrateOk Script.scriptDone Script.scriptDoneB
  | attributes (a : AMap Str) : CrateOk (addMissingAttributes a) (addMissingAttributesB a)
  | rename (n : Str) : CrateOk (renameToken n) (renameTokenB n)

/-- The failure callbacks of the crate. -/
inductive CrateErr : (Failure → Ctx → SCtxId → M R) → (Failure → Nat → Ctx → SCtxId → Held R) → Prop
  | fine : CrateErr failureIsFine failureIsFineB
  | pass : CrateErr passFailure passFailureB
  | fatalIfNot (msg : Str) : CrateErr (fatalIfNotErr msg) (fatalIfNotErrB msg)
  | assertIfNot (msg : Str) : CrateErr (assertIfNotErr msg) (assertIfNotErrB msg)

/-- These are the callbacks of the matcher with borrow flags, and the crate has them.  `Catch!`
is not used by the crate itself. -/
def Node.Crate (F : Callbacks) : Node → Prop
  | .map _ sf ff => CrateOk sf F.success ∧ CrateErr ff F.failure
  | .catch_ .. => False
  | _ => True

theorem CrateOk.agrees {sf : TokId → Ctx → SCtxId → M R} {sfB : TokId → Nat → Ctx → SCtxId → Held R} (h : CrateOk sf sfB) :
    SuccessAgrees sfB sf := by
  cases h with
  | fatalIf msg => exact agrees_fatalIf msg
  | assertIf msg => exact agrees_assertIf msg
  | fine => exact agrees_successIsFine
  | regex => exact Script.agrees_regexMatcherDone
  | definition => exact Script.agrees_patternDefinitionDone
  | scope => exact Script.agrees_patternScopeDone
  | header => exact Script.agrees_adextopaScopeDone
  | script => exact Script.agrees_scriptDone
  | attributes a => exact agrees_addMissing a
  | rename n => exact agrees_rename n

theorem CrateErr.agrees {ff : Failure → Ctx → SCtxId → M R} {ffB : Failure → Nat → Ctx → SCtxId → Held R}
    (h : CrateErr ff ffB) : FailureAgrees ffB ff := by
  cases h with
  | fine => exact agrees_failureIsFine
  | pass => exact agrees_passFailure
  | fatalIfNot msg => exact agrees_fatalIfNot msg
  | assertIfNot msg => exact agrees_assertIfNot msg

theorem Node.Crate.follows {F : Callbacks} {nd : Node} (h : nd.Crate F) : nd.Follows F := by
  cases nd with
  | map m sf ff => exact ⟨h.1.agrees, h.2.agrees⟩
  | catch_ m f => exact h.elim
  | _ => trivial

/-- The callbacks of a matcher with these two. -/
def Callbacks.two (sfB : TokId → Nat → Ctx → SCtxId → Held R) (ffB : Failure → Nat → Ctx → SCtxId → Held R) : Callbacks :=
  ⟨sfB, ffB, fun _ _ f => pure (.err f)⟩

theorem crate_plain {nd : Node} (h : match nd with | .map .. => False | .catch_ .. => False | _ => True) :
    ∃ F, nd.Crate F := by
  refine ⟨.two successIsFineB passFailureB, ?_⟩
  cases nd with
  | map m sf ff => exact h.elim
  | catch_ m f => exact h.elim
  | _ => trivial

theorem crate_map {m : MatcherId} {sf : TokId → Ctx → SCtxId → M R} {ff : Failure → Ctx → SCtxId → M R}
    {sfB : TokId → Nat → Ctx → SCtxId → Held R} {ffB : Failure → Nat → Ctx → SCtxId → Held R}
    (h1 : CrateOk sf sfB) (h2 : CrateErr ff ffB) : ∃ F, (Node.map m sf ff).Crate F := ⟨.two sfB ffB, h1, h2⟩

theorem crate_made : ScriptMade fun nd => ∃ F, nd.Crate F where
  grammar :=
    { plain := fun nd h _ => crate_plain (by cases nd <;> first | exact h.elim | trivial)
      fatalIf := fun _ msg _ => crate_map (.fatalIf msg) .fine
      assertIf := fun _ msg _ => crate_map (.assertIf msg) .fine
      regex := fun _ _ => crate_map .regex .pass
      definition := fun _ _ => crate_map .definition .pass
      scope := fun _ _ => crate_map .scope .pass
      header := fun _ _ => crate_map .header .pass
      script := fun _ _ => crate_map .script .pass }
  plain := fun nd h => crate_plain (by cases nd <;> first | exact h.elim | trivial)
  attributes := fun _ a => crate_map (.attributes a) .pass
  rename := fun _ n => crate_map (.rename n) .pass

theorem Compiled.every {P : Node → Prop} (hP : ScriptMade P) {env : Env} {w : World} (h : Compiled env w) : Every P w.nodes := by
  induction h with
  | start => exact fun _ h => nomatch h
  | heap _ ih => exact ih
  | @script w w' fuel parser name fromFile m sc _ hc ih =>
    have := every_compile hP env fuel parser name fromFile w ih
    rw [hc] at this
    exact this

theorem Every.callbacks {ns : List Node} (h : Every (fun nd => ∃ F, nd.Crate F) ns) :
    ∃ F : MatcherId → Callbacks, ∀ m, (tableOf ns m).Crate (F m) := by
  have : ∀ m, ∃ F, (tableOf ns m).Crate F := by
    intro m
    unfold tableOf
    cases hm : ns[m]? with
    | none => exact crate_plain trivial
    | some nd => exact h.get hm
  exact ⟨fun m => (this m).choose, fun m => (this m).choose_spec⟩

attribute [local irreducible] Script.switchMatcher Script.programMatcher Script.script tokenize tokenizeB tokenizeC
  buildMatcherFromTokens String.toList

section

variable {T : Table} {F : MatcherId → Callbacks} {cfg : Cfg} {n k : Nat} {m : MatcherId} {c : Ctx} {sc : SCtxId}
  {s : State} {fl : Borrows}

/-- C61: let the callbacks keep to the rule that, called when no token of the tree they get and
no scope is borrowed, they borrow nothing twice and leave all flags as they were.  Then running
a matcher does with flags exactly what it does without. -/
theorem C61_exec (hT : ∀ m, (T m).Grafts) (hF : ∀ m, (T m).Follows (F m)) (h : Idle s.toks.length k fl) :
    execC T F cfg n m k c sc s fl = (exec T cfg n m c sc s).flagged fl :=
  agrees_execC hT hF n m k c sc s fl h.quiet (Nat.le_refl _)

/-- C61: the same for `tokenize`. -/
theorem C61_tokenize (hT : ∀ m, (T m).Grafts) (hF : ∀ m, (T m).Follows (F m)) (h : Idle s.toks.length k fl) :
    tokenizeC T F cfg n k c m s fl = (tokenize T cfg n c m s).flagged fl :=
  agrees_tokenizeC hT hF h.quiet (Nat.le_refl _)

/-- C61: then there is never the panic for a borrowed cell. -/
theorem C61_no_conflict (hT : ∀ m, (T m).Grafts) (hF : ∀ m, (T m).Follows (F m)) (x : Cell) :
    tokenizeC T F cfg n k c m s Borrows.free ≠ .conflict x := by
  rw [C61_tokenize hT hF (Idle.free _ k)]
  cases tokenize T cfg n c m s <;> (intro h; cases h)

/-- C61: the callbacks of the crate keep to the rule. -/
theorem C61_crate {nd : Node} {F : Callbacks} (h : nd.Crate F) : nd.Follows F := h.follows

/-- C61: all matchers made from scripts have only callbacks of the crate; with these, a text is
parsed without borrowing any cell twice. -/
theorem C61_compiled {env : Env} {w w' : World} {fuel : Nat} {parser : Parser} {name : Str} {fromFile : Option Str}
    (hw : Compiled env w) (h : compileScript env fuel parser name fromFile w = .ok m sc w') :
    (∃ F : MatcherId → Callbacks, ∀ i, (tableOf w'.nodes i).Crate (F i)) ∧
    ∀ F : MatcherId → Callbacks, (∀ i, (tableOf w'.nodes i).Crate (F i)) → ∀ m' x,
      tokenizeC (tableOf w'.nodes) F cfg n k c m' s Borrows.free ≠ .conflict x :=
  ⟨((Compiled.script hw h).every crate_made).callbacks,
   fun _ hF _ x => C61_no_conflict (fun i => ((Compiled.script hw h).milds.table i).grafts) (fun i => (hF i).follows) x⟩

/-- C61: the same for the grammar of scripts. -/
theorem C61_script {env : Env} {w : World} {parser : Parser} {name : Str} (hw : Compiled env w) :
    (∃ F : MatcherId → Callbacks, ∀ i, (tableOf (setup env parser name w).nodes i).Crate (F i)) ∧
    ∀ F : MatcherId → Callbacks, (∀ i, (tableOf (setup env parser name w).nodes i).Crate (F i)) → ∀ x,
      tokenizeC (tableOf (setup env parser name w).nodes) F env.cfg n k (setup env parser name w).ctx
        (setup env parser name w).start (setup env parser name w).st Borrows.free ≠ .conflict x :=
  ⟨(every_setup crate_made env parser name (hw.every crate_made)).callbacks,
   fun _ hF x => C61_no_conflict (fun i => ((setup_milds env parser name hw.milds).table i).grafts)
    (fun i => (hF i).follows) x⟩

/-- C61: so nothing is lost by running the callbacks as they are, as C56 and C58 do. -/
theorem C61_same {env : Env} {w : World} (hw : Compiled env w) (hF : ∀ i, (tableOf w.nodes i).Crate (F i))
    (h : Idle s.toks.length k fl) :
    tokenizeC (tableOf w.nodes) F cfg n k c m s fl = tokenizeB (tableOf w.nodes) cfg n k c m s fl := by
  have hT := fun i => (hw.milds.table i).grafts
  rw [C61_tokenize hT (fun i => (hF i).follows) h, C56_tokenize hT h]

end

/-! ### Examples -/

namespace CallbackExample
open BorrowExample

/-- A definition with an attribute, renamed, and a failing assertion. -/
def T : Table := fun
  | 0 => .program [1, 3] "P".toList false none false
  | 1 => .map 2 (renameToken "N".toList) passFailure
  | 2 => .map 5 (addMissingAttributes [("k".toList, "v".toList)]) passFailure
  | 3 => .map 5 successIsFine (assertIfNotErr "m".toList)
  | _ => .equals "E".toList false (.str "a".toList)

def F : MatcherId → Callbacks := fun
  | 1 => .two (renameTokenB "N".toList) passFailureB
  | 2 => .two (addMissingAttributesB [("k".toList, "v".toList)]) passFailureB
  | _ => .two successIsFineB (assertIfNotErrB "m".toList)

theorem T_crate : ∀ m, (T m).Crate (F m) := by
  intro m
  match m with
  | 0 => trivial
  | 1 => exact ⟨.rename _, .pass⟩
  | 2 => exact ⟨.attributes _, .pass⟩
  | 3 => exact ⟨.fine, .assertIfNot _⟩
  | _ + 4 => trivial

example : BRes.holds (tokenizeC T F ⟨true⟩ 9 0 ctx 0 ⟨[], [], [[]]⟩ Borrows.free) (fun r s =>
      (match r with | .ok t => t == 0 | .error _ => false) &&
      s.toks.map (·.name) == ["P".toList, "N".toList, "Error".toList] &&
      (s.toks.map fun k => k.getAttribute "k".toList) == [none, some "v".toList, none]) := by
  decide +kernel

/-- Reading the token while it is borrowed mutably: the rule is broken. -/
def careless (t : TokId) (_ : Nat) (_ : Ctx) (_ : SCtxId) : Held R :=
  Held.own (.token t) do
    let k ← getTokB t
    Held.lift (modTok t (·.setName k.name))
    pure (.ok (.token t))

/-- A callback that breaks the rule makes a conflict, though without flags it does nothing
unusual. -/
theorem careless_conflict :
    conflictAt (tokenizeC T (fun m => if m = 1 then .two careless passFailureB else F m) ⟨true⟩ 9 0 ctx 0
      ⟨[], [], [[]]⟩ Borrows.free) = some (.token 1) := by
  decide +kernel

/-- Calling the engine from a callback while a scope is held for reading is a conflict if the
matcher stores something. -/
theorem holding_conflict :
    conflictAt (tokenizeC (fun | 0 => .map 1 successIsFine passFailure | _ => .equals "E".toList false (.str "a".toList))
      (fun _ => .two (fun t k c sc => Held.share (.names sc) (execC (fun | 0 => .store 1 "s".toList false | _ => .equals "E".toList false (.str "a".toList))
        F ⟨true⟩ 5 0 k c sc >>= fun _ => successIsFineB t k c sc)) passFailureB) ⟨true⟩ 9 0 ctx 0
      ⟨[], [], [[]]⟩ Borrows.free) = some (.names 0) := by
  decide +kernel

/-- A header with a bad version. -/
def header : State :=
  let k (n v : String) (c : List TokId) : Token := { (Token.mk' ⟨"version=x".toList, []⟩ n.toList ⟨0, 0⟩).setValue v.toList with children := c }
  ⟨[k "AdextopaScope" "" [1], k "Attributes" "" [2], k "Attribute" "" [3, 4], k "Identifier" "version" [], k "Value" "x" []], [], []⟩

example : BRes.holds (Script.adextopaScopeDoneB 0 0 ctx 0 header Borrows.free) (fun r s =>
    r == .ok (.token 5) && s.toks.length == 6) := by
  decide +kernel

/-- Were an attribute the token itself, that would be a conflict: the tree is needed. -/
theorem tree_needed :
    conflictAt (Script.adextopaScopeDoneB 0 0 ctx 0
      { header with toks := header.toks.modify 2 fun k => { k with children := [0, 4] } } Borrows.free) = some (.token 0) := by
  decide +kernel

end CallbackExample

end Adx
