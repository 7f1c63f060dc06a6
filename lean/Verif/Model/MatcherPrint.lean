import Verif.Model.Matcher
/-
  What matchers and scopes refer to, and how far printing them goes.

  `to_string` of every matcher is `format!("{:?}", self)` (`src/matchers/*.rs`: equals 165-167,
  matches 142-144, sequence 271-273, program 914-916, optional 75-77, not 91-93, discard 194-196,
  proxy_children 106-108, expand_range 105-107, catch 100-102, map 143-145, store 126-128,
  fetch 160-162, ref 130-132, register 73-75, set_scope 99-101, pin 414-416, debug 135-137,
  break 62-64, null 59-61, panic 75-77, error 99-101), and `{:?}` of a `MatcherRef` is the
  `to_string` of the matcher (`src/matcher.rs:29-33`).  The `Debug` of a matcher writes all its
  fields, derived or by hand (catch 15-24, equals 23-35, map 19-30, sequence 25-40, expand_range 12-18,
  program 43-63, ref 22-34), only leaving out callbacks.  The `Debug` of `ScopeContext`, `Scope` and
  `VariableType` is derived (`src/scope_context.rs:7`, `src/scope.rs:5,14`).  So printing follows all
  references to matchers and scope contexts, wherever they lead.

  Of the text only the order of the matchers and contexts in it is modelled.  A variable that is a token
  is printed as a token (`Model/Print`), from where no matcher or scope can be reached.
-/
namespace Adx

/-- A matcher or a scope context. -/
inductive Obj
  | mat (m : MatcherId)
  | ctx (k : SCtxId)
deriving DecidableEq, Repr

/-- The matcher in a `Fetchable` (`src/matchers/fetch.rs:95-99`). -/
def Fetchable.parts : Fetchable → List MatcherId
  | .matcher m => [m]
  | _ => []

/-- The fields of type `MatcherRef`, in the order in which they are printed. -/
def Node.parts : Node → List MatcherId
  | .equals _ _ p => p.parts
  | .sequence _ _ a b e => a.parts ++ b.parts ++ e.parts
  | .program ps _ _ _ _ => ps
  | .optional m => [m]
  | .not m => [m]
  | .discard m => [m]
  | .proxyChildren m _ _ => [m]
  | .expandRange m => [m]
  | .catch_ m _ => [m]
  | .map m _ _ => [m]
  | .store m _ _ => [m]
  | .ref t _ _ => t.parts
  | .register ps => ps
  | .setScope _ m => [m]
  | .pin m o _ _ => m.toList ++ o.parts
  | .debug m _ => m.toList
  | _ => []

/-- The field of type `ScopeContextRef` (`src/matchers/set_scope.rs:10`). -/
def Node.context : Node → Option SCtxId
  | .setScope k _ => k
  | _ => none

/-- The matchers among the values of a scope (`src/scope.rs:14-17`). -/
def Scope.parts (v : Scope) : List MatcherId :=
  v.filterMap fun e =>
    match AMap.get v e.1 with
    | some (.matcher m) => some m
    | _ => none

/-- All references of a matcher or scope context, in the order in which they are printed. -/
def Obj.refs (T : Table) (s : State) : Obj → List Obj
  | .mat m => (T m).context.toList.map .ctx ++ (T m).parts.map .mat
  | .ctx k => ((s.sctxs[k]?.getD []).reverse.flatMap fun i => Scope.parts (s.scopes[i]?.getD [])).map .mat

/-- One after the other. -/
def printList (f : Obj → Option (List Obj)) : List Obj → Option (List Obj)
  | [] => some []
  | o :: os =>
    match f o with
    | none => none
    | some a => (printList f os).map (a ++ ·)

/-- `format!("{:?}", ..)` of a matcher or scope context: the matchers and scope contexts that are
in the text, in order.  `none` if they are nested deeper than the bound. -/
def printObj (T : Table) (s : State) : Nat → Obj → Option (List Obj)
  | 0, _ => none
  | d + 1, o => (printList (printObj T s d) (o.refs T s)).map (o :: ·)

end Adx
