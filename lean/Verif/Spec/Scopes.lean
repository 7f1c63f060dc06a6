import Verif.Model.Core
/-
  Variables, abstractly: each scope context is a stack (innermost first) of partial
  functions from names to values.
-/
namespace Adx

/-- The abstract contents of all scope contexts. -/
abbrev Views := SCtxId → List (Str → Option Var)

/-- What a sequence of variable operations may do. -/
inductive SOp
  | push (sc : SCtxId)
  | pop (sc : SCtxId)
  | set (sc : SCtxId) (k : Str) (v : Var)

/-- Bind a name in the innermost scope; there is one from the first binding on. -/
def viewSet (st : List (Str → Option Var)) (k : Str) (v : Var) : List (Str → Option Var) :=
  match st with
  | [] => [fun x => if x = k then some v else none]
  | f :: st => (fun x => if x = k then some v else f x) :: st

/-- The value in the innermost scope that has the name. -/
def viewGet : List (Str → Option Var) → Str → Option Var
  | [], _ => none
  | f :: st, k =>
    match f k with
    | some v => some v
    | none => viewGet st k

/-- One abstract step. -/
def Views.step (w : Views) : SOp → Views
  | .push sc => fun i => if i = sc then (fun _ => none) :: w i else w i
  | .pop sc => fun i => if i = sc then (w i).tail else w i
  | .set sc k v => fun i => if i = sc then viewSet (w i) k v else w i

/-- The scope context an operation works on. -/
def SOp.ctx : SOp → SCtxId
  | .push sc => sc
  | .pop sc => sc
  | .set sc _ _ => sc

/-- One concrete step. -/
def State.scopeStep (s : State) : SOp → State
  | .push sc => s.pushScope sc
  | .pop sc => s.popScope sc
  | .set sc k v => s.bindVar sc k v

/-- Reading the abstract contents off the heap. -/
def State.views (s : State) : Views := fun sc =>
  (s.sctxs[sc]?.getD []).map (fun i k => AMap.get (s.scopes[i]?.getD []) k)

/-- Scope references are valid and no scope is in two places. -/
structure ScopesOK (s : State) : Prop where
  valid : ∀ (sc : SCtxId) (st : List ScopeId), s.sctxs[sc]? = some st → ∀ i ∈ st, i < s.scopes.length
  nodup : ∀ (sc : SCtxId) (st : List ScopeId), s.sctxs[sc]? = some st → st.Nodup
  apart : ∀ (sc sc' : SCtxId) (st st' : List ScopeId), s.sctxs[sc]? = some st → s.sctxs[sc']? = some st' → sc ≠ sc' →
    ∀ i ∈ st, i ∉ st'

end Adx
