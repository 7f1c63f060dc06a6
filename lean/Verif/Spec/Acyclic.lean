import Verif.Model.MatcherPrint
import Verif.Spec.Scopes
/-
  References among matchers and scopes: without lists of them, and without depths.
-/
namespace Adx

/-- One of the variables of a scope context is the matcher `x`, in any scope of its stack, whether it
can be seen or not. -/
def State.Binds (s : State) (k : SCtxId) (x : MatcherId) : Prop :=
  ∃ st i n, s.sctxs[k]? = some st ∧ i ∈ st ∧ AMap.get (s.scopes[i]?.getD []) n = some (.matcher x)

/-- One of the fields of a matcher is a reference to the matcher `x`. -/
inductive Node.Refers : Node → MatcherId → Prop
  | equals {n c x} : Refers (.equals n c (.matcher x)) x
  | opening {n c x e k} : Refers (.sequence n c (.matcher x) e k) x
  | closing {n c b x k} : Refers (.sequence n c b (.matcher x) k) x
  | escape {n c b e x} : Refers (.sequence n c b e (.matcher x)) x
  | program {ps n c i f x} (h : x ∈ ps) : Refers (.program ps n c i f) x
  | optional {x} : Refers (.optional x) x
  | not {x} : Refers (.not x) x
  | discard {x} : Refers (.discard x) x
  | proxyChildren {x n c} : Refers (.proxyChildren x n c) x
  | expandRange {x} : Refers (.expandRange x) x
  | catch_ {x f} : Refers (.catch_ x f) x
  | map {x sf ff} : Refers (.map x sf ff) x
  | store {x n c} : Refers (.store x n c) x
  | ref {x n c} : Refers (.ref (.matcher x) n c) x
  | register {ps x} (h : x ∈ ps) : Refers (.register ps) x
  | setScope {k x} : Refers (.setScope k x) x
  | pinned {x o n c} : Refers (.pin (some x) o n c) x
  | offset {m x n c} : Refers (.pin m (.matcher x) n c) x
  | debug {x k} : Refers (.debug (some x) k) x

/-- The first refers to the second. -/
inductive Holds (T : Table) (s : State) : Obj → Obj → Prop
  | part {m x} (h : (T m).Refers x) : Holds T s (.mat m) (.mat x)
  | scope {m k b} (h : T m = .setScope (some k) b) : Holds T s (.mat m) (.ctx k)
  | var {k x} (h : s.Binds k x) : Holds T s (.ctx k) (.mat x)

/-- All chains of references that start here come to an end. -/
inductive Bounded (T : Table) (s : State) : Obj → Prop
  | mk {o} (h : ∀ o', Holds T s o o' → Bounded T s o') : Bounded T s o

/-- A chain of references, of one or more. -/
inductive HoldsPath (T : Table) (s : State) : Obj → Obj → Prop
  | one {o o'} (h : Holds T s o o') : HoldsPath T s o o'
  | more {o o' o''} (h : Holds T s o o') (hs : HoldsPath T s o' o'') : HoldsPath T s o o''

/-- A matcher that can work in the context `k`: each context that is in it is one of `D` and ranks lower
than the context in which it is entered.  There is no `SetScope` that only adds a scope. -/
inductive Layered (T : Table) (ρ : SCtxId → Nat) (D : SCtxId → Prop) : SCtxId → MatcherId → Prop
  | plain {k m} (hs : ∀ j b, T m ≠ .setScope j b) (h : ∀ x, (T m).Refers x → Layered T ρ D k x) : Layered T ρ D k m
  | scope {k m j b} (hm : T m = .setScope (some j) b) (hj : D j) (hr : ρ j < ρ k) (hb : Layered T ρ D j b) :
      Layered T ρ D k m

/-- All matchers in the contexts of `D` can work there. -/
structure InLayers (T : Table) (ρ : SCtxId → Nat) (D : SCtxId → Prop) (s : State) : Prop where
  ok : ScopesOK s
  live : ∀ k, D k → k < s.sctxs.length
  vars : ∀ k, D k → ∀ x, s.Binds k x → Layered T ρ D k x

/-- The callbacks of a matcher change tokens, if anything. -/
def Node.LeavesScopes : Node → Prop
  | .catch_ _ f => ∀ c e s r s', f c e s = .ok r s' → ∃ ts, s' = { s with toks := ts }
  | .map _ sf ff => (∀ t c sc s r s', sf t c sc s = .ok r s' → ∃ ts, s' = { s with toks := ts }) ∧
      ∀ e c sc s r s', ff e c sc s = .ok r s' → ∃ ts, s' = { s with toks := ts }
  | _ => True

end Adx
