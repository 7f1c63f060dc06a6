import Verif.Model.Exec
/-
  The macros that build matchers (`src/matchers/*.rs`, `macro_rules!`), and the
  callbacks of the macros that expand to `Map!`.
-/
namespace Adx

/-- `get_range` (`src/matchers/program.rs:12-27`) on a `RangeBounds<usize>`; the
bounds are given as in Rust.  An *inclusive* end bound is ignored. -/
inductive Bound
  | included (n : Nat)
  | excluded (n : Nat)
  | unbounded
deriving DecidableEq, Repr

@[inherit_doc Bound]
def getRange (lo hi : Bound) : Nat × Nat :=
  (match lo with | .included n => n | _ => 0,
   match hi with | .excluded n => n | _ => usizeMax)

/-- Building a matcher graph: the list of the nodes allocated so far. -/
abbrev B := StateM (List Node)

/-- `Rc::new(RefCell::new(Box::new(matcher)))`. -/
def B.mk (n : Node) : B MatcherId := fun ns => (ns.length, ns ++ [n])

/-- The matcher table of a list of nodes; references out of the list (impossible
in Rust) do nothing. -/
def tableOf (ns : List Node) : Table := fun i => ns[i]?.getD .null

/-- `FatalIf!` success callback (`src/matchers/fatal_if.rs:6-17`). -/
def fatalIfOk (msg : Str) (t : TokId) (c : Ctx) (_ : SCtxId) : M R := do
  let tk ← getTok t
  let m ← M.ofOpt "get_error_as_string: slice" (c.errorString msg tk.matched)
  pure (.err (.error ⟨m, some tk.matched⟩))

/-- Failure callback of `FatalIf!` and `AssertIf!` (`src/matchers/fatal_if.rs:18-28`,
`src/matchers/assert_if.rs:29-39`). -/
def failureIsFine (f : Failure) (_ : Ctx) (_ : SCtxId) : M R :=
  match f with
  | .fail => pure (.ok (.skip 0))
  | .error e => pure (.err (.error e))

/-- Success callback of `FatalIfNot!` and `AssertIfNot!`
(`src/matchers/fatal_if_not.rs:6-11`, `src/matchers/assert_if_not.rs:20-25`). -/
def successIsFine (_ : TokId) (_ : Ctx) (_ : SCtxId) : M R := pure (.ok (.skip 0))

/-- `FatalIfNot!` failure callback (`src/matchers/fatal_if_not.rs:12-30`). -/
def fatalIfNotErr (msg : Str) (f : Failure) (c : Ctx) (_ : SCtxId) : M R :=
  match f with
  | .fail => do
    let m ← M.ofOpt "get_error_as_string: slice" (c.errorString msg c.offset)
    pure (.err (.error ⟨m, some c.offset⟩))
  | .error e => pure (.err (.error e))

/-- `AssertIf!` success callback (`src/matchers/assert_if.rs:20-28`). -/
def assertIfOk (msg : Str) (t : TokId) (c : Ctx) (_ : SCtxId) : M R := do
  let tk ← getTok t
  let e ← newErrorTokenWithRange c msg tk.matched
  pure (.ok (.token e))

/-- `AssertIfNot!` failure callback (`src/matchers/assert_if_not.rs:26-45`). -/
def assertIfNotErr (msg : Str) (f : Failure) (c : Ctx) (_ : SCtxId) : M R :=
  match f with
  | .fail => do
    let e ← newErrorTokenWithRange c msg ⟨c.offset.start, c.offset.start⟩
    pure (.ok (.token e))
  | .error e => pure (.err (.error e))

/-- Failure callback of `Map!` with one callback (`src/matchers/map.rs`, macro):
pass the failure on. -/
def passFailure (f : Failure) (_ : Ctx) (_ : SCtxId) : M R := pure (.err f)

namespace B

/-- `Equals!(s)` (`src/matchers/equals.rs:42-49`). -/
def equals (s : String) : B MatcherId := mk (.equals "Equals".toList false (.str s.toList))
/-- `Equals!(Fetch!(s))`. -/
def equalsFetch (s : String) : B MatcherId := mk (.equals "Equals".toList false (.fetch s.toList))
/-- `Equals!(name; s)` (`src/matchers/equals.rs:51-57`). -/
def equalsN (name s : String) : B MatcherId := mk (.equals name.toList true (.str s.toList))
/-- `Matches!(re)` (`src/matchers/matches.rs:19-25`). -/
def regex (r : Regex) : B MatcherId := mk (.regex "Matches".toList false r)
/-- `Matches!(name; re)` (`src/matchers/matches.rs:27-33`). -/
def regexN (name : String) (r : Regex) : B MatcherId := mk (.regex name.toList true r)
/-- `Sequence!(a, b, e)` (`src/matchers/sequence.rs:48-56`). -/
def sequence (a b e : String) : B MatcherId :=
  mk (.sequence "Sequence".toList false (.str a.toList) (.str b.toList) (.str e.toList))
/-- `Sequence!(name; a, b, e)` (`src/matchers/sequence.rs:58-66`). -/
def sequenceN (name a b e : String) : B MatcherId :=
  mk (.sequence name.toList true (.str a.toList) (.str b.toList) (.str e.toList))
/-- `Program!(..)` (`src/matchers/program.rs:66-79`). -/
def program (ps : List (B MatcherId)) : B MatcherId := do
  let ps ← ps.mapM id
  mk (.program ps "Program".toList false none false)
/-- `Program!(name; ..)`. -/
def programN (name : String) (ps : List (B MatcherId)) : B MatcherId := do
  let ps ← ps.mapM id
  mk (.program ps name.toList true none false)
/-- `Switch!(..)` (`src/matchers/program.rs:66-79`). -/
def switch (ps : List (B MatcherId)) : B MatcherId := do
  let ps ← ps.mapM id
  mk (.program ps "Switch".toList false none true)
/-- `Switch!(name; ..)`. -/
def switchN (name : String) (ps : List (B MatcherId)) : B MatcherId := do
  let ps ← ps.mapM id
  mk (.program ps name.toList true none true)
/-- `Loop!(lo..hi; ..)` (`src/matchers/program.rs:81-92`). -/
def loop (ps : List (B MatcherId)) (lo : Bound := .included 0) (hi : Bound := .unbounded) :
    B MatcherId := do
  let ps ← ps.mapM id
  mk (.program ps "Loop".toList false (some (getRange lo hi)) false)
/-- `Loop!(lo..hi; name; ..)`. -/
def loopN (name : String) (ps : List (B MatcherId)) (lo : Bound := .included 0)
    (hi : Bound := .unbounded) : B MatcherId := do
  let ps ← ps.mapM id
  mk (.program ps name.toList true (some (getRange lo hi)) false)
/-- `Optional!(m)`. -/
def optional (m : B MatcherId) : B MatcherId := do mk (.optional (← m))
/-- `Not!(m)`. -/
def not (m : B MatcherId) : B MatcherId := do mk (.not (← m))
/-- `Discard!(m)`. -/
def discard (m : B MatcherId) : B MatcherId := do mk (.discard (← m))
/-- `ProxyChildren!(m)` (`src/matchers/proxy_children.rs:15-21`). -/
def proxyChildren (m : B MatcherId) : B MatcherId := do
  mk (.proxyChildren (← m) "Flatten".toList false)
/-- `ProxyChildren!(name; m)`. -/
def proxyChildrenN (name : String) (m : B MatcherId) : B MatcherId := do
  mk (.proxyChildren (← m) name.toList true)
/-- `ExpandRange!(m)`. -/
def expandRange (m : B MatcherId) : B MatcherId := do mk (.expandRange (← m))
/-- `Catch!(m, f)`. -/
def catch_ (m : B MatcherId) (f : Ctx → Failure → M R) : B MatcherId := do mk (.catch_ (← m) f)
/-- `Map!(m, sf)`. -/
def map (m : B MatcherId) (sf : TokId → Ctx → SCtxId → M R) : B MatcherId := do
  mk (.map (← m) sf passFailure)
/-- `FatalIf!(m, msg)`. -/
def fatalIf (m : B MatcherId) (msg : String) : B MatcherId := do
  mk (.map (← m) (fatalIfOk msg.toList) failureIsFine)
/-- `FatalIfNot!(m, msg)`. -/
def fatalIfNot (m : B MatcherId) (msg : String) : B MatcherId := do
  mk (.map (← m) successIsFine (fatalIfNotErr msg.toList))
/-- `AssertIf!(m, msg)`. -/
def assertIf (m : B MatcherId) (msg : String) : B MatcherId := do
  mk (.map (← m) (assertIfOk msg.toList) failureIsFine)
/-- `AssertIfNot!(m, msg)`. -/
def assertIfNot (m : B MatcherId) (msg : String) : B MatcherId := do
  mk (.map (← m) successIsFine (assertIfNotErr msg.toList))
/-- `Store!(name; m)` (`src/matchers/store.rs:35-45`). -/
def store (name : String) (m : B MatcherId) : B MatcherId := do mk (.store (← m) name.toList true)
/-- `Store!(name; "s")` (`src/matchers/store.rs:23-33`). -/
def storeStr (name s : String) : B MatcherId := mk (.storeStr s.toList name.toList true)
/-- `Ref!(s)` (`src/matchers/ref.rs:42-48`). -/
def ref (s : String) : B MatcherId := mk (.ref (.str s.toList) "Ref".toList false)
/-- `Register!(..)`. -/
def register (ps : List (B MatcherId)) : B MatcherId := do
  let ps ← ps.mapM id
  mk (.register ps)
/-- `SetScope!(m)`. -/
def setScope (m : B MatcherId) : B MatcherId := do mk (.setScope none (← m))
/-- `SetScope!(k, m)`. -/
def setScopeTo (k : SCtxId) (m : B MatcherId) : B MatcherId := do mk (.setScope (some k) (← m))
/-- `Pin!(name, offset; m)` (`src/matchers/pin.rs:310-317`). -/
def pinN (name : String) (offset : Fetchable) (m : B MatcherId) : B MatcherId := do
  mk (.pin (some (← m)) offset name.toList true)
/-- `Pin!()` (`src/matchers/pin.rs:301-308`). -/
def pin : B MatcherId := mk (.pin none (.str []) "Pin".toList false)
/-- `Debug!(m)` (`src/matchers/debug.rs:14-22`). -/
def debug (m : B MatcherId) : B MatcherId := do mk (.debug (some (← m)) 1)
/-- `Break!(s)`. -/
def brk (s : String := "") : B MatcherId := mk (.brk s.toList)
/-- `Null!()`. -/
def null : B MatcherId := mk .null
/-- `Panic!(s)`. -/
def panic (s : String) : B MatcherId := mk (.panic s.toList)
/-- `Error!(s)`. -/
def error (s : String) : B MatcherId := mk (.error s.toList)

end B

end Adx
