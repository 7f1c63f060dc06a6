import Verif.Model.Context
/-
  The matchers, one constructor per matcher type of `src/matchers/*.rs`.

  Matchers live behind `Rc<RefCell<Box<dyn Matcher>>>` and may form cyclic graphs
  (through `Ref` and through scopes), so a matcher is an index into a table
  `MatcherId → Node`.
-/
namespace Adx

/-- `Fetchable` (`src/matchers/fetch.rs:11-99`): a literal string, a `Fetch!`, or
a matcher reference. -/
inductive Fetchable
  | str (s : Str)
  | fetch (name : Str)
  | matcher (m : MatcherId)
deriving DecidableEq, Repr

/-- The result of a match on a matcher's closure or body. -/
abbrev ExecFn := MatcherId → Ctx → SCtxId → M R

/-- One matcher. -/
inductive Node
  /-- `EqualsPattern` (`src/matchers/equals.rs:13-21`). -/
  | equals (name : Str) (custom : Bool) (pat : Fetchable)
  /-- `MatchesPattern` (`src/matchers/matches.rs:11-16`). -/
  | regex (name : Str) (custom : Bool) (re : Regex)
  /-- `SequencePattern` (`src/matchers/sequence.rs:13-23`). -/
  | sequence (name : Str) (custom : Bool) (start stop escape : Fetchable)
  /-- `ProgramPattern` (`src/matchers/program.rs:35-41`): `Program!`
  (`iter = none`, `firstStop = false`), `Switch!` (`firstStop = true`), `Loop!`
  (`iter = some (start, end)`). -/
  | program (patterns : List MatcherId) (name : Str) (custom : Bool)
      (iter : Option (Nat × Nat)) (firstStop : Bool)
  /-- `OptionalPattern` (`src/matchers/optional.rs:7-10`). -/
  | optional (m : MatcherId)
  /-- `NotPattern` (`src/matchers/not.rs:8-11`). -/
  | not (m : MatcherId)
  /-- `DiscardPattern` (`src/matchers/discard.rs:10-13`). -/
  | discard (m : MatcherId)
  /-- `ProxyChildrenPattern` (`src/matchers/proxy_children.rs:7-12`). -/
  | proxyChildren (m : MatcherId) (name : Str) (custom : Bool)
  /-- `ExpandRange` (`src/matchers/expand_range.rs:8-10`). -/
  | expandRange (m : MatcherId)
  /-- `CatchPattern` (`src/matchers/catch.rs:7-13`). -/
  | catch_ (m : MatcherId) (f : Ctx → Failure → M R)
  /-- `MapPattern` (`src/matchers/map.rs:8-17`); `failure_func` is always `Some`
  (line 44). -/
  | map (m : MatcherId) (sf : TokId → Ctx → SCtxId → M R) (ff : Failure → Ctx → SCtxId → M R)
  /-- `StorePattern` with `StorePatternType::Matcher` (`src/matchers/store.rs:9-20`). -/
  | store (m : MatcherId) (name : Str) (custom : Bool)
  /-- `StorePattern` with `StorePatternType::String` (`src/matchers/store.rs:9-20`). -/
  | storeStr (value : Str) (name : Str) (custom : Bool)
  /-- `FetchPattern` used as a matcher (`src/matchers/fetch.rs:101-104`). -/
  | fetch (name : Str)
  /-- `RefPattern` (`src/matchers/ref.rs:12-20`). -/
  | ref (target : Fetchable) (name : Str) (custom : Bool)
  /-- `RegisterPattern` (`src/matchers/register.rs:9-12`). -/
  | register (patterns : List MatcherId)
  /-- `SetScopePattern` (`src/matchers/set_scope.rs:8-12`). -/
  | setScope (scope : Option SCtxId) (m : MatcherId)
  /-- `PinPattern` (`src/matchers/pin.rs:283-293`). -/
  | pin (m : Option MatcherId) (offset : Fetchable) (name : Str) (custom : Bool)
  /-- `DebugPattern` (`src/matchers/debug.rs:7-11`). -/
  | debug (m : Option MatcherId) (mode : Nat)
  /-- `BreakPattern` (`src/matchers/break.rs:8-11`). -/
  | brk (loopName : Str)
  /-- `NullPattern` (`src/matchers/null.rs:8-9`). -/
  | null
  /-- `PanicPattern` (`src/matchers/panic.rs:10-13`). -/
  | panic (message : Str)
  /-- `ErrorPattern` (`src/matchers/error.rs:47-50`). -/
  | error (message : Str)

/-- All matchers of a program, by reference. -/
abbrev Table := MatcherId → Node

namespace Node

/-- `get_name` of each matcher (`src/matchers/*.rs`: equals 148-150, matches
125-127, sequence `name`, program 889-891, optional 50-52, not 66-68, discard
169-171, proxy_children 81-83, expand_range 80-82 (`"Catch"`), catch `"Catch"`,
map 118-120, store 106-108, fetch 144-146, ref 113-115, register 57-59,
set_scope 74-76, pin 394-396, debug 104-106, break 46-48, null 43-45, panic
59-61 (`"Error"`), error 83-85). -/
def name : Node → Str
  | equals n _ _ => n
  | regex n _ _ => n
  | sequence n _ _ _ _ => n
  | program _ n _ _ _ => n
  | optional _ => "Optional".toList
  | not _ => "Not".toList
  | discard _ => "Discard".toList
  | proxyChildren _ n _ => n
  | expandRange _ => "Catch".toList
  | catch_ _ _ => "Catch".toList
  | map _ _ _ => "Map".toList
  | store _ n _ => n
  | storeStr _ n _ => n
  | fetch n => n
  | ref _ n _ => n
  | register _ => "Register".toList
  | setScope _ _ => "SetScope".toList
  | pin _ _ n _ => n
  | debug _ _ => "Debug".toList
  | brk _ => "Break".toList
  | null => "Null".toList
  | panic _ => "Error".toList
  | error _ => "Error".toList

/-- `has_custom_name` (default false, `src/matcher.rs:65-67`; overridden by the
matchers with a `custom_name` field). -/
def hasCustomName : Node → Bool
  | equals _ c _ => c
  | regex _ c _ => c
  | sequence _ c _ _ _ => c
  | program _ _ c _ _ => c
  | proxyChildren _ _ c => c
  | store _ _ c => c
  | storeStr _ _ c => c
  | ref _ _ c => c
  | pin _ _ _ c => c
  | _ => false

/-- `is_consuming` (default true, `src/matcher.rs:69-71`; false for `Null`
(`null.rs:39-41`), `Register` (`register.rs:53-55`), `Fetch` (`fetch.rs:136-138`),
`Pin` (`pin.rs:386-388`) and a string `Store` (`store.rs:95-100`)). -/
def isConsuming : Node → Bool
  | null => false
  | register _ => false
  | fetch _ => false
  | pin _ _ _ _ => false
  | storeStr _ _ _ => false
  | _ => true

end Node

end Adx
