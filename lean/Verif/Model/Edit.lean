import Verif.Model.Script
/-
  The parts of the `Matcher` trait and of the parser context that a user composes and
  registers matchers with.
-/
namespace Adx

/-- `get_children` (`equals.rs:157-159`, `matches.rs:134-136`, `sequence.rs:263-265`,
`program.rs:906-908`, `optional.rs:67-69`, `not.rs:83-85`, `discard.rs:186-188`,
`proxy_children.rs:98-100`, `expand_range.rs:97-99`, `catch.rs:92-94`, `map.rs:135-137`,
`store.rs:115-120`, `fetch.rs:152-154`, `ref.rs:122-124`, `register.rs:65-67`,
`set_scope.rs:91-93`, `pin.rs:403-408`, `debug.rs:124-129`, `break.rs:54-56`,
`null.rs:51-53`, `panic.rs:67-69`, `error.rs:91-93`). -/
def Node.children : Node → Option (List MatcherId)
  | .program ps _ _ _ _ => some ps
  | .optional m => some [m]
  | .not m => some [m]
  | .discard m => some [m]
  | .proxyChildren m _ _ => some [m]
  | .expandRange m => some [m]
  | .catch_ m _ => some [m]
  | .map m _ _ => some [m]
  | .store m _ _ => some [m]
  | .register ps => some ps
  | .setScope _ m => some [m]
  | .pin (some m) _ _ _ => some [m]
  | .debug (some m) _ => some [m]
  | _ => none

/-- `StorePattern::new_as_matcher_type` (`src/matchers/store.rs:35-45`).  `none` is a panic. -/
def newStore (name : Str) (m : MatcherId) : Option Node :=
  if name.contains '.' then none else some (.store m name true)

/-- `StorePattern::new_as_string_type` (`src/matchers/store.rs:23-33`).  `none` is a panic. -/
def newStoreStr (name v : Str) : Option Node :=
  if name.contains '.' then none else some (.storeStr v name true)

/-- `set_child` of a matcher with a single place for a matcher: `if index > 0 { panic!(..) }`. -/
def onlyChild (i : Nat) (nd : Node) : Option Node := if i > 0 then none else some nd

/-- `set_child` (`program.rs:898-904`, `optional.rs:59-65`, `not.rs:75-81`,
`discard.rs:178-184`, `proxy_children.rs:90-96`, `expand_range.rs:89-95`, `catch.rs:84-90`,
`map.rs:127-133`, `set_scope.rs:83-89`, `debug.rs:116-122`); the others have the default
(`src/matcher.rs:58-63`).  `none` is a panic. -/
def Node.setChild (i : Nat) (x : MatcherId) : Node → Option Node
  | .program ps n c it f => if i ≥ ps.length then none else some (.program (ps.set i x) n c it f)
  | .optional _ => onlyChild i (.optional x)
  | .not _ => onlyChild i (.not x)
  | .discard _ => onlyChild i (.discard x)
  | .proxyChildren _ n c => onlyChild i (.proxyChildren x n c)
  | .expandRange _ => onlyChild i (.expandRange x)
  | .catch_ _ f => onlyChild i (.catch_ x f)
  | .map _ sf ff => onlyChild i (.map x sf ff)
  | .setScope sc _ => onlyChild i (.setScope sc x)
  | .debug _ d => onlyChild i (.debug (some x) d)
  | _ => none

/-- `matcher.borrow_mut().set_child(i, x)`. -/
def C.setChild (m : MatcherId) (i : Nat) (x : MatcherId) : C Unit := fun _ ns =>
  match ns[m]? with
  | none => .panic "dangling matcher reference"
  | some nd =>
    match nd.setChild i x with
    | some nd' => .ok () (ns.set m nd')
    | none => .panic "set_child"

/-- `register_matcher_with_name` (`src/parser_context.rs:279-284`). -/
def registerMatcherWithName (c : Ctx) (n : Str) (m : MatcherId) (s : State) : State :=
  s.bindVar c.scope n (.matcher m)

/-- `register_matcher` (`src/parser_context.rs:286-290`). -/
def registerMatcher (T : Table) (c : Ctx) (m : MatcherId) (s : State) : State :=
  registerMatcherWithName c (T m).name m s

/-- `register_matchers` (`src/parser_context.rs:256-266`). -/
def registerMatchers (T : Table) (c : Ctx) : List MatcherId → State → State
  | [], s => s
  | m :: ms, s => registerMatchers T c ms (s.bindVar c.scope (T m).name (.matcher m))

/-- `register_matchers_with_names` (`src/parser_context.rs:268-277`).  The names are the
keys of a `HashMap`; the list is the order in which it is iterated. -/
def registerMatchersWithNames (c : Ctx) : List (Str × MatcherId) → State → State
  | [], s => s
  | (n, m) :: ms, s => registerMatchersWithNames c ms (s.bindVar c.scope n (.matcher m))

/-- `get_registered_matcher` (`src/parser_context.rs:292-297`). -/
def getRegisteredMatcher (c : Ctx) (n : Str) (s : State) : Option MatcherId :=
  match s.lookup c.scope n with
  | some (.matcher m) => some m
  | _ => none

end Adx
