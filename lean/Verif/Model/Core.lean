import Verif.Model.Str
/-
  Source ranges, tokens, scopes, the heap, and the result monad.
-/
namespace Adx

/-- `Parser` (`src/parser.rs:5-10`): the source text and a file name.  Both are
`pub(crate)` and never mutated after construction. -/
structure Parser where
  src : Str
  filename : Str
deriving DecidableEq, Repr

/-- `SourceRange` (`src/source_range.rs:5-9`). -/
structure Range where
  start : Nat
  stop : Nat
deriving DecidableEq, Repr

namespace Range

/-- `SourceRange::new_blank` (`src/source_range.rs:16-18`). -/
def blank : Range := ⟨0, 0⟩

/-- `SourceRange::to_string` (`src/source_range.rs:20-26`). -/
def text (r : Range) (p : Parser) : Str := substring p.src r.start r.stop

/-- `SourceRange::clone_with_len` (`src/source_range.rs:28-33`).  Overflow is not
modelled: the only caller (`matches_str`) has just matched `len` bytes inside the
source, so `start + len` is at most the source length. -/
def cloneWithLen (r : Range) (len : Nat) : Range := ⟨r.start, r.start + len⟩

/-- `contain_source_range` (`src/matchers/program.rs:574-582`): grow `t` so that
it covers `s`. -/
def contain (t s : Range) : Range :=
  { start := if s.start < t.start then s.start else t.start
    stop := if s.stop > t.stop then s.stop else t.stop }

end Range

/-- `TokenRef = Rc<RefCell<Box<dyn Token>>>` (`src/token.rs:16`): a reference into
the token heap. -/
abbrev TokId := Nat
/-- `MatcherRef = Rc<RefCell<Box<dyn Matcher>>>` (`src/matcher.rs:27`). -/
abbrev MatcherId := Nat
/-- `ScopeRef` (`src/scope.rs:12`). -/
abbrev ScopeId := Nat
/-- `ScopeContextRef` (`src/scope_context.rs:5`). -/
abbrev SCtxId := Nat

/-- `TokenType = u8` (`src/token.rs:8`). -/
abbrev Flags := BitVec 8

/-- `IS_FAILURE`, `IS_ERROR`, `IS_WARNING` (`src/token.rs:10-12`). -/
def IS_FAILURE : Flags := 0x01#8
@[inherit_doc IS_FAILURE] def IS_ERROR : Flags := 0x02#8
@[inherit_doc IS_FAILURE] def IS_WARNING : Flags := 0x04#8

/-- The two token types of the crate: `StandardToken` (`src/token.rs:200-213`)
and `PinToken` (`src/matchers/pin.rs:66-79`).  User-defined `Token`
implementations are not modelled. -/
inductive TokKind
  | standard
  | pin
deriving DecidableEq, Repr

/-- The fields of `StandardToken` (`src/token.rs:200-213`) and of `PinToken`
(`src/matchers/pin.rs:66-79`), which are the same. -/
structure Token where
  kind : TokKind
  parser : Parser
  captured : Range
  matched : Range
  name : Str
  value : Option Str
  capturedValue : Str
  matchedValue : Str
  parent : Option TokId
  children : List TokId
  attributes : AMap Str
  flags : Flags
deriving DecidableEq, Repr

namespace Token

/-- `StandardToken::new_with_matched_range` (`src/token.rs:232-251`). -/
def mkMatched (p : Parser) (name : Str) (captured matched : Range) : Token :=
  { kind := .standard, parser := p, captured, matched, name, value := none,
    capturedValue := captured.text p, matchedValue := matched.text p,
    parent := none, children := [], attributes := [], flags := 0 }

/-- `StandardToken::new` (`src/token.rs:216-230`). -/
def mk' (p : Parser) (name : Str) (captured : Range) : Token :=
  mkMatched p name captured captured

/-- `PinToken::new_with_matched_range` (`src/matchers/pin.rs:98-117`). -/
def mkPin (p : Parser) (name : Str) (captured matched : Range) : Token :=
  { mkMatched p name captured matched with kind := .pin }

/-- `set_captured_range`: `adextopa_macros/src/lib.rs:31-34` for standard tokens
(the captured text is recomputed), `src/matchers/pin.rs:133-135` for pins (it is
not). -/
def setCaptured (t : Token) (r : Range) : Token :=
  match t.kind with
  | .standard => { t with captured := r, capturedValue := r.text t.parser }
  | .pin => { t with captured := r }

/-- `set_matched_range`: `adextopa_macros/src/lib.rs:44-47`,
`src/matchers/pin.rs:145-147`. -/
def setMatched (t : Token) (r : Range) : Token :=
  match t.kind with
  | .standard => { t with matched := r, matchedValue := r.text t.parser }
  | .pin => { t with matched := r }

/-- `get_attribute` (`adextopa_macros/src/lib.rs:127-129`,
`src/matchers/pin.rs:243-245`). -/
def getAttribute (t : Token) (k : Str) : Option Str := t.attributes.get k

/-- `has_attribute` (`src/token.rs:149-154`). -/
def hasAttribute (t : Token) (k : Str) : Bool := (t.getAttribute k).isSome

/-- `attribute_equals` (`adextopa_macros/src/lib.rs:131-136`). -/
def attributeEquals (t : Token) (k v : Str) : Bool :=
  match t.attributes.get k with
  | some v' => v' == v
  | none => false

/-- `set_attribute` (`adextopa_macros/src/lib.rs:138-140`,
`src/matchers/pin.rs:254-256`); the old value it returns is never used by the
crate and is dropped. -/
def setAttribute (t : Token) (k v : Str) : Token :=
  { t with attributes := t.attributes.insert k v }

/-- `get_captured_value`: `adextopa_macros/src/lib.rs:107-109` for standard tokens,
`src/matchers/pin.rs:207-217` for pins (where `__value` overrides). -/
def getCapturedValue (t : Token) : Str :=
  match t.kind with
  | .standard => t.capturedValue
  | .pin => (t.getAttribute "__value".toList).getD t.capturedValue

/-- `get_matched_value`: `adextopa_macros/src/lib.rs:115-117` for standard tokens,
`src/matchers/pin.rs:223-233` for pins (where `__matched_value` overrides). -/
def getMatchedValue (t : Token) : Str :=
  match t.kind with
  | .standard => t.matchedValue
  | .pin => (t.getAttribute "__matched_value".toList).getD t.matchedValue

/-- `get_value` (`adextopa_macros/src/lib.rs:84-97`, `src/matchers/pin.rs:184-197`):
the `__value` attribute, else the explicit value, else the captured text. -/
def getValue (t : Token) : Str :=
  match t.getAttribute "__value".toList with
  | some v => v
  | none =>
    match t.value with
    | some v => v
    | none => t.getCapturedValue

/-- `set_value` (`adextopa_macros/src/lib.rs:99-105`, `src/matchers/pin.rs:199-205`):
the empty string clears the explicit value. -/
def setValue (t : Token) (v : Str) : Token :=
  if v = [] then { t with value := none } else { t with value := some v }

/-- `set_captured_value` (`adextopa_macros/src/lib.rs:111-113`). -/
def setCapturedValue (t : Token) (v : Str) : Token := { t with capturedValue := v }

/-- `set_matched_value` (`adextopa_macros/src/lib.rs:119-121`). -/
def setMatchedValue (t : Token) (v : Str) : Token := { t with matchedValue := v }

/-- `set_name` (`adextopa_macros/src/lib.rs:53-55`). -/
def setName (t : Token) (n : Str) : Token := { t with name := n }

/-- `set_flags` (`adextopa_macros/src/lib.rs:146-148`). -/
def setFlags (t : Token) (f : Flags) : Token := { t with flags := f }

/-- `enable_flags` (`adextopa_macros/src/lib.rs:150-152`). -/
def enableFlags (t : Token) (f : Flags) : Token := { t with flags := t.flags ||| f }

/-- `disable_flags` (`adextopa_macros/src/lib.rs:154-156`). -/
def disableFlags (t : Token) (f : Flags) : Token := { t with flags := t.flags &&& ~~~f }

/-- `flags_enabled` (`adextopa_macros/src/lib.rs:158-160`): *any* of the flags. -/
def flagsEnabled (t : Token) (f : Flags) : Bool := (t.flags &&& f) != 0

/-- `should_discard`: `src/token.rs:195-197` (false), `src/matchers/pin.rs:278-280`
(true). -/
def shouldDiscard (t : Token) : Bool :=
  match t.kind with
  | .standard => false
  | .pin => true

/-- `PartialEq for dyn Token` (`src/token.rs:108-114`). -/
def sameAs (a b : Token) : Bool :=
  a.name == b.name && a.captured == b.captured && a.matched == b.matched

end Token

/-- `VariableType` (`src/scope.rs:5-10`). -/
inductive Var
  | token (t : TokId)
  | str (s : Str)
  | matcher (m : MatcherId)
deriving DecidableEq, Repr

/-- `Scope` (`src/scope.rs:14-17`): one map from names to values. -/
abbrev Scope := AMap Var

/-- The heap behind the `Rc<RefCell<_>>` references: tokens, scopes, and scope
contexts (a scope context, `src/scope_context.rs:7-10`, is a stack of references
to scopes; here the *head* of the list is the top of the stack, i.e. the last
element of the Rust `Vec`).  References are indices; nothing is ever freed. -/
structure State where
  toks : List Token
  scopes : List Scope
  sctxs : List (List ScopeId)
deriving DecidableEq, Repr

/-- `ParseError` (`src/parse_error.rs:3-7`). -/
structure ParseError where
  message : Str
  range : Option Range
deriving DecidableEq, Repr

/-- `MatcherSuccess` (`src/matcher.rs:10-19`). -/
inductive Success
  | token (t : TokId)
  | proxyChildren (t : TokId)
  | skip (n : Int)
  | brk (name : Str) (data : Success)
  | cont (name : Str) (data : Success)
  | none
  | stop
deriving DecidableEq, Repr

/-- `MatcherFailure` (`src/matcher.rs:21-25`). -/
inductive Failure
  | fail
  | error (e : ParseError)
deriving DecidableEq, Repr

/-- `Result<MatcherSuccess, MatcherFailure>` (`src/matcher.rs:46-51`). -/
inductive R
  | ok (s : Success)
  | err (f : Failure)
deriving DecidableEq, Repr

/-- What running a piece of Rust code can do: return a value (and a new heap),
panic, or recurse without end (`diverge`: the recursion depth allowed to the
model was not enough). -/
inductive Res (α : Type)
  | ok (a : α) (s : State)
  | panic (msg : String)
  | diverge
deriving Repr

/-- Heap-manipulating computations that may panic or diverge. -/
def M (α : Type) := State → Res α

namespace M

/-- Sequencing. -/
protected def bind {α β : Type} (x : M α) (f : α → M β) : M β := fun s =>
  match x s with
  | .ok a s' => f a s'
  | .panic m => .panic m
  | .diverge => .diverge

/-- Return. -/
protected def pure {α : Type} (a : α) : M α := fun s => .ok a s

instance : Monad M where
  pure := M.pure
  bind := M.bind

/-- A Rust panic. -/
def panic {α : Type} (msg : String) : M α := fun _ => .panic msg

/-- Unbounded recursion. -/
def diverge {α : Type} : M α := fun _ => .diverge

/-- A computation that panics on `none`. -/
def ofOpt {α : Type} (msg : String) (o : Option α) : M α :=
  match o with
  | some a => pure a
  | none => panic msg

/-- The current heap. -/
def getState : M State := fun s => .ok s s

end M

/-- `Rc::new(RefCell::new(Box::new(token)))`: allocate a token
(`src/token.rs:217`). -/
def newTok (t : Token) : M TokId := fun s =>
  .ok s.toks.length { s with toks := s.toks ++ [t] }

/-- `token.borrow()`.  A dangling reference (impossible in Rust) panics. -/
def getTok (i : TokId) : M Token := fun s =>
  match s.toks[i]? with
  | some t => .ok t s
  | none => .panic "dangling token reference"

/-- `*token.borrow_mut() = t`. -/
def setTok (i : TokId) (t : Token) : M Unit := fun s =>
  .ok () { s with toks := s.toks.set i t }

/-- Read-modify-write through `token.borrow_mut()`. -/
def modTok (i : TokId) (f : Token → Token) : M Unit := do
  let t ← getTok i
  setTok i (f t)

/-- `ScopeContext::get` on a stack of scopes, innermost first
(`src/scope_context.rs:25-42`). -/
def lookupStack (scopes : List Scope) : List ScopeId → Str → Option Var
  | [], _ => none
  | i :: st, k =>
    match (scopes[i]?.getD []).get k with
    | some v => some v
    | none => lookupStack scopes st k

/-- `scope.borrow().get(name)` (`src/scope_context.rs:25-42`). -/
def State.lookup (s : State) (sc : SCtxId) (k : Str) : Option Var :=
  lookupStack s.scopes (s.sctxs[sc]?.getD []) k

/-- `ScopeContext::set` (`src/scope_context.rs:44-52`): binds in the top scope,
creating one if the stack is empty.  (The previous value it returns is dropped.) -/
def State.bindVar (s : State) (sc : SCtxId) (k : Str) (v : Var) : State :=
  match s.sctxs[sc]?.getD [] with
  | [] =>
    { s with
      scopes := s.scopes ++ [AMap.insert [] k v]
      sctxs := s.sctxs.set sc [s.scopes.length] }
  | top :: _ =>
    { s with scopes := s.scopes.set top ((s.scopes[top]?.getD []).insert k v) }

/-- `scope.borrow_mut().push(Scope::new())` (`src/scope_context.rs:17-19`,
`src/scope.rs:19-23`, as used at `src/matchers/set_scope.rs:38-39`). -/
def State.pushScope (s : State) (sc : SCtxId) : State :=
  { s with
    scopes := s.scopes ++ [[]]
    sctxs := s.sctxs.set sc (s.scopes.length :: s.sctxs[sc]?.getD []) }

/-- `scope.borrow_mut().pop()` (`src/scope_context.rs:21-23`). -/
def State.popScope (s : State) (sc : SCtxId) : State :=
  { s with sctxs := s.sctxs.set sc (s.sctxs[sc]?.getD []).tail }

/-- `ScopeContext::new` (`src/scope_context.rs:13-15`). -/
def State.newSCtx (s : State) : SCtxId × State :=
  (s.sctxs.length, { s with sctxs := s.sctxs ++ [[]] })

/-- `scope.borrow().get(k)`. -/
def lookupVar (sc : SCtxId) (k : Str) : M (Option Var) := fun s => .ok (s.lookup sc k) s

/-- `scope.borrow_mut().set(k, v)`. -/
def bindVar (sc : SCtxId) (k : Str) (v : Var) : M Unit := fun s => .ok () (s.bindVar sc k v)

/-- `scope.borrow_mut().push(Scope::new())`. -/
def pushScope (sc : SCtxId) : M Unit := fun s => .ok () (s.pushScope sc)

/-- `scope.borrow_mut().pop()`. -/
def popScope (sc : SCtxId) : M Unit := fun s => .ok () (s.popScope sc)

/-- A heap with nothing in it. -/
def State.empty : State := ⟨[], [], []⟩

end Adx
