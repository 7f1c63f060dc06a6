import Verif.Model.Borrow
import Verif.Model.Script
/-
  The callbacks of `Map!` and `Catch!` with the borrow flags of `RefCell`: those that the crate
  itself uses, and the engine with callbacks that borrow.

  A callback gets the context that the matcher below it was run with (`src/matchers/map.rs:84-93`,
  `src/matchers/catch.rs:50-53`), so its number is the one behind that of the context of the
  `Map!`.
-/
namespace Adx

open Held

/-- `new_error_token_with_range` (`src/matchers/error.rs:27-45`): the context is borrowed
throughout, the new token mutably while its attribute and flag are set. -/
def newErrorTokenWithRangeB (k : Nat) (c : Ctx) (msg : Str) (r : Range) : Held TokId :=
  share (.context k) do
    let t ← lift (newErrorTokenWithRange c msg r)
    touchMut (.token t)
    pure t

/-- `new_error_token` (`src/matchers/error.rs:10-25`). -/
def newErrorTokenB (k : Nat) (c : Ctx) (msg : Str) : Held TokId :=
  newErrorTokenWithRangeB k c msg ⟨c.offset.start, c.offset.start⟩

/-! ### The macros -/

/-- `FatalIf!` success callback (`src/matchers/fatal_if.rs:6-17`): the token is borrowed until
it returns. -/
def fatalIfOkB (msg : Str) (t : TokId) (k : Nat) (c : Ctx) (_ : SCtxId) : Held R :=
  share (.token t) do
    let tk ← lift (getTok t)
    let m ← share (.context k) (lift (M.ofOpt "get_error_as_string: slice" (c.errorString msg tk.matched)))
    pure (.err (.error ⟨m, some tk.matched⟩))

/-- Failure callback of `FatalIf!` and `AssertIf!` (`src/matchers/fatal_if.rs:18-28`,
`src/matchers/assert_if.rs:29-39`). -/
def failureIsFineB (f : Failure) (_ : Nat) (c : Ctx) (sc : SCtxId) : Held R := lift (failureIsFine f c sc)

/-- Success callback of `FatalIfNot!` and `AssertIfNot!`
(`src/matchers/fatal_if_not.rs:6-11`, `src/matchers/assert_if_not.rs:20-25`). -/
def successIsFineB (t : TokId) (_ : Nat) (c : Ctx) (sc : SCtxId) : Held R := lift (successIsFine t c sc)

/-- `FatalIfNot!` failure callback (`src/matchers/fatal_if_not.rs:12-30`). -/
def fatalIfNotErrB (msg : Str) (f : Failure) (k : Nat) (c : Ctx) (_ : SCtxId) : Held R :=
  match f with
  | .fail => do
    touch (.context k)
    let m ← share (.context k) (lift (M.ofOpt "get_error_as_string: slice" (c.errorString msg c.offset)))
    pure (.err (.error ⟨m, some c.offset⟩))
  | .error e => pure (.err (.error e))

/-- `AssertIf!` success callback (`src/matchers/assert_if.rs:20-28`): the token is borrowed while
the error token is made. -/
def assertIfOkB (msg : Str) (t : TokId) (k : Nat) (c : Ctx) (_ : SCtxId) : Held R :=
  share (.token t) do
    let tk ← lift (getTok t)
    let e ← newErrorTokenWithRangeB k c msg tk.matched
    pure (.ok (.token e))

/-- `AssertIfNot!` failure callback (`src/matchers/assert_if_not.rs:26-45`). -/
def assertIfNotErrB (msg : Str) (f : Failure) (k : Nat) (c : Ctx) (_ : SCtxId) : Held R :=
  match f with
  | .fail => do
    touch (.context k)
    let e ← newErrorTokenWithRangeB k c msg ⟨c.offset.start, c.offset.start⟩
    pure (.ok (.token e))
  | .error e => pure (.err (.error e))

/-- Failure callback of `Map!` with one callback (`src/matchers/map.rs`, macro). -/
def passFailureB (f : Failure) (_ : Nat) (c : Ctx) (sc : SCtxId) : Held R := lift (passFailure f c sc)

/-! ### Scripts -/

/-- The loop of `find_child` (`src/token.rs:162-167`): each child is borrowed while it is
looked at. -/
def findLoopB (test : Str → Bool) : List TokId → Held (Option TokId)
  | [] => pure none
  | c :: cs => do
    let k ← getTokB c
    if test k.name then pure (some c) else findLoopB test cs

/-- `find_child` (`src/token.rs:156-170`) on a borrowed token. -/
def findChildB (k : Token) (needle : Str) : Held (Option TokId) :=
  if k.children.length = 0 then pure none else findLoopB (· == needle) k.children

namespace Script

/-- The loop over the children in the callback of `ScriptRegexMatcher!`
(`src/script/v1/matchers/regex_matcher.rs:35-49`). -/
def partsRangeB : List TokId → Range → Held Range
  | [], r => pure r
  | c :: cs, r => do
    let k ← getTokB c
    if k.name = "Part".toList then
      let start := if r.start = usizeMax ∨ k.matched.start < r.start then k.matched.start else r.start
      let stop := if r.stop = usizeMax ∨ k.matched.stop > r.stop then k.matched.stop else r.stop
      partsRangeB cs ⟨start, stop⟩
    else partsRangeB cs r

/-- The callback of `ScriptRegexMatcher!` (`src/script/v1/matchers/regex_matcher.rs:29-56`): the
token is borrowed during the loop, then for its parser, then mutably. -/
def regexMatcherDoneB (t : TokId) (_ : Nat) (_ : Ctx) (_ : SCtxId) : Held R := do
  let r ← share (.token t) do
    let tk ← lift (getTok t)
    partsRangeB tk.children ⟨usizeMax, usizeMax⟩
  let tk ← getTokB t
  modTokB t (·.setValue (r.text tk.parser))
  pure (.ok (.token t))

/-- One attribute in the loop of `copyAttributesB`; the attribute, its name and its value are
borrowed. -/
def copyAttributeB (t a : TokId) (version : Option TokId) : Held (Option TokId) :=
  share (.token a) do
    let ak ← lift (getTok a)
    let name ← lift (M.ofOpt "index out of bounds" ak.children[0]?)
    let value ← lift (M.ofOpt "index out of bounds" ak.children[1]?)
    share (.token name) do
      let name ← lift (getTok name)
      share (.token value) do
        let value ← lift (getTok value)
        lift (modTok t (·.setAttribute name.getValue value.getValue))
        pure (if name.getValue = "version".toList then some a else version)

/-- The loop over the attributes in the callbacks of `ScriptPatternDefinition!`
(`src/script/v1/matchers/pattern_definition.rs:45-51`) and `ScriptAdextopaScope!`
(`src/script/v1/matchers/adextopa_scope.rs:37-49`); token `t` is borrowed mutably already. -/
def copyAttributesB (t : TokId) : List TokId → Option TokId → Held (Option TokId)
  | [], version => pure version
  | a :: as, version => do
    let version ← copyAttributeB t a version
    copyAttributesB t as version

/-- `let mut _token = token.borrow_mut(); if let Some(attribute_token) =
_token.find_child("Attributes") { .. }`
(`src/script/v1/matchers/pattern_definition.rs:41-53`,
`src/script/v1/matchers/adextopa_scope.rs:32-52`). -/
def copyAllAttributesB (t : TokId) : Held (Option TokId) :=
  own (.token t) do
    let tk ← lift (getTok t)
    match ← findChildB tk "Attributes".toList with
    | some a => share (.token a) do
      let ak ← lift (getTok a)
      copyAttributesB t ak.children none
    | none => pure none

/-- The callback of `ScriptPatternDefinition!`
(`src/script/v1/matchers/pattern_definition.rs:40-56`). -/
def patternDefinitionDoneB (t : TokId) (_ : Nat) (_ : Ctx) (_ : SCtxId) : Held R := do
  let _ ← copyAllAttributesB t
  pure (.ok (.token t))

/-- The callback of `ScriptPatternScope!` (`src/script/v1/matchers/pattern_scope.rs:12-23`): the
token is borrowed until it returns. -/
def patternScopeDoneB (t : TokId) (k : Nat) (c : Ctx) (_ : SCtxId) : Held R :=
  share (.token t) do
    let tk ← lift (getTok t)
    if tk.matched.stop < blen tk.parser.src then
      let rest ← lift (M.ofOpt "byte index out of bounds" (bdrop tk.matched.stop tk.parser.src))
      let e ← newErrorTokenB k c
        ("Syntax error. Expected a pattern defintion, but instead found: ".toList ++ rest)
      pure (.ok (.token e))
    else pure (.ok (.token t))

/-- The callback of `ScriptAdextopaScope!`
(`src/script/v1/matchers/adextopa_scope.rs:29-75`): after the attributes were copied, the token is
borrowed until it returns, and the attribute called `version` while the error token is made. -/
def adextopaScopeDoneB (t : TokId) (k : Nat) (c : Ctx) (_ : SCtxId) : Held R := do
  let versionToken ← copyAllAttributesB t
  share (.token t) do
    let tk ← lift (getTok t)
    match tk.getAttribute "version".toList with
    | none => do
      let range ← match ← findChildB tk "EndOfScopeHeader".toList with
        | some p => do pure (⟨tk.matched.start, (← getTokB p).matched.stop⟩ : Range)
        | none => pure tk.matched
      let e ← newErrorTokenWithRangeB k c "Adextopa scope must have a 'version' attribute".toList range
      pure (.ok (.token e))
    | some version =>
      match parseUsize version with
      | none => do
        let v ← lift (M.ofOpt "called `Option::unwrap()` on a `None` value" versionToken)
        share (.token v) do
          let vk ← lift (getTok v)
          let e ← newErrorTokenWithRangeB k c
            "Adextopa 'version' attribute must be a valid integer number".toList vk.matched
          pure (.ok (.token e))
      | some _ => pure (.ok (.token t))

/-- The callback of `Script!` (`src/script/v1/matchers/script.rs:16-26`): the token is borrowed
until it returns, and once more while the error token is made. -/
def scriptDoneB (t : TokId) (k : Nat) (c : Ctx) (_ : SCtxId) : Held R :=
  share (.token t) do
    let tk ← lift (getTok t)
    let a ← findChildB tk "AdextopaScope".toList
    let p ← findChildB tk "PatternScope".toList
    if a = none ∧ p = none then
      let e ← share (.token t)
        (newErrorTokenWithRangeB k c "Nothing to parse. No scopes found.".toList tk.matched)
      pure (.ok (.token e))
    else pure (.ok (.token t))

end Script

/-- The loop over the attributes of a pattern definition (`src/script/v1/parser.rs:183-191`): the
token is borrowed for each, and then mutably if it does not have the attribute. -/
def addMissingB (t : TokId) : AMap Str → Held Unit
  | [] => pure ()
  | (key, value) :: m => do
    let tk ← getTokB t
    if tk.hasAttribute key then addMissingB t m
    else do
      modTokB t (·.setAttribute key value)
      addMissingB t m

/-- The callback of the `Map!` of a pattern definition with attributes
(`src/script/v1/parser.rs:182-194`). -/
def addMissingAttributesB (attrs : AMap Str) (t : TokId) (_ : Nat) (_ : Ctx) (_ : SCtxId) : Held R := do
  addMissingB t attrs
  pure (.ok (.token t))

/-- The callback of the `Map!` of an import (`src/script/v1/parser.rs:394-399`): the token is
borrowed mutably until it returns. -/
def renameTokenB (name : Str) (t : TokId) (_ : Nat) (_ : Ctx) (_ : SCtxId) : Held R :=
  own (.token t) do
    lift (modTok t (·.setName name))
    pure (.ok (.token t))

/-! ### The engine -/

/-- The callbacks of a matcher, with borrow flags. -/
structure Callbacks where
  success : TokId → Nat → Ctx → SCtxId → Held R
  failure : Failure → Nat → Ctx → SCtxId → Held R
  caught : Nat → Ctx → Failure → Held R

/-- `CatchPattern::_exec` (`src/matchers/catch.rs:38-54`). -/
def execCatchC (rec_ : ExecFnB) (m : MatcherId) (f : Nat → Ctx → Failure → Held R) (k : Nat) (ctx : Ctx)
    (sc : SCtxId) : Held R := do
  touch (.context k)
  let c := ctx.withName "Catch".toList
  match ← runB rec_ m (k + 1) c sc with
  | .ok s => pure (.ok s)
  | .err e => f (k + 1) c e

/-- `MapPattern::_exec` (`src/matchers/map.rs:69-94`). -/
def execMapC (rec_ : ExecFnB) (m : MatcherId) (F : Callbacks) (k : Nat) (ctx : Ctx) (sc : SCtxId) : Held R := do
  touch (.context k)
  let c := ctx.withName "Map".toList
  match ← runB rec_ m (k + 1) c sc with
  | .ok (.token t) => F.success t (k + 1) c sc
  | .ok (.proxyChildren t) => F.success t (k + 1) c sc
  | .ok s => pure (.ok s)
  | .err e => F.failure e (k + 1) c sc

/-- `_exec` of each matcher, with these callbacks. -/
def execNodeC (T : Table) (cfg : Cfg) (rec_ : ExecFnB) (F : Callbacks) (n : Node) (k : Nat) (ctx : Ctx) (sc : SCtxId) :
    Held R :=
  match n with
  | .catch_ m _ => execCatchC rec_ m F.caught k ctx sc
  | .map m _ _ => execMapC rec_ m F k ctx sc
  | n => execNodeB T cfg rec_ n k ctx sc

/-- `Matcher::exec`; the caller has borrowed the matcher. -/
def execC (T : Table) (F : MatcherId → Callbacks) (cfg : Cfg) : Nat → ExecFnB
  | 0 => fun _ _ _ _ => lift M.diverge
  | n + 1 => fun m k ctx sc => do
    beforeExecB (T m) m sc
    execNodeC T cfg (execC T F cfg n) (F m) (T m) k ctx sc

/-- `ParserContext::tokenize` (`src/parser_context.rs:342-381`). -/
def tokenizeC (T : Table) (F : MatcherId → Callbacks) (cfg : Cfg) (fuel : Nat) (k : Nat) (ctx : Ctx) (m : MatcherId) :
    Held (Except Failure TokId) := do
  touch (.context k)
  share (.matcher m) do
    match ← execC T F cfg fuel m k ctx ctx.scope with
    | .ok (.token t) => do
      collectErrorsTopB t
      pure (.ok t)
    | .ok (.proxyChildren t) => do
      collectErrorsTopB t
      pure (.ok t)
    | .ok (.brk _ (.token t)) => do
      collectErrorsTopB t
      pure (.ok t)
    | .ok (.cont _ (.token t)) => do
      collectErrorsTopB t
      pure (.ok t)
    | .ok _ => pure (.error .fail)
    | .err f => pure (.error f)

end Adx
