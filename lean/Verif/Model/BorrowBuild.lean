import Verif.Model.BorrowVisit
import Verif.Model.Script
/-
  Making a matcher from a parsed script, and compiling scripts with their imports
  (`src/script/v1/parser.rs`), with the borrow flags of `Model/Borrow`.  What is done to
  matchers, scopes and errors is as in `Model/Script`.
-/
namespace Adx

/-! ### Reading tokens and building matchers -/

/-- What a step of the builder can do, with borrow flags. -/
inductive CBRes (α : Type)
  | ok (a : α) (ns : List Node) (fl : Borrows)
  | err (e : Str) (fl : Borrows)
  | panic (msg : String)
  | diverge
  | conflict (c : Cell)

/-- A step of the builder, with borrow flags. -/
def CB (α : Type) := List Token → List Node → Borrows → CBRes α

namespace CB
variable {α β : Type}

protected def bind (x : CB α) (f : α → CB β) : CB β := fun toks ns fl =>
  match x toks ns fl with
  | .ok a ns fl => f a toks ns fl
  | .err e fl => .err e fl
  | .panic m => .panic m
  | .diverge => .diverge
  | .conflict c => .conflict c

protected def pure (a : α) : CB α := fun _ ns fl => .ok a ns fl

instance : Monad CB where
  pure := CB.pure
  bind := CB.bind

/-- Something that borrows nothing. -/
def lift (x : C α) : CB α := fun toks ns fl =>
  match x toks ns with
  | .ok a ns => .ok a ns fl
  | .err e => .err e fl
  | .panic m => .panic m
  | .diverge => .diverge

/-- Run `x` while `c.borrow()` is alive. -/
def share (c : Cell) (x : CB α) : CB α := fun toks ns fl =>
  match fl c with
  | .exclusive => .conflict c
  | .shared n =>
    match x toks ns (fl.set c (.shared (n + 1))) with
    | .ok a ns' fl' => .ok a ns' (fl'.set c (Watched.release (fl' c)))
    | .err e fl' => .err e (fl'.set c (Watched.release (fl' c)))
    | r => r

/-- Run `x` while `c.borrow_mut()` is alive. -/
def own (c : Cell) (x : CB α) : CB α := fun toks ns fl =>
  match fl c with
  | .shared 0 =>
    match x toks ns (fl.set c .exclusive) with
    | .ok a ns' fl' => .ok a ns' (fl'.set c (.shared 0))
    | .err e fl' => .err e (fl'.set c (.shared 0))
    | r => r
  | _ => .conflict c

/-- `token.borrow()`, for a moment. -/
def tok (t : TokId) : CB Token := share (.token t) (lift (C.tok t))

/-- Run `f` while `token.borrow()` is alive. -/
def withTok (t : TokId) (f : Token → CB α) : CB α := share (.token t) (lift (C.tok t) >>= f)

/-- Each of the tokens is borrowed for a moment. -/
def touchToks : List TokId → CB Unit
  | [] => pure ()
  | c :: cs => do
    share (.token c) (pure ())
    touchToks cs

/-- `find_child` (`src/token.rs:156-170`) on a borrowed token.  (The code stops at the child
that it finds; here all of them are looked at.) -/
def findChild (k : Token) (needle : String) : CB (Option TokId) := do
  touchToks k.children
  lift (C.findChild k needle)

@[inherit_doc findChild]
def hasChild (k : Token) (needle : String) : CB Bool := do
  touchToks k.children
  lift (C.hasChild k needle)

@[inherit_doc findChild]
def findChildOf (k : Token) (names : List String) : CB (Option TokId) := do
  touchToks k.children
  lift (C.findChildOf k names)

/-- `set_name` on a matcher that is borrowed mutably; a matcher that passes the name on
borrows the other one mutably. -/
def setNameGo (n : Str) : Nat → MatcherId → CB Unit
  | 0, _ => fun _ _ _ => .diverge
  | d + 1, m => own (.matcher m) fun toks ns fl =>
    match ns[m]? with
    | none => .panic "dangling matcher reference"
    | some nd =>
      match nd.namePassedTo with
      | some m' => setNameGo n d m' toks ns fl
      | none => .ok () (ns.set m (nd.setOwnName n)) fl

/-- `matcher.borrow_mut().set_name(name)`. -/
def setName (m : MatcherId) (n : Str) : CB Unit := fun toks ns fl => setNameGo n (ns.length + 1) m toks ns fl

end CB

open CB in
/-- `get_repeat_specifier_range` (`src/script/v1/matchers/repeat_specifier.rs:16-60`). -/
def getRepeatSpecifierRangeB (t : TokId) : CB (Nat × Nat) := withTok t fun k =>
  if k.name = "RepeatZeroOrMore".toList then pure (0, usizeMax)
  else if k.name = "RepeatOneOrMore".toList then pure (1, usizeMax)
  else if k.name = "RepeatRange".toList then do
    let min ← lift (C.ofOpt "called `Option::unwrap()` on a `None` value" (← CB.findChild k "Minimum"))
    let hasSeparator ← CB.hasChild k "Seperator"
    let minimum ← lift (C.parseUsize (← tok min).getCapturedValue)
    if hasSeparator then
      match ← CB.findChild k "Maximum" with
      | some max => do
        let maximum ← lift (C.parseUsize (← tok max).getCapturedValue)
        if maximum < minimum then
          lift (C.err ("Error with repeat specifier: Maximum range is smaller than minimum: {".toList ++
            natStr minimum ++ ", ".toList ++ natStr maximum ++ "}".toList))
        else pure (minimum, maximum)
      | none => pure (minimum, usizeMax)
    else pure (0, minimum)
  else
    lift (C.err ("Expected one of `RepeatZeroOrMore`, `RepeatOneOrMore`, or `RepeatRange` tokens, but received a `".toList ++
      k.name ++ "` token instead".toList))

open CB in
/-- The attributes of a pattern definition (`src/script/v1/parser.rs:165-177`): a child is
borrowed while its two parts are looked at.  (In the code its borrow ends before that of the
next child begins.) -/
def collectAttributesB : List TokId → AMap Str → CB (AMap Str)
  | [], m => pure m
  | c :: cs, m => do
    let (key, value) ← withTok c fun k => do
      let key := (← tok (← lift (C.child k 0))).getCapturedValue
      let value := (← tok (← lift (C.child k 1))).getCapturedValue
      pure (key, value)
    collectAttributesB cs (m.insert key value)

/-- `if name != "" { matcher.borrow_mut().set_name(name) }`
(`src/script/v1/parser.rs:158-160`). -/
def withNameB (m : MatcherId) (name : Str) : CB Unit :=
  if name ≠ [] then CB.setName m name else pure ()

open CB in
/-- The `Map!` for the attributes of the given token, which is borrowed all the time
(`src/script/v1/parser.rs:163-196`). -/
def mapAttributesB (m : MatcherId) (a : TokId) : CB MatcherId := withTok a fun ak =>
  if ak.children.length > 0 then do
    let attrs ← collectAttributesB ak.children []
    lift (C.mk (.map m (addMissingAttributes attrs) passFailure))
  else pure m

/-- The `Map!` around a matcher (`src/script/v1/parser.rs:162-196`). -/
def withAttributesB (k : Token) (m : MatcherId) : CB MatcherId := do
  match ← CB.findChild k "Attributes" with
  | some a => mapAttributesB m a
  | none => pure m

open CB in
/-- The `Loop!` around a matcher (`src/script/v1/parser.rs:204-211`). -/
def withRepeatB (k : Token) (m : MatcherId) : CB MatcherId := do
  match ← CB.findChildOf k repeatSpecifierNames with
  | some r => do
    let range ← getRepeatSpecifierRangeB r
    lift (C.mk (.program [m] "Loop".toList false
      (some (getRange (.included range.1) (.excluded range.2))) false))
  | none => pure m

/-- `for child in children { .. add_pattern(..) }` (`src/script/v1/parser.rs:95-98,114-117`);
the matcher is borrowed mutably already. -/
def constructChildrenB (pat : TokId → CB (MatcherId × MatcherId)) (into : MatcherId) :
    List TokId → CB Unit
  | [] => pure ()
  | c :: cs => do
    let m ← pat c
    CB.lift (C.addPattern into m.1)
    constructChildrenB pat into cs

open CB in
/-- `construct_matcher_from_inner_definition` (`src/script/v1/parser.rs:29-125`): the token is
borrowed all the time, the three parts of a sequence together, and a `Switch!` or `Program!`
mutably while its patterns are made. -/
def constructInnerB (env : Env) (pat : TokId → CB (MatcherId × MatcherId)) (t : TokId) :
    CB MatcherId := withTok t fun k =>
  if k.name = "EqualsMatcher".toList then do
    let value := (← tok (← lift (C.child k 0))).getValue
    if value = [] then lift (C.err "Value can not be empty for an `Equals` pattern definition".toList)
    else lift (C.mk (.equals "Equals".toList false (.str value)))
  else if k.name = "RegexMatcher".toList then
    let value := k.getValue
    if value = [] then lift (C.err "Value can not be empty for a `Matches` pattern definition".toList)
    else do
      let value ← match ← CB.findChild k "Flags" with
        | some f => do pure ("(?".toList ++ (← tok f).getCapturedValue ++ ")".toList ++ value)
        | none => pure value
      let re ← lift (C.ofOpt "called `Result::unwrap()` on an `Err` value" (env.regex value))
      lift (C.mk (.regex "Matches".toList false re))
  else if k.name = "SequenceMatcher".toList then do
    withTok (← lift (C.child k 0)) fun start => do
      withTok (← lift (C.child k 1)) fun stop => do
        withTok (← lift (C.child k 2)) fun escape =>
          if start.getValue = [] then lift (C.panic "Sequence `start` pattern of \"\" makes no sense")
          else if stop.getValue = [] then lift (C.panic "Sequence `end` pattern of \"\" makes no sense")
          else lift (C.mk (.sequence "Sequence".toList false (.str start.getValue) (.str stop.getValue)
            (.str escape.getValue)))
  else if k.name = "CustomMatcher".toList then do
    let identifier := (← tok (← lift (C.child k 0))).getValue
    if identifier = [] then
      lift (C.err "Identifier can not be empty for a `CustomMatcher` pattern definition".toList)
    else lift (C.mk (.ref (.str identifier) "Ref".toList false))
  else if k.name = "SwitchMatcher".toList then
    if k.children.length = 0 then lift (C.mk .null)
    else do
      let m ← lift (C.mk (.program [] "Switch".toList false none true))
      own (.matcher m) (constructChildrenB pat m k.children)
      pure m
  else if k.name = "ProgramMatcher".toList then
    if k.children.length = 0 then lift (C.mk .null)
    else do
      let m ← lift (C.mk (.program [] "Program".toList false none false))
      own (.matcher m) (constructChildrenB pat m k.children)
      pure m
  else lift (C.err "Unkown pattern type".toList)

open CB in
/-- `construct_matcher_from_pattern_definition` (`src/script/v1/parser.rs:127-224`): the token is
borrowed all the time. -/
def constructDefinitionB (env : Env) (pat : TokId → CB (MatcherId × MatcherId)) (t : TokId)
    (name : Str) (captured : Bool) : CB (MatcherId × MatcherId) := withTok t fun k =>
  if k.name ≠ "PatternDefinition".toList then
    lift (C.err ("Expected a `PatternDefinition` token, but received a `".toList ++ k.name ++
      "` token instead".toList))
  else do
    let outerOptional ← CB.hasChild k "OuterOptionalModifier"
    let outerNot ← CB.hasChild k "OuterNotModifier"
    let innerOptional ← CB.hasChild k "InnerOptionalModifier"
    let innerNot ← CB.hasChild k "InnerNotModifier"
    match ← CB.findChildOf k patternMatcherNames with
    | none => lift (C.err "Unexpected pattern token encountered".toList)
    | some mt => do
      let inner ← constructInnerB env pat mt
      withNameB inner name
      let m ← withAttributesB k inner
      let m ← lift (withModifiers innerOptional innerNot m)
      let m ← withRepeatB k m
      let m ← lift (withModifiers outerOptional outerNot m)
      let m ← lift (withDiscard captured m)
      pure (m, inner)

open CB in
/-- `construct_matcher_from_pattern` (`src/script/v1/parser.rs:226-261`): the token, and those of
the name, are borrowed while the definition is made. -/
def constructPatternB (env : Env) : Nat → TokId → CB (MatcherId × MatcherId)
  | 0, _ => fun _ _ _ => .diverge
  | d + 1, t => withTok t fun k =>
    if k.name = "PatternDefinitionCaptured".toList then do
      match ← CB.findChild k "MatcherName" with
      | some n => withTok n fun nk => do
        withTok (← lift (C.child nk 0)) fun ck => do
          constructDefinitionB env (constructPatternB env d) (← lift (C.child k 1)) ck.name true
      | none => do
        constructDefinitionB env (constructPatternB env d) (← lift (C.child k 0)) [] true
    else if k.name = "PatternDefinition".toList then
      constructDefinitionB env (constructPatternB env d) t [] false
    else
      lift (C.err ("Expected a `PatternDefinitionCaptured`, or `PatternDefinition` token, but received a `".toList ++
        k.name ++ "` token instead".toList))

/-! ### The hooks -/

namespace Watched
variable {α : Type}

/-- Run a step of the builder in a hook, as `Build.step` does.  A panic, which drops all
borrows, stops the visit. -/
def build (x : CB α) (ke : Str → ParseError := patternError) : Watched Build α := fun b fl =>
  match x b.w.st.toks b.w.nodes fl with
  | .ok a ns fl => .ok a { b with w := { b.w with nodes := ns } } fl
  | .err e fl => .err (ke e) b fl
  | .panic m => .err ⟨[], none⟩ { b with crash := some (some m) } fl
  | .diverge => .err ⟨[], none⟩ { b with crash := some none } fl
  | .conflict c => .conflict c

/-- Run something on the scopes in a hook. -/
def scopes (x : Held α) : Watched Build α := fun b fl =>
  match x b.w.st fl with
  | .ok a st fl => .ok a { b with w := { b.w with st := st } } fl
  | .panic m => .err ⟨[], none⟩ { b with crash := some (some m) } fl
  | .diverge => .err ⟨[], none⟩ { b with crash := some none } fl
  | .conflict c => .conflict c

/-- `parse_errors.borrow_mut().push(..)`, for each of the errors. -/
def pushErrors (d : Nat) (es : List ParseError) : Watched Build Unit :=
  own (.errors d) fun b fl => .ok () { b with errors := b.errors ++ es } fl

end Watched

open Watched

/-- The hook `"Error"` (`src/script/v1/parser.rs:287-294`). -/
def hookErrorB (d : Nat) : HookB Build := fun t => share (.token t) do
  let k ← build (CB.lift (C.tok t))
  let msg ← build (CB.lift (C.ofOpt "called `Option::unwrap()` on a `None` value"
    (k.getAttribute "__message".toList)))
  pushErrors d [⟨msg, some k.matched⟩]

/-- The hook `"AdextopaScope"` (`src/script/v1/parser.rs:295-305`). -/
def hookAdextopaScopeB (root : MatcherId) : HookB Build := fun t => share (.token t) do
  let k ← build (CB.lift (C.tok t))
  match k.getAttribute "name".toList with
  | some n => build (CB.setName root n)
  | none => pure ()

/-- The hook `"AssignmentExpression"` (`src/script/v1/parser.rs:306-334`): the token and its two
children are borrowed to the end. -/
def hookAssignmentB (env : Env) (depth : Nat) (sc : SCtxId) : HookB Build := fun t => share (.token t) do
  let k ← build (CB.lift (C.tok t))
  let i ← build (CB.lift (C.child k 0))
  share (.token i) do
    let ik ← build (CB.lift (C.tok i))
    let v ← build (CB.lift (C.child k 1))
    share (.token v) do
      let vk ← build (CB.lift (C.tok v))
      if vk.name = "Identifier".toList then do
        let m ← build (CB.lift (C.mk (.ref (.str k.getValue) "Ref".toList false)))
        scopes (bindVarB sc ik.getValue (.matcher m))
      else if vk.name = "PatternDefinition".toList then do
        let m ← build (constructDefinitionB env (constructPatternB env depth) v ik.getValue true)
        scopes (bindVarB sc ik.getValue (.matcher m.1))
      else pure ()

open CB in
/-- The patterns of a pattern scope (`src/script/v1/parser.rs:415-429`): a child is borrowed
while its pattern is made and added. -/
def constructScopeB (env : Env) (depth : Nat) (inScope : MatcherId) : List TokId → CB Unit
  | [] => pure ()
  | c :: cs => do
    withTok c fun k =>
      if k.name = "PatternDefinitionCaptured".toList ∨ k.name = "PatternDefinition".toList then do
        let m ← constructPatternB env depth c
        own (.matcher inScope) (lift (C.addPattern inScope m.1))
      else pure ()
    constructScopeB env depth inScope cs

/-- The hook `"PatternScope"` (`src/script/v1/parser.rs:411-432`). -/
def hookPatternScopeB (env : Env) (depth : Nat) (inScope : MatcherId) : HookB Build := fun t =>
  share (.token t) do
    let k ← build (CB.lift (C.tok t))
    build (constructScopeB env depth inScope k.children)

/-- One identifier of an import statement (`src/script/v1/parser.rs:367-407`), which is borrowed
to the end. -/
def importIdentifierB (sc isc : SCtxId) (root : MatcherId) (file : Str) : HookB Build := fun c =>
  share (.token c) do
    let k ← build (CB.lift (C.tok c))
    let it ← build (CB.lift (C.ofOpt "called `Option::unwrap()` on a `None` value" (← build (CB.findChild k "ImportName"))))
    let ik ← build (CB.tok it)
    let name ← build do
      match ← CB.findChild k "ImportAsName" with
      | some a => do pure (← CB.tok a).getValue
      | none => pure ik.getValue
    if ik.getValue = "_".toList then
      if name = "_".toList then do
        let _ ← build (CB.tok it)
        fail ⟨"Error root import '_' must be named using 'import {{ _ as Name }}'".toList, some ik.matched⟩
      else do
        build (CB.setName root name)
        scopes (bindVarB sc name (.matcher root))
    else do
      match ← scopes (Held.share (.names isc) (lookupVarB isc ik.getValue)) with
      | some (.matcher m) => do
        let mm ← build (CB.lift (C.mk (.map m (renameToken name) passFailure)))
        let mm ← build (CB.lift (C.mk (.setScope (some isc) mm)))
        scopes (bindVarB sc name (.matcher mm))
      | _ => do
        let _ ← build (CB.tok it)
        fail ⟨"Failed to import `".toList ++ ik.getValue ++ "` from '".toList ++ file ++
          "': Not found".toList, some ik.matched⟩

/-- `for import_identifier in import_identifiers` (`src/script/v1/parser.rs:367-407`). -/
def importIdentifiersB (sc isc : SCtxId) (root : MatcherId) (file : Str) : List TokId → Watched Build Unit
  | [] => pure ()
  | c :: cs => do
    importIdentifierB sc isc root file c
    importIdentifiersB sc isc root file cs

/-- The outcome of compiling a script, with borrow flags. -/
inductive BuildBRes
  | ok (m : MatcherId) (sc : SCtxId) (w : World) (fl : Borrows)
  | err (es : List ParseError) (fl : Borrows)
  | panic (msg : String)
  | diverge
  | conflict (c : Cell)

/-- What follows `compile_script_from_file_internal` in the hook of imports
(`src/script/v1/parser.rs:350-409`). -/
def importedB (d : Nat) (compileFile : World → Borrows → BuildBRes)
    (next : MatcherId → SCtxId → Watched Build Unit) : Watched Build Unit := fun b fl =>
  match compileFile b.w fl with
  | .ok root isc w fl => next root isc { b with w := w } fl
  | .err es fl => (pushErrors d es >>= fun _ => fail ⟨[], none⟩) b fl
  | .panic m => .err ⟨[], none⟩ { b with crash := some (some m) } fl
  | .diverge => .err ⟨[], none⟩ { b with crash := some none } fl
  | .conflict c => .conflict c

/-- The hook `"ImportStatement"` (`src/script/v1/parser.rs:335-410`): the token and that of the
identifiers are borrowed while the file is compiled. -/
def hookImportB (env : Env) (d : Nat) (compileFile : Str → World → Borrows → BuildBRes)
    (fromFile : Option Str) (sc : SCtxId) : HookB Build := fun t =>
  match fromFile with
  | none => do
    let k ← build (CB.tok t)
    fail ⟨"Found import statement, but it is forbidden to use imports when not parsing from a file".toList,
      some k.matched⟩
  | some from_ => share (.token t) do
    let k ← build (CB.lift (C.tok t))
    let ids ← build (CB.lift (C.ofOpt "called `Option::unwrap()` on a `None` value"
      (← build (CB.findChild k "ImportIdentifiers"))))
    share (.token ids) do
      let idk ← build (CB.lift (C.tok ids))
      let path ← build (CB.lift (C.ofOpt "called `Option::unwrap()` on a `None` value"
        (← build (CB.findChild k "Path"))))
      let path := (← build (CB.tok path)).getValue
      let joined ← build (CB.lift (C.ofOpt "called `Option::unwrap()` on a `None` value" (env.relative from_ path)))
      let file ← build (CB.lift (C.ofOpt "called `Result::unwrap()` on an `Err` value" (env.canonical joined)))
      importedB d (compileFile file) fun root isc => importIdentifiersB sc isc root file idk.children

/-- The hooks of `build_matcher_from_tokens` (`src/script/v1/parser.rs:286-433`). -/
def buildHooksB (env : Env) (d : Nat) (compileFile : Str → World → Borrows → BuildBRes) (fromFile : Option Str)
    (depth : Nat) (root inScope : MatcherId) (sc : SCtxId) : List (Str × HookB Build) :=
  [("Error".toList, hookErrorB d),
   ("AdextopaScope".toList, hookAdextopaScopeB root),
   ("AssignmentExpression".toList, hookAssignmentB env depth sc),
   ("ImportStatement".toList, hookImportB env d compileFile fromFile sc),
   ("PatternScope".toList, hookPatternScopeB env depth inScope)]

/-! ### Compiling -/

/-- The end of `build_matcher_from_tokens` (`src/script/v1/parser.rs:435-455`): for the message
the context is borrowed for a moment, and `parse_errors` mutably. -/
def buildResultB (d : Nat) (ctx : Ctx) (root : MatcherId) (sc : SCtxId) : WRes Build Unit → BuildBRes
  | .ok _ b fl => .ok root sc b.w fl
  | .err e b fl =>
    match b.crash with
    | some (some m) => .panic m
    | some none => .diverge
    | none =>
      if e.message ≠ [] then
        if fl (.context d) = .exclusive then .conflict (.context d)
        else
          let range := e.range.getD ⟨0, 0⟩
          match ctx.errorString e.message range with
          | some msg =>
            if fl (.errors d) = .shared 0 then .err (b.errors ++ [⟨msg, some range⟩]) fl
            else .conflict (.errors d)
          | none => .panic "get_error_as_string: slice"
      else .err b.errors fl
  | .dangling => .panic "dangling token reference"
  | .diverge => .diverge
  | .conflict c => .conflict c

/-- `build_matcher_from_tokens` (`src/script/v1/parser.rs:263-456`). -/
def buildMatcherFromTokensB (env : Env) (d : Nat) (compileFile : Str → World → Borrows → BuildBRes) (depth : Nat)
    (t : TokId) (ctx : Ctx) (name : Str) (fromFile : Option Str) (w : World) (fl : Borrows) : BuildBRes :=
  if fl (.token t) = .exclusive then .conflict (.token t)
  else match w.st.toks[t]? with
  | none => .panic "dangling token reference"
  | some k =>
    if k.name ≠ "Script".toList then
      .err [⟨"Expected provided token to be a `Script` token".toList, none⟩] fl
    else
      let root := w.nodes.length
      let inScope := root + 1
      let (sc, st) := w.st.newSCtx
      let nodes := w.nodes ++
        [.program [root + 3] name true none false,
         .program [] "Program".toList false none false,
         .proxyChildren inScope "Flatten".toList false,
         .setScope (some sc) (root + 2)]
      -- `root_matcher.borrow_mut().add_pattern(..)`
      if fl (.matcher root) = .shared 0 then
        buildResultB d ctx root sc
          (visitB d (fun b => b.w.st.toks) (buildHooksB env d compileFile fromFile depth root inScope sc) depth t
            ⟨⟨nodes, st⟩, [], none⟩ fl)
      else .conflict (.matcher root)

/-- `register_matchers` (`src/parser_context.rs:256-266`) for one matcher, which is borrowed while
the scope is changed. -/
def registerB (sc : SCtxId) (n : Str) (m : MatcherId) : Held Unit :=
  Held.share (.matcher m) (bindVarB sc n (.matcher m))

/-- `compile_script` (`src/script/v1/parser.rs:489-551`), inside `d` imports: the context, which
has the number `d`, is borrowed while the two matchers are registered. -/
def compileScriptB (env : Env) : Nat → Nat → Parser → Str → Option Str → World → Borrows → BuildBRes
  | 0, _, _, _, _, _, _ => .diverge
  | fuel + 1, d, parser, name, fromFile, w, fl =>
    let (sc, st) := w.st.newSCtx
    let ctx := Ctx.new parser sc name
    let (sw, nodes) := (Script.switchMatcher env.uni).run w.nodes
    let (pm, nodes) := (Script.programMatcher env.uni).run nodes
    let (m, nodes) := (Script.script env.uni).run nodes
    let parse : Held (Except Failure TokId) := do
      Held.share (.context d) do
        registerB sc "SwitchMatcher".toList sw
        registerB sc "ProgramMatcher".toList pm
      tokenizeB (tableOf nodes) env.cfg fuel d ctx m
    match parse st fl with
    | .ok (.ok t) st fl =>
      buildMatcherFromTokensB env d
        (fun file w fl =>
          match env.canonical file with
          | none => .panic "called `Result::unwrap()` on an `Err` value"
          | some full =>
            match env.read full with
            | none => .panic "called `Result::unwrap()` on an `Err` value"
            | some src => compileScriptB env fuel (d + 1) ⟨src, full⟩ file (some full) w fl)
        st.toks.length t ctx name fromFile ⟨nodes, st⟩ fl
    | .ok (.error .fail) _ fl =>
      .err [⟨"Failed to parse script with an unknown error. This is likely a bug. Please report this issue to the adextopa maintainers.".toList,
        none⟩] fl
    | .ok (.error (.error e)) _ fl => .err [e] fl
    | .panic m => .panic m
    | .diverge => .diverge
    | .conflict c => .conflict c

end Adx
