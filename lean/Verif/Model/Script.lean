import Verif.Model.ScriptGrammar
import Verif.Model.Visitor
/-
  From a parsed grammar script to a matcher (`src/script/v1/parser.rs`,
  `src/script/v1/matchers/repeat_specifier.rs:16-60`).
-/
namespace Adx

/-! ### Reading a token tree and building matchers -/

/-- What a step of the builder does.  An `Err` is always passed on to the caller of
`build_matcher_from_tokens`, which drops every matcher, so it carries no matchers. -/
inductive CRes (α : Type)
  | ok (a : α) (ns : List Node)
  | err (e : Str)
  | panic (msg : String)
  | diverge

/-- A step of the builder: it reads tokens (it never changes one), and allocates and
changes matchers. -/
abbrev C (α : Type) := List Token → List Node → CRes α

namespace C
variable {α β : Type}

/-- Nothing. -/
def pure' (a : α) : C α := fun _ ns => .ok a ns

/-- One step after another. -/
def bind' (x : C α) (f : α → C β) : C β := fun toks ns =>
  match x toks ns with
  | .ok a ns => f a toks ns
  | .err e => .err e
  | .panic m => .panic m
  | .diverge => .diverge

instance : Monad C where
  pure := pure'
  bind := bind'

/-- `return Err(e)`. -/
def err (e : Str) : C α := fun _ _ => .err e
/-- A Rust panic. -/
def panic (m : String) : C α := fun _ _ => .panic m
/-- A computation that panics on `none`. -/
def ofOpt (m : String) (o : Option α) : C α :=
  match o with
  | some a => pure a
  | none => panic m
/-- `token.borrow()`. -/
def tok (t : TokId) : C Token := fun toks ns =>
  match toks[t]? with
  | some k => .ok k ns
  | none => .panic "dangling token reference"
/-- `token.get_children()[i]`. -/
def child (k : Token) (i : Nat) : C TokId := ofOpt "index out of bounds" k.children[i]?
/-- `Rc::new(RefCell::new(Box::new(matcher)))`. -/
def mk (n : Node) : C MatcherId := fun _ ns => .ok ns.length (ns ++ [n])
/-- `find_child` (`src/token.rs:156-170`). -/
def findChild (k : Token) (needle : String) : C (Option TokId) := fun toks ns =>
  .ok (Adx.findChild toks needle.toList k.children) ns
/-- `has_child` (`src/token.rs:188-193`). -/
def hasChild (k : Token) (needle : String) : C Bool := fun toks ns =>
  .ok (Adx.hasChild toks needle.toList k.children) ns
/-- `find_child_fuzzy` (`src/token.rs:172-186`) with a regular expression
`^(a|b|..)$`, i.e. one that matches exactly the given names. -/
def findChildOf (k : Token) (names : List String) : C (Option TokId) := fun toks ns =>
  .ok (Adx.findChildFuzzy toks (fun n => (names.map String.toList).contains n) k.children) ns

end C

/-! ### Changing a matcher -/

/-- `set_name` of the matchers that do not pass it on to another matcher
(`equals.rs:152-155`, `matches.rs:129-132`, `sequence.rs:258-261`,
`program.rs:893-896`, `proxy_children.rs:85-88`, `store.rs:110-113`,
`fetch.rs:148-150`, `ref.rs:117-120`, `pin.rs:398-401`); the others ignore it. -/
def Node.setOwnName (n : Str) : Node → Node
  | .equals _ _ p => .equals n (n != "Equals".toList) p
  | .regex _ _ r => .regex n (n != "Matches".toList) r
  | .sequence _ _ a b e => .sequence n (n != "Sequence".toList) a b e
  | .program ps _ _ i f => .program ps n true i f
  | .proxyChildren m _ _ => .proxyChildren m n true
  | .store m _ _ => .store m n true
  | .storeStr v _ _ => .storeStr v n true
  | .fetch _ => .fetch n
  | .ref t _ _ => .ref t n true
  | .pin m o _ _ => .pin m o n (n != "Pin".toList)
  | nd => nd

/-- The matcher to which `set_name` is passed on (`optional.rs:54-57`,
`not.rs:70-73`, `discard.rs:173-176`, `expand_range.rs:84-87`, `catch.rs:79-82`,
`map.rs:122-125`, `set_scope.rs:78-81`, `debug.rs:108-114`). -/
def Node.namePassedTo : Node → Option MatcherId
  | .optional m => some m
  | .not m => some m
  | .discard m => some m
  | .expandRange m => some m
  | .catch_ m _ => some m
  | .map m _ _ => some m
  | .setScope _ m => some m
  | .debug m _ => m
  | _ => none

/-- `matcher.borrow_mut().set_name(name)`; the first argument bounds the number of
wrappers (a wrapper that contains itself would be borrowed twice and panic). -/
def setNameGo (n : Str) : Nat → MatcherId → List Node → CRes Unit
  | 0, _, _ => .panic "already mutably borrowed"
  | d + 1, m, ns =>
    match ns[m]? with
    | none => .panic "dangling matcher reference"
    | some nd =>
      match nd.namePassedTo with
      | some m' => setNameGo n d m' ns
      | none => .ok () (ns.set m (nd.setOwnName n))

@[inherit_doc setNameGo]
def C.setName (m : MatcherId) (n : Str) : C Unit := fun _ ns => setNameGo n (ns.length + 1) m ns

/-- `add_pattern` (`program.rs:910-912`, `register.rs:69-71`; a panic for the other
matchers). -/
def C.addPattern (m p : MatcherId) : C Unit := fun _ ns =>
  match ns[m]? with
  | some (.program ps n c i f) => .ok () (ns.set m (.program (ps ++ [p]) n c i f))
  | some (.register ps) => .ok () (ns.set m (.register (ps ++ [p])))
  | _ => .panic "Can not add a pattern"

/-! ### Repeat specifiers -/

/-- The message of an overflowing or malformed number
(`std::num::ParseIntError::to_string`), for the digits `s`. -/
def parseIntError (s : Str) : Str :=
  if s = [] then "cannot parse integer from empty string".toList
  else if (parseUsize s).isNone ∧ s.all Char.isDigit then
    "number too large to fit in target type".toList
  else "invalid digit found in string".toList

/-- `text.parse::<usize>()`, with `Err(error) => return Err(error.to_string())`. -/
def C.parseUsize (s : Str) : C Nat :=
  match Adx.parseUsize s with
  | some n => pure n
  | none => C.err (parseIntError s)

/-- `get_repeat_specifier_range` (`src/script/v1/matchers/repeat_specifier.rs:16-60`). -/
def getRepeatSpecifierRange (t : TokId) : C (Nat × Nat) := do
  let k ← C.tok t
  if k.name = "RepeatZeroOrMore".toList then pure (0, usizeMax)
  else if k.name = "RepeatOneOrMore".toList then pure (1, usizeMax)
  else if k.name = "RepeatRange".toList then do
    let min ← C.ofOpt "called `Option::unwrap()` on a `None` value" (← C.findChild k "Minimum")
    let hasSeparator ← C.hasChild k "Seperator"
    let minimum ← C.parseUsize (← C.tok min).getCapturedValue
    if hasSeparator then
      match ← C.findChild k "Maximum" with
      | some max => do
        let maximum ← C.parseUsize (← C.tok max).getCapturedValue
        if maximum < minimum then
          C.err ("Error with repeat specifier: Maximum range is smaller than minimum: {".toList ++
            natStr minimum ++ ", ".toList ++ natStr maximum ++ "}".toList)
        else pure (minimum, maximum)
      | none => pure (minimum, usizeMax)
    else pure (0, minimum)
  else
    C.err ("Expected one of `RepeatZeroOrMore`, `RepeatOneOrMore`, or `RepeatRange` tokens, but received a `".toList ++
      k.name ++ "` token instead".toList)

/-! ### Matchers from pattern tokens -/

/-- The outside world: the build profile, the Unicode classes, `Regex::new` (`none` is an error), and
the file system: `Path::canonicalize` followed by `to_str`,
`Path::new(file).parent().unwrap().join(path)`, and `fs::read_to_string` (`none` is
an error or a panic).  Files do not change while scripts are compiled. -/
structure Env where
  cfg : Cfg
  uni : Uni
  regex : Str → Option Regex
  canonical : Str → Option Str
  relative : Str → Str → Option Str
  read : Str → Option Str

/-- The attributes that a pattern definition gives to the tokens it matches
(`src/script/v1/parser.rs:165-177`). -/
def collectAttributes : List TokId → AMap Str → C (AMap Str)
  | [], m => pure m
  | c :: cs, m => do
    let k ← C.tok c
    let key := (← C.tok (← C.child k 0)).getCapturedValue
    let value := (← C.tok (← C.child k 1)).getCapturedValue
    collectAttributes cs (m.insert key value)

/-- Give a token the attributes that it does not have
(`src/script/v1/parser.rs:183-191`). -/
def Token.addMissing (k : Token) : AMap Str → Token
  | [] => k
  | (key, value) :: m =>
    if k.hasAttribute key then k.addMissing m else (k.setAttribute key value).addMissing m

/-- The callback of the `Map!` of a pattern definition with attributes
(`src/script/v1/parser.rs:182-194`). -/
def addMissingAttributes (attrs : AMap Str) (t : TokId) (_ : Ctx) (_ : SCtxId) : M R := do
  modTok t (·.addMissing attrs)
  pure (.ok (.token t))

/-- `Optional!`/`Not!` around a matcher, for the two pairs of modifiers
(`src/script/v1/parser.rs:198-202,213-217`). -/
def withModifiers (opt neg : Bool) (m : MatcherId) : C MatcherId :=
  if opt then C.mk (.optional m) else if neg then C.mk (.not m) else pure m

/-- The names matched by `PATTERN_MATCHER` (`src/script/v1/parser.rs:19-21`). -/
def patternMatcherNames : List String :=
  ["CustomMatcher", "EqualsMatcher", "RegexMatcher", "SequenceMatcher", "ProgramMatcher",
   "SwitchMatcher"]

/-- The names matched by `REPEAT_SPECIFIER` (`src/script/v1/parser.rs:23-25`). -/
def repeatSpecifierNames : List String := ["RepeatZeroOrMore", "RepeatOneOrMore", "RepeatRange"]

/-- `if name != "" { matcher.borrow_mut().set_name(name) }`
(`src/script/v1/parser.rs:158-160`). -/
def withName (m : MatcherId) (name : Str) : C Unit :=
  if name ≠ [] then C.setName m name else pure ()

/-- The `Map!` around a matcher, for a definition with attributes
(`src/script/v1/parser.rs:162-196`). -/
def withAttributes (k : Token) (m : MatcherId) : C MatcherId := do
  match ← C.findChild k "Attributes" with
  | some a => do
    let ak ← C.tok a
    if ak.children.length > 0 then do
      let attrs ← collectAttributes ak.children []
      C.mk (.map m (addMissingAttributes attrs) passFailure)
    else pure m
  | none => pure m

/-- The `Loop!` around a matcher, for a definition with a repeat specifier
(`src/script/v1/parser.rs:204-211`). -/
def withRepeat (k : Token) (m : MatcherId) : C MatcherId := do
  match ← C.findChildOf k repeatSpecifierNames with
  | some r => do
    let range ← getRepeatSpecifierRange r
    C.mk (.program [m] "Loop".toList false
      (some (getRange (.included range.1) (.excluded range.2))) false)
  | none => pure m

/-- The `Discard!` around a matcher that is not captured
(`src/script/v1/parser.rs:219-221`). -/
def withDiscard (captured : Bool) (m : MatcherId) : C MatcherId :=
  if captured then pure m else C.mk (.discard m)

/-- `for child in children { .. add_pattern(..) }` (`src/script/v1/parser.rs:95-98,114-117`). -/
def constructChildren (pat : TokId → C (MatcherId × MatcherId)) (into : MatcherId) :
    List TokId → C Unit
  | [] => pure ()
  | c :: cs => do
    let m ← pat c
    C.addPattern into m.1
    constructChildren pat into cs

/-- `construct_matcher_from_inner_definition` (`src/script/v1/parser.rs:29-125`); `pat`
is `construct_matcher_from_pattern`. -/
def constructInner (env : Env) (pat : TokId → C (MatcherId × MatcherId)) (t : TokId) :
    C MatcherId := do
  let k ← C.tok t
  if k.name = "EqualsMatcher".toList then do
    let value := (← C.tok (← C.child k 0)).getValue
    if value = [] then C.err "Value can not be empty for an `Equals` pattern definition".toList
    else C.mk (.equals "Equals".toList false (.str value))
  else if k.name = "RegexMatcher".toList then do
    let value := k.getValue
    if value = [] then C.err "Value can not be empty for a `Matches` pattern definition".toList
    else
      let value ← match ← C.findChild k "Flags" with
        | some f => do pure ("(?".toList ++ (← C.tok f).getCapturedValue ++ ")".toList ++ value)
        | none => pure value
      let re ← C.ofOpt "called `Result::unwrap()` on an `Err` value" (env.regex value)
      C.mk (.regex "Matches".toList false re)
  else if k.name = "SequenceMatcher".toList then do
    let start ← C.tok (← C.child k 0)
    let stop ← C.tok (← C.child k 1)
    let escape ← C.tok (← C.child k 2)
    if start.getValue = [] then C.panic "Sequence `start` pattern of \"\" makes no sense"
    else if stop.getValue = [] then C.panic "Sequence `end` pattern of \"\" makes no sense"
    else C.mk (.sequence "Sequence".toList false (.str start.getValue) (.str stop.getValue)
      (.str escape.getValue))
  else if k.name = "CustomMatcher".toList then do
    let identifier := (← C.tok (← C.child k 0)).getValue
    if identifier = [] then
      C.err "Identifier can not be empty for a `CustomMatcher` pattern definition".toList
    else C.mk (.ref (.str identifier) "Ref".toList false)
  else if k.name = "SwitchMatcher".toList then
    if k.children.length = 0 then C.mk .null
    else do
      let m ← C.mk (.program [] "Switch".toList false none true)
      constructChildren pat m k.children
      pure m
  else if k.name = "ProgramMatcher".toList then
    if k.children.length = 0 then C.mk .null
    else do
      let m ← C.mk (.program [] "Program".toList false none false)
      constructChildren pat m k.children
      pure m
  else C.err "Unkown pattern type".toList

/-- `construct_matcher_from_pattern_definition` (`src/script/v1/parser.rs:127-224`). -/
def constructDefinition (env : Env) (pat : TokId → C (MatcherId × MatcherId)) (t : TokId)
    (name : Str) (captured : Bool) : C (MatcherId × MatcherId) := do
  let k ← C.tok t
  if k.name ≠ "PatternDefinition".toList then
    C.err ("Expected a `PatternDefinition` token, but received a `".toList ++ k.name ++
      "` token instead".toList)
  else do
    let outerOptional ← C.hasChild k "OuterOptionalModifier"
    let outerNot ← C.hasChild k "OuterNotModifier"
    let innerOptional ← C.hasChild k "InnerOptionalModifier"
    let innerNot ← C.hasChild k "InnerNotModifier"
    match ← C.findChildOf k patternMatcherNames with
    | none => C.err "Unexpected pattern token encountered".toList
    | some mt => do
      let inner ← constructInner env pat mt
      withName inner name
      let m ← withAttributes k inner
      let m ← withModifiers innerOptional innerNot m
      let m ← withRepeat k m
      let m ← withModifiers outerOptional outerNot m
      let m ← withDiscard captured m
      pure (m, inner)

/-- `construct_matcher_from_pattern` (`src/script/v1/parser.rs:226-261`); the first
argument bounds the depth of the token tree. -/
def constructPattern (env : Env) : Nat → TokId → C (MatcherId × MatcherId)
  | 0, _ => fun _ _ => .diverge
  | d + 1, t => do
    let k ← C.tok t
    if k.name = "PatternDefinitionCaptured".toList then do
      match ← C.findChild k "MatcherName" with
      | some n => do
        let nk ← C.tok n
        let name := (← C.tok (← C.child nk 0)).name
        constructDefinition env (constructPattern env d) (← C.child k 1) name true
      | none => do
        constructDefinition env (constructPattern env d) (← C.child k 0) [] true
    else if k.name = "PatternDefinition".toList then
      constructDefinition env (constructPattern env d) t [] false
    else
      C.err ("Expected a `PatternDefinitionCaptured`, or `PatternDefinition` token, but received a `".toList ++
        k.name ++ "` token instead".toList)

/-! ### The matcher of a script -/

/-- All matchers and the heap while scripts are compiled. -/
structure World where
  nodes : List Node
  st : State

/-- The outcome of `build_matcher_from_tokens` and `compile_script`
(`Result<(MatcherRef, ScopeContextRef), Vec<ParseError>>`). -/
inductive BuildRes
  | ok (m : MatcherId) (sc : SCtxId) (w : World)
  | err (es : List ParseError)
  | panic (msg : String)
  | diverge

/-- What the hooks of `build_matcher_from_tokens` change: the matchers, scopes and
`parse_errors`; `crash` is set when a hook panics (`some (some msg)`) or does not
return (`some none`). -/
structure Build where
  w : World
  errors : List ParseError
  crash : Option (Option String)

namespace Build

/-- A hook that fails: `return Err(e)`. -/
def fail (e : ParseError) (b : Build) : Except ParseError Unit × Build := (.error e, b)

/-- Run a step of the builder in a hook; `k` says what to do with its result, `ke`
what to do with its error.  A panic stops the visit. -/
def step {α : Type} (x : C α) (b : Build) (k : α → Build → Except ParseError Unit × Build)
    (ke : Str → ParseError) : Except ParseError Unit × Build :=
  match x b.w.st.toks b.w.nodes with
  | .ok a ns => k a { b with w := { b.w with nodes := ns } }
  | .err e => (.error (ke e), b)
  | .panic m => (.error ⟨[], none⟩, { b with crash := some (some m) })
  | .diverge => (.error ⟨[], none⟩, { b with crash := some none })

/-- `scope_context.borrow_mut().set(name, VariableType::Matcher(m))`. -/
def bind (sc : SCtxId) (name : Str) (m : MatcherId) (b : Build) : Build :=
  { b with w := { b.w with st := b.w.st.bindVar sc name (.matcher m) } }

end Build

/-- `ParseError::new(&format!("Error attempting to create matcher ..", error))`
(`src/script/v1/parser.rs:328,425`). -/
def patternError (e : Str) : ParseError :=
  ⟨"Error attempting to create matcher from parsed pattern token: ".toList ++ e, none⟩

/-- The hook `"Error"` (`src/script/v1/parser.rs:287-294`). -/
def hookError (t : TokId) (b : Build) : Except ParseError Unit × Build :=
  Build.step (do
      let k ← C.tok t
      let msg ← C.ofOpt "called `Option::unwrap()` on a `None` value"
        (k.getAttribute "__message".toList)
      pure (⟨msg, some k.matched⟩ : ParseError)) b
    (fun e b => (.ok (), { b with errors := b.errors ++ [e] })) patternError

/-- The hook `"AdextopaScope"` (`src/script/v1/parser.rs:295-305`). -/
def hookAdextopaScope (root : MatcherId) (t : TokId) (b : Build) :
    Except ParseError Unit × Build :=
  Build.step (do
      let k ← C.tok t
      match k.getAttribute "name".toList with
      | some n => C.setName root n
      | none => pure ()) b
    (fun _ b => (.ok (), b)) patternError

/-- The hook `"AssignmentExpression"` (`src/script/v1/parser.rs:306-334`). -/
def hookAssignment (env : Env) (depth : Nat) (sc : SCtxId) (t : TokId) (b : Build) :
    Except ParseError Unit × Build :=
  Build.step (do
      let k ← C.tok t
      let name := (← C.tok (← C.child k 0)).getValue
      let v ← C.child k 1
      let vk ← C.tok v
      if vk.name = "Identifier".toList then do
        let m ← C.mk (.ref (.str k.getValue) "Ref".toList false)
        pure (some (name, m))
      else if vk.name = "PatternDefinition".toList then do
        let m ← constructDefinition env (constructPattern env depth) v name true
        pure (some (name, m.1))
      else pure none) b
    (fun r b =>
      match r with
      | some (name, m) => (.ok (), b.bind sc name m)
      | none => (.ok (), b)) patternError

/-- The patterns of a pattern scope (`src/script/v1/parser.rs:415-429`). -/
def constructScope (env : Env) (depth : Nat) (inScope : MatcherId) : List TokId → C Unit
  | [] => pure ()
  | c :: cs => do
    let k ← C.tok c
    if k.name = "PatternDefinitionCaptured".toList ∨ k.name = "PatternDefinition".toList then do
      let m ← constructPattern env depth c
      C.addPattern inScope m.1
    constructScope env depth inScope cs

/-- The hook `"PatternScope"` (`src/script/v1/parser.rs:411-432`). -/
def hookPatternScope (env : Env) (depth : Nat) (inScope : MatcherId) (t : TokId) (b : Build) :
    Except ParseError Unit × Build :=
  Build.step (do
      let k ← C.tok t
      constructScope env depth inScope k.children) b
    (fun _ b => (.ok (), b)) patternError

/-- The callback of the `Map!` of an import (`src/script/v1/parser.rs:394-399`). -/
def renameToken (name : Str) (t : TokId) (_ : Ctx) (_ : SCtxId) : M R := do
  modTok t (·.setName name)
  pure (.ok (.token t))

/-- One identifier of an import statement (`src/script/v1/parser.rs:367-407`): the name
it is imported under, and the matcher bound to that name.  `root` and `isc` are the
root matcher and the scope of the imported script. -/
def importIdentifier (sc isc : SCtxId) (root : MatcherId) (file : Str) (c : TokId) (b : Build) :
    Except ParseError Unit × Build :=
  Build.step (do
      let k ← C.tok c
      let it ← C.ofOpt "called `Option::unwrap()` on a `None` value" (← C.findChild k "ImportName")
      let ik ← C.tok it
      let name ← match ← C.findChild k "ImportAsName" with
        | some a => do pure (← C.tok a).getValue
        | none => pure ik.getValue
      pure (ik, name)) b
    (fun (ik, name) b =>
      let identifier := ik.getValue
      if identifier = "_".toList then
        if name = "_".toList then
          Build.fail ⟨"Error root import '_' must be named using 'import {{ _ as Name }}'".toList,
            some ik.matched⟩ b
        else
          Build.step (C.setName root name) b (fun _ b => (.ok (), b.bind sc name root)) patternError
      else
        match b.w.st.lookup isc identifier with
        | some (.matcher m) =>
          Build.step (do
              let mm ← C.mk (.map m (renameToken name) passFailure)
              C.mk (.setScope (some isc) mm)) b
            (fun mm b => (.ok (), b.bind sc name mm)) patternError
        | _ =>
          Build.fail ⟨"Failed to import `".toList ++ identifier ++ "` from '".toList ++ file ++
            "': Not found".toList, some ik.matched⟩ b) patternError

/-- `for import_identifier in import_identifiers` (`src/script/v1/parser.rs:367-407`). -/
def importIdentifiers (sc isc : SCtxId) (root : MatcherId) (file : Str) :
    List TokId → Build → Except ParseError Unit × Build
  | [], b => (.ok (), b)
  | c :: cs, b =>
    match importIdentifier sc isc root file c b with
    | (.ok _, b) => importIdentifiers sc isc root file cs b
    | r => r

/-- The hook `"ImportStatement"` (`src/script/v1/parser.rs:335-410`); `compileFile` is
`compile_script_from_file_internal`. -/
def hookImport (env : Env) (compileFile : Str → World → BuildRes) (fromFile : Option Str)
    (sc : SCtxId) (t : TokId) (b : Build) : Except ParseError Unit × Build :=
  match fromFile with
  | none =>
    Build.step (C.tok t) b (fun k b =>
      Build.fail ⟨"Found import statement, but it is forbidden to use imports when not parsing from a file".toList,
        some k.matched⟩ b) patternError
  | some from_ =>
    Build.step (do
        let k ← C.tok t
        let ids ← C.ofOpt "called `Option::unwrap()` on a `None` value"
          (← C.findChild k "ImportIdentifiers")
        let ids ← C.tok ids
        let path ← C.ofOpt "called `Option::unwrap()` on a `None` value" (← C.findChild k "Path")
        let path := (← C.tok path).getValue
        let joined ← C.ofOpt "called `Option::unwrap()` on a `None` value" (env.relative from_ path)
        let file ← C.ofOpt "called `Result::unwrap()` on an `Err` value" (env.canonical joined)
        pure (ids.children, file)) b
      (fun (ids, file) b =>
        match compileFile file b.w with
        | .ok root isc w => importIdentifiers sc isc root file ids { b with w := w }
        | .err es => Build.fail ⟨[], none⟩ { b with errors := b.errors ++ es }
        | .panic m => (.error ⟨[], none⟩, { b with crash := some (some m) })
        | .diverge => (.error ⟨[], none⟩, { b with crash := some none })) patternError

/-- The hooks of `build_matcher_from_tokens` (`src/script/v1/parser.rs:286-433`). -/
def buildHooks (env : Env) (compileFile : Str → World → BuildRes) (fromFile : Option Str)
    (depth : Nat) (root inScope : MatcherId) (sc : SCtxId) : List (Str × Hook Build) :=
  [("Error".toList, hookError),
   ("AdextopaScope".toList, hookAdextopaScope root),
   ("AssignmentExpression".toList, hookAssignment env depth sc),
   ("ImportStatement".toList, hookImport env compileFile fromFile sc),
   ("PatternScope".toList, hookPatternScope env depth inScope)]

/-- The end of `build_matcher_from_tokens` (`src/script/v1/parser.rs:435-455`). -/
def buildResult (ctx : Ctx) (root : MatcherId) (sc : SCtxId) : VRes Build → BuildRes
  | .ok b => .ok root sc b.w
  | .err e b =>
    match b.crash with
    | some (some m) => .panic m
    | some none => .diverge
    | none =>
      if e.message ≠ [] then
        let range := e.range.getD ⟨0, 0⟩
        match ctx.errorString e.message range with
        | some msg => .err (b.errors ++ [⟨msg, some range⟩])
        | none => .panic "get_error_as_string: slice"
      else .err b.errors
  | .dangling => .panic "dangling token reference"
  | .diverge => .diverge

/-- `build_matcher_from_tokens` (`src/script/v1/parser.rs:263-456`); `depth` bounds the
depth of the token tree. -/
def buildMatcherFromTokens (env : Env) (compileFile : Str → World → BuildRes) (depth : Nat)
    (t : TokId) (ctx : Ctx) (name : Str) (fromFile : Option Str) (w : World) : BuildRes :=
  match w.st.toks[t]? with
  | none => .panic "dangling token reference"
  | some k =>
    if k.name ≠ "Script".toList then
      .err [⟨"Expected provided token to be a `Script` token".toList, none⟩]
    else
      let root := w.nodes.length
      let inScope := root + 1
      let (sc, st) := w.st.newSCtx
      let nodes := w.nodes ++
        [.program [root + 3] name true none false,
         .program [] "Program".toList false none false,
         .proxyChildren inScope "Flatten".toList false,
         .setScope (some sc) (root + 2)]
      buildResult ctx root sc
        (visit st.toks (buildHooks env compileFile fromFile depth root inScope sc) depth t
          ⟨⟨nodes, st⟩, [], none⟩)

/-- `compile_script` (`src/script/v1/parser.rs:489-551`), without the printing that
`FLAG_LOG_STDERR` asks for (`Model/Log`).  `fuel` bounds the depth of imports and of the parse; a proper token
tree is not deeper than the number of tokens. -/
def compileScript (env : Env) : Nat → Parser → Str → Option Str → World → BuildRes
  | 0, _, _, _, _ => .diverge
  | fuel + 1, parser, name, fromFile, w =>
    let (sc, st) := w.st.newSCtx
    let ctx := Ctx.new parser sc name
    let (sw, nodes) := (Script.switchMatcher env.uni).run w.nodes
    let (pm, nodes) := (Script.programMatcher env.uni).run nodes
    let st := st.bindVar sc "SwitchMatcher".toList (.matcher sw)
    let st := st.bindVar sc "ProgramMatcher".toList (.matcher pm)
    let (m, nodes) := (Script.script env.uni).run nodes
    match tokenize (tableOf nodes) env.cfg fuel ctx m st with
    | .ok (.ok t) st =>
      buildMatcherFromTokens env
        (fun file w =>
          match env.canonical file with
          | none => .panic "called `Result::unwrap()` on an `Err` value"
          | some full =>
            match env.read full with
            | none => .panic "called `Result::unwrap()` on an `Err` value"
            | some src => compileScript env fuel ⟨src, full⟩ file (some full) w)
        st.toks.length t ctx name fromFile ⟨nodes, st⟩
    | .ok (.error .fail) _ =>
      .err [⟨"Failed to parse script with an unknown error. This is likely a bug. Please report this issue to the adextopa maintainers.".toList,
        none⟩]
    | .ok (.error (.error e)) _ => .err [e]
    | .panic m => .panic m
    | .diverge => .diverge

/-- `compile_script_from_file` (`src/script/v1/parser.rs:576-588`) and
`compile_script_from_file_internal` (lines 565-574). -/
def compileScriptFromFile (env : Env) (fuel : Nat) (file : Str) (w : World) : BuildRes :=
  match env.canonical file with
  | none => .panic "called `Result::unwrap()` on an `Err` value"
  | some full =>
    match env.read full with
    | none => .panic "called `Result::unwrap()` on an `Err` value"
    | some src => compileScript env fuel ⟨src, full⟩ file (some full) w

/-- `compile_script_from_str` (`src/script/v1/parser.rs:553-563`). -/
def compileScriptFromStr (env : Env) (fuel : Nat) (src name : Str) (w : World) : BuildRes :=
  compileScript env fuel ⟨src, []⟩ name none w

end Adx
