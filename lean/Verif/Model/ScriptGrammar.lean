import Verif.Model.Build
import Verif.Model.Regex
import Verif.Model.Children
/-
  The grammar of grammar scripts: the macros of `src/script/v1/matchers/*.rs` with
  the callbacks they contain.  Each macro allocates new matchers, so each is a
  builder.
-/
namespace Adx

/-- The Unicode classes `\d` and `\w` of the crate `regex`.  They are parameters of
the model; all that is assumed is what they are on ASCII. -/
structure Uni where
  digit : Char → Bool
  word : Char → Bool
  digit_ascii : ∀ c : Char, c.toNat < 128 → digit c = c.isDigit
  word_ascii : ∀ c : Char, c.toNat < 128 → word c = (c.isAlphanum || c == '_')

/-- The classes cut down to ASCII, for running the model. -/
def Uni.ascii : Uni where
  digit := Rx.isDigit
  word := Rx.isWord
  digit_ascii := fun _ _ => rfl
  word_ascii := fun _ _ => rfl

namespace Script
open Rx

/-- `[^\S\n\r]`: white space other than line breaks. -/
def isBlank (c : Char) : Bool := isSpace c && c != '\n' && c != '\r'

/-- `[^\S\n\r]*` (`src/script/v1/matchers/whitespace.rs:4,8`). -/
def rxWS0 : Regex := mkRx "[^\\S\\n\\r]*" [[.star isBlank]]
/-- `\s*` (`src/script/v1/matchers/whitespace.rs:26,30`). -/
def rxWSN0 : Regex := mkRx "\\s*" [[.star isSpace]]
/-- `[a-zA-Z$_][a-zA-Z0-9$_]*` (`src/script/v1/matchers/identifier.rs:4,8`). -/
def rxIdentifier : Regex :=
  mkRx "[a-zA-Z$_][a-zA-Z0-9$_]*"
    [[.one (fun c => c.isAlpha || c == '$' || c == '_'),
      .star (fun c => c.isAlpha || c.isDigit || c == '$' || c == '_')]]
/-- `#[^\r\n]*` (`src/script/v1/matchers/comment.rs:4`). -/
def rxComment : Regex :=
  mkRx "#[^\\r\\n]*" [[lit '#', .star (fun c => c != '\r' && c != '\n')]]
/-- `\d+` (`src/script/v1/matchers/repeat_range.rs:7,11`). -/
def rxDigits (u : Uni) : Regex := mkRx "\\d+" [plus u.digit]
/-- `[\w+_]`, which contains `+`. -/
def isAttr (u : Uni) (c : Char) : Bool := u.word c || c == '+' || c == '_'
/-- `[\w+_]+` (`src/script/v1/matchers/attribute.rs:6`). -/
def rxAttrName (u : Uni) : Regex := mkRx "[\\w+_]+" [plus (isAttr u)]
/-- `_[\w+_]+` (`src/script/v1/matchers/attribute.rs:14`). -/
def rxAttrUnderscore (u : Uni) : Regex := mkRx "_[\\w+_]+" [lit '_' :: plus (isAttr u)]
/-- `[^'\s]+` (`src/script/v1/matchers/attribute.rs:10`). -/
def rxNotQuote : Regex := mkRx "[^'\\s]+" [plus (fun c => c != '\'' && !isSpace c)]
/-- `\?!|!\?` (`src/script/v1/matchers/pattern_definition.rs:15,26`). -/
def rxBothModifiers : Regex := mkRx "\\?!|!\\?" [lits "?!", lits "!?"]
/-- `[^/\\\[]*` (`src/script/v1/matchers/regex_matcher.rs:10`). -/
def rxPlainPart : Regex :=
  mkRx "[^/\\\\\\[]*" [[.star (fun c => c != '/' && c != '\\' && c != '[')]]
/-- `\\.` (`src/script/v1/matchers/regex_matcher.rs:14`). -/
def rxEscape : Regex := mkRx "\\\\." [[lit '\\', .one (· != '\n')]]
/-- `[imsU]*` (`src/script/v1/matchers/regex_matcher.rs:19`). -/
def rxFlags : Regex :=
  mkRx "[imsU]*" [[.star (fun c => c == 'i' || c == 'm' || c == 's' || c == 'U')]]
/-- `%\s*` (`src/script/v1/matchers/sequence_matcher.rs:5`). -/
def rxPercent : Regex := mkRx "%\\s*" [[lit '%', .star isSpace]]
/-- `\s*,\s*` (`src/script/v1/matchers/sequence_matcher.rs:7,9`). -/
def rxComma : Regex := mkRx "\\s*,\\s*" [[.star isSpace, lit ',', .star isSpace]]
/-- `\s+as\s+` (`src/script/v1/matchers/import_statement.rs:24`). -/
def rxAs : Regex := mkRx "\\s+as\\s+" [plus isSpace ++ lits "as" ++ plus isSpace]
/-- `<!--\[adextopa` (`src/script/v1/matchers/adextopa_scope.rs:6`). -/
def rxAdextopa : Regex := mkRx "<!--\\[adextopa" [lits "<!--[adextopa"]

open B

/-- `ScriptWS0!(?)` (`src/script/v1/matchers/whitespace.rs:3-5`). -/
def ws0 : B MatcherId := discard (regexN "Whitespace" rxWS0)
/-- `ScriptWSN0!(?)` (`src/script/v1/matchers/whitespace.rs:25-27`). -/
def wsn0 : B MatcherId := discard (regexN "Whitespace" rxWSN0)
/-- `ScriptIdentifier!(name)` (`src/script/v1/matchers/identifier.rs:1-10`). -/
def identifier (name : String := "Identifier") : B MatcherId := regexN name rxIdentifier
/-- `ScriptString!(name)` (`src/script/v1/matchers/string.rs:1-10`). -/
def string (name : String := "String") : B MatcherId := sequenceN name "'" "'" "\\"
/-- `ScriptComment!()` (`src/script/v1/matchers/comment.rs:1-6`). -/
def comment : B MatcherId := regexN "Comment" rxComment
/-- `ScriptRepeatZeroOrMore!()` (`src/script/v1/matchers/repeat_zero_or_more.rs:1-6`). -/
def repeatZeroOrMore : B MatcherId := equalsN "RepeatZeroOrMore" "*"
/-- `ScriptRepeatOneOrMore!()` (`src/script/v1/matchers/repeat_one_or_more.rs:1-6`). -/
def repeatOneOrMore : B MatcherId := equalsN "RepeatOneOrMore" "+"
/-- `ScriptRepeatRange!()` (`src/script/v1/matchers/repeat_range.rs:1-16`). -/
def repeatRange (u : Uni) : B MatcherId :=
  programN "RepeatRange" [
    discard (equals "{"),
    ws0,
    regexN "Minimum" (rxDigits u),
    ws0,
    optional (equalsN "Seperator" ","),
    ws0,
    optional (regexN "Maximum" (rxDigits u)),
    ws0,
    discard (equals "}")]
/-- `ScriptRepeatSpecifier!()` (`src/script/v1/matchers/repeat_specifier.rs:5-14`). -/
def repeatSpecifier (u : Uni) : B MatcherId :=
  switchN "RepeatSpecifier" [repeatZeroOrMore, repeatOneOrMore, repeatRange u]
/-- `ScriptEqualsMatcher!()` (`src/script/v1/matchers/equals_matcher.rs:1-9`). -/
def equalsMatcher : B MatcherId := programN "EqualsMatcher" [discard (equals "="), string]
/-- `ScriptCustomMatcher!()` (`src/script/v1/matchers/custom_matcher.rs:1-8`). -/
def customMatcher : B MatcherId := programN "CustomMatcher" [identifier]
/-- `ScriptMatcherName!()` (`src/script/v1/matchers/matcher_name.rs:1-9`). -/
def matcherName : B MatcherId := programN "MatcherName" [discard (equals "?"), string "Name"]
/-- `ScriptSequenceMatcher!()` (`src/script/v1/matchers/sequence_matcher.rs:1-13`). -/
def sequenceMatcher : B MatcherId :=
  programN "SequenceMatcher" [
    discard (regex rxPercent),
    string "StartPattern",
    discard (regex rxComma),
    string "EndPattern",
    discard (regex rxComma),
    string "EscapePattern"]

/-- The loop over the children in the callback of `ScriptRegexMatcher!`
(`src/script/v1/matchers/regex_matcher.rs:35-49`): the hull of the `Part`
children's matched ranges. -/
def partsRange : List TokId → Range → M Range
  | [], r => pure r
  | c :: cs, r => do
    let k ← getTok c
    if k.name = "Part".toList then
      let start := if r.start = usizeMax ∨ k.matched.start < r.start then k.matched.start else r.start
      let stop := if r.stop = usizeMax ∨ k.matched.stop > r.stop then k.matched.stop else r.stop
      partsRange cs ⟨start, stop⟩
    else partsRange cs r

/-- The callback of `ScriptRegexMatcher!` (`src/script/v1/matchers/regex_matcher.rs:29-56`). -/
def regexMatcherDone (t : TokId) (_ : Ctx) (_ : SCtxId) : M R := do
  let tk ← getTok t
  let r ← partsRange tk.children ⟨usizeMax, usizeMax⟩
  modTok t (·.setValue (r.text tk.parser))
  pure (.ok (.token t))

/-- `ScriptRegexMatcher!()` (`src/script/v1/matchers/regex_matcher.rs:1-59`). -/
def regexMatcher : B MatcherId :=
  map (programN "RegexMatcher" [
    equalsN "RegexStart" "/",
    proxyChildren (loopN "RegexCaptureLoop" [
      regexN "Part" rxPlainPart,
      switch [
        regexN "Part" rxEscape,
        proxyChildren (program [
          equalsN "RegexEnd" "/",
          regexN "Flags" rxFlags,
          brk "RegexCaptureLoop"]),
        sequenceN "Part" "[" "]" "\\"]])]) regexMatcherDone

/-- `ScriptMatcher!()` (`src/script/v1/matchers/matcher.rs:1-13`). -/
def matcher : B MatcherId :=
  switchN "Matcher" [regexMatcher, equalsMatcher, sequenceMatcher, customMatcher,
    ref "SwitchMatcher", ref "ProgramMatcher"]

/-- `ScriptAttribute!()` (`src/script/v1/matchers/attribute.rs:1-20`). -/
def attribute_ (u : Uni) : B MatcherId :=
  programN "Attribute" [
    store "AttributeStartOffset" pin,
    regexN "Name" (rxAttrName u),
    ws0,
    discard (equals "="),
    ws0,
    fatalIf (regex rxNotQuote) "Malformed attribute detected. Attribute value is not single-quoted. The proper format for an attribute is: name='value'",
    string "Value",
    pinN "Pin" (.fetch "AttributeStartOffset.range".toList)
      (assertIf (regex (rxAttrUnderscore u)) "Attribute names can not start with an underscore")]

/-- `ScriptAttributes!()` (`src/script/v1/matchers/attributes.rs:1-11`). -/
def attributes (u : Uni) : B MatcherId :=
  optional (loopN "Attributes" [attribute_ u, wsn0] (.included 1) .unbounded)

/-- The loop over the attributes in the callbacks of `ScriptPatternDefinition!`
(`src/script/v1/matchers/pattern_definition.rs:45-51`) and `ScriptAdextopaScope!`
(`src/script/v1/matchers/adextopa_scope.rs:37-49`): copy the attributes to token
`t`; the result is the last attribute called `version`. -/
def copyAttributes (t : TokId) : List TokId → Option TokId → M (Option TokId)
  | [], version => pure version
  | a :: as, version => do
    let ak ← getTok a
    let name ← M.ofOpt "index out of bounds" ak.children[0]?
    let value ← M.ofOpt "index out of bounds" ak.children[1]?
    let name := (← getTok name).getValue
    let value := (← getTok value).getValue
    modTok t (·.setAttribute name value)
    copyAttributes t as (if name = "version".toList then some a else version)

/-- `if let Some(attribute_token) = _token.find_child("Attributes") { .. }`
(`src/script/v1/matchers/pattern_definition.rs:43-53`,
`src/script/v1/matchers/adextopa_scope.rs:35-51`). -/
def copyAllAttributes (t : TokId) : M (Option TokId) := do
  let tk ← getTok t
  match ← tk.findChild "Attributes".toList with
  | some a => do
    let ak ← getTok a
    copyAttributes t ak.children none
  | none => pure none

/-- The callback of `ScriptPatternDefinition!`
(`src/script/v1/matchers/pattern_definition.rs:40-56`). -/
def patternDefinitionDone (t : TokId) (_ : Ctx) (_ : SCtxId) : M R := do
  let _ ← copyAllAttributes t
  pure (.ok (.token t))

/-- The message of `src/script/v1/matchers/pattern_definition.rs:16,27`. -/
def bothModifiersMsg : String :=
  "Can not use ? and ! at the same time in this context. Use one or the other, not both."

/-- `ScriptPatternDefinition!()` (`src/script/v1/matchers/pattern_definition.rs:1-59`). -/
def patternDefinition (u : Uni) : B MatcherId :=
  map (programN "PatternDefinition" [
    assertIf (regex rxBothModifiers) bothModifiersMsg,
    optional (switch [equalsN "OuterOptionalModifier" "?", equalsN "OuterNotModifier" "!"]),
    discard (equals "<"),
    assertIf (regex rxBothModifiers) bothModifiersMsg,
    optional (switch [equalsN "InnerOptionalModifier" "?", equalsN "InnerNotModifier" "!"]),
    wsn0,
    matcher,
    wsn0,
    attributes u,
    discard (equals ">"),
    optional (repeatSpecifier u)]) patternDefinitionDone

/-- `ScriptPattern!()` (`src/script/v1/matchers/pattern.rs:1-17`). -/
def pattern (u : Uni) : B MatcherId :=
  switchN "Pattern" [
    programN "PatternDefinitionCaptured" [
      discard (equals "("),
      wsn0,
      optional matcherName,
      wsn0,
      patternDefinition u,
      wsn0,
      discard (equals ")")],
    patternDefinition u]

/-- `ScriptProgramMatcher!()` (`src/script/v1/matchers/program_matcher.rs:1-23`). -/
def programMatcher (u : Uni) : B MatcherId :=
  programN "ProgramMatcher" [
    discard (equals "{"),
    proxyChildren (loop [
      wsn0,
      pattern u,
      wsn0,
      discard (optional (program [equals "}", brk]))])]

/-- `ScriptSwitchMatcher!()` (`src/script/v1/matchers/switch_matcher.rs:1-32`). -/
def switchMatcher (u : Uni) : B MatcherId :=
  programN "SwitchMatcher" [
    discard (equals "["),
    proxyChildren (loop [
      wsn0,
      switch [
        discard (program [equals "]", brk]),
        pattern u],
      wsn0,
      discard (switch [
        equals "|",
        program [equals "]", brk]])])]

/-- The callback of `ScriptPatternScope!` (`src/script/v1/matchers/pattern_scope.rs:12-23`). -/
def patternScopeDone (t : TokId) (c : Ctx) (_ : SCtxId) : M R := do
  let tk ← getTok t
  if tk.matched.stop < blen tk.parser.src then
    let rest ← M.ofOpt "byte index out of bounds" (bdrop tk.matched.stop tk.parser.src)
    let e ← newErrorToken c
      ("Syntax error. Expected a pattern defintion, but instead found: ".toList ++ rest)
    pure (.ok (.token e))
  else pure (.ok (.token t))

/-- `ScriptPatternScope!()` (`src/script/v1/matchers/pattern_scope.rs:1-26`). -/
def patternScope (u : Uni) : B MatcherId :=
  map (loopN "PatternScope" [wsn0, switch [comment, pattern u]] (.included 1) .unbounded)
    patternScopeDone

/-- `ScriptAssignmentExpression!()` (`src/script/v1/matchers/assignment_expression.rs:1-15`). -/
def assignmentExpression (u : Uni) : B MatcherId :=
  programN "AssignmentExpression" [
    identifier,
    wsn0,
    discard (equals "="),
    wsn0,
    switch [identifier, patternDefinition u]]

/-- `ScriptImportStatement!()` (`src/script/v1/matchers/import_statement.rs:1-43`). -/
def importStatement : B MatcherId :=
  programN "ImportStatement" [
    discard (equals "import"),
    ws0,
    programN "ImportIdentifiers" [
      discard (equals "{"),
      proxyChildren (loopN "IdentifiersLoop" [
        wsn0,
        switch [
          discard (program [equals "}", brk "IdentifiersLoop"]),
          programN "ImportIdentifier" [
            identifier "ImportName",
            optional (proxyChildren (program [discard (regex rxAs), identifier "ImportAsName"])),
            discard (optional (equals ","))]]])],
    ws0,
    discard (equals "from"),
    ws0,
    string "Path"]

/-- The callback of `ScriptAdextopaScope!`
(`src/script/v1/matchers/adextopa_scope.rs:29-75`). -/
def adextopaScopeDone (t : TokId) (c : Ctx) (_ : SCtxId) : M R := do
  let versionToken ← copyAllAttributes t
  let tk ← getTok t
  match tk.getAttribute "version".toList with
  | none => do
    let range ← match ← tk.findChild "EndOfScopeHeader".toList with
      | some p => do pure (⟨tk.matched.start, (← getTok p).matched.stop⟩ : Range)
      | none => pure tk.matched
    let e ← newErrorTokenWithRange c "Adextopa scope must have a 'version' attribute".toList range
    pure (.ok (.token e))
  | some version =>
    match parseUsize version with
    | none => do
      let v ← M.ofOpt "called `Option::unwrap()` on a `None` value" versionToken
      let e ← newErrorTokenWithRange c
        "Adextopa 'version' attribute must be a valid integer number".toList (← getTok v).matched
      pure (.ok (.token e))
    | some _ => pure (.ok (.token t))

/-- `ScriptAdextopaScope!()` (`src/script/v1/matchers/adextopa_scope.rs:1-78`). -/
def adextopaScope (u : Uni) : B MatcherId :=
  map (programN "AdextopaScope" [
    discard (regex rxAdextopa),
    ws0,
    attributes u,
    discard (equals "]"),
    mk (.pin none (.str []) "EndOfScopeHeader".toList true),
    optional (loopN "Scope" [
      wsn0,
      switch [
        comment,
        importStatement,
        assignmentExpression u,
        discard (program [
          (do mk (.pin (some (← equals "-->")) (.str []) "Pin".toList false)),
          brk])]]),
    discard (equals "-->")]) adextopaScopeDone

/-- The callback of `Script!` (`src/script/v1/matchers/script.rs:16-26`). -/
def scriptDone (t : TokId) (c : Ctx) (_ : SCtxId) : M R := do
  let tk ← getTok t
  let a ← tk.findChild "AdextopaScope".toList
  let p ← tk.findChild "PatternScope".toList
  if a = none ∧ p = none then
    let e ← newErrorTokenWithRange c "Nothing to parse. No scopes found.".toList tk.matched
    pure (.ok (.token e))
  else pure (.ok (.token t))

/-- `Script!()` (`src/script/v1/matchers/script.rs:1-29`). -/
def script (u : Uni) : B MatcherId :=
  map (programN "Script" [
    optional (loopN "PreHead" [wsn0, comment]),
    wsn0,
    optional (adextopaScope u),
    optional (patternScope u)]) scriptDone

end Script

end Adx
