import Verif.Model.Script
import Verif.Tests.Conformance
/-
  The repository's own unit tests of the script grammar and compiler
  (`src/script/v1/matchers/*.rs`, `src/script/v1/parser.rs`), replayed on the model.
  These are *tests* of the transcription (evaluated with `#guard`), not proofs of
  anything.
-/
namespace Adx.Tests.ScriptTests
open Adx.Script Adx.B

/-- One assertion of a test about the token at a path. -/
inductive Chk
  | name (p : List Nat) (s : String)
  | value (p : List Nat) (s : String)
  | matchedValue (p : List Nat) (s : String)
  | capturedValue (p : List Nat) (s : String)
  | captured (p : List Nat) (a b : Nat)
  | matched (p : List Nat) (a b : Nat)
  | children (p : List Nat) (n : Nat)
  | attribute (p : List Nat) (k v : String)
  | isError (p : List Nat)

/-- The token at a path. -/
def at_ (toks : List Token) : TokId → List Nat → Option Token
  | t, [] => toks[t]?
  | t, i :: is =>
    match toks[t]? with
    | some k =>
      match k.children[i]? with
      | some c => at_ toks c is
      | none => none
    | none => none

def Chk.run (toks : List Token) (t : TokId) : Chk → Bool
  | .name p s => (at_ toks t p).any fun k => k.name == s.toList
  | .value p s => (at_ toks t p).any fun k => k.getValue == s.toList
  | .matchedValue p s => (at_ toks t p).any fun k => k.getMatchedValue == s.toList
  | .capturedValue p s => (at_ toks t p).any fun k => k.getCapturedValue == s.toList
  | .captured p a b => (at_ toks t p).any fun k => k.captured == ⟨a, b⟩
  | .matched p a b => (at_ toks t p).any fun k => k.matched == ⟨a, b⟩
  | .children p n => (at_ toks t p).any fun k => k.children.length == n
  | .attribute p a v => (at_ toks t p).any fun k => k.getAttribute a.toList == some v.toList
  | .isError p => (at_ toks t p).any fun k => k.flagsEnabled IS_ERROR

def u : Uni := Uni.ascii

/-- The set-up of the tests: the two registered matchers, then a parse.  All tests
that do not register them do not use them. -/
def srun (b : B MatcherId) (src : String) : Res (Except Failure TokId) × List Node :=
  let (sw, nodes) := (switchMatcher u).run []
  let (pm, nodes) := (programMatcher u).run nodes
  let st := (s0.bindVar 0 "SwitchMatcher".toList (.matcher sw)).bindVar 0
    "ProgramMatcher".toList (.matcher pm)
  let (m, nodes) := b.run nodes
  (tokenize (tableOf nodes) ⟨true⟩ 100 (Ctx.new ⟨src.toList, []⟩ 0 "Test".toList) m st, nodes)

def stok (b : B MatcherId) (src : String) : String :=
  match (srun b src).1 with
  | .ok (.ok t) s => match treeOf s.toks 50 t with | some t => shw 50 t | none => "not a tree"
  | .ok (.error .fail) _ => "Fail"
  | .ok (.error (.error e)) _ => "Error: " ++ String.ofList e.message ++
      (match e.range with | some r => s!" @{r.start},{r.stop}" | none => "")
  | .panic m => "panic: " ++ m
  | .diverge => "diverge"

def schk (b : B MatcherId) (src : String) (cs : List Chk) : Bool :=
  match (srun b src).1 with
  | .ok (.ok t) s => cs.all fun c => c.run s.toks t
  | _ => false

-- adextopa_scope.rs: it_works1
#guard schk (adextopaScope u) "<!--[adextopa version='1']\n\t# Just a test comment\n\ttest = <='derp'>\n\ttest2=test#another comment\n-->" [
  .name [] "AdextopaScope",
  .captured [] 14 95,
  .matched [] 0 99,
  .value [] "version='1']\n\t# Just a test comment\n\ttest = <='derp'>\n\ttest2=test#another comment",
  .matchedValue [] "<!--[adextopa version='1']\n\t# Just a test comment\n\ttest = <='derp'>\n\ttest2=test#another comment\n-->",
  .children [] 2,
  .name [0] "Attributes",
  .captured [0] 14 24,
  .matched [0] 14 25,
  .value [0] "version='1",
  .matchedValue [0] "version='1'",
  .children [0] 1,
  .name [1] "Scope",
  .captured [1] 28 95,
  .matched [1] 26 96,
  .value [1] "# Just a test comment\n\ttest = <='derp'>\n\ttest2=test#another comment",
  .matchedValue [1] "\n\t# Just a test comment\n\ttest = <='derp'>\n\ttest2=test#another comment\n",
  .children [1] 4,
  .name [1, 0] "Comment",
  .captured [1, 0] 28 49,
  .matched [1, 0] 28 49,
  .value [1, 0] "# Just a test comment",
  .matchedValue [1, 0] "# Just a test comment",
  .name [1, 1] "AssignmentExpression",
  .captured [1, 1] 51 65,
  .matched [1, 1] 51 67,
  .value [1, 1] "test = <='derp",
  .matchedValue [1, 1] "test = <='derp'>",
  .name [1, 2] "AssignmentExpression",
  .captured [1, 2] 69 79,
  .matched [1, 2] 69 79,
  .value [1, 2] "test2=test",
  .matchedValue [1, 2] "test2=test",
  .name [1, 3] "Comment",
  .captured [1, 3] 79 95,
  .matched [1, 3] 79 95,
  .value [1, 3] "#another comment",
  .matchedValue [1, 3] "#another comment",
  .attribute [] "version" "1"]
-- adextopa_scope.rs: it_works2
#guard schk (adextopaScope u) "<!--[adextopa version='1' name='Test']-->" [
  .name [] "AdextopaScope",
  .captured [] 14 36,
  .matched [] 0 41,
  .value [] "version='1' name='Test",
  .matchedValue [] "<!--[adextopa version='1' name='Test']-->",
  .children [] 1,
  .name [0] "Attributes",
  .captured [0] 14 36,
  .matched [0] 14 37,
  .value [0] "version='1' name='Test",
  .matchedValue [0] "version='1' name='Test'",
  .attribute [] "version" "1",
  .attribute [] "name" "Test"]
-- adextopa_scope.rs: it_should_fail_without_a_version_attribute
#guard schk (adextopaScope u) "<!--[adextopa name='Test']-->" [
  .name [] "Error",
  .captured [] 0 29,
  .matched [] 0 29,
  .value [] "<!--[adextopa name='Test']-->",
  .matchedValue [] "<!--[adextopa name='Test']-->",
  .children [] 0,
  .attribute [] "__message" "Error: @[1:1-30]: Adextopa scope must have a 'version' attribute",
  .isError []]
-- adextopa_scope.rs: it_should_fail_if_unable_to_parse_version_attribute1
#guard schk (adextopaScope u) "<!--[adextopa version='1.2']-->" [
  .name [] "Error",
  .captured [] 14 27,
  .matched [] 14 27,
  .value [] "version='1.2'",
  .matchedValue [] "version='1.2'",
  .children [] 0,
  .attribute [] "__message" "Error: @[1:15-28]: Adextopa 'version' attribute must be a valid integer number",
  .isError []]
-- adextopa_scope.rs: it_should_fail_if_unable_to_parse_version_attribute2
#guard schk (adextopaScope u) "<!--[adextopa version='']-->" [
  .name [] "Error",
  .captured [] 14 24,
  .matched [] 14 24,
  .value [] "version=''",
  .matchedValue [] "version=''",
  .children [] 0,
  .attribute [] "__message" "Error: @[1:15-25]: Adextopa 'version' attribute must be a valid integer number",
  .isError []]
-- adextopa_scope.rs: it_should_fail_if_unable_to_parse_version_attribute3
#guard schk (adextopaScope u) "<!--[adextopa version='derp']-->" [
  .name [] "Error",
  .captured [] 14 28,
  .matched [] 14 28,
  .value [] "version='derp'",
  .matchedValue [] "version='derp'",
  .children [] 0,
  .attribute [] "__message" "Error: @[1:15-29]: Adextopa 'version' attribute must be a valid integer number",
  .isError []]
-- adextopa_scope.rs: it_fails1
#guard stok (adextopaScope u) "Testing = " == "Fail"
-- assignment_expression.rs: it_works1
#guard schk (assignmentExpression u) "test = <='derp'>" [
  .name [] "AssignmentExpression",
  .captured [] 0 14,
  .matched [] 0 16,
  .value [] "test = <='derp",
  .matchedValue [] "test = <='derp'>",
  .children [] 2,
  .name [0] "Identifier",
  .captured [0] 0 4,
  .matched [0] 0 4,
  .value [0] "test",
  .matchedValue [0] "test",
  .name [1] "PatternDefinition",
  .captured [1] 10 14,
  .matched [1] 7 16,
  .value [1] "derp",
  .matchedValue [1] "<='derp'>"]
-- assignment_expression.rs: it_works2
#guard schk (assignmentExpression u) "test=stuff" [
  .name [] "AssignmentExpression",
  .captured [] 0 10,
  .matched [] 0 10,
  .value [] "test=stuff",
  .matchedValue [] "test=stuff",
  .children [] 2,
  .name [0] "Identifier",
  .captured [0] 0 4,
  .matched [0] 0 4,
  .value [0] "test",
  .matchedValue [0] "test",
  .name [1] "Identifier",
  .captured [1] 5 10,
  .matched [1] 5 10,
  .value [1] "stuff",
  .matchedValue [1] "stuff"]
-- assignment_expression.rs: it_fails1
#guard stok (assignmentExpression u) "Testing = " == "Fail"
-- attribute.rs: it_works1
#guard schk (attribute_ u) "test='derp'" [
  .name [] "Attribute",
  .captured [] 0 10,
  .matched [] 0 11,
  .value [] "test='derp",
  .matchedValue [] "test='derp'",
  .children [] 2,
  .name [0] "Name",
  .captured [0] 0 4,
  .matched [0] 0 4,
  .value [0] "test",
  .matchedValue [0] "test",
  .name [1] "Value",
  .captured [1] 6 10,
  .matched [1] 5 11,
  .value [1] "derp",
  .matchedValue [1] "'derp'"]
-- attribute.rs: it_reports_an_error_when_the_name_starts_with_underscore
#guard schk (attribute_ u) "_test='derp'" [
  .name [] "Attribute",
  .captured [] 0 11,
  .matched [] 0 12,
  .value [] "_test='derp",
  .matchedValue [] "_test='derp'",
  .children [] 3,
  .name [0] "Name",
  .captured [0] 0 5,
  .matched [0] 0 5,
  .value [0] "_test",
  .matchedValue [0] "_test",
  .name [1] "Value",
  .captured [1] 7 11,
  .matched [1] 6 12,
  .value [1] "derp",
  .matchedValue [1] "'derp'",
  .name [2] "Error",
  .captured [2] 0 5,
  .matched [2] 0 5,
  .value [2] "_test",
  .matchedValue [2] "_test",
  .attribute [2] "__message" "Error: @[1:1-6]: Attribute names can not start with an underscore"]
-- attribute.rs: it_panics_when_the_value_is_not_a_string
#guard stok (attribute_ u) "_test=derp" == "Error: Error: @[1:7-11]: Malformed attribute detected. Attribute value is not single-quoted. The proper format for an attribute is: name='value' @6,10"
-- attribute.rs: it_fails1
#guard stok (attribute_ u) "Testing" == "Fail"
-- attributes.rs: it_works1
#guard schk (attributes u) "test='derp' stuff='things'" [
  .name [] "Attributes",
  .captured [] 0 25,
  .matched [] 0 26,
  .value [] "test='derp' stuff='things",
  .matchedValue [] "test='derp' stuff='things'",
  .children [] 2,
  .name [0] "Attribute",
  .captured [0] 0 10,
  .matched [0] 0 11,
  .value [0] "test='derp",
  .matchedValue [0] "test='derp'",
  .children [0] 2,
  .name [1] "Attribute",
  .captured [1] 12 25,
  .matched [1] 12 26,
  .value [1] "stuff='things",
  .matchedValue [1] "stuff='things'",
  .children [1] 2]
-- attributes.rs: it_reports_an_error_when_the_name_starts_with_underscore
#guard schk (attributes u) "_test='derp'" [
  .name [] "Attributes",
  .captured [] 0 11,
  .matched [] 0 12,
  .value [] "_test='derp",
  .matchedValue [] "_test='derp'",
  .children [] 2,
  .name [0] "Attribute",
  .captured [0] 0 11,
  .matched [0] 0 12,
  .value [0] "_test='derp",
  .matchedValue [0] "_test='derp'",
  .children [0] 2,
  .name [1] "Error",
  .captured [1] 0 5,
  .matched [1] 0 5,
  .value [1] "_test",
  .matchedValue [1] "_test",
  .children [1] 0,
  .attribute [1] "__message" "Error: @[1:1-6]: Attribute names can not start with an underscore"]
-- attributes.rs: it_panics_when_the_value_is_not_a_string
#guard stok (attributes u) "_test=derp" == "Error: Error: @[1:7-11]: Malformed attribute detected. Attribute value is not single-quoted. The proper format for an attribute is: name='value' @6,10"
-- attributes.rs: it_fails1
#guard stok (attributes u) "Testing" == "Fail"
-- comment.rs: it_works1
#guard schk (comment) "# Testing\n" [
  .name [] "Comment",
  .captured [] 0 9,
  .matched [] 0 9,
  .value [] "# Testing",
  .matchedValue [] "# Testing",
  .children [] 0]
-- comment.rs: it_fails1
#guard stok (comment) "Testing" == "Fail"
-- custom_matcher.rs: it_works1
#guard schk (customMatcher) "test" [
  .name [] "CustomMatcher",
  .captured [] 0 4,
  .matched [] 0 4,
  .value [] "test",
  .matchedValue [] "test"]
-- custom_matcher.rs: it_fails1
#guard stok (customMatcher) "<test>" == "Fail"
-- equals_matcher.rs: it_works1
#guard schk (equalsMatcher) "='test'" [
  .name [] "EqualsMatcher",
  .captured [] 2 6,
  .matched [] 0 7,
  .value [] "test",
  .matchedValue [] "='test'",
  .children [] 1]
-- equals_matcher.rs: it_fails1
#guard stok (equalsMatcher) "Testing" == "Fail"
-- identifier.rs: it_works1
#guard schk (identifier) "_Testing" [
  .name [] "Identifier",
  .captured [] 0 8,
  .value [] "_Testing"]
-- identifier.rs: it_works2
#guard schk (identifier) "$Test_ing" [
  .name [] "Identifier",
  .captured [] 0 9,
  .value [] "$Test_ing"]
-- identifier.rs: it_fails1
#guard stok (identifier) "0Testing" == "Fail"
-- import_statement.rs: it_works1
#guard schk (importStatement) "import { _ as derp, Stuff as Things, Wow } from '../test'" [
  .name [] "ImportStatement",
  .captured [] 9 56,
  .matched [] 0 57,
  .value [] "_ as derp, Stuff as Things, Wow } from '../test",
  .matchedValue [] "import { _ as derp, Stuff as Things, Wow } from '../test'",
  .children [] 2,
  .name [0] "ImportIdentifiers",
  .captured [0] 9 40,
  .matched [0] 7 42,
  .value [0] "_ as derp, Stuff as Things, Wow",
  .matchedValue [0] "{ _ as derp, Stuff as Things, Wow }",
  .children [0] 3,
  .name [0, 0] "ImportIdentifier",
  .captured [0, 0] 9 18,
  .matched [0, 0] 9 19,
  .value [0, 0] "_ as derp",
  .matchedValue [0, 0] "_ as derp,",
  .children [0, 0] 2,
  .name [0, 1] "ImportIdentifier",
  .captured [0, 1] 20 35,
  .matched [0, 1] 20 36,
  .value [0, 1] "Stuff as Things",
  .matchedValue [0, 1] "Stuff as Things,",
  .children [0, 1] 2,
  .name [0, 2] "ImportIdentifier",
  .captured [0, 2] 37 40,
  .matched [0, 2] 37 40,
  .value [0, 2] "Wow",
  .matchedValue [0, 2] "Wow",
  .children [0, 2] 1,
  .name [1] "Path",
  .captured [1] 49 56,
  .matched [1] 48 57,
  .value [1] "../test",
  .matchedValue [1] "'../test'"]
-- import_statement.rs: it_fails1
#guard stok (importStatement) "Testing 'derp'" == "Fail"
-- import_statement.rs: it_fails2
#guard stok (importStatement) "import\n'test'" == "Fail"
-- matcher.rs: it_works2
#guard schk (matcher) "='test'" [
  .name [] "EqualsMatcher",
  .captured [] 2 6,
  .matched [] 0 7,
  .value [] "test",
  .matchedValue [] "='test'"]
-- matcher.rs: it_works3
#guard schk (matcher) "/\\s+/" [
  .name [] "RegexMatcher",
  .captured [] 0 5,
  .matched [] 0 5,
  .value [] "\\s+",
  .matchedValue [] "/\\s+/"]
-- matcher.rs: it_fails1
#guard stok (matcher) "!" == "Fail"
-- matcher_name.rs: it_works1
#guard schk (matcherName) "?'test'" [
  .name [] "MatcherName",
  .captured [] 2 6,
  .matched [] 0 7,
  .value [] "test",
  .matchedValue [] "?'test'",
  .children [] 1]
-- matcher_name.rs: it_fails1
#guard stok (matcherName) "Testing" == "Fail"
-- pattern.rs: it_works1
#guard schk (pattern u) "<!/test/i>" [
  .name [] "PatternDefinition",
  .captured [] 1 9,
  .matched [] 0 10,
  .value [] "!/test/i",
  .matchedValue [] "<!/test/i>",
  .children [] 2,
  .name [0] "InnerNotModifier",
  .captured [0] 1 2,
  .matched [0] 1 2,
  .value [0] "!",
  .matchedValue [0] "!",
  .name [1] "RegexMatcher",
  .captured [1] 2 9,
  .matched [1] 2 9,
  .value [1] "test",
  .matchedValue [1] "/test/i"]
-- pattern.rs: it_works2
#guard schk (pattern u) "(<!/test/i>)" [
  .name [] "PatternDefinitionCaptured",
  .captured [] 2 10,
  .matched [] 0 12,
  .value [] "!/test/i",
  .matchedValue [] "(<!/test/i>)",
  .children [] 1,
  .name [0] "PatternDefinition",
  .captured [0] 2 10,
  .matched [0] 1 11,
  .value [0] "!/test/i",
  .matchedValue [0] "<!/test/i>"]
-- pattern.rs: it_works3
#guard schk (pattern u) "(\n\t?'name'\n\t<!/test/i>\n)" [
  .name [] "PatternDefinitionCaptured",
  .captured [] 5 21,
  .matched [] 0 24,
  .value [] "name'\n\t<!/test/i",
  .matchedValue [] "(\n\t?'name'\n\t<!/test/i>\n)",
  .children [] 2,
  .name [0] "MatcherName",
  .captured [0] 5 9,
  .matched [0] 3 10,
  .value [0] "name",
  .matchedValue [0] "?'name'",
  .name [1] "PatternDefinition",
  .captured [1] 13 21,
  .matched [1] 12 22,
  .value [1] "!/test/i",
  .matchedValue [1] "<!/test/i>"]
-- pattern.rs: it_fails1
#guard stok (pattern u) "(test)" == "Fail"
-- pattern_definition.rs: it_works1
#guard schk (patternDefinition u) "<!/test/i>" [
  .name [] "PatternDefinition",
  .captured [] 1 9,
  .matched [] 0 10,
  .value [] "!/test/i",
  .matchedValue [] "<!/test/i>",
  .children [] 2,
  .name [0] "InnerNotModifier",
  .captured [0] 1 2,
  .matched [0] 1 2,
  .value [0] "!",
  .matchedValue [0] "!",
  .name [1] "RegexMatcher",
  .captured [1] 2 9,
  .matched [1] 2 9,
  .value [1] "test",
  .matchedValue [1] "/test/i"]
-- pattern_definition.rs: it_works_with_attributes
#guard schk (patternDefinition u) "<!/test/i attr1='test' attr2 = 'derp'>" [
  .name [] "PatternDefinition",
  .captured [] 1 36,
  .matched [] 0 38,
  .value [] "!/test/i attr1='test' attr2 = 'derp",
  .matchedValue [] "<!/test/i attr1='test' attr2 = 'derp'>",
  .children [] 3,
  .name [0] "InnerNotModifier",
  .captured [0] 1 2,
  .matched [0] 1 2,
  .value [0] "!",
  .matchedValue [0] "!",
  .name [1] "RegexMatcher",
  .captured [1] 2 9,
  .matched [1] 2 9,
  .value [1] "test",
  .matchedValue [1] "/test/i",
  .name [2] "Attributes",
  .captured [2] 10 36,
  .matched [2] 10 37,
  .value [2] "attr1='test' attr2 = 'derp",
  .matchedValue [2] "attr1='test' attr2 = 'derp'",
  .children [2] 2,
  .name [2, 0] "Attribute",
  .captured [2, 0] 10 21,
  .matched [2, 0] 10 22,
  .value [2, 0] "attr1='test",
  .matchedValue [2, 0] "attr1='test'",
  .name [2, 1] "Attribute",
  .captured [2, 1] 23 36,
  .matched [2, 1] 23 37,
  .value [2, 1] "attr2 = 'derp",
  .matchedValue [2, 1] "attr2 = 'derp'",
  .attribute [] "attr1" "test",
  .attribute [] "attr2" "derp"]
-- pattern_definition.rs: it_works2
#guard schk (patternDefinition u) "!<='test'>" [
  .name [] "PatternDefinition",
  .captured [] 0 8,
  .matched [] 0 10,
  .value [] "!<='test",
  .matchedValue [] "!<='test'>",
  .children [] 2,
  .name [0] "OuterNotModifier",
  .captured [0] 0 1,
  .matched [0] 0 1,
  .value [0] "!",
  .matchedValue [0] "!",
  .name [1] "EqualsMatcher",
  .captured [1] 4 8,
  .matched [1] 2 9,
  .value [1] "test",
  .matchedValue [1] "='test'"]
-- pattern_definition.rs: it_works3
#guard schk (patternDefinition u) "<?='test'>" [
  .name [] "PatternDefinition",
  .captured [] 1 8,
  .matched [] 0 10,
  .value [] "?='test",
  .matchedValue [] "<?='test'>",
  .children [] 2,
  .name [0] "InnerOptionalModifier",
  .captured [0] 1 2,
  .matched [0] 1 2,
  .value [0] "?",
  .matchedValue [0] "?",
  .name [1] "EqualsMatcher",
  .captured [1] 4 8,
  .matched [1] 2 9,
  .value [1] "test",
  .matchedValue [1] "='test'"]
-- pattern_definition.rs: it_works4
#guard schk (patternDefinition u) "< %'[',']','' >" [
  .name [] "PatternDefinition",
  .captured [] 4 12,
  .matched [] 0 15,
  .value [] "[',']','",
  .matchedValue [] "< %'[',']','' >",
  .children [] 1,
  .name [0] "SequenceMatcher",
  .captured [0] 4 12,
  .matched [0] 2 13,
  .value [0] "[',']','",
  .matchedValue [0] "%'[',']',''"]
-- pattern_definition.rs: it_works5
#guard schk (patternDefinition u) "</\\s+/>" [
  .name [] "PatternDefinition",
  .captured [] 1 6,
  .matched [] 0 7,
  .value [] "/\\s+/",
  .matchedValue [] "</\\s+/>",
  .children [] 1,
  .name [0] "RegexMatcher",
  .captured [0] 1 6,
  .matched [0] 1 6,
  .value [0] "\\s+",
  .matchedValue [0] "/\\s+/"]
-- pattern_definition.rs: it_works_with_repeat_specifier1
#guard schk (patternDefinition u) "<='test'>+" [
  .name [] "PatternDefinition",
  .captured [] 3 10,
  .matched [] 0 10,
  .value [] "test'>+",
  .matchedValue [] "<='test'>+",
  .children [] 2,
  .name [0] "EqualsMatcher",
  .captured [0] 3 7,
  .matched [0] 1 8,
  .value [0] "test",
  .matchedValue [0] "='test'",
  .name [1] "RepeatOneOrMore",
  .captured [1] 9 10,
  .matched [1] 9 10,
  .value [1] "+",
  .matchedValue [1] "+"]
-- pattern_definition.rs: it_works_with_repeat_specifier2
#guard schk (patternDefinition u) "<='test'>*" [
  .name [] "PatternDefinition",
  .captured [] 3 10,
  .matched [] 0 10,
  .value [] "test'>*",
  .matchedValue [] "<='test'>*",
  .children [] 2,
  .name [0] "EqualsMatcher",
  .captured [0] 3 7,
  .matched [0] 1 8,
  .value [0] "test",
  .matchedValue [0] "='test'",
  .name [1] "RepeatZeroOrMore",
  .captured [1] 9 10,
  .matched [1] 9 10,
  .value [1] "*",
  .matchedValue [1] "*"]
-- pattern_definition.rs: it_works_with_repeat_specifier3
#guard schk (patternDefinition u) "<='test'>{2,}" [
  .name [] "PatternDefinition",
  .captured [] 3 12,
  .matched [] 0 13,
  .value [] "test'>{2,",
  .matchedValue [] "<='test'>{2,}",
  .children [] 2,
  .name [0] "EqualsMatcher",
  .captured [0] 3 7,
  .matched [0] 1 8,
  .value [0] "test",
  .matchedValue [0] "='test'",
  .name [1] "RepeatRange",
  .captured [1] 10 12,
  .matched [1] 9 13,
  .value [1] "2,",
  .matchedValue [1] "{2,}"]
-- pattern_definition.rs: it_fails_on_not_optional1
#guard schk (patternDefinition u) "<?!='test'>" [
  .name [] "PatternDefinition",
  .captured [] 1 9,
  .matched [] 0 11,
  .value [] "?!='test",
  .matchedValue [] "<?!='test'>",
  .children [] 2,
  .name [0] "Error",
  .captured [0] 1 3,
  .matched [0] 1 3,
  .value [0] "?!",
  .matchedValue [0] "?!",
  .attribute [0] "__message" "Error: @[1:2-4]: Can not use ? and ! at the same time in this context. Use one or the other, not both.",
  .name [1] "EqualsMatcher",
  .captured [1] 5 9,
  .matched [1] 3 10,
  .value [1] "test",
  .matchedValue [1] "='test'"]
-- pattern_definition.rs: it_fails_on_not_optional2
#guard schk (patternDefinition u) "!?<='test'>" [
  .name [] "PatternDefinition",
  .captured [] 0 9,
  .matched [] 0 11,
  .value [] "!?<='test",
  .matchedValue [] "!?<='test'>",
  .children [] 2,
  .name [0] "Error",
  .captured [0] 0 2,
  .matched [0] 0 2,
  .value [0] "!?",
  .matchedValue [0] "!?",
  .attribute [0] "__message" "Error: @[1:1-3]: Can not use ? and ! at the same time in this context. Use one or the other, not both.",
  .name [1] "EqualsMatcher",
  .captured [1] 5 9,
  .matched [1] 3 10,
  .value [1] "test",
  .matchedValue [1] "='test'"]
-- pattern_definition.rs: it_fails1
#guard stok (patternDefinition u) "Testing" == "Fail"
-- pattern_scope.rs: it_works1
#guard schk (patternScope u) " <='test'>\n\t(</test/i>)\n" [
  .name [] "PatternScope",
  .captured [] 4 21,
  .matched [] 0 24,
  .value [] "test'>\n\t(</test/i",
  .matchedValue [] " <='test'>\n\t(</test/i>)\n",
  .children [] 2,
  .name [0] "PatternDefinition",
  .captured [0] 4 8,
  .matched [0] 1 10,
  .value [0] "test",
  .matchedValue [0] "<='test'>",
  .name [1] "PatternDefinitionCaptured",
  .captured [1] 14 21,
  .matched [1] 12 23,
  .value [1] "/test/i",
  .matchedValue [1] "(</test/i>)"]
-- pattern_scope.rs: it_fails1
#guard stok (patternScope u) "<!--[adextopa version='1']-->" == "Fail"
-- program_matcher.rs: it_works1
#guard schk (programMatcher u) "{\n\t<='test'>\n\t(</test/i>)}" [
  .name [] "ProgramMatcher",
  .captured [] 6 23,
  .matched [] 0 26,
  .value [] "test'>\n\t(</test/i",
  .matchedValue [] "{\n\t<='test'>\n\t(</test/i>)}",
  .children [] 2,
  .name [0] "PatternDefinition",
  .captured [0] 6 10,
  .matched [0] 3 12,
  .value [0] "test",
  .matchedValue [0] "<='test'>",
  .name [1] "PatternDefinitionCaptured",
  .captured [1] 16 23,
  .matched [1] 14 25,
  .value [1] "/test/i",
  .matchedValue [1] "(</test/i>)"]
-- program_matcher.rs: it_fails1
#guard stok (programMatcher u) "<test>" == "Fail"
-- regex_matcher.rs: it_works1
#guard schk (regexMatcher) "/test\\/[chars/\\]]stuff/i>" [
  .name [] "RegexMatcher",
  .captured [] 0 24,
  .matched [] 0 24,
  .value [] "test\\/[chars/\\]]stuff",
  .matchedValue [] "/test\\/[chars/\\]]stuff/i",
  .children [] 7,
  .name [0] "RegexStart",
  .captured [0] 0 1,
  .matched [0] 0 1,
  .value [0] "/",
  .matchedValue [0] "/",
  .name [1] "Part",
  .captured [1] 1 5,
  .matched [1] 1 5,
  .value [1] "test",
  .matchedValue [1] "test",
  .name [2] "Part",
  .captured [2] 5 7,
  .matched [2] 5 7,
  .value [2] "\\/",
  .matchedValue [2] "\\/",
  .name [3] "Part",
  .captured [3] 8 16,
  .matched [3] 7 17,
  .value [3] "chars/]",
  .matchedValue [3] "[chars/\\]]",
  .name [4] "Part",
  .captured [4] 17 22,
  .matched [4] 17 22,
  .value [4] "stuff",
  .matchedValue [4] "stuff",
  .name [5] "RegexEnd",
  .captured [5] 22 23,
  .matched [5] 22 23,
  .value [5] "/",
  .matchedValue [5] "/",
  .name [6] "Flags",
  .captured [6] 23 24,
  .matched [6] 23 24,
  .value [6] "i",
  .matchedValue [6] "i"]
-- regex_matcher.rs: it_works2
#guard schk (regexMatcher) "/test\\/[chars/\\]]stuff/i>" [
  .name [] "RegexMatcher",
  .captured [] 0 24,
  .matched [] 0 24,
  .value [] "test\\/[chars/\\]]stuff",
  .matchedValue [] "/test\\/[chars/\\]]stuff/i",
  .children [] 7,
  .name [0] "RegexStart",
  .captured [0] 0 1,
  .matched [0] 0 1,
  .value [0] "/",
  .matchedValue [0] "/",
  .name [1] "Part",
  .captured [1] 1 5,
  .matched [1] 1 5,
  .value [1] "test",
  .matchedValue [1] "test",
  .name [2] "Part",
  .captured [2] 5 7,
  .matched [2] 5 7,
  .value [2] "\\/",
  .matchedValue [2] "\\/",
  .name [3] "Part",
  .captured [3] 8 16,
  .matched [3] 7 17,
  .value [3] "chars/]",
  .matchedValue [3] "[chars/\\]]",
  .name [4] "Part",
  .captured [4] 17 22,
  .matched [4] 17 22,
  .value [4] "stuff",
  .matchedValue [4] "stuff",
  .name [5] "RegexEnd",
  .captured [5] 22 23,
  .matched [5] 22 23,
  .value [5] "/",
  .matchedValue [5] "/",
  .name [6] "Flags",
  .captured [6] 23 24,
  .matched [6] 23 24,
  .value [6] "i",
  .matchedValue [6] "i"]
-- regex_matcher.rs: it_works3
#guard schk (regexMatcher) "/\\w+/i" [
  .name [] "RegexMatcher",
  .captured [] 0 6,
  .matched [] 0 6,
  .value [] "\\w+",
  .matchedValue [] "/\\w+/i"]
-- regex_matcher.rs: it_works4
#guard schk (regexMatcher) "/\\s+/" [
  .name [] "RegexMatcher",
  .captured [] 0 5,
  .matched [] 0 5,
  .value [] "\\s+",
  .matchedValue [] "/\\s+/"]
-- regex_matcher.rs: it_fails1
#guard stok (regexMatcher) "Testing" == "Fail"
-- repeat_range.rs: it_works1
#guard schk (repeatRange u) "{10}" [
  .name [] "RepeatRange",
  .captured [] 1 3,
  .matched [] 0 4,
  .value [] "10",
  .matchedValue [] "{10}",
  .children [] 1,
  .name [0] "Minimum",
  .captured [0] 1 3,
  .matched [0] 1 3,
  .value [0] "10",
  .matchedValue [0] "10"]
-- repeat_range.rs: it_works2
#guard schk (repeatRange u) "{ 9, 11 }" [
  .name [] "RepeatRange",
  .captured [] 2 7,
  .matched [] 0 9,
  .value [] "9, 11",
  .matchedValue [] "{ 9, 11 }",
  .children [] 3,
  .name [0] "Minimum",
  .captured [0] 2 3,
  .matched [0] 2 3,
  .value [0] "9",
  .matchedValue [0] "9",
  .name [1] "Seperator",
  .captured [1] 3 4,
  .matched [1] 3 4,
  .value [1] ",",
  .matchedValue [1] ",",
  .name [2] "Maximum",
  .captured [2] 5 7,
  .matched [2] 5 7,
  .value [2] "11",
  .matchedValue [2] "11"]
-- repeat_range.rs: it_works3
#guard schk (repeatRange u) "{19,}" [
  .name [] "RepeatRange",
  .captured [] 1 4,
  .matched [] 0 5,
  .value [] "19,",
  .matchedValue [] "{19,}",
  .children [] 2,
  .name [0] "Minimum",
  .captured [0] 1 3,
  .matched [0] 1 3,
  .value [0] "19",
  .matchedValue [0] "19",
  .name [1] "Seperator",
  .captured [1] 3 4,
  .matched [1] 3 4,
  .value [1] ",",
  .matchedValue [1] ","]
-- repeat_range.rs: it_fails1
#guard stok (repeatRange u) "Testing" == "Fail"
-- repeat_specifier.rs: it_works1
#guard schk (repeatSpecifier u) "+*{}" [
  .name [] "RepeatOneOrMore",
  .captured [] 0 1,
  .matched [] 0 1,
  .value [] "+",
  .matchedValue [] "+",
  .children [] 0]
-- repeat_specifier.rs: it_works2
#guard schk (repeatSpecifier u) "*+{}" [
  .name [] "RepeatZeroOrMore",
  .captured [] 0 1,
  .matched [] 0 1,
  .value [] "*",
  .matchedValue [] "*",
  .children [] 0]
-- repeat_specifier.rs: it_works3
#guard schk (repeatSpecifier u) "{10,}*+" [
  .name [] "RepeatRange",
  .captured [] 1 4,
  .matched [] 0 5,
  .value [] "10,",
  .matchedValue [] "{10,}",
  .children [] 2]
-- repeat_specifier.rs: it_works4
#guard schk (repeatSpecifier u) "{10, 15}*+" [
  .name [] "RepeatRange",
  .captured [] 1 7,
  .matched [] 0 8,
  .value [] "10, 15",
  .matchedValue [] "{10, 15}",
  .children [] 3]
-- repeat_specifier.rs: it_fails1
#guard schk (repeatSpecifier u) "{15, 10}*+" [
  ]
-- repeat_specifier.rs: it_fails2
#guard stok (repeatSpecifier u) " +" == "Fail"
-- script.rs: it_works1
#guard schk (script u) " <='test'>\n\t(</test/i>)\n" [
  .name [] "Script",
  .captured [] 4 21,
  .matched [] 0 24,
  .value [] "test'>\n\t(</test/i",
  .matchedValue [] " <='test'>\n\t(</test/i>)\n",
  .children [] 1,
  .name [0] "PatternScope",
  .captured [0] 4 21,
  .matched [0] 1 24,
  .value [0] "test'>\n\t(</test/i"]
-- script.rs: it_works2
#guard schk (script u) " \n\n<!--[adextopa version='1']--> <='test'>\n\t(</test/i>)\n" [
  .name [] "Script",
  .captured [] 17 53,
  .matched [] 0 56,
  .value [] "version='1']--> <='test'>\n\t(</test/i",
  .matchedValue [] " \n\n<!--[adextopa version='1']--> <='test'>\n\t(</test/i>)\n",
  .children [] 2,
  .name [0] "AdextopaScope",
  .captured [0] 17 27,
  .matched [0] 3 32,
  .value [0] "version='1",
  .matchedValue [0] "<!--[adextopa version='1']-->",
  .name [1] "PatternScope",
  .captured [1] 36 53,
  .matched [1] 32 56,
  .value [1] "test'>\n\t(</test/i",
  .matchedValue [1] " <='test'>\n\t(</test/i>)\n"]
-- script.rs: it_fails1
#guard stok (script u) "derp" == "Fail"
-- script.rs: it_fails_when_empty
#guard schk (script u) "# there is nothing here but a comment" [
  .name [] "Error",
  .captured [] 0 37,
  .matched [] 0 37,
  .value [] "# there is nothing here but a comment",
  .matchedValue [] "# there is nothing here but a comment",
  .children [] 0,
  .attribute [] "__message" "Error: @[1:1-38]: Nothing to parse. No scopes found."]
-- sequence_matcher.rs: it_works1
#guard schk (sequenceMatcher) "%'{','}',''" [
  .name [] "SequenceMatcher",
  .captured [] 2 10,
  .matched [] 0 11,
  .value [] "{','}','",
  .matchedValue [] "%'{','}',''",
  .children [] 3,
  .name [0] "StartPattern",
  .captured [0] 2 3,
  .matched [0] 1 4,
  .value [0] "{",
  .matchedValue [0] "'{'",
  .name [1] "EndPattern",
  .captured [1] 6 7,
  .matched [1] 5 8,
  .value [1] "}",
  .matchedValue [1] "'}'",
  .name [2] "EscapePattern",
  .captured [2] 10 10,
  .matched [2] 9 11,
  .value [2] "",
  .matchedValue [2] "''"]
-- sequence_matcher.rs: it_works2
#guard schk (sequenceMatcher) "%'{' , '}',  '\\\\' " [
  .name [] "SequenceMatcher",
  .captured [] 2 16,
  .matched [] 0 17,
  .value [] "{' , '}',  '\\\\",
  .matchedValue [] "%'{' , '}',  '\\\\'",
  .children [] 3,
  .name [0] "StartPattern",
  .captured [0] 2 3,
  .matched [0] 1 4,
  .value [0] "{",
  .matchedValue [0] "'{'",
  .name [1] "EndPattern",
  .captured [1] 8 9,
  .matched [1] 7 10,
  .value [1] "}",
  .matchedValue [1] "'}'",
  .name [2] "EscapePattern",
  .captured [2] 14 16,
  .matched [2] 13 17,
  .value [2] "\\",
  .matchedValue [2] "'\\\\'"]
-- sequence_matcher.rs: it_fails1
#guard stok (sequenceMatcher) "Testing" == "Fail"
-- string.rs: it_works1
#guard schk (string) "'A \\'test\\' string!' after string" [
  .name [] "String",
  .captured [] 1 19,
  .matched [] 0 20,
  .value [] "A 'test' string!",
  .matchedValue [] "'A \\'test\\' string!'"]
-- string.rs: it_fails1
#guard stok (string) "Testing" == "Fail"
-- switch_matcher.rs: it_works1
#guard schk (switchMatcher u) "[\n\t<='test'>|\n\t(</test/i>)]" [
  .name [] "SwitchMatcher",
  .captured [] 6 24,
  .matched [] 0 27,
  .value [] "test'>|\n\t(</test/i",
  .matchedValue [] "[\n\t<='test'>|\n\t(</test/i>)]",
  .children [] 2,
  .name [0] "PatternDefinition",
  .captured [0] 6 10,
  .matched [0] 3 12,
  .value [0] "test",
  .matchedValue [0] "<='test'>",
  .name [1] "PatternDefinitionCaptured",
  .captured [1] 17 24,
  .matched [1] 15 26,
  .value [1] "/test/i",
  .matchedValue [1] "(</test/i>)"]
-- switch_matcher.rs: it_fails1
#guard stok (switchMatcher u) "<test>" == "Fail"
-- comment.rs: it_works2
#guard schk (loop [switch [comment, regexN "Whitespace" rSpaces, regexN "Number" rDigits]])
    "1234 # Testing" [.name [] "Loop", .captured [] 0 14, .children [] 3, .name [0] "Number",
      .captured [0] 0 4, .name [1] "Whitespace", .captured [1] 4 5, .name [2] "Comment",
      .captured [2] 5 14]
-- script.rs: it_works1 (the last assertion)
#guard schk (script u) " <='test'>\n\t(</test/i>)\n"
  [.matchedValue [0] "<='test'>\n\t(</test/i>)\n"]

/-! ### `repeat_specifier.rs`: ranges -/

/-- Parse a repeat specifier and take its range. -/
def range (src : String) : String :=
  match (srun (repeatSpecifier u) src).1 with
  | .ok (.ok t) s =>
    match getRepeatSpecifierRange t s.toks [] with
    | .ok r _ => s!"{r.1}..{r.2}"
    | .err e => "Err " ++ String.ofList e
    | .panic m => "panic: " ++ m
    | .diverge => "diverge"
  | _ => "no token"

#guard range "+" == "1..18446744073709551615"
#guard range "*" == "0..18446744073709551615"
#guard range "{10,}" == "10..18446744073709551615"
#guard range "{10,15}" == "10..15"
#guard range "{15,10}" ==
  "Err Error with repeat specifier: Maximum range is smaller than minimum: {15, 10}"
#guard range "{ 3 }" == "0..3"
#guard range "{ 3 4 }" == "0..3"
#guard range "{,4}" == "no token"

/-! ### `parser.rs` -/

/-- `to_string` of matchers, as far as the tests look at it. -/
def shwNode (ns : List Node) : Nat → MatcherId → String
  | 0, _ => ".."
  | d + 1, m =>
    let nm (n : Str) (c : Bool) := String.ofList n ++ (if c then "!" else "")
    let ft (f : Fetchable) := match f with
      | .str s => "\"" ++ String.ofList s ++ "\""
      | .fetch n => "Fetch " ++ String.ofList n
      | .matcher m => s!"matcher {m}"
    match ns[m]? with
    | none => "dangling"
    | some nd =>
      match nd with
      | .equals n c p => s!"Equals({nm n c}, {ft p})"
      | .regex n c r => s!"Matches({nm n c}, {String.ofList r.pattern})"
      | .sequence n c a b e => s!"Sequence({nm n c}, {ft a}, {ft b}, {ft e})"
      | .program ps n c i f =>
        (match i with | some (a, b) => s!"Loop({a}..{b}; " | none => if f then "Switch(" else "Program(") ++
          String.intercalate ", " (nm n c :: ps.map (shwNode ns d)) ++ ")"
      | .optional m => s!"Optional({shwNode ns d m})"
      | .not m => s!"Not({shwNode ns d m})"
      | .discard m => s!"Discard({shwNode ns d m})"
      | .proxyChildren m n c => s!"ProxyChildren({nm n c}, {shwNode ns d m})"
      | .map m _ _ => s!"Map({shwNode ns d m})"
      | .ref t n c => s!"Ref({nm n c}, {ft t})"
      | .setScope (some k) m => s!"SetScope({k}, {shwNode ns d m})"
      | .setScope none m => s!"SetScope({shwNode ns d m})"
      | .null => "Null"
      | _ => "other"

open Rx in
/-- The regular expressions of the tests.  The flag `i` does not matter to them. -/
def env : Env where
  cfg := ⟨true⟩
  uni := u
  regex := fun s =>
    if s = "(?i)test".toList then some (mkRx "(?i)test" [lits "test"])
    else if s = "(?i)wow".toList then some (mkRx "(?i)wow" [lits "wow"])
    else if s = "(?i)\\w+".toList then some (mkRx "(?i)\\w+" [plus isWord])
    else if s = "\\s+".toList then some (mkRx "\\s+" [plus isSpace])
    else none
  canonical := fun s => some s
  relative := fun _ p => some p
  read := fun f =>
    if f = "test_word.axo".toList ∨ f = "./test_word.axo".toList then
      some "<!--[adextopa version='1' name='Word']\n  # Simply match against \"test\"\n\n  Word = </\\w+/i hello='world'>\n-->\n\n(<Word>)\n".toList
    else if f = "test_import.axo".toList then
      some "<!--[adextopa version='1' name='TestImport']\n  # Use an import, and match against\n  # words...\n\n  import { _ as Word, Word as Chunk } from './test_word.axo'\n-->\n\n(<Word>)</\\s+/>(<Chunk>)\n".toList
    else if f = "test_attribute_error1.axo".toList then
      some "<!--[adextopa version='1' name=Word]\n  # Simply match against \"test\"\n\n  Word = </\\w+/i hello='world'>\n-->\n\n(<Word>)\n".toList
    else none

def shwC (r : CRes (MatcherId × MatcherId)) : String :=
  match r with
  | .ok m ns => shwNode ns 20 m.1
  | .err e => "Err " ++ String.ofList e
  | .panic m => "panic: " ++ m
  | .diverge => "diverge"

/-- Parse a pattern and build its matcher. -/
def recreate (src : String) : String :=
  match srun (pattern u) src with
  | (.ok (.ok t) s, ns) => shwC (constructPattern env 20 t s.toks ns)
  | _ => "no token"

/-- Parse a pattern definition and build its matcher. -/
def recreateDefinition (src : String) : String :=
  match srun (patternDefinition u) src with
  | (.ok (.ok t) s, ns) =>
    shwC (constructDefinition env (constructPattern env 20) t [] false s.toks ns)
  | _ => "no token"

#guard recreate "<='test'>" == "Discard(Equals(Equals, \"test\"))"
#guard recreate "(<='test'>{2,3})" == "Loop(2..3; Loop, Equals(Equals, \"test\"))"
#guard recreate "(?'Test'<='test'>+)" ==
  "Loop(1..18446744073709551615; Loop, Equals(Name!, \"test\"))"
#guard recreateDefinition "</test/i>" == "Discard(Matches(Matches, (?i)test))"
#guard recreateDefinition "<%'[',']','\\\\'>" == "Discard(Sequence(Sequence, \"[\", \"]\", \"\\\"))"
#guard recreateDefinition "<Test>" == "Discard(Ref(Ref, \"Test\"))"
#guard recreate "(<[<='test'>|(?'Derp'</wow/i>)]>)" ==
  "Switch(Switch, Discard(Equals(Equals, \"test\")), Matches(Name!, (?i)wow))"
#guard recreate "(<{<='test'>(?'Derp'</wow/i>)}>)" ==
  "Program(Program, Discard(Equals(Equals, \"test\")), Matches(Name!, (?i)wow))"
#guard recreate "(</test/i test='1' hello='derp'>)" == "Map(Matches(Matches, (?i)test))"
#guard recreate "(?<!='test'>*)" == "Optional(Loop(0..18446744073709551615; Loop, Not(Equals(Equals, \"test\"))))"

/-- Compile a script file, and parse a text with the result. -/
def compileAndRun (file src : String) : String :=
  match compileScriptFromFile env 60 file.toList ⟨[], s0⟩ with
  | .ok m _ w =>
    match tokenize (tableOf w.nodes) ⟨true⟩ 100 (Ctx.new ⟨src.toList, []⟩ 0 "Test".toList) m w.st with
    | .ok (.ok t) s =>
      (match treeOf s.toks 50 t with | some t => shw 50 t | none => "not a tree") ++
      (match at_ s.toks t [0] with
        | some k => match k.getAttribute "hello".toList with
          | some v => " hello=" ++ String.ofList v
          | none => ""
        | none => "")
    | .ok (.error .fail) _ => "Fail"
    | .ok (.error (.error e)) _ => "Error: " ++ String.ofList e.message
    | .panic m => "panic: " ++ m
    | .diverge => "diverge"
  | .err es => "Err " ++ String.intercalate "; " (es.map fun e => String.ofList e.message ++
      (match e.range with | some r => s!" @{r.start},{r.stop}" | none => ""))
  | .panic m => "panic: " ++ m
  | .diverge => "diverge"

#guard compileAndRun "test_word.axo" "test" ==
  "Word[0,4](0,4)\"test\"{Word[0,4](0,4)\"test\"} hello=world"
#guard compileAndRun "test_import.axo" "hello world" ==
  "TestImport[0,11](0,11)\"hello world\"{Word[0,5](0,5)\"hello\"{Word[0,5](0,5)\"hello\"}, Chunk[6,11](6,11)\"world\"}"
#guard compileAndRun "test_attribute_error1.axo" "hello world" ==
  "Err Error: test_attribute_error1.axo@[1:32-37]: Malformed attribute detected. Attribute value is not single-quoted. The proper format for an attribute is: name='value' @31,36"

end Adx.Tests.ScriptTests
