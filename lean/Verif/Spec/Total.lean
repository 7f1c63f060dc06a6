import Verif.Spec.Script
/-
  What the builder of grammar scripts takes for granted about the tokens, and what can
  make it panic.
-/
namespace Adx

/-- There is a child of that name. -/
def HasNamed (toks : List Token) (k : Token) (n : String) : Prop := ∃ c ∈ k.children, nameAt toks c = some n.toList

/-- All children have that name. -/
def AllNamed (toks : List Token) (k : Token) (n : String) : Prop := ∀ c ∈ k.children, nameAt toks c = some n.toList

/-- A token of a script, as the builder expects it: its range is inside the source, and it
has the children and attributes that are read without looking whether they are there. -/
structure Sound (src : Str) (toks : List Token) (k : Token) : Prop where
  inside : k.matched.start ≤ blen src ∧ k.matched.stop ≤ blen src
  error : k.name = "Error".toList → ∃ msg, k.getAttribute "__message".toList = some msg
  literal : k.name = "EqualsMatcher".toList → 1 ≤ k.children.length
  custom : k.name = "CustomMatcher".toList → 1 ≤ k.children.length
  named : k.name = "MatcherName".toList → 1 ≤ k.children.length
  sequence : k.name = "SequenceMatcher".toList → 3 ≤ k.children.length
  captured : k.name = "PatternDefinitionCaptured".toList →
    1 ≤ k.children.length ∧ (HasNamed toks k "MatcherName" → 2 ≤ k.children.length)
  attr : k.name = "Attribute".toList → 2 ≤ k.children.length
  attrs : k.name = "Attributes".toList → AllNamed toks k "Attribute"
  repeats : k.name = "RepeatRange".toList → HasNamed toks k "Minimum"
  assigns : k.name = "AssignmentExpression".toList → 2 ≤ k.children.length
  imports : k.name = "ImportStatement".toList → HasNamed toks k "ImportIdentifiers" ∧ HasNamed toks k "Path"
  identifiers : k.name = "ImportIdentifiers".toList → AllNamed toks k "ImportIdentifier"
  identifier : k.name = "ImportIdentifier".toList → HasNamed toks k "ImportName"

/-- What makes the builder panic at one of the tokens `l`, and the message: an empty start or
end of a sequence, or a regular expression that is not one. -/
inductive Cause (env : Env) (toks : List Token) (l : List TokId) : String → Prop
  | start {t k c ck} (ht : t ∈ l) (hk : toks[t]? = some k) (hn : k.name = "SequenceMatcher".toList)
      (hc : k.children[0]? = some c) (hck : toks[c]? = some ck) (hv : ck.getValue = []) :
      Cause env toks l "Sequence `start` pattern of \"\" makes no sense"
  | stop {t k c ck} (ht : t ∈ l) (hk : toks[t]? = some k) (hn : k.name = "SequenceMatcher".toList)
      (hc : k.children[1]? = some c) (hck : toks[c]? = some ck) (hv : ck.getValue = []) :
      Cause env toks l "Sequence `end` pattern of \"\" makes no sense"
  | regex {t k v} (ht : t ∈ l) (hk : toks[t]? = some k) (hn : k.name = "RegexMatcher".toList)
      (hv : k.getValue ≠ []) (hr : RegexText toks k v) (he : env.regex v = none) :
      Cause env toks l "called `Result::unwrap()` on an `Err` value"

/-- One of the tokens `l` is an import statement with this path. -/
def ImportsPath (toks : List Token) (l : List TokId) (path : Str) : Prop :=
  ∃ t k c ck, t ∈ l ∧ toks[t]? = some k ∧ k.name = "ImportStatement".toList ∧
    First toks ["Path"] k.children c ∧ toks[c]? = some ck ∧ ck.getValue = path

end Adx
