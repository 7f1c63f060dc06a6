import Verif.Model.Core
/-
  What can be observed of a token, as a record of independent parts.
-/
namespace Adx

/-- The parts of a token.  Attributes are a function, flags are single bits. -/
structure View where
  kind : TokKind
  parser : Parser
  name : Str
  captured : Range
  matched : Range
  capturedText : Str
  matchedText : Str
  explicit : Option Str
  attr : Str → Option Str
  flag : Nat → Bool
  parent : Option TokId
  children : List TokId

/-- The parts of a token, as its getters show them. -/
def Token.view (k : Token) : View :=
  { kind := k.kind, parser := k.parser, name := k.name, captured := k.captured, matched := k.matched,
    capturedText := k.capturedValue, matchedText := k.matchedValue, explicit := k.value,
    attr := k.getAttribute, flag := k.flags.getLsbD, parent := k.parent, children := k.children }

/-- One entry of a function replaced. -/
def put {V : Type} (f : Str → Option V) (a : Str) (v : V) : Str → Option V :=
  fun b => if b = a then some v else f b

/-- The first of a list of alternatives that is there. -/
def firstOf {V : Type} : List (Option V) → V → V
  | [], d => d
  | some v :: _, _ => v
  | none :: l, d => firstOf l d

end Adx
