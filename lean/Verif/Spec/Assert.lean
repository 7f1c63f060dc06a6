import Verif.Model.Build
/-
  Error tokens as the assertion macros make them.
-/
namespace Adx

/-- `k` is a new error token for the range `r` saying `w`: named `Error`, flagged, the
message in the attribute `__message`, the texts those of the range, no children. -/
structure Complains (P : Parser) (r : Range) (w : Str) (k : Token) : Prop where
  kind : k.kind = .standard
  parser : k.parser = P
  name : k.name = "Error".toList
  captured : k.captured = r
  matched : k.matched = r
  capturedText : k.capturedValue = r.text P
  matchedText : k.matchedValue = r.text P
  value : k.value = none
  flags : k.flags = 0x02#8
  message : k.attributes = [("__message".toList, w)]
  children : k.children = []
  parent : k.parent = none

/-- Another success than a token: it passes the macros unchanged. -/
def Tokenless (r : R) : Prop :=
  (∃ x, r = .ok x) ∧ (∀ t, r ≠ .ok (.token t)) ∧ ∀ t, r ≠ .ok (.proxyChildren t)

/-- `n` is not excluded by the bound as a lower bound of a Rust range. -/
def Bound.Below : Bound → Nat → Prop
  | .included m, n => m ≤ n
  | .excluded m, n => m < n
  | .unbounded, _ => True

/-- `n` is not excluded by the bound as an upper bound of a Rust range. -/
def Bound.Above : Bound → Nat → Prop
  | .included m, n => n ≤ m
  | .excluded m, n => n < m
  | .unbounded, _ => True

end Adx
