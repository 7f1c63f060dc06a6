import Verif.Model.Core
/-
  Token trees as plain values, for specifications and tests.
-/
namespace Adx

/-- What a user sees of a token: name, ranges, texts, error flag, children. -/
inductive Tree
  | node (name : Str) (captured matched : Range) (value matchedValue : Str)
      (message : Option Str) (children : List Tree)

/-- Read off the tree below a token; `none` if the references are not a finite
tree of the given depth. -/
def treeOf (toks : List Token) : Nat → TokId → Option Tree
  | 0, _ => none
  | n + 1, t =>
    match toks[t]? with
    | none => none
    | some k =>
      match k.children.mapM (treeOf toks n) with
      | none => none
      | some cs =>
        some (.node k.name k.captured k.matched k.getValue k.getMatchedValue
          (k.getAttribute "__message".toList) cs)

end Adx
