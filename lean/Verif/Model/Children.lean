import Verif.Model.Core
/-
  Looking for children by name.
-/
namespace Adx

/-- The `for child in children` loop of `find_child` and `find_child_fuzzy`
(`src/token.rs:162-167,178-183`); `test` is `== needle` or `regex.is_match`. -/
def findLoop (test : Str → Bool) : List TokId → M (Option TokId)
  | [] => pure none
  | c :: cs => do
    let k ← getTok c
    if test k.name then pure (some c) else findLoop test cs

/-- `find_child` (`src/token.rs:156-170`). -/
def Token.findChild (k : Token) (needle : Str) : M (Option TokId) :=
  if k.children.length = 0 then pure none else findLoop (· == needle) k.children

/-- `find_child_fuzzy` (`src/token.rs:172-186`); `test` is `regex.is_match`. -/
def Token.findChildFuzzy (k : Token) (test : Str → Bool) : M (Option TokId) :=
  if k.children.length = 0 then pure none else findLoop test k.children

/-- `has_child` (`src/token.rs:188-193`). -/
def Token.hasChild (k : Token) (needle : Str) : M Bool := do
  match ← k.findChild needle with
  | some _ => pure true
  | none => pure false

/-- `add_child` (`adextopa_macros/src/lib.rs:80-82`). -/
def Token.addChild (k : Token) (c : TokId) : Token := { k with children := k.children ++ [c] }

end Adx
