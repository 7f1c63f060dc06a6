import Verif.Model.Core
/-
  How tokens are printed (`src/token.rs:18-107`).

  Printing only reads, so it is a function of the token heap.  It follows references
  upwards and downwards; both walks have a bound on their length, and the value is `none`
  if the bound does not suffice, if a reference leads nowhere, or if a slice is out of
  range.  `attrs` stands for the text that `{:?}` makes of the attributes, which depends on
  the order in which the hash map is stored.
-/
namespace Adx

/-- `get_parent_path_for_debug` (`src/token.rs:18-28`): the name of the parent. -/
def parentPath (toks : List Token) (k : Token) : Option Str :=
  match k.parent with
  | some p => toks[p]?.map Token.name
  | none => some "None".toList

/-- The loop of `get_tab_depth_for_debug` (`src/token.rs:36-47`): two blanks for each token
on the way up. -/
def tabLoop (toks : List Token) : Nat → Option TokId → Option Str
  | _, none => some []
  | 0, some _ => none
  | n + 1, some p =>
    match toks[p]? with
    | none => none
    | some k => (tabLoop toks n k.parent).map (' ' :: ' ' :: ·)

/-- `get_tab_depth_for_debug` (`src/token.rs:30-50`). -/
def tabDepth (toks : List Token) (n : Nat) (k : Token) : Option Str :=
  (tabLoop toks n k.parent).map (' ' :: ' ' :: ·)

/-- `.replace("\n", "\n  ")` (std). -/
def indentLines : Str → Str
  | [] => []
  | '\n' :: cs => '\n' :: ' ' :: ' ' :: indentLines cs
  | c :: cs => c :: indentLines cs

/-- What the loop over the children writes for a child with this text
(`src/token.rs:85-97`). -/
def childText (tabs text : Str) : Str :=
  indentLines ('\n' :: text) ++ ('\n' :: (tabs ++ "  ".toList) ++ "),\n".toList ++ tabs)

/-- `Debug::fmt` of a token (`src/token.rs:52-101`); `Display` is the same
(`src/token.rs:103-107`).  Writing to a string does not fail. -/
def debugText (attrs : AMap Str → Str) (toks : List Token) (m : Nat) : Nat → TokId → Option Str
  | 0, _ => none
  | n + 1, t => do
    let k ← toks[t]?
    let tabs ← tabDepth toks m k
    let less ← bdrop 2 tabs
    let up ← parentPath toks k
    let inner ← k.children.mapM fun c => (debugText attrs toks m n c).map (childText tabs)
    pure (less ++ k.name ++ "(\n".toList ++
      tabs ++ "ValueRange(".toList ++ natStr k.captured.start ++ ", ".toList ++ natStr k.captured.stop ++ "),\n".toList ++
      tabs ++ "RawRange(".toList ++ natStr k.matched.start ++ ", ".toList ++ natStr k.matched.stop ++ "),\n".toList ++
      tabs ++ "Value(".toList ++ k.getValue ++ "),\n".toList ++
      tabs ++ "RawValue(".toList ++ k.getMatchedValue ++ "),\n".toList ++
      tabs ++ "Parent(".toList ++ up ++ "),\n".toList ++
      tabs ++ "Attributes ".toList ++ attrs k.attributes ++ "\n".toList ++
      tabs ++ "Children [".toList ++ inner.flatten ++ "],".toList)

end Adx
