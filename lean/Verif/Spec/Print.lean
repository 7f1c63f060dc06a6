import Verif.Model.Core
import Verif.Spec.Heap
/-
  Family trees of tokens, and what a printed one looks like.
-/
namespace Adx

/-- `u` is found `d` generations below `t`. -/
inductive Descent (toks : List Token) : Nat → TokId → TokId → Prop
  | refl (t) : Descent toks 0 t t
  | step {d : Nat} {t u c : TokId} {k : Token} (h : Descent toks d t u) (hk : toks[u]? = some k)
      (hc : c ∈ k.children) : Descent toks (d + 1) t c

/-- The token reached by going to the parent so many times. -/
def climb (toks : List Token) : Nat → TokId → Option TokId
  | 0, u => some u
  | n + 1, u => (toks[u]?.bind Token.parent).bind (climb toks n)

/-- So many blanks. -/
def blanks (n : Nat) : Str := List.replicate n ' '

/-- A text in which every line but the first is moved to the right by two blanks. -/
def moved (s : Str) : Str := s.flatMap fun c => if c = '\n' then '\n' :: blanks 2 else [c]

/-- The page of a token that is `d` generations below the root, has a parent of the name
`up`, and a list of children that looks like `inner`. -/
def page (attrs : AMap Str → Str) (d : Nat) (up : Str) (k : Token) (inner : Str) : Str :=
  let line (s : Str) := blanks (2 * (d + 1)) ++ s
  blanks (2 * d) ++ k.name ++ "(\n".toList ++
    line ("ValueRange(".toList ++ natStr k.captured.start ++ ", ".toList ++ natStr k.captured.stop ++ "),\n".toList) ++
    line ("RawRange(".toList ++ natStr k.matched.start ++ ", ".toList ++ natStr k.matched.stop ++ "),\n".toList) ++
    line ("Value(".toList ++ k.getValue ++ "),\n".toList) ++
    line ("RawValue(".toList ++ k.getMatchedValue ++ "),\n".toList) ++
    line ("Parent(".toList ++ up ++ "),\n".toList) ++
    line ("Attributes ".toList ++ attrs k.attributes ++ "\n".toList) ++
    line ("Children [".toList ++ inner ++ "],".toList)

/-- How the tokens `ts`, which are children of a token that is `d` generations below the
root and has the name `up`, look in its list of children. -/
inductive Looks (attrs : AMap Str → Str) (toks : List Token) : Nat → Str → List TokId → Str → Prop
  | nil (d : Nat) (up : Str) : Looks attrs toks d up [] []
  | cons {d : Nat} {up : Str} {t : TokId} {k : Token} {ts : List TokId} {inner rest : Str} (hk : toks[t]? = some k)
      (hc : Looks attrs toks (d + 1) k.name k.children inner) (hs : Looks attrs toks d up ts rest) :
      Looks attrs toks d up (t :: ts)
        ("\n  ".toList ++ moved (page attrs (d + 1) up k inner) ++ "\n".toList ++ blanks (2 * (d + 2)) ++ "),\n".toList ++
          blanks (2 * (d + 1)) ++ rest)

end Adx
