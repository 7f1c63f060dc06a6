import Verif.Model.Core
/-
  Finite token trees and their document order.
-/
namespace Adx

/-- `Pre toks ts l`: the tokens `ts` are the roots of finite trees, and `l` lists all
their tokens in document (pre-)order. -/
inductive Pre (toks : List Token) : (ts l : List TokId) → Prop
  | nil : Pre toks [] []
  | cons {t : TokId} {k : Token} {ts l l' : List TokId} (hk : toks[t]? = some k)
      (hc : Pre toks k.children l) (hs : Pre toks ts l') : Pre toks (t :: ts) (t :: (l ++ l'))

/-- Is the token flagged as an error? -/
def isErrorTok (toks : List Token) (t : TokId) : Bool :=
  match toks[t]? with
  | some k => (k.flags &&& IS_ERROR) != 0
  | none => false

/-- The smallest range that contains both. -/
def hullR (a b : Range) : Range := ⟨min a.start b.start, max a.stop b.stop⟩

/-- The smallest range that contains `a` and the matched ranges of all given tokens. -/
def hullOf (toks : List Token) (a : Range) : List TokId → Range
  | [] => a
  | t :: ts => hullOf toks (hullR a ((toks[t]?.map Token.matched).getD a)) ts

end Adx
