import Verif.Spec.Forest
/-
  Error tokens below the top level of a forest.
-/
namespace Adx

/-- `Buried toks ts es`: `es` lists the error tokens strictly below the trees `ts`, the
ones deepest down first, siblings in order. -/
inductive Buried (toks : List Token) : (ts es : List TokId) → Prop
  | nil : Buried toks [] []
  | cons {t : TokId} {k : Token} {ts es es' : List TokId} (hk : toks[t]? = some k)
      (hc : Buried toks k.children es) (hs : Buried toks ts es') :
      Buried toks (t :: ts) (es ++ k.children.filter (isErrorTok toks) ++ es')

end Adx
