import Verif.Model.Core
/-
  Vocabulary about the token heap, independent of how the engine works.
-/
namespace Adx

/-- `u` is `t` or one of its descendants. -/
inductive Reach (toks : List Token) : TokId → TokId → Prop
  | refl (t) : Reach toks t t
  | step {t u c : TokId} {k : Token} (h : Reach toks t u) (hk : toks[u]? = some k)
      (hc : c ∈ k.children) : Reach toks t c

/-- The token a result is about, if any: its own, or the payload of a `Break` or
`Continue`. -/
def Success.tok : Success → Option TokId
  | .token t => some t
  | .proxyChildren t => some t
  | .brk _ d => d.tok
  | .cont _ d => d.tok
  | _ => Option.none

@[inherit_doc Success.tok]
def R.tok : R → Option TokId
  | .ok x => x.tok
  | .err _ => Option.none

end Adx
