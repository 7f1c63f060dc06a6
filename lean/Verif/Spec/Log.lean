import Verif.Spec.Import
/-
  What is printed while a script is compiled: first what its imports print, in the order of the
  text, then the messages of the errors that were found in the script itself.
-/
namespace Adx

/-- What one token of a script prints: an import statement what its file prints, any other
token nothing.  `pr` says what files print. -/
inductive ItemPrints (env : Env) (fromFile : Option Str) (pr : Str → List Str → Prop) (toks : List Token) (x : TokId) :
    List Str → Prop
  | other {k} (hk : toks[x]? = some k) (hn : k.name ≠ "ImportStatement".toList) : ItemPrints env fromFile pr toks x []
  | imported {k p pk base joined file ls} (hk : toks[x]? = some k) (hn : k.name = "ImportStatement".toList)
      (hp : First toks ["Path"] k.children p) (hpk : toks[p]? = some pk) (hf : fromFile = some base)
      (hj : env.relative base pk.getValue = some joined) (hc : env.canonical joined = some file) (hpr : pr file ls) :
      ItemPrints env fromFile pr toks x ls

/-- What a list of tokens prints. -/
inductive ItemsPrint (env : Env) (fromFile : Option Str) (pr : Str → List Str → Prop) (toks : List Token) :
    List TokId → List Str → Prop
  | nil : ItemsPrint env fromFile pr toks [] []
  | cons {x xs ls ls'} (h : ItemPrints env fromFile pr toks x ls) (hs : ItemsPrint env fromFile pr toks xs ls') :
      ItemsPrint env fromFile pr toks (x :: xs) (ls ++ ls')

/-- The messages of the error tokens in a list. -/
inductive ErrorMessages (toks : List Token) : List TokId → List Str → Prop
  | nil : ErrorMessages toks [] []
  | other {x xs k ls} (hk : toks[x]? = some k) (hn : k.name ≠ "Error".toList) (hs : ErrorMessages toks xs ls) :
      ErrorMessages toks (x :: xs) ls
  | error {x xs k msg ls} (hk : toks[x]? = some k) (hn : k.name = "Error".toList)
      (hm : k.getAttribute "__message".toList = some msg) (hs : ErrorMessages toks xs ls) :
      ErrorMessages toks (x :: xs) (msg :: ls)

end Adx
