import Verif.Spec.Print
import Verif.Spec.Text
/-
  What one can read in the line that a `Debug` matcher prints.
-/
namespace Adx

/-- A text in which line feeds, carriage returns and tabulators are written with a backslash. -/
inductive DebugShows : Str → Str → Prop
  | nil : DebugShows [] []
  | feed {v w : Str} (h : DebugShows v w) : DebugShows ('\n' :: v) ('\\' :: 'n' :: w)
  | ret {v w : Str} (h : DebugShows v w) : DebugShows ('\r' :: v) ('\\' :: 'r' :: w)
  | tab {v w : Str} (h : DebugShows v w) : DebugShows ('\t' :: v) ('\\' :: 't' :: w)
  | plain {c : Char} {v w : Str} (hc : c ∉ ['\n', '\r', '\t']) (h : DebugShows v w) : DebugShows (c :: v) (c :: w)

/-- What stands around the token in the result of a matcher. -/
inductive DebugAround (quote : Str → Str) : Success → Str → Str → Prop
  | token (t : TokId) : DebugAround quote (.token t) "Token(RefCell { value: ".toList " })".toList
  | proxyChildren (t : TokId) : DebugAround quote (.proxyChildren t) "ProxyChildren(RefCell { value: ".toList " })".toList
  | brk {name : Str} {d : Success} {a b : Str} (h : DebugAround quote d a b) :
      DebugAround quote (.brk name d) ("Break((".toList ++ quote name ++ ", ".toList ++ a) (b ++ "))".toList)
  | cont {name : Str} {d : Success} {a b : Str} (h : DebugAround quote d a b) :
      DebugAround quote (.cont name d) ("Continue((".toList ++ quote name ++ ", ".toList ++ a) (b ++ "))".toList)

/-- The same result, up to which token it is; `P` says when two tokens are taken for the same. -/
inductive AlikeSuccess (P : TokId → TokId → Prop) : Success → Success → Prop
  | token {t u : TokId} (h : P t u) : AlikeSuccess P (.token t) (.token u)
  | proxyChildren {t u : TokId} (h : P t u) : AlikeSuccess P (.proxyChildren t) (.proxyChildren u)
  | skip (n : Int) : AlikeSuccess P (.skip n) (.skip n)
  | brk {name : Str} {d e : Success} (h : AlikeSuccess P d e) : AlikeSuccess P (.brk name d) (.brk name e)
  | cont {name : Str} {d e : Success} (h : AlikeSuccess P d e) : AlikeSuccess P (.cont name d) (.cont name e)
  | none : AlikeSuccess P .none .none
  | stop : AlikeSuccess P .stop .stop

inductive AlikeResult (P : TokId → TokId → Prop) : R → R → Prop
  | ok {x y : Success} (h : AlikeSuccess P x y) : AlikeResult P (.ok x) (.ok y)
  | err (e : Failure) : AlikeResult P (.err e) (.err e)

/-- One can see where a quoted string ends. -/
def Delimits (quote : Str → Str) : Prop := ∀ a b u v, quote a ++ u = quote b ++ v → a = b ∧ u = v

end Adx
