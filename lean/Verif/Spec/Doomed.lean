import Verif.Spec.Levels
import Verif.Spec.Linked
/-
  Scripts with imports that are left recursive.
-/
namespace Adx.Interp

/-- Trying what stands in the scope `k` begins with trying a name of a scope that is in `X`,
whatever the text. -/
inductive StartsThing (X : Nat → Str → Prop) : Nat → Thing → Prop
  | own {k g} (h : Starts (X k) g) : StartsThing X k (.own g)
  | file {k t n g gs bs} (h : Starts (X (branch k t)) g) : StartsThing X k (.file t n (g :: gs) bs)
  | member {k t bs ident name th} (hd : lastDef bs ident = some th) (h : StartsThing X (branch k t) th) :
      StartsThing X k (.member t bs ident name)

/-- In the scopes, what the names in `X` stand for begins with trying such a name. -/
def Vicious (X : Nat → Str → Prop) (σ : Layout) : Prop := ∀ k x, X k x → ∃ th, lastDef (σ.defs k) x = some th ∧ StartsThing X k th

end Adx.Interp
