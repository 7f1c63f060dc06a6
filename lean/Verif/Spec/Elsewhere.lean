import Verif.Spec.Relocate
import Verif.Model.Script
/-
  The same matchers and worlds at other places.
-/
namespace Adx.Reloc

variable (ρ : Reloc)

/-- The matchers `ns` are part of the matchers `ns'`: all that `ns` has is found at the new
places in `ns'`, and what is not in `ns` has places that are not in `ns'`. -/
structure Nodes (ns ns' : List Node) : Prop where
  found : ∀ m n, ns[m]? = some n → ∃ n', ns'[ρ.mat m]? = some n' ∧ ρ.NodeMoved True n n'
  absent : ∀ m, ns[m]? = none → ns'[ρ.mat m]? = none
  new : ∀ i, ρ.mat (ns.length + i) = ns'.length + i
  le : ns.length ≤ ns'.length

/-- The world `w` is part of the world `w'`. -/
structure Inside (w w' : World) : Prop where
  nodes : ρ.Nodes w.nodes w'.nodes
  st : ρ.Part w.st w'.st

/-- The second outcome of compiling a script is the first but for places. -/
def SameBuild : BuildRes → BuildRes → Prop
  | .ok m sc w, x => ∃ w', x = .ok (ρ.mat m) (ρ.sctx sc) w' ∧ ρ.Inside w w'
  | .err es, x => x = .err es
  | .panic e, x => x = .panic e
  | .diverge, x => x = .diverge

end Adx.Reloc
