import Verif.Model.Core
/-
  Checking concrete runs (for the examples beside the theorems).
-/
namespace Adx

/-- The run finished and its result and final heap pass a check. -/
def Res.holds {α : Type} (r : Res α) (f : α → State → Bool) : Bool :=
  match r with
  | .ok a s => f a s
  | _ => false

theorem Res.of_holds {α : Type} {r : Res α} {f : α → State → Bool} (h : r.holds f = true) :
    ∃ a s, r = .ok a s ∧ f a s = true := by
  cases r with
  | ok a s => exact ⟨a, s, rfl, h⟩
  | panic _ => cases h
  | diverge => cases h

/-- The run panicked. -/
def Res.panics {α : Type} : Res α → Bool
  | .panic _ => true
  | _ => false

end Adx
