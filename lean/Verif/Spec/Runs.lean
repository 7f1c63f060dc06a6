import Verif.Model.Exec
/-
  The outcome of running a matcher, without recursion depth.
-/
namespace Adx

/-- Running matcher `m` in context `c` and heap `s` returns `r` and leaves heap `s'`
(given enough stack). -/
def Runs (T : Table) (cfg : Cfg) (m : MatcherId) (c : Ctx) (sc : SCtxId) (s : State)
    (r : R) (s' : State) : Prop :=
  ∃ n, exec T cfg n m c sc s = .ok r s'

/-- Running matcher `m` panics. -/
def Panics (T : Table) (cfg : Cfg) (m : MatcherId) (c : Ctx) (sc : SCtxId) (s : State) : Prop :=
  ∃ n e, exec T cfg n m c sc s = .panic e

/-- The heap when a matcher starts its own work: a matcher that was given a name
makes itself available under that name first. -/
def entered (T : Table) (m : MatcherId) (sc : SCtxId) (s : State) : State :=
  if (T m).hasCustomName then s.bindVar sc (T m).name (.matcher m) else s

end Adx
