import Verif.Model.Exec
/-
  The engine with an emergency brake: the first error that any matcher raises stops
  the whole run on the spot.
-/
namespace Adx

/-- An outcome, except that a raised error stops the run with a report of the error and
of the heap at that moment. -/
def haltOnError (report : ParseError → State → String) : Res R → Res R
  | .ok (.err (.error e)) s => .panic (report e s)
  | o => o

/-- `exec`, with the brake on every matcher that is run. -/
def execHalt (T : Table) (cfg : Cfg) (report : ParseError → State → String) : Nat → ExecFn
  | 0 => fun _ _ _ => M.diverge
  | n + 1 => fun m ctx sc s => haltOnError report ((do
    beforeExec (T m) m sc
    execNode T cfg (execHalt T cfg report n) (T m) ctx sc) s)

/-- The heap, after some open scopes were closed. -/
inductive Closed (s : State) : State → Prop
  | refl : Closed s s
  | pop {s' : State} (sc : SCtxId) (h : Closed s s') : Closed s (s'.popScope sc)

/-- Callbacks that pass errors on as they are. -/
def Node.LetsErrors : Node → Prop
  | .catch_ _ f => ∀ c e s, f c (.error e) s = .ok (.err (.error e)) s
  | .map _ _ ff => ∀ e c sc s, ff (.error e) c sc s = .ok (.err (.error e)) s
  | _ => True

/-- A matcher that does not switch on debug output. -/
def Node.Quiet : Node → Prop
  | .debug _ mode => mode = 0
  | _ => True

end Adx
