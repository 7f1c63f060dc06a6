import Verif.Spec.Interp
/-
  What a parse with names, scopes and attributes costs: the number of tokens that are made,
  with those that are thrown away again, counted on the reference interpreter.
-/
namespace Adx.Interp

variable {N σ : Type}

/-- A result with a token. -/
def made : Result → Nat
  | .token _ => 1
  | .splice _ => 1
  | _ => 0

@[inherit_doc made]
def madeBy : Option (Result × σ) → Nat
  | some x => made x.1
  | none => 0

/-- One after the other, until a part does not match or has an error; `wk` is what a part
costs. -/
def partsWork (ev : Ev N σ) (wk : N → Nat → Nat → σ → Nat) (k : Nat) : List N → Run → σ → Nat
  | [], _, _ => 0
  | m :: ms, r, st => wk m k r.pos st +
    match ev m k r.pos st with
    | none => 0
    | some (.fail, _) => 0
    | some (.error _, _) => 0
    | some (x, st) => partsWork ev wk k ms (r.take x) st

/-- One after the other, until a part matches or has an error. -/
def chooseWork (ev : Ev N σ) (wk : N → Nat → Nat → σ → Nat) (k pos : Nat) : List N → σ → Nat
  | [], _ => 0
  | m :: ms, st => wk m k pos st +
    match ev m k pos st with
    | some (.fail, st) => chooseWork ev wk k pos ms st
    | some (.skip 0, st) => chooseWork ev wk k pos ms st
    | _ => 0

/-- Up to `j` rounds, until a part does not match or has an error. -/
def roundsWork (ev : Ev N σ) (wk : N → Nat → Nat → σ → Nat) (k : Nat) (ms : List N) : Nat → Run → σ → Nat
  | 0, _, _ => 0
  | j + 1, r, st => partsWork ev wk k ms r st +
    match parts ev k ms r st with
    | some (.all r, st) => roundsWork ev wk k ms j r st
    | _ => 0

/-- The number of tokens made for matching an expression: a leaf that matches makes one, a
group, a choice or a repetition makes one whether it matches or not, and so does throwing a
token away.  Names, scopes, and giving tokens names and attributes cost nothing. -/
def workExpr (ev : Ev N σ) (wk : N → Nat → Nat → σ → Nat) (nm : Names σ N) (p : Parser) (stop : Nat) (k pos : Nat)
    (st : σ) : Expr N → Nat
  | .lit name s => madeBy (evalExpr ev nm p stop k pos st (.lit name s))
  | .re name find => madeBy (evalExpr ev nm p stop k pos st (.re name find))
  | .delim name a b e => madeBy (evalExpr ev nm p stop k pos st (.delim name a b e))
  | .seq _ ms => 1 + partsWork ev wk k ms (.start pos) st
  | .choice ms => 1 + chooseWork ev wk k pos ms st
  | .loop _ ms lo hi => 1 + roundsWork ev wk k ms (hi - lo) (.start pos) st
  | .opt m => wk m k pos st
  | .neg m => wk m k pos st
  | .drop m => wk m k pos st + madeBy (ev m k pos st)
  | .flat m => wk m k pos st
  | .call x =>
    match nm.get st k x with
    | some m => wk m k pos st
    | none => 0
  | .jump m => wk m k pos st
  | .within k m => wk m k pos st
  | .rename _ m => wk m k pos st
  | .give _ m => wk m k pos st
  | .empty => 0

/-- The number of tokens made for matching nonterminal `m` in scope `k` at a position. -/
def work (G : Grammar N) (nm : Names σ N) (p : Parser) (stop : Nat) : Nat → N → Nat → Nat → σ → Nat
  | 0 => fun _ _ _ _ => 0
  | n + 1 => fun m k pos st =>
    workExpr (eval G nm p stop n) (work G nm p stop n) nm p stop k pos (enter G nm m k st) (G.expr m)

end Adx.Interp
