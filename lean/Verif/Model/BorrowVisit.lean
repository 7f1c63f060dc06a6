import Verif.Model.Borrow
import Verif.Model.Visitor
/-
  `TokenVisitor` (`src/token_visitor.rs`) with the borrow flags of `Model/Borrow`: a token is
  borrowed while its hook runs and while the tokens below it are visited, a hook is borrowed
  mutably while it is called.
-/
namespace Adx

/-- What a visit, or a hook, can do, with borrow flags.  An `Err` drops what was borrowed. -/
inductive WRes (σ α : Type)
  | ok (a : α) (s : σ) (fl : Borrows)
  | err (e : ParseError) (s : σ) (fl : Borrows)
  /-- a dangling token reference (impossible in Rust) -/
  | dangling
  | diverge
  /-- `already borrowed`, `already mutably borrowed` -/
  | conflict (c : Cell)

/-- Visits and hooks with borrow flags. -/
def Watched (σ α : Type) := σ → Borrows → WRes σ α

namespace Watched
variable {σ α β : Type}

protected def bind (x : Watched σ α) (f : α → Watched σ β) : Watched σ β := fun s fl =>
  match x s fl with
  | .ok a s' fl' => f a s' fl'
  | .err e s' fl' => .err e s' fl'
  | .dangling => .dangling
  | .diverge => .diverge
  | .conflict c => .conflict c

protected def pure (a : α) : Watched σ α := fun s fl => .ok a s fl

instance : Monad (Watched σ) where
  pure := Watched.pure
  bind := Watched.bind

/-- `return Err(e)`. -/
def fail (e : ParseError) : Watched σ α := fun s fl => .err e s fl

/-- A flag when one shared borrow ends. -/
def release : Borrow → Borrow
  | .shared k => .shared (k - 1)
  | .exclusive => .exclusive

/-- Run `x` while `c.borrow()` is alive. -/
def share (c : Cell) (x : Watched σ α) : Watched σ α := fun s fl =>
  match fl c with
  | .exclusive => .conflict c
  | .shared n =>
    match x s (fl.set c (.shared (n + 1))) with
    | .ok a s' fl' => .ok a s' (fl'.set c (release (fl' c)))
    | .err e s' fl' => .err e s' (fl'.set c (release (fl' c)))
    | r => r

/-- Run `x` while `c.borrow_mut()` is alive. -/
def own (c : Cell) (x : Watched σ α) : Watched σ α := fun s fl =>
  match fl c with
  | .shared 0 =>
    match x s (fl.set c .exclusive) with
    | .ok a s' fl' => .ok a s' (fl'.set c (.shared 0))
    | .err e s' fl' => .err e s' (fl'.set c (.shared 0))
    | r => r
  | _ => .conflict c

/-- Look at a borrowed token; `toks` are the tokens as they are now. -/
def tok (toks : σ → List Token) (t : TokId) : Watched σ Token := fun s fl =>
  match (toks s)[t]? with
  | some k => .ok k s fl
  | none => .dangling

end Watched

/-- A hook, with borrow flags. -/
abbrev HookB (σ : Type) := TokId → Watched σ Unit

/-- `find_hook` (`src/token_visitor.rs:25-36`), with the number of the hook. -/
def findHookB {σ : Type} : List (Str × HookB σ) → Str → Nat → Option (Nat × HookB σ)
  | [], _, _ => none
  | (n, h) :: hs, k, i => if n = k then some (i, h) else findHookB hs k (i + 1)

/-- `(hook.clone().borrow_mut())(token.clone())` (`src/token_visitor.rs:46,52`), if there is a
hook; `d` tells the visitors of nested visits apart. -/
def callHookB {σ : Type} (d : Nat) (t : TokId) : Option (Nat × HookB σ) → Watched σ Unit
  | some (i, h) => Watched.own (.hook d i) (h t)
  | none => pure ()

/-- `for child in ...` (`src/token_visitor.rs:58-69`): each child is borrowed while it is
visited. -/
def visitListB {σ : Type} (visit1 : TokId → Watched σ Unit) : List TokId → Watched σ Unit
  | [] => pure ()
  | c :: cs => do
    Watched.share (.token c) (visit1 c)
    visitListB visit1 cs

/-- `_visit` (`src/token_visitor.rs:38-72`); the children are read after the hook was called. -/
def visitGoB {σ : Type} (d : Nat) (toks : σ → List Token) (hooks : List (Str × HookB σ))
    (dflt : Option (Nat × HookB σ)) : Nat → TokId → Watched σ Unit
  | 0, _ => fun _ _ => .diverge
  | n + 1, t => Watched.share (.token t) do
    let k ← Watched.tok toks t
    callHookB d t ((findHookB hooks k.name 0).or dflt)
    let k ← Watched.tok toks t
    visitListB (visitGoB d toks hooks dflt n) k.children

/-- `visit` (`src/token_visitor.rs:74-77`). -/
def visitB {σ : Type} (d : Nat) (toks : σ → List Token) (hooks : List (Str × HookB σ)) (depth : Nat)
    (t : TokId) : Watched σ Unit :=
  visitGoB d toks hooks (findHookB hooks ['*'] 0) depth t

end Adx
