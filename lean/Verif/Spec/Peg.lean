import Verif.Spec.Program
import Verif.Spec.Text
import Verif.Spec.Sequence
import Verif.Spec.Tree
/-
  A small interpreter of parsing expression grammars.  It maps a position of a text to a
  result; it has no heap, no contexts and no variables.  Where the library departs from
  textbook grammars this is marked with *sic*.
-/
namespace Adx

namespace Tree
/-- The parts of a tree. -/
def captured : Tree → Range | .node _ r _ _ _ _ _ => r
@[inherit_doc captured] def matched : Tree → Range | .node _ _ r _ _ _ _ => r
@[inherit_doc captured] def children : Tree → List Tree | .node _ _ _ _ _ _ cs => cs
end Tree

namespace Peg

/-- Expressions; nonterminals are numbers. -/
inductive Expr
  /-- A literal. -/
  | lit (name : Str) (s : Str)
  /-- A regular expression, by its leftmost match in a text. -/
  | re (name : Str) (find : Str → Option (Nat × Nat))
  /-- A delimited text with an escape marker. -/
  | delim (name : Str) (start stop esc : Str)
  /-- One after the other. -/
  | seq (name : Str) (ms : List MatcherId)
  /-- Ordered choice. -/
  | choice (ms : List MatcherId)
  /-- Repetition. -/
  | loop (name : Str) (ms : List MatcherId) (lo hi : Nat)
  | opt (m : MatcherId)
  | neg (m : MatcherId)
  /-- Match, but keep no token. -/
  | drop (m : MatcherId)
  /-- Replace the token by its children. -/
  | flat (m : MatcherId)
  | call (m : MatcherId)
  | empty

/-- Results: no match; text skipped; a token; a token that is to be replaced by its
children. -/
inductive Result
  | fail
  | skip (n : Nat)
  | token (t : Tree)
  | splice (t : Tree)

/-- The body of a delimited text: `(raw, value)`. -/
def body (stop esc : Str) : Nat → Str → Option (Str × Str)
  | 0, _ => none
  | n + 1, w =>
    if stop.isPrefixOf w then some ([], [])
    else if esc ≠ [] ∧ esc.isPrefixOf w then
      match w.drop esc.length with
      | [] => none
      | ch :: w => (body stop esc n w).map fun p => (esc ++ ch :: p.1, ch :: p.2)
    else
      match w with
      | [] => none
      | ch :: w => (body stop esc n w).map fun p => (ch :: p.1, ch :: p.2)

/-- A token without children. -/
def leaf (p : Parser) (name : Str) (captured matched : Range) : Tree :=
  .node name captured matched (captured.text p) (matched.text p) none []

/-- The token of a delimited text. -/
def delimLeaf (p : Parser) (name start stop : Str) (pos : Nat) (raw val : Str) : Tree :=
  let a := pos + blen start
  let b := a + blen raw
  .node name ⟨a, b⟩ ⟨pos, b + blen stop⟩ val (Range.text ⟨pos, b + blen stop⟩ p) none []

/-- What has been matched so far: the current position, the furthest position, the
children, and the ranges that the captured range has to cover. -/
structure Run where
  pos : Nat
  far : Nat
  kids : List Tree
  caps : List Range

/-- Nothing yet. -/
def Run.start (pos : Nat) : Run := ⟨pos, pos, [], []⟩

/-- Continue at a position. -/
def Run.goto (r : Run) (pos : Nat) : Run := { r with pos, far := max r.far pos }

/-- Add one token. -/
def Run.add (r : Run) (t : Tree) : Run :=
  { r.goto t.matched.stop with kids := r.kids ++ [t], caps := r.caps ++ [t.captured] }

/-- Go on with the result of a part.  *Sic*: behind a token that is replaced by its
children, reading continues at the end of the last child, not of the token. -/
def Run.take (r : Run) : Result → Run
  | .fail => r
  | .skip n => r.goto (r.pos + n)
  | .token t => r.add t
  | .splice t =>
    t.children.foldl Run.add { r.goto t.matched.stop with caps := r.caps ++ [t.captured] }

/-- The token of a group.  *Sic*: without children there is no match. -/
def Run.finish (p : Parser) (name : Str) (start : Nat) (r : Run) : Result :=
  if r.kids = [] then .fail
  else .token (.node name (span r.caps) ⟨start, r.far⟩ ((span r.caps).text p)
    (Range.text ⟨start, r.far⟩ p) none r.kids)

/-- One after the other; `false` if a part did not match. -/
def parts (ev : MatcherId → Nat → Option Result) : List MatcherId → Run → Option (Bool × Run)
  | [], r => some (true, r)
  | m :: ms, r => (ev m r.pos).bind fun x =>
    match x with
    | .fail => some (false, r)
    | x => parts ev ms (r.take x)

/-- The first that matches.  *Sic*: one that matches without consuming anything does not
count. -/
def choose (ev : MatcherId → Nat → Option Result) (pos : Nat) : List MatcherId → Option Result
  | [] => some .fail
  | m :: ms => (ev m pos).bind fun x =>
    match x with
    | .fail => choose ev pos ms
    | .skip 0 => choose ev pos ms
    | x => some x

/-- Up to `k` rounds; `false` if a part did not match. *Sic*: what that round has matched
before is kept. -/
def rounds (ev : MatcherId → Nat → Option Result) (ms : List MatcherId) : Nat → Run → Option (Bool × Run)
  | 0, r => some (true, r)
  | k + 1, r => (parts ev ms r).bind fun x =>
    match x with
    | (false, r) => some (false, r)
    | (true, r) => rounds ev ms k r

/-- The result of a repetition.  *Sic*: it runs for at most `hi - lo` rounds, and the
minimum is looked at only if it ran for all of them. -/
def loopResult (p : Parser) (name : Str) (start lo hi : Nat) : Bool × Run → Result
  | (false, r) => r.finish p name start
  | (true, r) =>
    if lo = 0 ∧ hi = 0 then .skip 0
    else if hi - lo < lo then .fail
    else r.finish p name start

def Result.opt : Result → Result
  | .fail => .skip 0
  | x => x

def Result.neg : Result → Result
  | .fail => .skip 0
  | .skip 0 => .skip 0
  | _ => .fail

def Result.drop (pos : Nat) : Result → Result
  | .token t => .skip (t.matched.stop - pos)
  | .splice t => .skip (t.matched.stop - pos)
  | x => x

def Result.flat : Result → Result
  | .token t => .splice t
  | x => x

/-- Match nonterminal `m` at a position of the text of `p` before `stop`; `none` if the
depth of recursion does not suffice. -/
def eval (G : MatcherId → Expr) (p : Parser) (stop : Nat) : Nat → MatcherId → Nat → Option Result
  | 0, _, _ => none
  | n + 1, m, pos =>
    let w := (bslice p.src pos stop).getD []
    match G m with
    | .lit name s =>
      if s ≠ [] ∧ s.isPrefixOf w then
        some (.token (leaf p name ⟨pos, pos + blen s⟩ ⟨pos, pos + blen s⟩))
      else some .fail
    | .re name find =>
      match find w with
      | some (0, 0) => some (.skip 0)
      | some (0, b) => some (.token (leaf p name ⟨pos, pos + b⟩ ⟨pos, pos + b⟩))
      | _ => some .fail
    | .delim name start stop esc =>
      if start.isPrefixOf w then
        match body stop esc (w.length + 1) (w.drop start.length) with
        | some (raw, val) => some (.token (delimLeaf p name start stop pos raw val))
        | none => some .fail
      else some .fail
    | .seq name ms =>
      (parts (eval G p stop n) ms (.start pos)).map fun x =>
        match x with
        | (true, r) => r.finish p name pos
        | (false, _) => .fail
    | .choice ms => choose (eval G p stop n) pos ms
    | .loop name ms lo hi =>
      (rounds (eval G p stop n) ms (hi - lo) (.start pos)).map (loopResult p name pos lo hi)
    | .opt m => (eval G p stop n m pos).map Result.opt
    | .neg m => (eval G p stop n m pos).map Result.neg
    | .drop m => (eval G p stop n m pos).map (Result.drop pos)
    | .flat m => (eval G p stop n m pos).map Result.flat
    | .call m => eval G p stop n m pos
    | .empty => some (.skip 0)

/-- The contract of the crate `regex`: a match is a piece of the haystack. -/
def Cuts (find : Str → Option (Nat × Nat)) : Prop :=
  ∀ w a b, find w = some (a, b) → ∃ x, TextAt w a b x

/-- The expression of a matcher, if it is of the right kind; `ρ` resolves names. -/
def exprOf (ρ : Str → Option MatcherId) : Node → Option Expr
  | .equals name _ (.str s) => some (.lit name s)
  | .regex name _ re => some (.re name re.find)
  | .sequence name _ (.str a) (.str b) (.str e) =>
    if a ≠ [] ∧ b ≠ [] then some (.delim name a b e) else none
  | .program ms name _ none false => some (.seq name ms)
  | .program ms _ _ none true => some (.choice ms)
  | .program ms name _ (some (lo, hi)) false => some (.loop name ms lo hi)
  | .optional m => some (.opt m)
  | .not m => some (.neg m)
  | .discard m => some (.drop m)
  | .proxyChildren m _ _ => some (.flat m)
  | .ref (.str n) _ _ => (ρ n).map .call
  | .ref (.matcher m) _ _ => some (.call m)
  | .null => some .empty
  | _ => none

/-- The nonterminals of an expression. -/
def Expr.uses : Expr → List MatcherId
  | .seq _ ms => ms
  | .choice ms => ms
  | .loop _ ms _ _ => ms
  | .opt m => [m]
  | .neg m => [m]
  | .drop m => [m]
  | .flat m => [m]
  | .call m => [m]
  | _ => []

/-- The matchers in `S` form the grammar `G`; each matcher that was given a name that
`ρ` resolves is the one that `ρ` resolves it to. -/
structure Grammar (T : Table) (ρ : Str → Option MatcherId) (S : MatcherId → Prop)
    (G : MatcherId → Expr) : Prop where
  expr : ∀ m, S m → exprOf ρ (T m) = some (G m)
  closed : ∀ m, S m → ∀ x ∈ (G m).uses, S x
  named : ∀ m, S m → (T m).hasCustomName = true → ∀ x, ρ (T m).name = some x → x = m
  regex : ∀ m, S m → ∀ n c re, T m = .regex n c re → Cuts re.find

/-- The names that `ρ` resolves are bound in the scope to what it resolves them to. -/
def Resolves (ρ : Str → Option MatcherId) (sc : SCtxId) (s : State) : Prop :=
  ∀ n m, ρ n = some m → s.lookup sc n = some (.matcher m)

/-- What lies between the delimiters of a sequence is ASCII. -/
def Expr.Between (src : Str) (x : Expr) : Prop := ∀ n a b e, x = .delim n a b e → AsciiBetween src a b e

/-- A position between two characters of the window. -/
def Cut (src : Str) (stop a : Nat) : Prop := ∃ w, TextAt src a stop w

/-- A context in which the interpreter's text is read. -/
structure Ready (p : Parser) (stop : Nat) (c : Ctx) : Prop where
  parser : c.parser = p
  stop : c.offset.stop = stop
  debug : c.debug = 0

/-- Both return, and their results are related, or both run out of depth. -/
def Sim {α β : Type} (x : Res α) (y : Option β) (Q : α → State → β → Prop) : Prop :=
  match x, y with
  | .ok a s, some b => Q a s b
  | .diverge, none => True
  | _, _ => False

/-- A user of the engine's result and heap sees what the interpreter says. -/
def Sees (toks : List Token) : R → Result → Prop
  | .err .fail, .fail => True
  | .ok (.skip k), .skip n => k = n
  | .ok (.token t), .token tree => treeOf toks (toks.length + 1) t = some tree
  | .ok (.proxyChildren t), .splice tree => treeOf toks (toks.length + 1) t = some tree
  | _, _ => False

/-- The tree of a result, if it has one. -/
def Result.tree? : Result → Option Tree
  | .token t => some t
  | .splice t => some t
  | _ => none

/-- What the interpreter says at any depth of recursion. -/
def Evals (G : MatcherId → Expr) (p : Parser) (stop : Nat) (m : MatcherId) (pos : Nat) (x : Result) : Prop :=
  ∃ n, eval G p stop n m pos = some x

end Peg

end Adx
