import Verif.Spec.Peg
import Verif.Model.Script
/-
  A reference interpreter of grammars with names, scopes and attributes.  It maps a
  position of a text, and what the names stand for, to a result.  It has no heap of tokens
  and no contexts.  Nonterminals, and the places that names are kept in, are arbitrary, so
  that it can be run on tables of matchers and on the terms of the script language.  Where
  the library departs from textbook grammars this is marked with *sic*.
-/
namespace Adx.Interp

open Peg (body Cuts Cut Ready Sim)

/-- What a user sees of a token: name, ranges, texts, attributes, children. -/
inductive Item
  | node (name : Str) (captured matched : Range) (value matchedValue : Str) (attrs : AMap Str)
      (children : List Item)

namespace Item

/-- The parts of an item. -/
def captured : Item → Range | .node _ r _ _ _ _ _ => r
@[inherit_doc captured] def matched : Item → Range | .node _ _ r _ _ _ _ => r
@[inherit_doc captured] def children : Item → List Item | .node _ _ _ _ _ _ cs => cs

/-- The same item under another name. -/
def rename (n : Str) : Item → Item | .node _ r r' v v' a cs => .node n r r' v v' a cs

/-- The attributes `a`, and those of `m` that are not among them. -/
def missing (a : AMap Str) : AMap Str → AMap Str
  | [] => a
  | (key, v) :: m => if (a.get key).isSome then missing a m else missing (a.insert key v) m

/-- The same item with the attributes of `m` that it lacks.  The attribute `__value` is the
value of a token. -/
def give (m : AMap Str) : Item → Item
  | .node n r r' v v' a cs =>
    .node n r r' (((missing a m).get "__value".toList).getD v) v' (missing a m) cs

end Item

/-- Read off the item of a token; `none` if the references are not a finite tree of the
given depth. -/
def itemOf (toks : List Token) : Nat → TokId → Option Item
  | 0, _ => none
  | n + 1, t =>
    match toks[t]? with
    | none => none
    | some k =>
      match k.children.mapM (itemOf toks n) with
      | none => none
      | some cs => some (.node k.name k.captured k.matched k.getValue k.getMatchedValue k.attributes cs)

/-- Expressions over nonterminals `N`. -/
inductive Expr (N : Type)
  /-- A literal. -/
  | lit (name : Str) (s : Str)
  /-- A regular expression, by its leftmost match in a text. -/
  | re (name : Str) (find : Str → Option (Nat × Nat))
  /-- A delimited text with an escape marker. -/
  | delim (name : Str) (start stop esc : Str)
  /-- One after the other. -/
  | seq (name : Str) (ms : List N)
  /-- Ordered choice. -/
  | choice (ms : List N)
  /-- Repetition. -/
  | loop (name : Str) (ms : List N) (lo hi : Nat)
  | opt (m : N)
  | neg (m : N)
  /-- Match, but keep no token. -/
  | drop (m : N)
  /-- Replace the token by its children. -/
  | flat (m : N)
  /-- What the name stands for in the current scope. -/
  | call (x : Str)
  | jump (m : N)
  /-- Match in another scope. -/
  | within (k : Nat) (m : N)
  /-- Give the token another name. -/
  | rename (name : Str) (m : N)
  /-- Give the token attributes. -/
  | give (attrs : AMap Str) (m : N)
  | empty

/-- A grammar.  A nonterminal with a label is what the label stands for in the current
scope, from the moment when the nonterminal is first tried.  (*Sic*: also when it is only a
part of what the label stood for before.) -/
structure Grammar (N : Type) where
  expr : N → Expr N
  label : N → Option Str

/-- How `σ` keeps, for each scope, what names stand for. -/
structure Names (σ N : Type) where
  get : σ → Nat → Str → Option N
  set : σ → Nat → Str → N → σ

/-- Results: no match; an error that ends the parse; text skipped; a token; a token that is
to be replaced by its children. -/
inductive Result
  | fail
  | error (e : ParseError)
  | skip (n : Nat)
  | token (t : Item)
  | splice (t : Item)

/-- A token without children. -/
def leaf (p : Parser) (name : Str) (captured matched : Range) : Item :=
  .node name captured matched (captured.text p) (matched.text p) [] []

/-- The token of a delimited text. -/
def delimLeaf (p : Parser) (name start stop : Str) (pos : Nat) (raw val : Str) : Item :=
  let a := pos + blen start
  let b := a + blen raw
  .node name ⟨a, b⟩ ⟨pos, b + blen stop⟩ val (Range.text ⟨pos, b + blen stop⟩ p)
    [("__value".toList, val)] []

/-- What has been matched so far: the current position, the furthest position, the
children, and the ranges that the captured range has to cover. -/
structure Run where
  pos : Nat
  far : Nat
  kids : List Item
  caps : List Range

/-- Nothing yet. -/
def Run.start (pos : Nat) : Run := ⟨pos, pos, [], []⟩

/-- Continue at a position. -/
def Run.goto (r : Run) (pos : Nat) : Run := { r with pos, far := max r.far pos }

/-- Add one token. -/
def Run.add (r : Run) (t : Item) : Run :=
  { r.goto t.matched.stop with kids := r.kids ++ [t], caps := r.caps ++ [t.captured] }

/-- Go on with the result of a part.  *Sic*: behind a token that is replaced by its
children, reading continues at the end of the last child, not of the token. -/
def Run.take (r : Run) : Result → Run
  | .fail => r
  | .error _ => r
  | .skip n => r.goto (r.pos + n)
  | .token t => r.add t
  | .splice t =>
    t.children.foldl Run.add { r.goto t.matched.stop with caps := r.caps ++ [t.captured] }

/-- The token of a group.  *Sic*: without children there is no match. -/
def Run.finish (p : Parser) (name : Str) (start : Nat) (r : Run) : Result :=
  if r.kids = [] then .fail
  else .token (.node name (span r.caps) ⟨start, r.far⟩ ((span r.caps).text p)
    (Range.text ⟨start, r.far⟩ p) [] r.kids)

/-- How a list of parts ends: all matched, one did not, one had an error. -/
inductive Step
  | all (r : Run)
  | failed (r : Run)
  | error (e : ParseError)

variable {N σ : Type}

/-- The results of nonterminals, in a scope, at a position. -/
abbrev Ev (N σ : Type) := N → Nat → Nat → σ → Option (Result × σ)

/-- One after the other. -/
def parts (ev : Ev N σ) (k : Nat) : List N → Run → σ → Option (Step × σ)
  | [], r, st => some (.all r, st)
  | m :: ms, r, st => (ev m k r.pos st).bind fun x =>
    match x.1 with
    | .fail => some (.failed r, x.2)
    | .error e => some (.error e, x.2)
    | y => parts ev k ms (r.take y) x.2

/-- The first that matches.  *Sic*: one that matches without consuming anything does not
count. -/
def choose (ev : Ev N σ) (k pos : Nat) : List N → σ → Option (Result × σ)
  | [], st => some (.fail, st)
  | m :: ms, st => (ev m k pos st).bind fun x =>
    match x.1 with
    | .fail => choose ev k pos ms x.2
    | .skip 0 => choose ev k pos ms x.2
    | _ => some x

/-- Up to `j` rounds. *Sic*: what a round has matched before a part did not match is
kept. -/
def rounds (ev : Ev N σ) (k : Nat) (ms : List N) : Nat → Run → σ → Option (Step × σ)
  | 0, r, st => some (.all r, st)
  | j + 1, r, st => (parts ev k ms r st).bind fun x =>
    match x.1 with
    | .all r => rounds ev k ms j r x.2
    | y => some (y, x.2)

/-- The result of a sequence. -/
def seqResult (p : Parser) (name : Str) (start : Nat) : Step → Result
  | .all r => r.finish p name start
  | .failed _ => .fail
  | .error e => .error e

/-- The result of a repetition.  *Sic*: it runs for at most `hi - lo` rounds, and the
minimum is looked at only if it ran for all of them. -/
def loopResult (p : Parser) (name : Str) (start lo hi : Nat) : Step → Result
  | .failed r => r.finish p name start
  | .error e => .error e
  | .all r =>
    if lo = 0 ∧ hi = 0 then .skip 0
    else if hi - lo < lo then .fail
    else r.finish p name start

def Result.opt : Result → Result
  | .fail => .skip 0
  | x => x

def Result.neg : Result → Result
  | .fail => .skip 0
  | .skip 0 => .skip 0
  | .error e => .error e
  | _ => .fail

def Result.drop (pos : Nat) : Result → Result
  | .token t => .skip (t.matched.stop - pos)
  | .splice t => .skip (t.matched.stop - pos)
  | x => x

def Result.flat : Result → Result
  | .token t => .splice t
  | x => x

/-- Change the token.  *Sic*: a token that was to be replaced by its children is now
kept. -/
def Result.alter (f : Item → Item) : Result → Result
  | .token t => .token (f t)
  | .splice t => .token (f t)
  | x => x

/-- The error of a name that stands for nothing. -/
def unknown (x : Str) : ParseError :=
  ⟨"`Ref` matcher unable to locate target reference `".toList ++ x ++ "`".toList, none⟩

/-- The labels of nonterminals that are tried. -/
def enter (G : Grammar N) (nm : Names σ N) (m : N) (k : Nat) (st : σ) : σ :=
  match G.label m with
  | some l => nm.set st k l m
  | none => st

/-- What is done with the result of a part, leaving the names alone. -/
def andThen (f : Result → Result) (x : Option (Result × σ)) : Option (Result × σ) :=
  x.map fun y => (f y.1, y.2)

/-- Match an expression. -/
def evalExpr (ev : Ev N σ) (nm : Names σ N) (p : Parser) (stop : Nat) (k pos : Nat) (st : σ) :
    Expr N → Option (Result × σ)
  | .lit name s =>
    if s ≠ [] ∧ s.isPrefixOf ((bslice p.src pos stop).getD []) then
      some (.token (leaf p name ⟨pos, pos + blen s⟩ ⟨pos, pos + blen s⟩), st)
    else some (.fail, st)
  | .re name find =>
    match find ((bslice p.src pos stop).getD []) with
    | some (0, 0) => some (.skip 0, st)
    | some (0, b) => some (.token (leaf p name ⟨pos, pos + b⟩ ⟨pos, pos + b⟩), st)
    | _ => some (.fail, st)
  | .delim name start stop' esc =>
    let w := (bslice p.src pos stop).getD []
    if start.isPrefixOf w then
      match body stop' esc (w.length + 1) (w.drop start.length) with
      | some (raw, val) => some (.token (delimLeaf p name start stop' pos raw val), st)
      | none => some (.fail, st)
    else some (.fail, st)
  | .seq name ms => (parts ev k ms (.start pos) st).map fun x => (seqResult p name pos x.1, x.2)
  | .choice ms => choose ev k pos ms st
  | .loop name ms lo hi =>
    (rounds ev k ms (hi - lo) (.start pos) st).map fun x => (loopResult p name pos lo hi x.1, x.2)
  | .opt m => andThen Result.opt (ev m k pos st)
  | .neg m => andThen Result.neg (ev m k pos st)
  | .drop m => andThen (Result.drop pos) (ev m k pos st)
  | .flat m => andThen Result.flat (ev m k pos st)
  | .call x =>
    match nm.get st k x with
    | some m => ev m k pos st
    | none => some (.error (unknown x), st)
  | .jump m => ev m k pos st
  | .within k m => ev m k pos st
  | .rename l m => andThen (Result.alter (Item.rename l)) (ev m k pos st)
  | .give a m => andThen (Result.alter (Item.give a)) (ev m k pos st)
  | .empty => some (.skip 0, st)

/-- Match nonterminal `m` in scope `k` at a position of the text of `p` before `stop`;
`none` if the depth of recursion does not suffice. -/
def eval (G : Grammar N) (nm : Names σ N) (p : Parser) (stop : Nat) : Nat → Ev N σ
  | 0 => fun _ _ _ _ => none
  | n + 1 => fun m k pos st =>
    evalExpr (eval G nm p stop n) nm p stop k pos (enter G nm m k st) (G.expr m)

/-- The nonterminals that an expression mentions. -/
def Expr.uses : Expr N → List N
  | .seq _ ms => ms
  | .choice ms => ms
  | .loop _ ms _ _ => ms
  | .opt m => [m]
  | .neg m => [m]
  | .drop m => [m]
  | .flat m => [m]
  | .jump m => [m]
  | .within _ m => [m]
  | .rename _ m => [m]
  | .give _ m => [m]
  | _ => []

/-- The scope that an expression mentions. -/
def Expr.scope? : Expr N → Option Nat
  | .within k _ => some k
  | _ => none

/-- What lies between the delimiters of a sequence is ASCII. -/
def Expr.Between (src : Str) (x : Expr N) : Prop := ∀ n a b e, x = .delim n a b e → AsciiBetween src a b e

/-! ### Tables of matchers as grammars -/

/-- The expressions of matchers. -/
inductive Shape : Node → Expr MatcherId → Prop
  | lit {n c s} : Shape (.equals n c (.str s)) (.lit n s)
  | re {n c re} : Shape (.regex n c re) (.re n re.find)
  | delim {n c a b e} (ha : a ≠ []) (hb : b ≠ []) :
      Shape (.sequence n c (.str a) (.str b) (.str e)) (.delim n a b e)
  | seq {ms n c} : Shape (.program ms n c none false) (.seq n ms)
  | choice {ms n c} : Shape (.program ms n c none true) (.choice ms)
  | loop {ms n c lo hi} : Shape (.program ms n c (some (lo, hi)) false) (.loop n ms lo hi)
  | opt {m} : Shape (.optional m) (.opt m)
  | neg {m} : Shape (.not m) (.neg m)
  | drop {m} : Shape (.discard m) (.drop m)
  | flat {m n c} : Shape (.proxyChildren m n c) (.flat m)
  | call {x n c} : Shape (.ref (.str x) n c) (.call x)
  | jump {m n c} : Shape (.ref (.matcher m) n c) (.jump m)
  | within {k m} : Shape (.setScope (some k) m) (.within k m)
  | rename {l m} : Shape (.map m (renameToken l) passFailure) (.rename l m)
  | give {a m} : Shape (.map m (addMissingAttributes a) passFailure) (.give a m)
  | empty : Shape .null .empty

/-- The matchers in `S` form the grammar `G` with the scopes in `K`.  They refer to the names in `C`. -/
structure Forms (T : Table) (G : Grammar MatcherId) (S : MatcherId → Prop) (K : SCtxId → Prop) (C : Str → Prop) :
    Prop where
  expr : ∀ m, S m → Shape (T m) (G.expr m)
  label : ∀ m, S m → G.label m = if (T m).hasCustomName then some (T m).name else none
  closed : ∀ m, S m → ∀ x ∈ (G.expr m).uses, S x
  inside : ∀ m, S m → ∀ k, (G.expr m).scope? = some k → K k
  regex : ∀ m, S m → ∀ n f, G.expr m = .re n f → Cuts f
  calls : ∀ m, S m → ∀ x, G.expr m = .call x → C x

/-- The scopes of the heap, and the stacks of the contexts. -/
abbrev Vars := List Scope × List (List ScopeId)

/-- The names in the heap that stand for matchers. -/
def heapNames : Names Vars MatcherId where
  get v k x :=
    match State.lookup ⟨[], v.1, v.2⟩ k x with
    | some (.matcher m) => some m
    | _ => none
  set v k x m :=
    let s := State.bindVar ⟨[], v.1, v.2⟩ k x (.matcher m)
    (s.scopes, s.sctxs)

/-- The variables of a heap. -/
def vars (s : State) : Vars := (s.scopes, s.sctxs)

/-- All matchers that the names `C` stand for in the scopes `K` are in `S`. -/
def Knows (S : MatcherId → Prop) (K : SCtxId → Prop) (C : Str → Prop) (s : State) : Prop :=
  ∀ k, K k → ∀ x, C x → ∀ m, s.lookup k x = some (.matcher m) → S m

/-- A user of the engine's result and heap sees what the interpreter says. -/
def Sees (toks : List Token) : R → Result → Prop
  | .err .fail, .fail => True
  | .err (.error e), .error e' => e = e'
  | .ok (.skip k), .skip n => k = n
  | .ok (.token t), .token tree => itemOf toks (toks.length + 1) t = some tree
  | .ok (.proxyChildren t), .splice tree => itemOf toks (toks.length + 1) t = some tree
  | _, _ => False

/-- What a user of `tokenize` sees: a token, or a failure. -/
def SeesRoot (toks : List Token) : Except Failure TokId → Result → Prop
  | .ok t, .token tree => itemOf toks (toks.length + 1) t = some tree
  | .ok t, .splice tree => itemOf toks (toks.length + 1) t = some tree
  | .error .fail, .fail => True
  | .error .fail, .skip _ => True
  | .error (.error e), .error e' => e = e'
  | _, _ => False

end Adx.Interp
