import Verif.Spec.Rank
/-
  What a parse costs: the number of tokens that are made, with those that are thrown away
  again, counted on the interpreter of parsing expression grammars.
-/
namespace Adx

namespace Peg

/-- A result with a token. -/
def made : Option Result → Nat
  | some (.token _) => 1
  | some (.splice _) => 1
  | _ => 0

/-- One after the other, until a part does not match; `wk` is what a part costs. -/
def partsWork (ev : MatcherId → Nat → Option Result) (wk : MatcherId → Nat → Nat) : List MatcherId → Run → Nat
  | [], _ => 0
  | m :: ms, r => wk m r.pos +
    match ev m r.pos with
    | none => 0
    | some .fail => 0
    | some x => partsWork ev wk ms (r.take x)

/-- One after the other, until a part matches. -/
def chooseWork (ev : MatcherId → Nat → Option Result) (wk : MatcherId → Nat → Nat) (pos : Nat) :
    List MatcherId → Nat
  | [] => 0
  | m :: ms => wk m pos +
    match ev m pos with
    | some .fail => chooseWork ev wk pos ms
    | some (.skip 0) => chooseWork ev wk pos ms
    | _ => 0

/-- Up to `k` rounds, until a part does not match. -/
def roundsWork (ev : MatcherId → Nat → Option Result) (wk : MatcherId → Nat → Nat) (ms : List MatcherId) :
    Nat → Run → Nat
  | 0, _ => 0
  | k + 1, r => partsWork ev wk ms r +
    match parts ev ms r with
    | some (true, r) => roundsWork ev wk ms k r
    | _ => 0

/-- The number of tokens made for matching `m` at a position: a leaf that matches makes
one, a group, a choice or a repetition makes one whether it matches or not, and so does
throwing a token away. -/
def work (G : MatcherId → Expr) (p : Parser) (stop : Nat) : Nat → MatcherId → Nat → Nat
  | 0, _, _ => 0
  | n + 1, m, pos =>
    match G m with
    | .lit _ _ => made (eval G p stop (n + 1) m pos)
    | .re _ _ => made (eval G p stop (n + 1) m pos)
    | .delim _ _ _ _ => made (eval G p stop (n + 1) m pos)
    | .seq _ ms => 1 + partsWork (eval G p stop n) (work G p stop n) ms (.start pos)
    | .choice ms => 1 + chooseWork (eval G p stop n) (work G p stop n) pos ms
    | .loop _ ms lo hi => 1 + roundsWork (eval G p stop n) (work G p stop n) ms (hi - lo) (.start pos)
    | .opt m => work G p stop n m pos
    | .neg m => work G p stop n m pos
    | .drop m => work G p stop n m pos + made (eval G p stop n m pos)
    | .flat m => work G p stop n m pos
    | .call m => work G p stop n m pos
    | .empty => 0

/-- No expression has more than `K` parts, and every repetition has a part that does not
match without consuming; `N` holds for the nonterminals that may match without consuming. -/
structure Modest (S : MatcherId → Prop) (G : MatcherId → Expr) (N : MatcherId → Prop) (K : Nat) : Prop where
  narrow : ∀ m, S m → (G m).uses.length ≤ K
  idle : ∀ m, S m → (G m).Idles N → N m
  moves : ∀ m, S m → ∀ name ms lo hi, G m = .loop name ms lo hi → ∃ x ∈ ms, ¬ N x

/-- The grammar is not recursive: what an expression is made of is of a lower level. -/
def Layered (S : MatcherId → Prop) (G : MatcherId → Expr) (level : MatcherId → Nat) : Prop :=
  ∀ m, S m → ∀ x ∈ (G m).uses, level x < level m

end Peg

end Adx
