import Verif.Spec.Peg
/-
  Grammars without left recursion.
-/
namespace Adx.Peg

/-- The nonterminals of a sequence that can be reached before anything is consumed; `N`
holds for the nonterminals that may match without consuming. -/
def Lead (N : MatcherId → Prop) : List MatcherId → MatcherId → Prop
  | [], _ => False
  | m :: ms, x => x = m ∨ (N m ∧ Lead N ms x)

/-- The nonterminals that an expression reaches before anything is consumed. -/
def Expr.First (N : MatcherId → Prop) : Expr → MatcherId → Prop
  | .seq _ ms, x => Lead N ms x
  | .loop _ ms _ _, x => Lead N ms x
  | .choice ms, x => x ∈ ms
  | .opt m, x => x = m
  | .neg m, x => x = m
  | .drop m, x => x = m
  | .flat m, x => x = m
  | .call m, x => x = m
  | _, _ => False

/-- May an expression match without consuming anything? -/
def Expr.Idles (N : MatcherId → Prop) : Expr → Prop
  | .re _ find => ∃ w, find w = some (0, 0)
  | .loop _ _ lo hi => lo = 0 ∧ hi = 0
  | .opt _ => True
  | .neg _ => True
  | .empty => True
  | .drop m => N m
  | .flat m => N m
  | .call m => N m
  | _ => False

/-- The grammar is not left recursive: what is reached without consuming has a smaller
rank; ranks are at most `R`. -/
structure Ranked (S : MatcherId → Prop) (G : MatcherId → Expr) (N : MatcherId → Prop)
    (rank : MatcherId → Nat) (R : Nat) : Prop where
  bound : ∀ m, S m → rank m ≤ R
  idle : ∀ m, S m → (G m).Idles N → N m
  less : ∀ m, S m → ∀ x, (G m).First N x → rank x < rank m

/-- The depth of recursion that suffices at a position. -/
def depthAt (stop R : Nat) (rank : MatcherId → Nat) (m : MatcherId) (pos : Nat) : Nat :=
  (stop - pos) * (R + 1) + rank m + 1

end Adx.Peg
