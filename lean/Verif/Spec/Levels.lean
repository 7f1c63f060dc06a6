import Verif.Spec.Execute
/-
  Scripts without left recursion.
-/
namespace Adx.Interp

variable {N σ : Type}

/-! ### Grammars with names -/

/-- The nonterminals of a sequence that can be reached before anything is consumed; `Z`
holds for the nonterminals that may match without consuming. -/
def Lead (Z : N → Prop) : List N → N → Prop
  | [], _ => False
  | m :: ms, x => x = m ∨ (Z m ∧ Lead Z ms x)

/-- The nonterminals, and their scopes, that an expression in scope `k` reaches.  Names stand
for what they stand for in one of the stores `I`. -/
def Expr.Reaches (nm : Names σ N) (I : σ → Prop) (k : Nat) : Expr N → N → Nat → Prop
  | .call y, x, j => j = k ∧ ∃ st, I st ∧ nm.get st k y = some x
  | .within k' m, x, j => j = k' ∧ x = m
  | e, x, j => j = k ∧ x ∈ e.uses

/-- Those that it reaches before anything is consumed. -/
def Expr.First (nm : Names σ N) (I : σ → Prop) (Z : N → Nat → Prop) (k : Nat) : Expr N → N → Nat → Prop
  | .seq _ ms, x, j => j = k ∧ Lead (Z · k) ms x
  | .loop _ ms _ _, x, j => j = k ∧ Lead (Z · k) ms x
  | e, x, j => e.Reaches nm I k x j

/-- May an expression match without consuming anything? -/
def Expr.Idles (nm : Names σ N) (I : σ → Prop) (Z : N → Nat → Prop) (k : Nat) : Expr N → Prop
  | .re _ find => ∃ w, find w = some (0, 0)
  | .loop _ _ lo hi => lo = 0 ∧ hi = 0
  | .opt _ => True
  | .neg _ => True
  | .empty => True
  | .drop m => Z m k
  | .flat m => Z m k
  | .jump m => Z m k
  | .rename _ m => Z m k
  | .give _ m => Z m k
  | .within j m => Z m j
  | .call y => ∃ st m, I st ∧ nm.get st k y = some m ∧ Z m k
  | _ => False

/-- The nonterminals `S`, with their scopes, reach only each other, and names keep to the
stores `I`. -/
structure Closed (G : Grammar N) (nm : Names σ N) (S : N → Nat → Prop) (I : σ → Prop) : Prop where
  reaches : ∀ m k, S m k → ∀ x j, (G.expr m).Reaches nm I k x j → S x j
  enter : ∀ m k st, S m k → I st → I (Interp.enter G nm m k st)
  regex : ∀ m k, S m k → ∀ n f, G.expr m = .re n f → Peg.Cuts f
  delim : ∀ m k, S m k → ∀ n a b e, G.expr m = .delim n a b e → a ≠ [] ∧ b ≠ []

/-- The grammar is not left recursive: what is reached without consuming has a smaller
rank; ranks are at most `R`. -/
structure Ranked (G : Grammar N) (nm : Names σ N) (S : N → Nat → Prop) (I : σ → Prop) (Z : N → Nat → Prop)
    (rank : N → Nat → Nat) (R : Nat) : Prop where
  bound : ∀ m k, S m k → rank m k ≤ R
  idle : ∀ m k, S m k → (G.expr m).Idles nm I Z k → Z m k
  less : ∀ m k, S m k → ∀ x j, (G.expr m).First nm I Z k x j → rank x j < rank m k

/-! ### Scripts -/

/-- A guess about names: their levels, and whether what they stand for may match without
consuming; and a guess about which regular expressions may. -/
structure Plan where
  names : AMap (Nat × Bool)
  blank : Regex → Bool

namespace Plan

variable (P : Plan)

def level (x : Str) : Nat := ((P.names.get x).getD (0, false)).1

@[inherit_doc level] def skips (x : Str) : Bool := ((P.names.get x).getD (0, false)).2

/-- The highest level. -/
def top : Nat := P.names.foldr (fun b n => max b.2.1 n) 0

/-- May the term match without consuming? -/
def idle : Gram → Bool
  | .regex _ _ re => P.blank re
  | .ref _ _ x => P.skips x
  | .null => true
  | .loop lo hi _ => lo == 0 && hi == 0
  | .opt _ => true
  | .not _ => true
  | .discard g => idle g
  | .attrs _ g => idle g
  | _ => false

mutual

/-- Above the levels of all names that the term reaches before anything is consumed; `0`
if there are none. -/
def height : Gram → Nat
  | .ref _ _ x => P.level x + 1
  | .group _ _ first gs => heights first gs
  | .loop _ _ g => height g
  | .opt g => height g
  | .not g => height g
  | .discard g => height g
  | .attrs _ g => height g
  | _ => 0

/-- The same for the parts of a group, of which the later ones are only reached if the
earlier ones match without consuming, or if there is a choice. -/
def heights (first : Bool) : List Gram → Nat
  | [] => 0
  | g :: gs => max (height g) (if first || P.idle g then heights first gs else 0)

end

/-- The name `x` may stand for the term. -/
def fits (x : Str) (g : Gram) : Bool := decide (P.height g ≤ P.level x) && (!P.idle g || P.skips x)

mutual

/-- The names in the term may stand for what they are given to. -/
def obeys : Gram → Bool
  | .equals n c s => !c || P.fits n (.equals n c s)
  | .regex n c re => !c || P.fits n (.regex n c re)
  | .sequence n c a b e => !c || P.fits n (.sequence n c a b e)
  | .ref n c x => !c || P.fits n (.ref n c x)
  | .null => true
  | .group n c first gs => (!c || P.fits n (.group n c first gs)) && obeysAll gs
  | .loop _ _ g => obeys g
  | .opt g => obeys g
  | .not g => obeys g
  | .discard g => obeys g
  | .attrs _ g => obeys g

@[inherit_doc obeys]
def obeysAll : List Gram → Bool
  | [] => true
  | g :: gs => obeys g && obeysAll gs

end

/-- The guess is right for a script with patterns `gs` and definitions `bs`: what a name may
stand for has only names of lower levels where nothing has been consumed. -/
def ok (gs : List Gram) (bs : List (Str × Gram)) : Bool :=
  P.obeysAll gs && bs.all fun b => P.fits b.1 b.2 && P.obeys b.2

end Plan

/-! ### Guessing -/

mutual

/-- The terms in a term that have been given a name. -/
def named : Gram → List (Str × Gram)
  | .equals n c s => if c then [(n, .equals n c s)] else []
  | .regex n c re => if c then [(n, .regex n c re)] else []
  | .sequence n c a b e => if c then [(n, .sequence n c a b e)] else []
  | .ref n c x => if c then [(n, .ref n c x)] else []
  | .null => []
  | .group n c first gs => (if c then [(n, .group n c first gs)] else []) ++ namedAll gs
  | .loop _ _ g => named g
  | .opt g => named g
  | .not g => named g
  | .discard g => named g
  | .attrs _ g => named g

@[inherit_doc named]
def namedAll : List Gram → List (Str × Gram)
  | [] => []
  | g :: gs => named g ++ namedAll gs

end

/-- A better guess: the levels and the idleness of names follow from what they stand for.
Levels do not exceed `cap`. -/
def Plan.refine (cap : Nat) (all : List (Str × Gram)) (P : Plan) : Plan where
  names := all.map fun b =>
    let gs := (all.filter fun c => c.1 == b.1).map Prod.snd
    (b.1, (gs.foldr (fun g n => max (min cap (P.height g)) n) 0, gs.any P.idle))
  blank := P.blank

/-- The guess after some rounds. -/
def Plan.guess (blank : Regex → Bool) (cap : Nat) (all : List (Str × Gram)) : Nat → Plan
  | 0 => ⟨[], blank⟩
  | n + 1 => (Plan.guess blank cap all n).refine cap all

/-- Is the script not left recursive?  No attempt is made to tell which regular expressions
may match the empty text: `blank` says so. -/
def notLeftRecursive (blank : Regex → Bool) (gs : List Gram) (bs : List (Str × Gram)) : Bool :=
  let all := bs ++ namedAll gs ++ (bs.map fun b => named b.2).flatten
  (Plan.guess blank all.length all (2 * all.length + 2)).ok gs bs

/-- Regular expressions that may match the empty text at the start of a text are among
`blank`. -/
def Blank (blank : Regex → Bool) : Prop := ∀ re w, re.find w = some (0, 0) → blank re = true

/-- Trying the term begins with trying a name in `X`, whatever the text. -/
inductive Starts (X : Str → Prop) : Gram → Prop
  | ref {n c x} (hx : X x) : Starts X (.ref n c x)
  | group {n c first g gs} (h : Starts X g) : Starts X (.group n c first (g :: gs))
  | loop {lo hi g} (hl : lo < hi) (h : Starts X g) : Starts X (.loop lo hi g)
  | opt {g} (h : Starts X g) : Starts X (.opt g)
  | not {g} (h : Starts X g) : Starts X (.not g)
  | discard {g} (h : Starts X g) : Starts X (.discard g)
  | attrs {m g} (h : Starts X g) : Starts X (.attrs m g)

/-! ### What is needed of the depth of recursion -/

mutual

/-- The depth of a term. -/
def size : Gram → Nat
  | .group _ _ _ gs => sizes gs + 1
  | .loop _ _ g => size g + 1
  | .opt g => size g + 1
  | .not g => size g + 1
  | .discard g => size g + 1
  | .attrs _ g => size g + 1
  | _ => 0

@[inherit_doc size]
def sizes : List Gram → Nat
  | [] => 0
  | g :: gs => max (size g) (sizes gs)

end

/-- The depth of recursion that a script needs for each byte of a text. -/
def perByte (P : Plan) (gs : List Gram) (bs : List (Str × Gram)) : Nat :=
  (P.top + 2) * (max (sizes gs) (sizes (bs.map Prod.snd)) + 1) + 4

/-! ### Scripts with imports -/

mutual

/-- The plans `pl` of definitions are right for what the name `x` stands for, which is among
definitions with plan `P`. -/
def okThing (pl : List (Str × Thing) → Plan) (P : Plan) (x : Str) : Thing → Bool
  | .own g => P.fits x g
  | .file _ _ _ bs => okDefs pl (pl bs) bs
  | .member _ bs ident _ => (!(pl bs).skips ident || P.skips x) && okDefs pl (pl bs) bs

@[inherit_doc okThing]
def okDef (pl : List (Str × Thing) → Plan) (P : Plan) : Str × Thing → Bool
  | (x, th) => okThing pl P x th

@[inherit_doc okThing]
def okDefs (pl : List (Str × Thing) → Plan) (P : Plan) : List (Str × Thing) → Bool
  | [] => true
  | b :: bs => okDef pl P b && okDefs pl P bs

end

/-- How deep the terms are that are defined in `bs` itself. -/
def ownSizes : List (Str × Thing) → Nat
  | [] => 0
  | (_, .own g) :: bs => max (size g) (ownSizes bs)
  | _ :: bs => ownSizes bs

mutual

/-- The depth of recursion for each byte that is needed for what was imported. -/
def cost (pl : List (Str × Thing) → Plan) : Thing → Nat
  | .own _ => 0
  | .file _ _ gs bs => costs pl bs + ((pl bs).top + 1) * (ownSizes bs + 1) + max (ownSizes bs) (sizes gs) + 5
  | .member _ bs _ _ => costs pl bs + ((pl bs).top + 1) * (ownSizes bs + 1) + ownSizes bs + 3

@[inherit_doc cost]
def costOf (pl : List (Str × Thing) → Plan) : Str × Thing → Nat
  | (_, th) => cost pl th

@[inherit_doc cost]
def costs (pl : List (Str × Thing) → Plan) : List (Str × Thing) → Nat
  | [] => 0
  | b :: bs => max (costOf pl b) (costs pl bs)

end

mutual

/-- A term that may match without consuming if the thing may. -/
def summary (blank : Regex → Bool) : Thing → Gram
  | .own g => g
  | .file _ _ _ _ => .equals [] false []
  | .member _ bs ident _ =>
    let all := summaries blank bs
    if (Plan.guess blank all.length all (2 * all.length + 2)).skips ident then .null else .equals [] false []

@[inherit_doc summary]
def summaryOf (blank : Regex → Bool) : Str × Thing → Str × Gram
  | (x, th) => (x, summary blank th)

@[inherit_doc summary]
def summaries (blank : Regex → Bool) : List (Str × Thing) → List (Str × Gram)
  | [] => []
  | b :: bs => summaryOf blank b :: summaries blank bs

end

/-- A guess for definitions. -/
def planFor (blank : Regex → Bool) (bs : List (Str × Thing)) : Plan :=
  let all := summaries blank bs
  Plan.guess blank all.length all (2 * all.length + 2)

end Adx.Interp
