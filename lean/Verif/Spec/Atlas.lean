import Verif.Spec.Thrift
import Verif.Spec.Linked
/-
  Scripts with imports that come to an end, whatever their definitions: a plan for each scope.
-/
namespace Adx.Interp

/-- A guess about scopes: a plan, a bound for the depth of terms, and a number above the ranks
of everything in the scopes that are imported from. -/
structure Atlas where
  plan : Nat → Plan
  size : Nat → Nat
  base : Nat → Nat

/-- A further demand on terms, on terms that names stand for, and on lists of patterns. -/
structure Demand where
  term : Plan → Gram → Bool
  own : Plan → Str → Gram → Bool
  few : List Gram → Bool

namespace Demand

/-- No demand. -/
def none : Demand := ⟨fun _ _ => true, fun _ _ _ => true, fun _ => true⟩

/-- Not more than `K` parts, and what is repeated does not match without consuming. -/
def spare (K : Nat) : Demand := ⟨fun P g => P.spare K g, fun _ _ _ => true, fun gs => decide (gs.length ≤ K)⟩

/-- Moreover, what a name stands for has only names of lower levels. -/
def tiers (K : Nat) : Demand :=
  ⟨fun P g => P.spare K g && (named g).all fun b => decide (P.depth b.2 ≤ P.level b.1), fun P x g => decide (P.depth g ≤ P.level x),
    fun gs => decide (gs.length ≤ K)⟩

end Demand

namespace Atlas

variable (A : Atlas)

/-- Above the ranks of all terms in the scope `k`. -/
def cap (k : Nat) : Nat := A.base k + ((A.plan k).top + 1) * (A.size k + 1) + A.size k

/-- The guess is right for patterns in the scope `k`; it meets the demand `W`. -/
def okTerms (W : Demand) (k : Nat) (gs : List Gram) : Bool :=
  (A.plan k).obeysAll gs && decide (sizes gs ≤ A.size k) && gs.all (W.term (A.plan k)) && W.few gs

mutual

/-- The guess is right for what the name `x` stands for in the scope `k`. -/
def okThing (W : Demand) (k : Nat) (x : Str) : Thing → Bool
  | .own g => (A.plan k).fits x g && (A.plan k).obeys g && decide (Interp.size g ≤ A.size k) &&
      W.term (A.plan k) g && W.own (A.plan k) x g
  | .file t _ gs bs => decide (A.cap (branch k t) + 5 ≤ A.base k) && A.okTerms W (branch k t) gs &&
      okDefs W (branch k t) bs
  | .member t bs ident _ => decide (A.cap (branch k t) + 3 ≤ A.base k) && (!(A.plan (branch k t)).skips ident || (A.plan k).skips x) &&
      okDefs W (branch k t) bs

@[inherit_doc okThing]
def okDef (W : Demand) (k : Nat) : Str × Thing → Bool
  | (x, th) => okThing W k x th

@[inherit_doc okThing]
def okDefs (W : Demand) (k : Nat) : List (Str × Thing) → Bool
  | [] => true
  | b :: bs => okDef W k b && okDefs W k bs

end

/-- The guess is right for a script with patterns `gs` and definitions `bs`, which meets a demand. -/
def meets (W : Demand) (gs : List Gram) (bs : List (Str × Thing)) : Bool := A.okTerms W 1 gs && A.okDefs W 1 bs

@[inherit_doc meets]
def ok (gs : List Gram) (bs : List (Str × Thing)) : Bool := A.meets .none gs bs

/-- It has no more than `K` parts anywhere, and its repetitions consume. -/
def frugal (K : Nat) (gs : List Gram) (bs : List (Str × Thing)) : Bool := decide (0 < K) && A.meets (.spare K) gs bs

/-- Its definitions also have only names of lower levels: it is not recursive. -/
def tiers (K : Nat) (gs : List Gram) (bs : List (Str × Thing)) : Bool := decide (0 < K) && A.meets (.tiers K) gs bs

/-- The depth of recursion for each byte. -/
def perByte : Nat := A.cap 1 + 5

/-! ### A guess -/

mutual

/-- What names may stand for, and in which scopes: what the name `x` stands for in the scope
`k`, which is `l` imports away from the script, and what is named in it. -/
def entries (k l : Nat) (x : Str) : Thing → List ((Nat × Nat) × Str × Thing)
  | .own g => ((k, l), x, .own g) :: (named g).map fun b => ((k, l), b.1, .own b.2)
  | .file t n gs bs => ((k, l), x, .file t n gs bs) :: ((namedAll gs).map fun b => ((branch k t, l + 1), b.1, .own b.2)) ++
      entriesAll (branch k t) (l + 1) bs
  | .member t bs ident name => ((k, l), x, .member t bs ident name) :: entriesAll (branch k t) (l + 1) bs

@[inherit_doc entries]
def entriesOf (k l : Nat) : Str × Thing → List ((Nat × Nat) × Str × Thing)
  | (x, th) => entries k l x th

@[inherit_doc entries]
def entriesAll (k l : Nat) : List (Str × Thing) → List ((Nat × Nat) × Str × Thing)
  | [] => []
  | b :: bs => entriesOf k l b ++ entriesAll k l bs

end

/-- The plan for a scope. -/
def planAt (blank : Regex → Bool) (ps : List (Nat × Plan)) (k : Nat) : Plan :=
  match ps.find? fun e => e.1 == k with
  | some e => ⟨e.2.names, blank⟩
  | none => ⟨[], blank⟩

/-- Better plans: the levels and the idleness of names follow from what they stand for. -/
def better (blank : Regex → Bool) (es : List ((Nat × Nat) × Str × Thing)) (ks : List Nat) (ps : List (Nat × Plan)) : List (Nat × Plan) :=
  ks.map fun k =>
    let here := (es.filter fun e => e.1.1 == k).map Prod.snd
    (k, ⟨here.map fun b =>
      let ths := (here.filter fun c => c.1 == b.1).map Prod.snd
      (b.1, (ths.foldr (fun th n => match th with
          | .own g => max (min here.length ((planAt blank ps k).height g)) n
          | _ => n) 0,
        ths.any fun
          | .own g => (planAt blank ps k).idle g
          | .member t _ ident _ => (planAt blank ps (branch k t)).skips ident
          | .file _ _ _ _ => false)), blank⟩)

/-- The plans after some rounds. -/
def plans (blank : Regex → Bool) (es : List ((Nat × Nat) × Str × Thing)) (ks : List Nat) : Nat → List (Nat × Plan)
  | 0 => []
  | n + 1 => better blank es ks (plans blank es ks n)

/-- How deep the terms of imported scripts are, and those that names stand for. -/
def depthOf : Thing → Nat
  | .own g => Interp.size g
  | .file _ _ gs _ => sizes gs
  | .member _ _ _ _ => 0

/-- A guess for a script with patterns `gs` and definitions `bs`. -/
def guess (blank : Regex → Bool) (gs : List Gram) (bs : List (Str × Thing)) : Atlas :=
  let es := ((namedAll gs).map fun b => ((1, 0), b.1, .own b.2)) ++ entriesAll 1 0 bs
  let ps := plans blank es (es.map fun e => e.1.1).eraseDups (2 * es.length + 2)
  let D := (es.map fun e => depthOf e.2.2).foldr max (sizes gs)
  let T := (ps.map fun e => e.2.top).foldr max 0
  let H := (es.map fun e => e.1.2).foldr max 0
  let C := (T + 1) * (D + 1) + D + 5
  { plan := planAt blank ps
    size := fun _ => D
    base := fun k => C * (H + 1 - match es.find? fun e => e.1.1 == k with | some e => e.1.2 | none => H + 1) }

/-- Is the guess right? -/
def found (blank : Regex → Bool) (gs : List Gram) (bs : List (Str × Thing)) : Bool := (guess blank gs bs).ok gs bs

end Atlas

/-- All terms in a thing make sense, also those that are not in use. -/
inductive Deep (d : Quotes) : Thing → Prop
  | own {g} (h : Sane d g) : Deep d (.own g)
  | file {t n gs bs} (hg : ∀ g ∈ gs, Sane d g) (hb : ∀ b ∈ bs, Deep d b.2) : Deep d (.file t n gs bs)
  | member {t bs ident name} (hb : ∀ b ∈ bs, Deep d b.2) : Deep d (.member t bs ident name)

end Adx.Interp
