import Verif.Spec.Levels
/-
  Scripts whose cost is bounded.
-/
namespace Adx.Interp

variable {N σ : Type}

/-- No expression has more than `K` parts, and every repetition has a part that does not
match without consuming; `Z` holds for the nonterminals that may match without consuming. -/
structure Modest (G : Grammar N) (nm : Names σ N) (S : N → Nat → Prop) (I : σ → Prop) (Z : N → Nat → Prop) (K : Nat) :
    Prop where
  narrow : ∀ m k, S m k → (G.expr m).uses.length ≤ K
  idle : ∀ m k, S m k → (G.expr m).Idles nm I Z k → Z m k
  moves : ∀ m k, S m k → ∀ name ms lo hi, G.expr m = .loop name ms lo hi → ∃ x ∈ ms, ¬ Z x k

/-! ### Scripts -/

namespace Plan

variable (P : Plan)

mutual

/-- Groups have at most `K` parts, and what is repeated does not match without consuming. -/
def spare (K : Nat) : Gram → Bool
  | .group _ _ _ gs => decide (gs.length ≤ K) && spareAll K gs
  | .loop _ _ g => !P.idle g && spare K g
  | .opt g => spare K g
  | .not g => spare K g
  | .discard g => spare K g
  | .attrs _ g => spare K g
  | _ => true

@[inherit_doc spare]
def spareAll (K : Nat) : List Gram → Bool
  | [] => true
  | g :: gs => spare K g && spareAll K gs

end

mutual

/-- Above the levels of all names in the term; `0` if there are none. -/
def depth : Gram → Nat
  | .ref _ _ x => P.level x + 1
  | .group _ _ _ gs => depths gs
  | .loop _ _ g => depth g
  | .opt g => depth g
  | .not g => depth g
  | .discard g => depth g
  | .attrs _ g => depth g
  | _ => 0

@[inherit_doc depth]
def depths : List Gram → Nat
  | [] => 0
  | g :: gs => max (depth g) (depths gs)

end

/-- A script with patterns `gs` and definitions `bs` has no more than `K` parts anywhere, and
its repetitions consume. -/
def frugal (K : Nat) (gs : List Gram) (bs : List (Str × Gram)) : Bool :=
  decide (0 < K) && decide (gs.length ≤ K) && P.spareAll K gs && P.spareAll K (bs.map Prod.snd)

/-- What a name may stand for has only names of lower levels: the script is not recursive. -/
def tiers (gs : List Gram) (bs : List (Str × Gram)) : Bool :=
  (bs ++ namedAll gs ++ namedAll (bs.map Prod.snd)).all fun b => decide (P.depth b.2 ≤ P.level b.1)

end Plan

/-! ### Scripts with imports -/

mutual

/-- `own` holds for the terms that names stand for, and `pats` for the patterns of imported
scripts; both are told the plan of the definitions around. -/
def thingAll (pl : List (Str × Thing) → Plan) (own : Plan → Str → Gram → Bool) (pats : Plan → List Gram → Bool) (P : Plan)
    (x : Str) : Thing → Bool
  | .own g => own P x g
  | .file _ _ gs bs => pats (pl bs) gs && defsAll pl own pats (pl bs) bs
  | .member _ bs _ _ => defsAll pl own pats (pl bs) bs

@[inherit_doc thingAll]
def defAll (pl : List (Str × Thing) → Plan) (own : Plan → Str → Gram → Bool) (pats : Plan → List Gram → Bool) (P : Plan) :
    Str × Thing → Bool
  | (x, th) => thingAll pl own pats P x th

@[inherit_doc thingAll]
def defsAll (pl : List (Str × Thing) → Plan) (own : Plan → Str → Gram → Bool) (pats : Plan → List Gram → Bool) (P : Plan) :
    List (Str × Thing) → Bool
  | [] => true
  | b :: bs => defAll pl own pats P b && defsAll pl own pats P bs

end

/-- There are no more than `K` patterns, and they are spare. -/
def Plan.few (K : Nat) (P : Plan) (gs : List Gram) : Bool := decide (gs.length ≤ K) && P.spareAll K gs

/-- A script with patterns `gs` and definitions `bs` has no more than `K` parts anywhere, and
its repetitions consume; the same for what it imports. -/
def frugalAll (pl : List (Str × Thing) → Plan) (K : Nat) (gs : List Gram) (bs : List (Str × Thing)) : Bool :=
  decide (0 < K) && (pl bs).few K gs && defsAll pl (fun P _ g => P.spare K g) (Plan.few K) (pl bs) bs

/-- The definitions of the script are not recursive, and the same for what it imports. -/
def tiersAll (pl : List (Str × Thing) → Plan) (bs : List (Str × Thing)) : Bool :=
  defsAll pl (fun P x g => decide (P.depth g ≤ P.level x)) (fun _ _ => true) (pl bs) bs

end Adx.Interp
