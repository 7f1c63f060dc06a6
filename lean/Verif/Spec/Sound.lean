import Verif.Spec.Atlas
/-
  What is asked of the plans for the scopes of a script alone.
-/
namespace Adx.Interp

mutual

/-- The plans are right for what the name `x` stands for in the scope `k`: a condition for each
scope alone, but that names for members may match without consuming if the members may. -/
def soundThing (plan : Nat → Plan) (W : Demand) (k : Nat) (x : Str) : Thing → Bool
  | .own g => (plan k).fits x g && (plan k).obeys g && W.term (plan k) g && W.own (plan k) x g
  | .file t _ gs bs => (plan (branch k t)).obeysAll gs && gs.all (W.term (plan (branch k t))) && W.few gs && soundDefs plan W (branch k t) bs
  | .member t bs ident _ => (!(plan (branch k t)).skips ident || (plan k).skips x) && soundDefs plan W (branch k t) bs

@[inherit_doc soundThing]
def soundDef (plan : Nat → Plan) (W : Demand) (k : Nat) : Str × Thing → Bool
  | (x, th) => soundThing plan W k x th

@[inherit_doc soundThing]
def soundDefs (plan : Nat → Plan) (W : Demand) (k : Nat) : List (Str × Thing) → Bool
  | [] => true
  | b :: bs => soundDef plan W k b && soundDefs plan W k bs

end

/-- The plans are right for a script with patterns `gs` and definitions `bs`. -/
def sound (plan : Nat → Plan) (W : Demand) (gs : List Gram) (bs : List (Str × Thing)) : Bool :=
  (plan 1).obeysAll gs && gs.all (W.term (plan 1)) && W.few gs && soundDefs plan W 1 bs

end Adx.Interp
