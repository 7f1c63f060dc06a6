import Verif.Spec.Endless
import Verif.Spec.Linked
/-
  How many different things a script with imports can try at different places of a text, and
  what it means that it tries the same again, when its definitions change.
-/
namespace Adx.Interp

/-- The definitions of a script: those in its own scope, and those in each scope that it
imports. -/
def linkedThings (bs : List (Str × Thing)) : List (Nat × Thing) := (scopesOf bs).flatMap fun e => e.2.map fun b => (e.1, b.2)

/-- The terms of a thing in the scope `k`. -/
def thingTerms : Nat × Thing → List (Nat × Gram)
  | (k, .own g) => (terms g).map (k, ·)
  | (k, .file t _ gs _) => (termsAll gs).map (branch k t, ·)
  | (_, .member ..) => []

/-- The terms of a script, and in which scope they are tried. -/
def linkedTerms (gs : List Gram) (bs : List (Str × Thing)) : List (Nat × Gram) :=
  (termsAll gs).map (1, ·) ++ (linkedThings bs).flatMap thingTerms

/-- The layers around the patterns of an imported script, or around an imported definition. -/
def thingLayers : Nat × Thing → List (Joint × Nat)
  | (_, .own _) => []
  | (k, .file t _ gs _) => [(.inside gs (branch k t), k), (.flat gs, branch k t), (.all gs, branch k t)]
  | (k, .member t bs ident name) => [(.renamed (branch k t) bs ident name, branch k t)]

/-- What can be tried in a script, and in which scope. -/
def linkedParts (n : Str) (gs : List Gram) (bs : List (Str × Thing)) : List (Joint × Nat) :=
  (.whole n gs, 0) :: (.inside gs 1, 0) :: (.flat gs, 1) :: (.all gs, 1) ::
    ((linkedTerms gs bs).map (fun e => (.gram e.2, e.1)) ++ (linkedTerms gs bs).map (fun e => (.thing e.1 (.own e.2), e.1)) ++
      (linkedThings bs).map (fun e => (.thing e.1 e.2, e.1)) ++ (linkedThings bs).flatMap thingLayers)

/-- What names can stand for. -/
def linkedValues (gs : List Gram) (bs : List (Str × Thing)) : List Thing :=
  (linkedTerms gs bs).map (fun e => .own e.2) ++ (linkedThings bs).map Prod.snd

/-- The name of an imported script. -/
def thingName : Nat × Thing → Option (Nat × Str)
  | (k, .file _ n _ _) => some (k, n)
  | _ => none

/-- The names that are given in a script, and in which scope. -/
def linkedLabels (gs : List Gram) (bs : List (Str × Thing)) : List (Nat × Str) :=
  (scopesOf bs).flatMap (fun e => e.2.map fun b => (e.1, b.1)) ++
    ((linkedTerms gs bs).filterMap (fun e => (gramLabel e.2).map (e.1, ·)) ++ (linkedThings bs).filterMap thingName)

/-- A depth of recursion: the number of things that can be tried, times the number of
positions, times the number of ways in which names can stand for things. -/
def linkedDepth (n : Str) (gs : List Gram) (bs : List (Str × Thing)) (stop : Nat) : Nat :=
  (linkedParts n gs bs).length * (stop + 1) * ((linkedValues gs bs).length + 1) ^ (linkedLabels gs bs).length

/-- The same, at the same position, with names that stand for the same in all scopes. -/
structure SameLinked (t u : Try Joint Layout) : Prop where
  what : t.what = u.what
  scope : t.scope = u.scope
  pos : t.pos = u.pos
  names : ∀ k x, lastDef (t.names.defs k) x = lastDef (u.names.defs k) x

/-- While the script reads the text, something is tried, and for this the same is tried again
at the same position, with names that stand for the same. -/
def LinkedRecurs (p : Parser) (stop : Nat) (n : Str) (gs : List Gram) (σ : Layout) (pos : Nat) : Prop :=
  Recurs linkedGrammar linkedNames p stop SameLinked ⟨.whole n gs, 0, pos, σ⟩

/-- All definitions of a script make sense, also those that no name stands for any more. -/
def SaneScopes (d : Quotes) (bs : List (Str × Thing)) : Prop := ∀ e ∈ scopesOf bs, SaneDefs d e.2

end Adx.Interp
