import Verif.Spec.Execute
import Verif.Spec.Graft
import Mathlib.Data.Nat.Pairing
/-
  What scripts with imports do with a text when their definitions change: the reference
  interpreter on the terms of all scripts that take part.  The scopes have numbers: 0 is that
  of the user, 1 that of the script, and each import statement has one of its own.
-/
namespace Adx.Interp

/-- The scope of what is imported into the scope `k` by the statement after `t`
definitions. -/
def branch (k t : Nat) : Nat := Nat.pair k t + 2

/-- The nonterminals of scripts. -/
inductive Joint
  | gram (g : Gram)
  /-- What a name in the scope `k` stands for. -/
  | thing (k : Nat) (th : Thing)
  /-- The script itself. -/
  | whole (n : Str) (gs : List Gram)
  /-- All patterns, in the scope `k` of their script. -/
  | inside (gs : List Gram) (k : Nat)
  | flat (gs : List Gram)
  | all (gs : List Gram)
  /-- What `ident` stood for in the scope `k`, with the definitions `bs`, when it was
  imported; under another name. -/
  | renamed (k : Nat) (bs : List (Str × Thing)) (ident name : Str)

/-- Scripts as grammars. -/
def linkedGrammar : Grammar Joint where
  expr
    | .gram g => gramExpr .gram g
    | .thing _ (.own g) => gramExpr .gram g
    | .thing k (.file t n gs _) => .seq n [.inside gs (branch k t)]
    | .thing k (.member t bs ident name) => .within (branch k t) (.renamed (branch k t) bs ident name)
    | .whole n gs => .seq n [.inside gs 1]
    | .inside gs k => .within k (.flat gs)
    | .flat gs => .flat (.all gs)
    | .all gs => .seq "Program".toList (gs.map .gram)
    | .renamed k bs ident name =>
      match lastDef bs ident with
      | some th => .rename name (.thing k th)
      | none => .call ident
  label
    | .gram g => gramLabel g
    | .thing _ (.own g) => gramLabel g
    | .thing _ (.file _ n _ _) => some n
    | .whole n _ => some n
    | _ => none

/-- The definitions in the scopes. -/
abbrev Layout := List (Nat × List (Str × Thing))

/-- Those in one scope. -/
def Layout.defs (σ : Layout) (k : Nat) : List (Str × Thing) :=
  match σ.find? fun e => e.1 == k with
  | some e => e.2
  | none => []

/-- One more definition. -/
def Layout.add (σ : Layout) (k : Nat) (x : Str) (th : Thing) : Layout := (k, σ.defs k ++ [(x, th)]) :: σ

/-- The last definition of a name in a scope counts.  Nobody asks what the names of the user
stand for. -/
def linkedNames : Names Layout Joint where
  get σ k x := (lastDef (σ.defs k) x).map (.thing k)
  set σ k x m :=
    match m with
    | .gram g => σ.add k x (.own g)
    | .thing _ th => σ.add k x th
    | _ => σ

mutual

/-- The scopes that a thing in the scope `k` brings. -/
def scopesThing (k : Nat) : Thing → Layout
  | .own _ => []
  | .file t _ _ bs => (branch k t, bs) :: scopesDefs (branch k t) bs
  | .member t bs _ _ => (branch k t, bs) :: scopesDefs (branch k t) bs

@[inherit_doc scopesThing]
def scopesDef (k : Nat) : Str × Thing → Layout
  | (_, th) => scopesThing k th

@[inherit_doc scopesThing]
def scopesDefs (k : Nat) : List (Str × Thing) → Layout
  | [] => []
  | b :: bs => scopesDef k b ++ scopesDefs k bs

end

/-- The scopes of a script with the definitions `bs`. -/
def scopesOf (bs : List (Str × Thing)) : Layout := (1, bs) :: scopesDefs 1 bs

/-- What the script called `n` with patterns `gs` does at a position: the result, and the
definitions that it leaves in the scopes. -/
def runLinked (p : Parser) (stop : Nat) (n : Str) (gs : List Gram) (fuel pos : Nat) (σ : Layout) : Option (Result × Layout) :=
  eval linkedGrammar linkedNames p stop fuel (.whole n gs) 0 pos σ

/-- The definitions after texts were parsed, one after the other, from the start to the end. -/
inductive After (n : Str) (gs : List Gram) : List Parser → Layout → Layout → Prop
  | nil {σ} : After n gs [] σ σ
  | cons {p ps σ x σ'} {fuel : Nat} (h : runLinked p (blen p.src) n gs fuel 0 σ = some x) (hs : After n gs ps x.2 σ') :
      After n gs (p :: ps) σ σ'

/-- The heap after the engine parsed texts, one after the other, each with a context of its
own. -/
inductive Parses (T : Table) (cfg : Cfg) (m : MatcherId) : List Parser → State → State → Prop
  | nil {s} : Parses T cfg m [] s s
  | cons {p ps s s1 s'} {name : Str} {fuel : Nat} {r : Except Failure TokId}
      (h : tokenize T cfg fuel (Ctx.new p s.newSCtx.1 name) m s.newSCtx.2 = .ok r s1) (hs : Parses T cfg m ps s1 s') :
      Parses T cfg m (p :: ps) s s'

end Adx.Interp
