import Verif.Spec.Execute
import Mathlib.Data.List.ProdSigma
/-
  What is tried while something is tried: the calls of the reference interpreter.  How many
  different things a script can try at different places of a text.
-/
namespace Adx.Interp

variable {N σ : Type}

/-- A nonterminal that is tried in a scope, at a position, when names stand for what they
stand for in a store. -/
structure Try (N σ : Type) where
  what : N
  scope : Nat
  pos : Nat
  names : σ

/-- The results of nonterminals, as a relation. -/
abbrev Gives (N σ : Type) := N → Nat → Nat → σ → Result → σ → Prop

section
variable (E : Gives N σ) (k : Nat)

/-- All parts match, one after the other. -/
inductive Through : List N → Run → σ → Run → σ → Prop
  | nil {r st} : Through [] r st r st
  | cons {m ms r st y st1 r' st'} (h : E m k r.pos st y st1) (hf : y ≠ .fail) (he : ∀ e, y ≠ .error e)
      (hs : Through ms (r.take y) st1 r' st') : Through (m :: ms) r st r' st'

/-- One of the parts is tried: those before it have matched. -/
inductive InParts : List N → Run → σ → Try N σ → Prop
  | here {m ms r st} : InParts (m :: ms) r st ⟨m, k, r.pos, st⟩
  | later {m ms r st y st1 t} (h : E m k r.pos st y st1) (hf : y ≠ .fail) (he : ∀ e, y ≠ .error e)
      (ht : InParts ms (r.take y) st1 t) : InParts (m :: ms) r st t

/-- One of the alternatives is tried: those before it have not matched, or have consumed
nothing. -/
inductive InChoice (pos : Nat) : List N → σ → Try N σ → Prop
  | here {m ms st} : InChoice pos (m :: ms) st ⟨m, k, pos, st⟩
  | later {m ms st y st1 t} (h : E m k pos st y st1) (hy : y = .fail ∨ y = .skip 0) (ht : InChoice pos ms st1 t) :
      InChoice pos (m :: ms) st t

/-- A part is tried in one of up to `j` rounds. -/
inductive InRounds (ms : List N) : Nat → Run → σ → Try N σ → Prop
  | now {j r st t} (h : InParts E k ms r st t) : InRounds ms (j + 1) r st t
  | next {j r st r' st' t} (h : Through E k ms r st r' st') (ht : InRounds ms j r' st' t) : InRounds ms (j + 1) r st t

end

/-- What is tried for an expression. -/
def Expr.Tries (E : Gives N σ) (nm : Names σ N) (k pos : Nat) (st : σ) : Expr N → Try N σ → Prop
  | .lit .., _ => False
  | .re .., _ => False
  | .delim .., _ => False
  | .seq _ ms, t => InParts E k ms (.start pos) st t
  | .choice ms, t => InChoice E k pos ms st t
  | .loop _ ms lo hi, t => InRounds E k ms (hi - lo) (.start pos) st t
  | .opt m, t => t = ⟨m, k, pos, st⟩
  | .neg m, t => t = ⟨m, k, pos, st⟩
  | .drop m, t => t = ⟨m, k, pos, st⟩
  | .flat m, t => t = ⟨m, k, pos, st⟩
  | .call x, t => ∃ m, nm.get st k x = some m ∧ t = ⟨m, k, pos, st⟩
  | .jump m, t => t = ⟨m, k, pos, st⟩
  | .within j m, t => t = ⟨m, j, pos, st⟩
  | .rename _ m, t => t = ⟨m, k, pos, st⟩
  | .give _ m, t => t = ⟨m, k, pos, st⟩
  | .empty, _ => False

section
variable (G : Grammar N) (nm : Names σ N) (p : Parser) (stop : Nat)

/-- With enough depth of recursion, there is this result. -/
def gives : Gives N σ := fun m k pos st y st' => ∃ n, eval G nm p stop n m k pos st = some (y, st')

/-- While `t` is tried, `u` is tried for the expression of `t`. -/
def Calls (t u : Try N σ) : Prop :=
  (G.expr t.what).Tries (gives G nm p stop) nm t.scope t.pos (enter G nm t.what t.scope t.names) u

/-- While `t` is tried, `u` is tried. -/
inductive During : Try N σ → Try N σ → Prop
  | one {t u} (h : Calls G nm p stop t u) : During t u
  | more {t u v} (h : Calls G nm p stop t u) (hs : During u v) : During t v

/-- There is no result, at any depth of recursion. -/
def Endless (t : Try N σ) : Prop := ∀ n, eval G nm p stop n t.what t.scope t.pos t.names = none

/-- While `t` is tried something is tried, for which the same is tried again, at the same
position, when names stand for the same: this is what `same` says. -/
def Recurs (same : Try N σ → Try N σ → Prop) (t : Try N σ) : Prop :=
  ∃ u v, (u = t ∨ During G nm p stop t u) ∧ During G nm p stop u v ∧ same u v

end

/-! ### Counting -/

mutual

/-- A term and the terms in it. -/
def terms : Gram → List Gram
  | .equals n c s => [.equals n c s]
  | .regex n c re => [.regex n c re]
  | .sequence n c a b e => [.sequence n c a b e]
  | .ref n c x => [.ref n c x]
  | .null => [.null]
  | .group n c first gs => .group n c first gs :: termsAll gs
  | .loop lo hi g => .loop lo hi g :: terms g
  | .opt g => .opt g :: terms g
  | .not g => .not g :: terms g
  | .discard g => .discard g :: terms g
  | .attrs m g => .attrs m g :: terms g

@[inherit_doc terms]
def termsAll : List Gram → List Gram
  | [] => []
  | g :: gs => terms g ++ termsAll gs

end

/-- The terms of a script. -/
def scriptTerms (gs : List Gram) (bs : List (Str × Gram)) : List Gram := termsAll gs ++ termsAll (bs.map Prod.snd)

/-- The names that are given in a script. -/
def scriptLabels (gs : List Gram) (bs : List (Str × Gram)) : List Str :=
  bs.map Prod.fst ++ (scriptTerms gs bs).filterMap gramLabel

/-- What can be tried in a script, and in which scope. -/
def scriptParts (n : Str) (gs : List Gram) (bs : List (Str × Gram)) : List (Part × Nat) :=
  (.whole n gs, 0) :: (.inside gs, 0) :: (.flat gs, 1) :: (.all gs, 1) :: (scriptTerms gs bs).map fun g => (.gram g, 1)

/-- All lists of `n` elements of `L`. -/
def choices {α : Type} (L : List α) : Nat → List (List α)
  | 0 => [[]]
  | n + 1 => (L ×ˢ choices L n).map fun x => x.1 :: x.2

/-- A depth of recursion: the number of terms, and four, times the number of positions,
times the number of ways in which names can stand for terms. -/
def scriptDepth (gs : List Gram) (bs : List (Str × Gram)) (stop : Nat) : Nat :=
  ((scriptTerms gs bs).length + 4) * (stop + 1) * ((scriptTerms gs bs).length + 1) ^ (scriptLabels gs bs).length

/-- Patterns, and the layers around them. -/
def filePlaces (gs : List Gram) (bs : List (Str × Thing)) : List Place :=
  .inside gs bs :: .flat gs bs :: .all gs bs :: (termsAll gs).map (.gram bs)

mutual

/-- What can be tried for a thing among the definitions `bs`. -/
def thingPlaces : List (Str × Thing) → Thing → List Place
  | bs, .own g => .thing bs (.own g) :: (terms g).map (.gram bs)
  | bs, .file t n gs bs' => .thing bs (.file t n gs bs') :: (filePlaces gs bs' ++ defsPlaces bs' bs')
  | bs, .member t bs' ident name => .thing bs (.member t bs' ident name) :: .renamed bs' ident name :: defsPlaces bs' bs'

@[inherit_doc thingPlaces]
def defPlaces : List (Str × Thing) → Str × Thing → List Place
  | bs, (_, th) => thingPlaces bs th

@[inherit_doc thingPlaces]
def defsPlaces : List (Str × Thing) → List (Str × Thing) → List Place
  | _, [] => []
  | all, b :: bs => defPlaces all b ++ defsPlaces all bs

end

/-- What can be tried in a script with imports. -/
def places (n : Str) (gs : List Gram) (bs : List (Str × Thing)) : List Place :=
  .whole n gs bs :: (filePlaces gs bs ++ defsPlaces bs bs)

/-- The number of things that can be tried, times the number of positions. -/
def fixedDepth (n : Str) (gs : List Gram) (bs : List (Str × Thing)) (stop : Nat) : Nat :=
  (places n gs bs).length * (stop + 1)

/-! ### Trying the same again -/

/-- The same term, at the same position, with names that stand for the same. -/
structure SameTry (t u : Try Part (List (Str × Gram))) : Prop where
  what : t.what = u.what
  scope : t.scope = u.scope
  pos : t.pos = u.pos
  names : ∀ x, lastDef t.names x = lastDef u.names x

/-- While the script reads the text, something is tried, and for this the same is tried again
at the same position, with names that stand for the same. -/
def ScriptRecurs (p : Parser) (stop : Nat) (n : Str) (gs : List Gram) (bs : List (Str × Gram)) (pos : Nat) : Prop :=
  Recurs scriptGrammar scriptNames p stop SameTry ⟨.whole n gs, 0, pos, bs⟩

/-- While the script with imports reads the text, something is tried, and for this the same
is tried again at the same position. -/
def FixedRecurs (p : Parser) (stop : Nat) (n : Str) (gs : List Gram) (bs : List (Str × Thing)) (pos : Nat) : Prop :=
  Recurs fixedGrammar noNames p stop (fun t u => t.what = u.what ∧ t.pos = u.pos) ⟨.whole n gs bs, 0, pos, ()⟩

end Adx.Interp
