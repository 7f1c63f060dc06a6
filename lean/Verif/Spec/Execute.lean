import Verif.Spec.Interp
import Verif.Spec.Import
import Verif.Spec.Scopes
/-
  What scripts do with a text: the reference interpreter on the terms that scripts mean.
-/
namespace Adx.Interp

/-- The expression of a grammar term; `f` makes nonterminals of terms. -/
def gramExpr {N : Type} (f : Gram → N) : Gram → Expr N
  | .equals n _ s => .lit n s
  | .regex n _ re => .re n re.find
  | .sequence n _ a b e => .delim n a b e
  | .ref _ _ x => .call x
  | .null => .empty
  | .group n _ false gs => .seq n (gs.map f)
  | .group _ _ true gs => .choice (gs.map f)
  | .loop lo hi g => .loop "Loop".toList [f g] lo hi
  | .opt g => .opt (f g)
  | .not g => .neg (f g)
  | .discard g => .drop (f g)
  | .attrs m g => .give m (f g)

/-- The name that was given to a term. -/
def gramLabel : Gram → Option Str
  | .equals n c _ => if c then some n else none
  | .regex n c _ => if c then some n else none
  | .sequence n c _ _ _ => if c then some n else none
  | .ref n c _ => if c then some n else none
  | .group n c _ _ => if c then some n else none
  | _ => none

/-! ### One script, with definitions that change -/

/-- The nonterminals of a script: its terms, and the layers around its patterns. -/
inductive Part
  | gram (g : Gram)
  /-- The whole script. -/
  | whole (n : Str) (gs : List Gram)
  /-- All patterns, in the scope of the script. -/
  | inside (gs : List Gram)
  | flat (gs : List Gram)
  | all (gs : List Gram)

/-- Scripts as grammars.  Scope 1 is that of the script, scope 0 that of its user. -/
def scriptGrammar : Grammar Part where
  expr
    | .gram g => gramExpr .gram g
    | .whole n gs => .seq n [.inside gs]
    | .inside gs => .within 1 (.flat gs)
    | .flat gs => .flat (.all gs)
    | .all gs => .seq "Program".toList (gs.map .gram)
  label
    | .gram g => gramLabel g
    | .whole n _ => some n
    | _ => none

/-- The definitions of a script.  The last one counts. -/
def scriptNames : Names (List (Str × Gram)) Part where
  get bs k x := if k = 1 then (lastDef bs x).map .gram else none
  set bs k x m :=
    match m with
    | .gram g => if k = 1 then bs ++ [(x, g)] else bs
    | _ => bs

/-- What the script called `n` with patterns `gs` and definitions `bs` does at a position:
the result, and the definitions that it leaves. -/
def runScript (p : Parser) (stop : Nat) (n : Str) (gs : List Gram) (fuel pos : Nat) (bs : List (Str × Gram)) :
    Option (Result × List (Str × Gram)) :=
  eval scriptGrammar scriptNames p stop fuel (.whole n gs) 0 pos bs

/-! ### Scripts with imports, with definitions that do not change -/

/-- The nonterminals of scripts, each with the definitions of the script that it is in. -/
inductive Place
  | gram (bs : List (Str × Thing)) (g : Gram)
  | thing (bs : List (Str × Thing)) (th : Thing)
  | whole (n : Str) (gs : List Gram) (bs : List (Str × Thing))
  | inside (gs : List Gram) (bs : List (Str × Thing))
  | flat (gs : List Gram) (bs : List (Str × Thing))
  | all (gs : List Gram) (bs : List (Str × Thing))
  /-- The definition of `ident` among `bs`, under another name. -/
  | renamed (bs : List (Str × Thing)) (ident name : Str)

/-- The expression of a term among definitions. -/
def placeExpr (bs : List (Str × Thing)) : Gram → Expr Place
  | .ref _ _ x =>
    match lastDef bs x with
    | some th => .jump (.thing bs th)
    | none => .call x
  | g => gramExpr (.gram bs) g

/-- Scripts as grammars without labels. -/
def fixedGrammar : Grammar Place where
  expr
    | .gram bs g => placeExpr bs g
    | .thing bs (.own g) => placeExpr bs g
    | .thing _ (.file _ n gs bs) => .seq n [.inside gs bs]
    | .thing _ (.member _ bs ident name) => .within 0 (.renamed bs ident name)
    | .whole n gs bs => .seq n [.inside gs bs]
    | .inside gs bs => .within 0 (.flat gs bs)
    | .flat gs bs => .flat (.all gs bs)
    | .all gs bs => .seq "Program".toList (gs.map (.gram bs))
    | .renamed bs ident name =>
      match lastDef bs ident with
      | some th => .rename name (.thing bs th)
      | none => .call ident
  label _ := none

/-- No names. -/
def noNames : Names Unit Place := ⟨fun _ _ _ => none, fun _ _ _ _ => ()⟩

/-- What the script called `n` with patterns `gs` and definitions `bs` does at a
position. -/
def runFixed (p : Parser) (stop : Nat) (n : Str) (gs : List Gram) (bs : List (Str × Thing)) (fuel pos : Nat) :
    Option Result :=
  (eval fixedGrammar noNames p stop fuel (.whole n gs bs) 0 pos ()).map Prod.fst

mutual

/-- Neither the name of the term nor the names of its parts are in `R`, the names it refers
to are. -/
inductive Quiet (R : Str → Prop) : Gram → Prop
  | mk {g} (hl : ∀ l, gramLabel g = some l → ¬ R l) (hi : QuietParts R g) : Quiet R g

/-- The same, without the name of the term itself. -/
inductive QuietParts (R : Str → Prop) : Gram → Prop
  | equals {n c s} : QuietParts R (.equals n c s)
  | regex {n c re} : QuietParts R (.regex n c re)
  | sequence {n c a b e} : QuietParts R (.sequence n c a b e)
  | ref {n c x} (hx : R x) : QuietParts R (.ref n c x)
  | null : QuietParts R .null
  | group {n c f gs} (h : QuietAll R gs) : QuietParts R (.group n c f gs)
  | loop {lo hi g} (h : Quiet R g) : QuietParts R (.loop lo hi g)
  | opt {g} (h : Quiet R g) : QuietParts R (.opt g)
  | not {g} (h : Quiet R g) : QuietParts R (.not g)
  | discard {g} (h : Quiet R g) : QuietParts R (.discard g)
  | attrs {m g} (h : Quiet R g) : QuietParts R (.attrs m g)

/-- The same for lists. -/
inductive QuietAll (R : Str → Prop) : List Gram → Prop
  | nil : QuietAll R []
  | cons {g gs} (h : Quiet R g) (hs : QuietAll R gs) : QuietAll R (g :: gs)

end

mutual

/-- Using the thing, which is called `x`, does not change what names in `R` stand for. -/
inductive Tame (R : Str → Prop) : Str → Thing → Prop
  | own {x g} (hl : ∀ l, gramLabel g = some l → R l → l = x) (h : QuietParts R g) : Tame R x (.own g)
  | file {x t n gs bs} (hn : R n → n = x) (hg : QuietAll R gs) (hb : TameDefs R bs) : Tame R x (.file t n gs bs)
  | member {x t bs ident name} (hb : TameDefs R bs) : Tame R x (.member t bs ident name)

/-- The same for what names stand for. -/
inductive TameDefs (R : Str → Prop) : List (Str × Thing) → Prop
  | mk {bs} (h : ∀ x th, lastDef bs x = some th → Tame R x th) : TameDefs R bs

end

/-! ### What makes sense -/

/-- Regular expressions that find pieces of the text, and delimiters that are not empty.
`d` says which delimiters there may be. -/
inductive Sane (d : Quotes) : Gram → Prop
  | equals {n c s} : Sane d (.equals n c s)
  | regex {n c re} (h : Peg.Cuts re.find) : Sane d (.regex n c re)
  | sequence {n c a b e} (hd : d a b e) (ha : a ≠ []) (hb : b ≠ []) : Sane d (.sequence n c a b e)
  | ref {n c x} : Sane d (.ref n c x)
  | null : Sane d .null
  | group {n c f gs} (h : ∀ g ∈ gs, Sane d g) : Sane d (.group n c f gs)
  | loop {lo hi g} (h : Sane d g) : Sane d (.loop lo hi g)
  | opt {g} (h : Sane d g) : Sane d (.opt g)
  | not {g} (h : Sane d g) : Sane d (.not g)
  | discard {g} (h : Sane d g) : Sane d (.discard g)
  | attrs {m g} (h : Sane d g) : Sane d (.attrs m g)

mutual

/-- The same for everything a name can stand for. -/
inductive SaneThing (d : Quotes) : Thing → Prop
  | own {g} (h : Sane d g) : SaneThing d (.own g)
  | file {t n gs bs} (hg : ∀ g ∈ gs, Sane d g) (hb : SaneDefs d bs) : SaneThing d (.file t n gs bs)
  | member {t bs ident name} (hb : SaneDefs d bs) : SaneThing d (.member t bs ident name)

/-- The same for definitions. -/
inductive SaneDefs (d : Quotes) : List (Str × Thing) → Prop
  | mk {bs} (h : ∀ x th, lastDef bs x = some th → SaneThing d th) : SaneDefs d bs

end

/-- In the scopes of the world `w` the names in `R` still stand for the same. -/
structure Steady (R : Str → Prop) (w : World) (s : State) : Prop where
  ok : ScopesOK s
  alive : w.st.sctxs.length ≤ s.sctxs.length
  look : ∀ k, k < w.st.sctxs.length → ∀ x, R x → s.lookup k x = w.st.lookup k x

/-- Parses of texts with the same matcher, one after the other, each with a context of its
own. -/
inductive Used (T : Table) (cfg : Cfg) (m : MatcherId) (ok : Str → Prop) : State → State → Prop
  | refl {s : State} : Used T cfg m ok s s
  | parse {s s1 s' : State} {p : Parser} {name : Str} {fuel : Nat} {r : Except Failure TokId} (h : Used T cfg m ok s s1) (hb : blen p.src ≤ isizeMax) (hp : ok p.src)
      (ht : tokenize T cfg fuel (Ctx.new p s1.newSCtx.1 name) m s1.newSCtx.2 = .ok r s') : Used T cfg m ok s s'

/-- The regular expressions of the environment find pieces of the text. -/
def CutsAll (env : Env) : Prop := ∀ text re, env.regex text = some re → Peg.Cuts re.find

end Adx.Interp
