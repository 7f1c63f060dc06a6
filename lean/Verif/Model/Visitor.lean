import Verif.Model.Core
/-
  `TokenVisitor` (`src/token_visitor.rs`) and the child searches of `Token`
  (`src/token.rs:156-193`).
-/
namespace Adx

/-- A hook: `FnMut(TokenRef) -> Result<(), ParseError>` (`src/token_visitor.rs:8`).
While it runs, the token and those above it are borrowed (line 43), so it cannot change
those (`Model/BorrowVisit`, C57); it may change its own captured state `σ`.  Here the tokens
are taken to be the same throughout. -/
abbrev Hook (σ : Type) := TokId → σ → Except ParseError Unit × σ

/-- `find_hook` (`src/token_visitor.rs:25-36`): the first hook of that name. -/
def findHook {σ : Type} : List (Str × Hook σ) → Str → Option (Hook σ)
  | [], _ => none
  | (n, h) :: hs, k => if n = k then some h else findHook hs k

/-- Outcome of a visit. -/
inductive VRes (σ : Type)
  | ok (s : σ)
  | err (e : ParseError) (s : σ)
  /-- a dangling token reference (impossible in Rust) -/
  | dangling
  /-- a cyclic token graph: unbounded recursion -/
  | diverge

/-- `for child in ...` (`src/token_visitor.rs:58-69`). -/
def visitList {σ : Type} (visit1 : TokId → σ → VRes σ) : List TokId → σ → VRes σ
  | [], s => .ok s
  | c :: cs, s =>
    match visit1 c s with
    | .ok s => visitList visit1 cs s
    | r => r

/-- `_visit` (`src/token_visitor.rs:38-72`); the first argument bounds the depth. -/
def visitGo {σ : Type} (toks : List Token) (hooks : List (Str × Hook σ)) (dflt : Option (Hook σ)) :
    Nat → TokId → σ → VRes σ
  | 0, _, _ => .diverge
  | n + 1, t, s =>
    match toks[t]? with
    | none => .dangling
    | some tk =>
      let r : Except ParseError Unit × σ :=
        match findHook hooks tk.name with
        | some h => h t s
        | none =>
          match dflt with
          | some h => h t s
          | none => (.ok (), s)
      match r with
      | (.error e, s) => .err e s
      | (.ok _, s) => visitList (visitGo toks hooks dflt n) tk.children s

/-- `visit` (`src/token_visitor.rs:74-77`). -/
def visit {σ : Type} (toks : List Token) (hooks : List (Str × Hook σ)) (depth : Nat) (t : TokId)
    (s : σ) : VRes σ :=
  visitGo toks hooks (findHook hooks ['*']) depth t s

/-- `find_child` (`src/token.rs:156-170`), on the children of a token. -/
def findChild (toks : List Token) (needle : Str) : List TokId → Option TokId
  | [] => none
  | c :: cs =>
    match toks[c]? with
    | some k => if k.name = needle then some c else findChild toks needle cs
    | none => findChild toks needle cs

/-- `find_child_fuzzy` (`src/token.rs:172-186`); `isMatch` is `Regex::is_match`. -/
def findChildFuzzy (toks : List Token) (isMatch : Str → Bool) : List TokId → Option TokId
  | [] => none
  | c :: cs =>
    match toks[c]? with
    | some k => if isMatch k.name then some c else findChildFuzzy toks isMatch cs
    | none => findChildFuzzy toks isMatch cs

/-- `has_child` (`src/token.rs:188-193`). -/
def hasChild (toks : List Token) (needle : Str) (cs : List TokId) : Bool :=
  (findChild toks needle cs).isSome

end Adx
