import Verif.Model.Core
/-
  Which tokens are freed.

  A `TokenRef` is an `Rc` (`src/token.rs:16`), and tokens refer to each other with their fields
  `parent` and `children` (`src/token.rs:209-210`, `src/matchers/pin.rs:75-76`); there are no `Weak`
  references.  A token is dropped when its last reference is, and with it the references that
  it has itself (std).  The other models never free a token.  This is no restriction: a token
  without references cannot be reached any more, so what it says in the heap is what it
  said when it was dropped.
-/
namespace Adx

/-- The references that a token has: `set_parent` (`src/matchers/program.rs:696`) and the children. -/
def Token.refs (k : Token) : List TokId := k.parent.toList ++ k.children

/-- What is not in the tokens: the references that are held elsewhere (variables of the program
that called the parser, variables of scopes), and the tokens that have been freed. -/
structure Mem where
  held : List TokId
  freed : List TokId

/-- `Rc::strong_count` of a token (std). -/
def strongCount (toks : List Token) (m : Mem) (i : TokId) : Nat :=
  m.held.count i +
    ((List.range toks.length).map fun j =>
      if j ∈ m.freed then 0
      else match toks[j]? with
        | some k => k.refs.count i
        | none => 0).sum

/-- What can happen after a parse, as long as nobody changes a token. -/
inductive MemStep (toks : List Token) : Mem → Mem → Prop
  /-- `clone` of a reference to a token that is there. -/
  | take {m : Mem} {i : TokId} (h : i ∉ m.freed) : MemStep toks m { m with held := i :: m.held }
  /-- `drop` of a reference. -/
  | letGo {m : Mem} {i : TokId} (h : i ∈ m.held) : MemStep toks m { m with held := m.held.erase i }
  /-- The last reference is gone. -/
  | free {m : Mem} {i : TokId} (hi : i < toks.length) (h : i ∉ m.freed) (h0 : strongCount toks m i = 0) :
      MemStep toks m { m with freed := i :: m.freed }

end Adx
