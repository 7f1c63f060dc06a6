import Verif.Spec.Grove
/-
  Which token a token calls its parent.
-/
namespace Adx

/-- The children of the tokens in `l` call them their parent.  Error tokens need not: they
are moved without being told. -/
def Kin (toks : List Token) (l : List TokId) : Prop :=
  ∀ u ∈ l, ∀ k, toks[u]? = some k → ∀ c ∈ k.children, ∀ j, toks[c]? = some j → j.flags &&& IS_ERROR = 0 →
    j.parent = some u

/-- The tokens `ts` have the parent `p`; again, but for error tokens.  This and what follows says
something about parents only if `q`. -/
def Under (q : Prop) (toks : List Token) (p : Option TokId) (ts : List TokId) : Prop :=
  q → ∀ t ∈ ts, ∀ j, toks[t]? = some j → j.flags &&& IS_ERROR = 0 → j.parent = p

/-- Proper trees whose tokens know their parents. -/
structure Nest (q : Prop) (toks : List Token) (n : Nat) (ts l : List TokId) : Prop where
  grove : Grove toks n ts l
  kin : q → Kin toks l

/-- Parents are older than their children. -/
def Older (toks : List Token) : Prop := ∀ (i : TokId) k p, toks[i]? = some k → k.parent = some p → p < i

/-- Tokens below `n` stay as they are, and parents stay older than their children. -/
structure Keeps (n : Nat) (s s' : State) : Prop where
  len : s.toks.length ≤ s'.toks.length
  same : ∀ i, i < n → s'.toks[i]? = s.toks[i]?
  older : Older s.toks → Older s'.toks

/-- Going from `s` to `s'` with result `r`: a token that is returned is the root of a proper
tree of new tokens that know their parents; it has no parent itself. -/
def Nests (q : Prop) (n : Nat) (s : State) (r : R) (s' : State) : Prop :=
  Keeps n s s' ∧ ∀ t, r.tok = some t → ∃ l, Nest q s'.toks n [t] l ∧ Under q s'.toks none [t]

/-- The matchers that keep parents older and, if `q`, keep them right, which `ExpandRange` does not:
the token that it wraps does not know its wrapper.  Callbacks by contract, as for
`Node.Grafts`. -/
def Node.NestsIf (q : Prop) : Node → Prop
  | .expandRange _ => ¬q
  | .catch_ _ f => ∀ c e s r s', f c e s = .ok r s' → Adx.Nests q s.toks.length s r s'
  | .map _ sf ff =>
    (∀ n t c sc s l r s', n ≤ s.toks.length → Nest q s.toks n [t] l → Under q s.toks none [t] →
      sf t c sc s = .ok r s' → Adx.Nests q n s r s') ∧
    ∀ e c sc s r s', ff e c sc s = .ok r s' → Adx.Nests q s.toks.length s r s'
  | _ => True

/-- The matchers that keep parents right: all but `ExpandRange`. -/
abbrev Node.Nests (nd : Node) : Prop := nd.NestsIf True

/-- The matchers that keep parents older: all, with callbacks by contract. -/
abbrev Node.Ages (nd : Node) : Prop := nd.NestsIf False

end Adx
