import Verif.Spec.Forest
import Verif.Spec.Heap
import Verif.Model.Matcher
/-
  Proper trees: what running a matcher may do to the tree structure of the heap.
-/
namespace Adx

/-- The tokens `ts` are the roots of finite trees; `l` lists all their tokens, none
twice; all are at or above `n`; error tokens are leaves. -/
structure Grove (toks : List Token) (n : Nat) (ts l : List TokId) : Prop where
  pre : Pre toks ts l
  nodup : l.Nodup
  above : ∀ u ∈ l, n ≤ u
  errors : ∀ u ∈ l, ∀ k, toks[u]? = some k → k.flags &&& IS_ERROR ≠ 0 → k.children = []

/-- Tokens below `n` keep their children and their flags. -/
structure Grow (n : Nat) (s s' : State) : Prop where
  len : s.toks.length ≤ s'.toks.length
  keep : ∀ i, i < n → ∀ k, s.toks[i]? = some k → ∃ k', s'.toks[i]? = some k' ∧ k'.children = k.children ∧
    k'.flags = k.flags

/-- Going from `s` to `s'` with result `r`: tokens below `n` keep their children, and a
token that is returned is the root of a proper tree of tokens above `n`. -/
def Grows (n : Nat) (s : State) (r : R) (s' : State) : Prop :=
  Grow n s s' ∧ ∀ t, r.tok = some t → ∃ l, Grove s'.toks n [t] l

/-- The contract for callbacks: one that is given a failure makes new trees only; one
that is given a token may rebuild the tree below that token. -/
def Node.Grafts : Node → Prop
  | .catch_ _ f => ∀ c e s r s', f c e s = .ok r s' → Grows s.toks.length s r s'
  | .map _ sf ff =>
    (∀ n t c sc s l r s', n ≤ s.toks.length → Grove s.toks n [t] l → sf t c sc s = .ok r s' → Grows n s r s') ∧
    ∀ e c sc s r s', ff e c sc s = .ok r s' → Grows s.toks.length s r s'
  | _ => True

end Adx
