import Verif.Model.Memory
/-
  Which tokens can be freed, without counting.
-/
namespace Adx

/-- The token `j` has a reference to the token `i`. -/
def Refers (toks : List Token) (j i : TokId) : Prop := ∃ k, toks[j]? = some k ∧ (k.parent = some i ∨ i ∈ k.children)

/-- Steps from a memory in which nothing has been freed. -/
inductive MemRun (toks : List Token) (held : List TokId) : Mem → Prop
  | start : MemRun toks held ⟨held, []⟩
  | step {m m' : Mem} (h : MemRun toks held m) (hs : MemStep toks m m') : MemRun toks held m'

/-- Tokens that are free to go when nobody else holds one: all that refer to them go first. -/
inductive Released (toks : List Token) : TokId → Prop
  | intro {i : TokId} (h : ∀ j, Refers toks j i → Released toks j) : Released toks i

/-- From `j` to `i` along references, in one step or more. -/
inductive RefPath (toks : List Token) : TokId → TokId → Prop
  | one {j i : TokId} (h : Refers toks j i) : RefPath toks j i
  | more {j v i : TokId} (h : Refers toks j v) (hi : RefPath toks v i) : RefPath toks j i

/-- All outside references have been dropped, and nothing more can be freed. -/
def AllDropped (toks : List Token) (m : Mem) : Prop := m.held = [] ∧ ∀ i, i < toks.length → i ∉ m.freed → strongCount toks m i ≠ 0

end Adx
