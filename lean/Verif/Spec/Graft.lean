import Verif.Spec.Import
/-
  Which scopes belong to which import statements: the scopes of a script and of all that it
  imports are a tree, with one branch for each statement.
-/
namespace Adx

/-- The import statement that a thing is from, by the number of definitions before it. -/
def Thing.tag : Thing → Option Nat
  | .own _ => none
  | .file t _ _ _ => some t
  | .member t _ _ _ => some t

/-- The definitions of the script that a thing is from. -/
def Thing.defs : Thing → List (Str × Thing)
  | .own _ => []
  | .file _ _ _ bs => bs
  | .member _ bs _ _ => bs

/-- One of the definitions is imported by this statement. -/
def HasTag (bs : List (Str × Thing)) (t : Nat) : Prop := ∃ b ∈ bs, b.2.tag = some t

/-- The matcher works in the scope `sc`: a definition that was imported, or a whole script. -/
inductive WorksIn (ns : List Node) (lo m : Nat) (sc : SCtxId) : Prop
  | member {a} (hl : lo ≤ m) (hm : ns[m]? = some (.setScope (some sc) a))
  | file {a b n} (hl : lo ≤ m) (hla : m + 1 ≤ a) (hm : ns[m]? = some (.program [a] n true none false))
      (ha : ns[a]? = some (.setScope (some sc) b))

/-- The scopes from `sc` up to but without `hi` are those of a script with the definitions
`bs`: `sc` is its own scope, the import statement after `t` definitions has the scopes from `g t`
up to but without `e t`, and scopes of different statements are different. -/
inductive Grafted (w : World) : Nat → SCtxId → SCtxId → List (Str × Thing) → Prop
  | mk {lo sc hi bs} (g e : Nat → SCtxId) (D : Nat → List (Str × Thing)) (lt : sc < hi) (le : hi ≤ w.st.sctxs.length)
      (f : Str → MatcherId)
      (look : ∀ x th t, lastDef bs x = some th → th.tag = some t → w.st.lookup sc x = some (.matcher (f x)))
      (works : ∀ x th t, lastDef bs x = some th → th.tag = some t → WorksIn w.nodes lo (f x) (g t))
      (same : ∀ b ∈ bs, ∀ t, b.2.tag = some t → b.2.defs = D t)
      (sub : ∀ t, HasTag bs t → Grafted w lo (g t) (e t) (D t))
      (above : ∀ t, HasTag bs t → sc < g t) (below : ∀ t, HasTag bs t → e t ≤ hi)
      (apart : ∀ t t', HasTag bs t → HasTag bs t' → t < t' → e t ≤ g t') : Grafted w lo sc hi bs

end Adx
