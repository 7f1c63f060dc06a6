import Verif.Model.Matcher
/-
  Taking matchers out of a grammar: every reference to a matcher is redirected
  through a map.  Used to say what a grammar looks like without its `Debug`s.
-/
namespace Adx

/-- Redirect the matcher of a `Fetchable`. -/
def Fetchable.redirect (σ : MatcherId → MatcherId) : Fetchable → Fetchable
  | .matcher m => .matcher (σ m)
  | .str s => .str s
  | .fetch n => .fetch n

/-- Redirect all references to other matchers held by a matcher; debugging is
switched off. -/
def Node.redirect (σ : MatcherId → MatcherId) : Node → Node
  | .equals n c p => .equals n c (p.redirect σ)
  | .regex n c r => .regex n c r
  | .sequence n c a b e => .sequence n c (a.redirect σ) (b.redirect σ) (e.redirect σ)
  | .program ps n c i f => .program (ps.map σ) n c i f
  | .optional m => .optional (σ m)
  | .not m => .not (σ m)
  | .discard m => .discard (σ m)
  | .proxyChildren m n c => .proxyChildren (σ m) n c
  | .expandRange m => .expandRange (σ m)
  | .catch_ m f => .catch_ (σ m) f
  | .map m sf ff => .map (σ m) sf ff
  | .store m n c => .store (σ m) n c
  | .storeStr v n c => .storeStr v n c
  | .fetch n => .fetch n
  | .ref t n c => .ref (t.redirect σ) n c
  | .register ps => .register (ps.map σ)
  | .setScope k m => .setScope k (σ m)
  | .pin m o n c => .pin (m.map σ) (o.redirect σ) n c
  | .debug m _ => .debug (m.map σ) 0
  | .brk n => .brk n
  | .null => .null
  | .panic e => .panic e
  | .error e => .error e

/-- `σ` sees through the `Debug` wrappers of a grammar, and changes nothing else. -/
structure SeesThroughDebug (T : Table) (σ : MatcherId → MatcherId) : Prop where
  wrapper : ∀ d b k, T d = .debug (some b) k → σ d = σ b
  other : ∀ m, (∀ b k, T m ≠ .debug (some b) k) → σ m = m

/-- `Debug` is not put directly around a non-consuming matcher in a program, nor
around a matcher listed in a `Register` (which would be registered as "Debug"). -/
structure DebugPlaced (T : Table) (σ : MatcherId → MatcherId) : Prop where
  consuming : ∀ m ps n c i f, T m = .program ps n c i f → ∀ p ∈ ps,
    (T (σ p)).isConsuming = (T p).isConsuming
  name : ∀ m ps, T m = .register ps → ∀ p ∈ ps, (T (σ p)).name = (T p).name

/-- The grammar without its `Debug`s. -/
def withoutDebug (T : Table) (σ : MatcherId → MatcherId) : Table := fun m => (T m).redirect σ

end Adx
