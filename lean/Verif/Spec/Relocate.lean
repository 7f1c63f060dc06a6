import Verif.Model.Matcher
/-
  The same things at other places of the heap.
-/
namespace Adx

/-- New places for tokens, scopes, scope contexts and matchers. -/
structure Reloc where
  tok : TokId → TokId
  scope : ScopeId → ScopeId
  sctx : SCtxId → SCtxId
  mat : MatcherId → MatcherId

namespace Reloc

variable (ρ : Reloc)

/-- Different things have different new places. -/
structure Inj : Prop where
  tok : ∀ {a b}, ρ.tok a = ρ.tok b → a = b
  scope : ∀ {a b}, ρ.scope a = ρ.scope b → a = b
  sctx : ∀ {a b}, ρ.sctx a = ρ.sctx b → a = b

/-- The token with its references changed. -/
def token (k : Token) : Token :=
  { k with parent := k.parent.map ρ.tok, children := k.children.map ρ.tok }

/-- The value of a variable with its reference changed. -/
def var : Var → Var
  | .token t => .token (ρ.tok t)
  | .str v => .str v
  | .matcher m => .matcher (ρ.mat m)

/-- The bindings of a scope with their references changed. -/
def binds (sc : Scope) : Scope := sc.map fun b => (b.1, ρ.var b.2)

/-- The context with its references changed. -/
def ctx (c : Ctx) : Ctx := { c with scope := ρ.sctx c.scope, stack := c.stack.map ρ.tok }

/-- The result with its references changed. -/
def success : Success → Success
  | .token t => .token (ρ.tok t)
  | .proxyChildren t => .proxyChildren (ρ.tok t)
  | .skip n => .skip n
  | .brk n d => .brk n (success d)
  | .cont n d => .cont n (success d)
  | .none => .none
  | .stop => .stop

@[inherit_doc success]
def result : R → R
  | .ok x => .ok (ρ.success x)
  | .err f => .err f

/-- The argument of a matcher with its reference changed. -/
def arg : Fetchable → Fetchable
  | .str s => .str s
  | .fetch n => .fetch n
  | .matcher m => .matcher (ρ.mat m)

/-- The heap `s` is part of the heap `s'`: all that `s` has is found at the new places in
`s'`, and what is not in `s` has places that are not in `s'`. -/
structure Part (s s' : State) : Prop where
  tok : ∀ t, s'.toks[ρ.tok t]? = s.toks[t]?.map ρ.token
  tokNew : ∀ i, ρ.tok (s.toks.length + i) = s'.toks.length + i
  le : s.toks.length ≤ s'.toks.length
  scope : ∀ i, s'.scopes[ρ.scope i]? = s.scopes[i]?.map ρ.binds
  scopeNew : ∀ i, ρ.scope (s.scopes.length + i) = s'.scopes.length + i
  sctx : ∀ i, s'.sctxs[ρ.sctx i]? = s.sctxs[i]?.map (List.map ρ.scope)
  sctxNew : ∀ i, ρ.sctx (s.sctxs.length + i) = s'.sctxs.length + i

/-- What is not at one of the new places is the same in both heaps. -/
structure Kept (s s' : State) : Prop where
  tok : ∀ u, (∀ t, u ≠ ρ.tok t) → s'.toks[u]? = s.toks[u]?
  scope : ∀ u, (∀ i, u ≠ ρ.scope i) → s'.scopes[u]? = s.scopes[u]?
  sctx : ∀ u, (∀ i, u ≠ ρ.sctx i) → s'.sctxs[u]? = s.sctxs[u]?

/-- The outcome `x'` of a computation that was started in `s'` is the outcome `x` of one
that was started in a part of `s'`: it ends or panics in the same way, its result is the
same but for places, and it changed the part of `s'` only.  If `dv`, then also the one goes on
without end if the other does. -/
def Same (dv : Prop) {α β : Type} (V : α → β → Prop) (s' : State) : Res α → Res β → Prop
  | .ok a s1, x' => ∃ b s1', x' = .ok b s1' ∧ V a b ∧ ρ.Part s1 s1' ∧ ρ.Kept s' s1'
  | .panic e, x' => x' = .panic e
  | .diverge, x' => dv → x' = .diverge

/-- The second computation does in every heap what the first does in each part of it. -/
def Mimics (dv : Prop) {α β : Type} (V : α → β → Prop) (m : M α) (m' : M β) : Prop :=
  ∀ s s', ρ.Part s s' → ρ.Same dv V s' (m s) (m' s')

/-- The second matcher is the first with its references changed; its callbacks do what
those of the first do. -/
inductive NodeMoved (dv : Prop) : Node → Node → Prop
  | equals {n c p} : NodeMoved dv (.equals n c p) (.equals n c (ρ.arg p))
  | regex {n c r} : NodeMoved dv (.regex n c r) (.regex n c r)
  | sequence {n c a b e} :
      NodeMoved dv (.sequence n c a b e) (.sequence n c (ρ.arg a) (ρ.arg b) (ρ.arg e))
  | program {ps n c i f} : NodeMoved dv (.program ps n c i f) (.program (ps.map ρ.mat) n c i f)
  | optional {m} : NodeMoved dv (.optional m) (.optional (ρ.mat m))
  | not {m} : NodeMoved dv (.not m) (.not (ρ.mat m))
  | discard {m} : NodeMoved dv (.discard m) (.discard (ρ.mat m))
  | proxyChildren {m n c} : NodeMoved dv (.proxyChildren m n c) (.proxyChildren (ρ.mat m) n c)
  | expandRange {m} : NodeMoved dv (.expandRange m) (.expandRange (ρ.mat m))
  | catch_ {m f f'} (h : ∀ c e, ρ.Mimics dv (fun r r' => r' = ρ.result r) (f c e) (f' (ρ.ctx c) e)) :
      NodeMoved dv (.catch_ m f) (.catch_ (ρ.mat m) f')
  | map {m sf ff sf' ff'}
      (hs : ∀ t c sc, ρ.Mimics dv (fun r r' => r' = ρ.result r) (sf t c sc)
        (sf' (ρ.tok t) (ρ.ctx c) (ρ.sctx sc)))
      (hf : ∀ e c sc, ρ.Mimics dv (fun r r' => r' = ρ.result r) (ff e c sc)
        (ff' e (ρ.ctx c) (ρ.sctx sc))) :
      NodeMoved dv (.map m sf ff) (.map (ρ.mat m) sf' ff')
  | store {m n c} : NodeMoved dv (.store m n c) (.store (ρ.mat m) n c)
  | storeStr {v n c} : NodeMoved dv (.storeStr v n c) (.storeStr v n c)
  | fetch {n} : NodeMoved dv (.fetch n) (.fetch n)
  | ref {t n c} : NodeMoved dv (.ref t n c) (.ref (ρ.arg t) n c)
  | register {ps} : NodeMoved dv (.register ps) (.register (ps.map ρ.mat))
  | setScope {k m} : NodeMoved dv (.setScope k m) (.setScope (k.map ρ.sctx) (ρ.mat m))
  | pin {m o n c} : NodeMoved dv (.pin m o n c) (.pin (m.map ρ.mat) (ρ.arg o) n c)
  | debug {m k} : NodeMoved dv (.debug m k) (.debug (m.map ρ.mat) k)
  | brk {n} : NodeMoved dv (.brk n) (.brk n)
  | null : NodeMoved dv .null .null
  | panic {e} : NodeMoved dv (.panic e) (.panic e)
  | error {e} : NodeMoved dv (.error e) (.error e)

/-- Every matcher of the first grammar is found at its new place in the second. -/
def Moved (dv : Prop) (T T' : Table) : Prop := ∀ m, ρ.NodeMoved dv (T m) (T' (ρ.mat m))

/-- The places after a heap and `d` matchers: everything is moved behind what is there. -/
def behind (d : Nat) (s : State) : Reloc where
  tok t := t + s.toks.length
  scope i := i + s.scopes.length
  sctx i := i + s.sctxs.length
  mat m := m + d

end Reloc

/-- A matcher whose callbacks do the same at every place. -/
def Node.Portable : Node → Prop
  | .catch_ _ f => ∀ (ρ : Reloc) (dv : Prop), ρ.Inj → ∀ c e,
      ρ.Mimics dv (fun r r' => r' = ρ.result r) (f c e) (f (ρ.ctx c) e)
  | .map _ sf ff => ∀ (ρ : Reloc) (dv : Prop), ρ.Inj →
      (∀ t c sc, ρ.Mimics dv (fun r r' => r' = ρ.result r) (sf t c sc)
        (sf (ρ.tok t) (ρ.ctx c) (ρ.sctx sc))) ∧
      (∀ e c sc, ρ.Mimics dv (fun r r' => r' = ρ.result r) (ff e c sc) (ff e (ρ.ctx c) (ρ.sctx sc)))
  | _ => True

/-- A matcher that does not hold a scope context of its own. -/
def Node.Unscoped : Node → Prop
  | .setScope (some _) _ => False
  | _ => True

end Adx
