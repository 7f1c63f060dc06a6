import Verif.Model.Exec
/-
  A weakest-precondition style predicate for the result monad, with one rule per
  primitive.
-/
namespace Adx

/-- Running `m` from `s`: a normal result satisfies `Q`; a panic is allowed only
if `p`; divergence is allowed. -/
def Post {α : Type} (p : Prop) (m : M α) (s : State) (Q : α → State → Prop) : Prop :=
  match m s with
  | .ok a s' => Q a s'
  | .panic _ => p
  | .diverge => True

variable {α β : Type} {p : Prop} {s : State}

theorem bind_eq (m : M α) (f : α → M β) : (m >>= f) = M.bind m f := rfl
theorem pure_eq (a : α) : (pure a : M α) = M.pure a := rfl

theorem Post.bind {m : M α} {f : α → M β} {Q : β → State → Prop}
    (h : Post p m s (fun a s' => Post p (f a) s' Q)) : Post p (m >>= f) s Q := by
  rw [bind_eq]
  unfold Post M.bind
  unfold Post at h
  cases hm : m s with
  | ok a s' => rw [hm] at h; exact h
  | panic e => rw [hm] at h; exact h
  | diverge => trivial

theorem Post.bind_iff {m : M α} {f : α → M β} {Q : β → State → Prop} :
    Post p (m >>= f) s Q ↔ Post p m s (fun a s' => Post p (f a) s' Q) := by
  rw [bind_eq]
  unfold Post M.bind
  cases hm : m s <;> simp

theorem Post.pure {a : α} {Q : α → State → Prop} (h : Q a s) : Post p (pure a : M α) s Q := h

theorem Post.pure_iff {a : α} {Q : α → State → Prop} : Post p (Pure.pure a : M α) s Q ↔ Q a s :=
  Iff.rfl

theorem Post.panic {e : String} {Q : α → State → Prop} (h : p) : Post p (M.panic e : M α) s Q := h

theorem Post.diverge {Q : α → State → Prop} : Post p (M.diverge : M α) s Q := trivial

theorem Post.mono {m : M α} {Q Q' : α → State → Prop} (h : Post p m s Q)
    (hq : ∀ a s', Q a s' → Q' a s') : Post p m s Q' := by
  unfold Post at *
  cases hm : m s <;> simp only [hm] at h ⊢
  · exact hq _ _ h
  · exact h

theorem Post.weaken {p' : Prop} {m : M α} {Q : α → State → Prop} (h : Post p m s Q)
    (hp : p → p') : Post p' m s Q := by
  unfold Post at *
  cases hm : m s <;> simp only [hm] at h ⊢
  · exact h
  · exact hp h

theorem Post.and {m : M α} {Q Q' : α → State → Prop} (h : Post p m s Q) (h' : Post True m s Q') :
    Post p m s (fun a s' => Q a s' ∧ Q' a s') := by
  unfold Post at *
  cases hm : m s <;> simp only [hm] at h h' ⊢
  · exact ⟨h, h'⟩
  · exact h

theorem Post.of_ok {m : M α} {Q : α → State → Prop} (h : Post p m s Q) {a : α} {s' : State}
    (hm : m s = .ok a s') : Q a s' := by
  unfold Post at h
  rw [hm] at h
  exact h

theorem Post.of_panic {m : M α} {Q : α → State → Prop} (h : Post p m s Q) {e : String}
    (hm : m s = .panic e) : p := by
  unfold Post at h
  rw [hm] at h
  exact h

theorem Post.intro {m : M α} {Q : α → State → Prop} (h : ∀ a s', m s = .ok a s' → Q a s') :
    Post True m s Q := by
  unfold Post
  cases hm : m s <;> simp only
  exact h _ _ hm

theorem Post.ofOpt {e : String} {o : Option α} {Q : α → State → Prop}
    (h : ∀ a, o = some a → Q a s) (hn : o = none → p) : Post p (M.ofOpt e o) s Q := by
  unfold M.ofOpt
  cases o with
  | none => exact hn rfl
  | some a => exact h a rfl

theorem Post.getState {Q : State → State → Prop} (h : Q s s) : Post p M.getState s Q := h

theorem Post.newTok {t : Token} {Q : TokId → State → Prop}
    (h : Q s.toks.length { s with toks := s.toks ++ [t] }) : Post p (newTok t) s Q := h

theorem Post.getTok {i : TokId} {Q : Token → State → Prop}
    (h : ∀ t, s.toks[i]? = some t → Q t s) (hn : s.toks[i]? = none → p) :
    Post p (getTok i) s Q := by
  unfold Post Adx.getTok
  cases hg : s.toks[i]? with
  | none => exact hn hg
  | some t => exact h t hg

theorem Post.setTok {i : TokId} {t : Token} {Q : Unit → State → Prop}
    (h : Q () { s with toks := s.toks.set i t }) : Post p (setTok i t) s Q := h

theorem Post.modTok {i : TokId} {f : Token → Token} {Q : Unit → State → Prop}
    (h : ∀ t, s.toks[i]? = some t → Q () { s with toks := s.toks.set i (f t) })
    (hn : s.toks[i]? = none → p) : Post p (modTok i f) s Q := by
  unfold Adx.modTok
  apply Post.bind
  apply Post.getTok _ hn
  intro t ht
  exact h t ht

theorem Post.lookupVar {sc : SCtxId} {k : Str} {Q : Option Var → State → Prop}
    (h : Q (s.lookup sc k) s) : Post p (lookupVar sc k) s Q := h

theorem Post.bindVar {sc : SCtxId} {k : Str} {v : Var} {Q : Unit → State → Prop}
    (h : Q () (s.bindVar sc k v)) : Post p (bindVar sc k v) s Q := h

theorem Post.pushScope {sc : SCtxId} {Q : Unit → State → Prop}
    (h : Q () (s.pushScope sc)) : Post p (pushScope sc) s Q := h

theorem Post.popScope {sc : SCtxId} {Q : Unit → State → Prop}
    (h : Q () (s.popScope sc)) : Post p (popScope sc) s Q := h

/-- The primitives on scopes do not touch the tokens. -/
@[simp] theorem State.bindVar_toks (sc : SCtxId) (k : Str) (v : Var) :
    (s.bindVar sc k v).toks = s.toks := by
  unfold State.bindVar
  cases s.sctxs[sc]?.getD [] <;> rfl

@[simp] theorem State.pushScope_toks (sc : SCtxId) : (s.pushScope sc).toks = s.toks := rfl
@[simp] theorem State.popScope_toks (sc : SCtxId) : (s.popScope sc).toks = s.toks := rfl

/-- `fetchValue` never changes the heap. -/
theorem Post.fetchValue {f : Fetchable} {sc : SCtxId} {Q : Str ⊕ MatcherId → State → Prop}
    (h : ∀ v, Q v s) : Post True (fetchValue f sc) s Q := by
  unfold Adx.fetchValue
  cases f with
  | str _ => exact h _
  | matcher _ => exact h _
  | fetch name =>
    apply Post.bind
    apply Post.lookupVar
    cases s.lookup sc ((splitDot name).headD []) with
    | none => trivial
    | some v =>
      cases v with
      | matcher m => exact h _
      | str v =>
        dsimp only
        split
        · trivial
        · exact h _
      | token t =>
        dsimp only
        split
        · apply Post.bind
          apply Post.getTok _ (fun _ => trivial)
          intro tk _
          repeat' split
          all_goals first | exact h _ | trivial
        · trivial

/-- `dbg` never changes the heap. -/
theorem Post.dbg {c : Ctx} {n : Nat} {Q : Unit → State → Prop}
    (h : Q () s) (hp : c.debug > 0 → c.debugRange n = none → p) : Post p (dbg c n) s Q := by
  unfold Adx.dbg
  by_cases hc : c.debug > 0
  · rw [if_pos hc]
    cases hd : c.debugRange n with
    | none => exact hp hc hd
    | some _ => exact h
  · rw [if_neg hc]
    exact h

theorem Post.dbgT {c : Ctx} {n : Nat} {Q : Unit → State → Prop} (h : Q () s) :
    Post True (Adx.dbg c n) s Q := Post.dbg h (fun _ _ => trivial)

end Adx
