import Verif.Model.BorrowBuild
import Verif.Proofs.BorrowVisit
import Verif.Props.Compile
/-
  Making a matcher from a script with borrow flags is making it without.
-/
namespace Adx

variable {α β γ : Type}

/-! ### Steps of the builder -/

/-- `x` does what `y` does, and leaves the flags as they are. -/
def CAgrees (x : CB α) (y : C α) (toks : List Token) (ns : List Node) (fl : Borrows) : Prop :=
  x toks ns fl = CB.lift y toks ns fl

variable {toks : List Token} {ns : List Node} {fl : Borrows} {c : Cell}

theorem C.bind_assoc (x : C α) (f : α → C β) (g : β → C γ) : ((x >>= f) >>= g) = (x >>= fun a => f a >>= g) := by
  funext toks ns
  show C.bind' (C.bind' x f) g toks ns = C.bind' x (fun a => C.bind' (f a) g) toks ns
  unfold C.bind'
  cases x toks ns <;> rfl

theorem C.bind_run (x : C α) (f : α → C β) : (x >>= f) toks ns = match x toks ns with
    | .ok a ns => f a toks ns
    | .err e => .err e
    | .panic m => .panic m
    | .diverge => .diverge := rfl

theorem C.pure_bind (a : α) (f : α → C β) : (pure a >>= f) = f a := rfl

namespace CAgrees

theorem lift (y : C α) : CAgrees (CB.lift y) y toks ns fl := rfl

theorem pure (a : α) : CAgrees (pure a) (pure a) toks ns fl := rfl

theorem bind {x : CB α} {y : C α} {f : α → CB β} {g : α → C β} (hx : CAgrees x y toks ns fl)
    (hf : ∀ a ns', y toks ns = .ok a ns' → CAgrees (f a) (g a) toks ns' fl) :
    CAgrees (x >>= f) (y >>= g) toks ns fl := by
  unfold CAgrees at hx
  show CB.bind x f toks ns fl = CB.lift (y >>= g) toks ns fl
  unfold CB.bind
  rw [hx]
  show _ = CB.lift (C.bind' y g) toks ns fl
  unfold CB.lift C.bind'
  cases h : y toks ns with
  | ok a ns' => exact hf a ns' h
  | err e => rfl
  | panic m => rfl
  | diverge => rfl

theorem share {x : CB α} {y : C α} (hc : fl c ≠ .exclusive)
    (hx : ∀ n, fl c = .shared n → CAgrees x y toks ns (fl.set c (.shared (n + 1)))) :
    CAgrees (CB.share c x) y toks ns fl := by
  unfold CAgrees CB.share
  cases h : fl c with
  | exclusive => exact absurd h hc
  | shared n =>
    have hx := hx n h
    unfold CAgrees at hx
    dsimp only
    rw [hx]
    unfold CB.lift
    cases y toks ns <;> dsimp only <;> rw [release_succ h]

theorem own {x : CB α} {y : C α} (hc : fl c = .shared 0) (hx : CAgrees x y toks ns (fl.set c .exclusive)) :
    CAgrees (CB.own c x) y toks ns fl := by
  unfold CAgrees at hx
  unfold CAgrees CB.own
  rw [hc]
  show (match x toks ns (fl.set c .exclusive) with
    | CBRes.ok a ns' fl' => CBRes.ok a ns' (fl'.set c (.shared 0))
    | .err e fl' => .err e (fl'.set c (.shared 0))
    | r => r) = _
  rw [hx]
  unfold CB.lift
  cases y toks ns <;> dsimp only <;> rw [Borrows.set_set _ _ _ _ hc]

/-- What only borrows. -/
theorem skip {x : CB Unit} {f : Unit → CB α} {y : C α} (hx : CAgrees x (Pure.pure ()) toks ns fl)
    (h : CAgrees (f ()) y toks ns fl) : CAgrees (x >>= f) y toks ns fl := by
  have : y = ((Pure.pure () : C Unit) >>= fun _ => y) := rfl
  rw [this]
  refine bind hx fun u ns' h1 => ?_
  cases h1
  exact h

theorem ite {p : Prop} [Decidable p] {x x' : CB α} {y y' : C α} (h : p → CAgrees x y toks ns fl)
    (h' : ¬ p → CAgrees x' y' toks ns fl) : CAgrees (if p then x else x') (if p then y else y') toks ns fl := by
  by_cases hp : p
  · rw [if_pos hp, if_pos hp]
    exact h hp
  · rw [if_neg hp, if_neg hp]
    exact h' hp

theorem touchToks (h : ∀ t, fl (.token t) ≠ .exclusive) (ts : List TokId) :
    CAgrees (CB.touchToks ts) (Pure.pure ()) toks ns fl := by
  induction ts with
  | nil => exact pure _
  | cons t ts ih => exact skip (share (h t) fun _ _ => pure _) ih

theorem findChild (h : ∀ t, fl (.token t) ≠ .exclusive) {k : Token} {n : String} :
    CAgrees (CB.findChild k n) (C.findChild k n) toks ns fl := skip (touchToks h _) (lift _)

theorem hasChild (h : ∀ t, fl (.token t) ≠ .exclusive) {k : Token} {n : String} :
    CAgrees (CB.hasChild k n) (C.hasChild k n) toks ns fl := skip (touchToks h _) (lift _)

theorem findChildOf (h : ∀ t, fl (.token t) ≠ .exclusive) {k : Token} {n : List String} :
    CAgrees (CB.findChildOf k n) (C.findChildOf k n) toks ns fl := skip (touchToks h _) (lift _)

theorem tok (h : ∀ t, fl (.token t) ≠ .exclusive) {t : TokId} : CAgrees (CB.tok t) (C.tok t) toks ns fl :=
  share (h t) fun _ _ => lift _

end CAgrees

/-! ### Flags while matchers are made -/

/-- No token is borrowed mutably, and matchers from `lo` on not at all. -/
structure Fresh (lo : Nat) (fl : Borrows) : Prop where
  token : ∀ t, fl (.token t) ≠ .exclusive
  matcher : ∀ m, lo ≤ m → fl (.matcher m) = .shared 0

theorem Fresh.mono {lo lo' : Nat} (h : Fresh lo fl) (hl : lo ≤ lo') : Fresh lo' fl :=
  ⟨h.token, fun m hm => h.matcher m (Nat.le_trans hl hm)⟩

theorem Fresh.share {lo : Nat} (h : Fresh lo fl) (t : TokId) (n : Nat) : Fresh lo (fl.set (.token t) (.shared n)) := by
  refine ⟨fun u => ?_, fun m hm => ?_⟩
  · by_cases hu : u = t
    · subst hu
      rw [Borrows.set_same]
      intro hx
      cases hx
    · rw [Borrows.set_other _ _ (by simpa using hu)]
      exact h.token u
  · rw [Borrows.set_other _ _ (by simp)]
    exact h.matcher m hm

theorem Fresh.own {lo : Nat} (h : Fresh lo fl) {m : MatcherId} (hm : lo ≤ m) :
    Fresh (m + 1) (fl.set (.matcher m) .exclusive) := by
  refine ⟨fun u => ?_, fun m' hm' => ?_⟩
  · rw [Borrows.set_other _ _ (by simp)]
    exact h.token u
  · have hne : m' ≠ m := fun h => by subst h; exact Nat.not_succ_le_self _ hm'
    rw [Borrows.set_other _ _ (by simpa using hne)]
    exact h.matcher m' (Nat.le_trans hm (Nat.le_of_succ_le hm'))

theorem CAgrees.withTok {lo : Nat} (h : Fresh lo fl) {t : TokId} {f : Token → CB α} {g : Token → C α}
    (hf : ∀ k fl, toks[t]? = some k → Fresh lo fl → CAgrees (f k) (g k) toks ns fl) :
    CAgrees (CB.withTok t f) (C.tok t >>= g) toks ns fl := by
  refine CAgrees.share (h.token t) fun n _ => CAgrees.bind (CAgrees.lift _) fun k ns' hk => ?_
  unfold C.tok at hk
  split at hk
  · rename_i k' hk'
    cases hk
    exact hf k _ hk' (h.share t _)
  · cases hk

theorem CPost.get {x : C α} {Q : α → List Node → Prop} {E D : Prop} (h : CPost x toks ns Q E D) {a : α}
    {ns' : List Node} (hx : x toks ns = .ok a ns') : Q a ns' := by
  unfold CPost at h
  rw [hx] at h
  exact h

/-- A step that only reads. -/
theorem CReads.get {x : C α} (h : CReads x) {a : α} {ns' : List Node} (hx : x toks ns = .ok a ns') : ns' = ns :=
  (h toks ns).get hx

theorem CReads.hasChild {k : Token} {n : String} : CReads (C.hasChild k n) := fun _ _ => rfl
theorem CReads.findChildOf {k : Token} {n : List String} : CReads (C.findChildOf k n) := fun _ _ => rfl

/-! ### The pieces of a definition -/

theorem agrees_range {lo : Nat} (h : Fresh lo fl) (t : TokId) :
    CAgrees (getRepeatSpecifierRangeB t) (getRepeatSpecifierRange t) toks ns fl := by
  refine CAgrees.withTok h fun k fl _ h => ?_
  refine CAgrees.ite (fun _ => CAgrees.pure _) fun _ => CAgrees.ite (fun _ => CAgrees.pure _) fun _ =>
    CAgrees.ite (fun _ => ?_) fun _ => CAgrees.lift _
  refine CAgrees.bind (CAgrees.findChild h.token) fun _ _ _ => CAgrees.bind (CAgrees.lift _) fun _ _ _ =>
    CAgrees.bind (CAgrees.hasChild h.token) fun sep _ _ => CAgrees.bind (CAgrees.tok h.token) fun _ _ _ =>
    CAgrees.bind (CAgrees.lift _) fun _ _ _ => CAgrees.ite (fun _ => ?_) fun _ => CAgrees.pure _
  refine CAgrees.bind (CAgrees.findChild h.token) fun o _ _ => ?_
  cases o with
  | none => exact CAgrees.pure _
  | some max =>
    exact CAgrees.bind (CAgrees.tok h.token) fun _ _ _ => CAgrees.bind (CAgrees.lift _) fun _ _ _ =>
      CAgrees.ite (fun _ => CAgrees.lift _) fun _ => CAgrees.pure _

theorem agrees_collectAttributes {lo : Nat} (cs : List TokId) : ∀ {m : AMap Str} {ns : List Node} {fl : Borrows}, Fresh lo fl →
    CAgrees (collectAttributesB cs m) (collectAttributes cs m) toks ns fl := by
  induction cs with
  | nil => exact fun _ => CAgrees.pure _
  | cons c cs ih =>
    intro m ns fl h
    have he : collectAttributes (c :: cs) m = ((C.tok c >>= fun k => do
        let key := (← C.tok (← C.child k 0)).getCapturedValue
        let value := (← C.tok (← C.child k 1)).getCapturedValue
        pure (key, value)) >>= fun p => collectAttributes cs (m.insert p.1 p.2)) := by
      simp only [collectAttributes, C.bind_assoc, C.pure_bind]
    rw [he]
    refine CAgrees.bind (CAgrees.withTok h fun k fl _ h => ?_) fun p _ _ => ih h
    exact CAgrees.bind (CAgrees.lift _) fun _ _ _ => CAgrees.bind (CAgrees.tok h.token) fun _ _ _ =>
      CAgrees.bind (CAgrees.lift _) fun _ _ _ => CAgrees.bind (CAgrees.tok h.token) fun _ _ _ => CAgrees.pure _

theorem agrees_setName {m : MatcherId} {n : Str} {nd : Node} (hm : fl (.matcher m) = .shared 0)
    (hn : ns[m]? = some nd) (hp : nd.namePassedTo = none) :
    CAgrees (CB.setName m n) (C.setName m n) toks ns fl := by
  have h1 : CAgrees (CB.own (.matcher m) fun toks ns fl =>
      match ns[m]? with
      | none => .panic "dangling matcher reference"
      | some nd =>
        match nd.namePassedTo with
        | some m' => CB.setNameGo n ns.length m' toks ns fl
        | none => .ok () (ns.set m (nd.setOwnName n)) fl) (C.setName m n) toks ns fl := by
    refine CAgrees.own hm ?_
    unfold CAgrees CB.lift C.setName setNameGo
    simp only [hn, hp]
  unfold CAgrees at h1 ⊢
  rw [← h1]
  unfold CB.setName CB.setNameGo CB.own
  split
  · simp only [hn, hp]
  · rfl

theorem agrees_withName {m : MatcherId} {n : Str} {nd : Node} (hm : fl (.matcher m) = .shared 0)
    (hn : ns[m]? = some nd) (hp : nd.namePassedTo = none) :
    CAgrees (withNameB m n) (withName m n) toks ns fl :=
  CAgrees.ite (fun _ => agrees_setName hm hn hp) fun _ => CAgrees.pure _

theorem agrees_withAttributes {lo : Nat} (h : Fresh lo fl) (k : Token) (m : MatcherId) :
    CAgrees (withAttributesB k m) (withAttributes k m) toks ns fl := by
  refine CAgrees.bind (CAgrees.findChild h.token) fun o _ _ => ?_
  cases o with
  | none => exact CAgrees.pure _
  | some a =>
    refine CAgrees.withTok h fun k fl _ h => CAgrees.ite (fun _ => ?_) fun _ => CAgrees.pure _
    exact CAgrees.bind (agrees_collectAttributes _ h) fun _ _ _ => CAgrees.lift _

theorem agrees_withRepeat {lo : Nat} (h : Fresh lo fl) (k : Token) (m : MatcherId) :
    CAgrees (withRepeatB k m) (withRepeat k m) toks ns fl := by
  refine CAgrees.bind (CAgrees.findChildOf h.token) fun o _ _ => ?_
  cases o with
  | none => exact CAgrees.pure _
  | some r => exact CAgrees.bind (agrees_range h r) fun _ _ _ => CAgrees.lift _

/-- What is wanted of the builder of patterns. -/
def PatAgrees (toks : List Token) (patB : TokId → CB (MatcherId × MatcherId)) (pat : TokId → C (MatcherId × MatcherId)) : Prop :=
  ∀ t ns fl, Fresh ns.length fl → CAgrees (patB t) (pat t) toks ns fl

section
variable {env : Env} {patB : TokId → CB (MatcherId × MatcherId)} {pat : TokId → C (MatcherId × MatcherId)} {D : TokId → Prop}

theorem addPattern_length {i p : MatcherId} {u : Unit} {ns' : List Node} (h : C.addPattern i p toks ns = .ok u ns') :
    ns'.length = ns.length := by
  unfold C.addPattern at h
  split at h
  · cases h; simp
  · cases h; simp
  · cases h

theorem agrees_constructChildren (ha : PatAgrees toks patB pat) (hp : PatOk env toks pat D) {into : MatcherId} {lo : Nat}
    (cs : List TokId) : ∀ {ns : List Node} {fl : Borrows}, Fresh lo fl → lo ≤ ns.length →
    CAgrees (constructChildrenB patB into cs) (constructChildren pat into cs) toks ns fl := by
  induction cs with
  | nil => exact fun _ _ => CAgrees.pure _
  | cons c cs ih =>
    intro ns fl h hl
    refine CAgrees.bind (ha c ns fl (h.mono hl)) fun m ns1 h1 => CAgrees.bind (CAgrees.lift _) fun _ ns2 h2 => ih h ?_
    rw [addPattern_length h2]
    exact Nat.le_trans hl ((hp c ns).get h1).1.length_le

theorem agrees_constructInner (ha : PatAgrees toks patB pat) (hp : PatOk env toks pat D) (t : TokId) {ns : List Node}
    {fl : Borrows} (h : Fresh ns.length fl) :
    CAgrees (constructInnerB env patB t) (constructInner env pat t) toks ns fl := by
  have group : ∀ {nd : Node} {k : Token} {fl : Borrows}, Fresh ns.length fl → CAgrees (do
      let m ← CB.lift (C.mk nd)
      CB.own (.matcher m) (constructChildrenB patB m k.children)
      pure m) (do
      let m ← C.mk nd
      constructChildren pat m k.children
      pure m) toks ns fl := by
    intro nd k fl h
    refine CAgrees.bind (CAgrees.lift _) fun m ns1 h1 => ?_
    cases h1
    refine CAgrees.bind (CAgrees.own (h.matcher _ (Nat.le_refl _)) ?_) fun _ _ _ => CAgrees.pure _
    exact agrees_constructChildren ha hp _ (h.own (Nat.le_refl _)) (by simp)
  refine CAgrees.withTok h fun k fl _ h => ?_
  refine CAgrees.ite (fun _ => ?_) fun _ => CAgrees.ite (fun _ => ?_) fun _ => CAgrees.ite (fun _ => ?_) fun _ =>
    CAgrees.ite (fun _ => ?_) fun _ => CAgrees.ite (fun _ => ?_) fun _ => CAgrees.ite (fun _ => ?_) fun _ => CAgrees.lift _
  · exact CAgrees.bind (CAgrees.lift _) fun _ _ _ => CAgrees.bind (CAgrees.tok h.token) fun _ _ _ =>
      CAgrees.ite (fun _ => CAgrees.lift _) fun _ => CAgrees.lift _
  · refine CAgrees.ite (fun _ => CAgrees.lift _) fun _ => CAgrees.bind (CAgrees.findChild h.token) fun o _ _ => ?_
    cases o with
    | none =>
      exact CAgrees.bind (CAgrees.pure _) fun _ _ _ => CAgrees.bind (CAgrees.lift _) fun _ _ _ => CAgrees.lift _
    | some f =>
      exact CAgrees.bind (CAgrees.tok h.token) fun _ _ _ => CAgrees.bind (CAgrees.pure _) fun _ _ _ =>
        CAgrees.bind (CAgrees.lift _) fun _ _ _ => CAgrees.lift _
  · refine CAgrees.bind (CAgrees.lift _) fun _ _ _ => CAgrees.withTok h fun _ fl _ h => ?_
    refine CAgrees.bind (CAgrees.lift _) fun _ _ _ => CAgrees.withTok h fun _ fl _ h => ?_
    refine CAgrees.bind (CAgrees.lift _) fun _ _ _ => CAgrees.withTok h fun _ fl _ h => ?_
    exact CAgrees.ite (fun _ => CAgrees.lift _) fun _ => CAgrees.ite (fun _ => CAgrees.lift _) fun _ => CAgrees.lift _
  · exact CAgrees.bind (CAgrees.lift _) fun _ _ _ => CAgrees.bind (CAgrees.tok h.token) fun _ _ _ =>
      CAgrees.ite (fun _ => CAgrees.lift _) fun _ => CAgrees.lift _
  · exact CAgrees.ite (fun _ => CAgrees.lift _) fun _ => group h
  · exact CAgrees.ite (fun _ => CAgrees.lift _) fun _ => group h

/-- The matchers of definitions have names of their own. -/
theorem Built.ownName {ns : List Node} {m : MatcherId} {g : Gram} (h : Built ns m m g) (hg : g.named = true) :
    ∃ nd, ns[m]? = some nd ∧ nd.namePassedTo = none := by
  cases h with
  | equals _ h => exact ⟨_, h, rfl⟩
  | regex _ h => exact ⟨_, h, rfl⟩
  | sequence _ h => exact ⟨_, h, rfl⟩
  | ref _ h => exact ⟨_, h, rfl⟩
  | null _ h => exact ⟨_, h, rfl⟩
  | group _ h hs => exact ⟨_, h, rfl⟩
  | loop => cases hg
  | opt => cases hg
  | not => cases hg
  | discard => cases hg
  | attrs => cases hg

theorem agrees_constructDefinition (ha : PatAgrees toks patB pat) (hp : PatOk env toks pat D) (t : TokId) (name : Str)
    (captured : Bool) {ns : List Node} {fl : Borrows} (h : Fresh ns.length fl) :
    CAgrees (constructDefinitionB env patB t name captured) (constructDefinition env pat t name captured) toks ns fl := by
  refine CAgrees.withTok h fun k fl _ h => CAgrees.ite (fun _ => CAgrees.lift _) fun _ => ?_
  refine CAgrees.bind (CAgrees.hasChild h.token) fun a1 ns1 h1 => CAgrees.bind (CAgrees.hasChild h.token) fun a2 ns2 h2 =>
    CAgrees.bind (CAgrees.hasChild h.token) fun a3 ns3 h3 => CAgrees.bind (CAgrees.hasChild h.token) fun a4 ns4 h4 =>
    CAgrees.bind (CAgrees.findChildOf h.token) fun o ns5 h5 => ?_
  obtain rfl := CReads.hasChild.get h1
  obtain rfl := CReads.hasChild.get h2
  obtain rfl := CReads.hasChild.get h3
  obtain rfl := CReads.hasChild.get h4
  obtain rfl := CReads.findChildOf.get h5
  cases o with
  | none => exact CAgrees.lift _
  | some mt =>
    refine CAgrees.bind (agrees_constructInner ha hp mt h) fun inner ns6 h6 => ?_
    obtain ⟨-, hi, g, hg, hb⟩ := (constructInner_spec hp mt _).get h6
    obtain ⟨nd, hn, hnd⟩ := hb.ownName hg.named
    refine CAgrees.bind (agrees_withName (h.matcher _ (Nat.le_of_eq hi.symm)) hn hnd) fun _ _ _ => ?_
    exact CAgrees.bind (agrees_withAttributes h _ _) fun _ _ _ => CAgrees.bind (CAgrees.lift _) fun _ _ _ =>
      CAgrees.bind (agrees_withRepeat h _ _) fun _ _ _ => CAgrees.bind (CAgrees.lift _) fun _ _ _ =>
      CAgrees.bind (CAgrees.lift _) fun _ _ _ => CAgrees.pure _

end

theorem agrees_constructPattern (env : Env) (toks : List Token) (d : Nat) :
    PatAgrees toks (constructPatternB env d) (constructPattern env d) := by
  induction d with
  | zero => exact fun _ _ _ _ => rfl
  | succ d ih =>
    intro t ns fl h
    have hp := constructPattern_spec env toks d
    refine CAgrees.withTok h fun k fl _ h => CAgrees.ite (fun _ => ?_) fun _ => CAgrees.ite (fun _ => ?_) fun _ => CAgrees.lift _
    · refine CAgrees.bind (CAgrees.findChild h.token) fun o ns1 h1 => ?_
      obtain rfl := CReads.findChild.get h1
      cases o with
      | some n =>
        refine CAgrees.withTok h fun nk fl _ h => CAgrees.bind (CAgrees.lift _) fun i ns2 h2 => ?_
        obtain rfl := CReads.child.get h2
        refine CAgrees.withTok h fun ck fl _ h => CAgrees.bind (CAgrees.lift _) fun i ns2 h2 => ?_
        obtain rfl := CReads.child.get h2
        exact agrees_constructDefinition ih hp _ _ _ h
      | none =>
        refine CAgrees.bind (CAgrees.lift _) fun i ns2 h2 => ?_
        obtain rfl := CReads.child.get h2
        exact agrees_constructDefinition ih hp _ _ _ h
    · exact agrees_constructDefinition ih hp _ _ _ h

/-! ### Flags while a script is built -/

/-- Tokens and matchers are at most shared; tokens from `nt` on, matchers from `nm` on, the
scopes, and the contexts, lists of errors and hooks from `d` on (`dh` for hooks) are not borrowed. -/
structure Unheld (nt nm d dh : Nat) (fl : Borrows) : Prop where
  token : ∀ t, fl (.token t) ≠ .exclusive
  newToken : ∀ t, nt ≤ t → fl (.token t) = .shared 0
  names : ∀ sc, fl (.names sc) = .shared 0
  scope : ∀ i, fl (.scope i) = .shared 0
  matcher : ∀ m, fl (.matcher m) ≠ .exclusive
  newMatcher : ∀ m, nm ≤ m → fl (.matcher m) = .shared 0
  context : ∀ j, d ≤ j → fl (.context j) = .shared 0
  errors : ∀ j, d ≤ j → fl (.errors j) = .shared 0
  hook : ∀ j i, dh ≤ j → fl (.hook j i) = .shared 0

namespace Unheld
variable {nt nm d dh : Nat}

theorem mono {nt' nm' d' dh' : Nat} (h : Unheld nt nm d dh fl) (h1 : nt ≤ nt') (h2 : nm ≤ nm') (h3 : d ≤ d')
    (h4 : dh ≤ dh') : Unheld nt' nm' d' dh' fl where
  token := h.token
  newToken t ht := h.newToken t (Nat.le_trans h1 ht)
  names := h.names
  scope := h.scope
  matcher := h.matcher
  newMatcher m hm := h.newMatcher m (Nat.le_trans h2 hm)
  context j hj := h.context j (Nat.le_trans h3 hj)
  errors j hj := h.errors j (Nat.le_trans h3 hj)
  hook j i hj := h.hook j i (Nat.le_trans h4 hj)

theorem share (h : Unheld nt nm d dh fl) {t : TokId} (ht : t < nt) (n : Nat) :
    Unheld nt nm d dh (fl.set (.token t) (.shared n)) where
  token u := by
    by_cases hu : u = t
    · subst hu
      rw [Borrows.set_same]
      intro hx
      cases hx
    · rw [Borrows.set_other _ _ (by simpa using hu)]
      exact h.token u
  newToken u hu := by
    have hne : u ≠ t := fun h => by subst h; exact Nat.not_le_of_lt ht hu
    rw [Borrows.set_other _ _ (by simpa using hne)]
    exact h.newToken u hu
  names sc := by rw [Borrows.set_other _ _ (by simp)]; exact h.names sc
  scope i := by rw [Borrows.set_other _ _ (by simp)]; exact h.scope i
  matcher m := by rw [Borrows.set_other _ _ (by simp)]; exact h.matcher m
  newMatcher m hm := by rw [Borrows.set_other _ _ (by simp)]; exact h.newMatcher m hm
  context j hj := by rw [Borrows.set_other _ _ (by simp)]; exact h.context j hj
  errors j hj := by rw [Borrows.set_other _ _ (by simp)]; exact h.errors j hj
  hook j i hj := by rw [Borrows.set_other _ _ (by simp)]; exact h.hook j i hj

/-- Inside of a hook. -/
theorem inside (h : Unheld nt nm d d fl) (i : Nat) : Unheld nt nm d (d + 1) (fl.set (.hook d i) .exclusive) where
  token u := by rw [Borrows.set_other _ _ (by simp)]; exact h.token u
  newToken u hu := by rw [Borrows.set_other _ _ (by simp)]; exact h.newToken u hu
  names sc := by rw [Borrows.set_other _ _ (by simp)]; exact h.names sc
  scope i := by rw [Borrows.set_other _ _ (by simp)]; exact h.scope i
  matcher m := by rw [Borrows.set_other _ _ (by simp)]; exact h.matcher m
  newMatcher m hm := by rw [Borrows.set_other _ _ (by simp)]; exact h.newMatcher m hm
  context j hj := by rw [Borrows.set_other _ _ (by simp)]; exact h.context j hj
  errors j hj := by rw [Borrows.set_other _ _ (by simp)]; exact h.errors j hj
  hook j i' hj := by
    have hne : j ≠ d := by omega
    rw [Borrows.set_other _ _ (by simp [hne])]
    exact h.hook j i' (by omega)

theorem fresh (h : Unheld nt nm d dh fl) : Fresh nm fl := ⟨h.token, h.newMatcher⟩

theorem quiet (h : Unheld nt nm d dh fl) : Quiet nt d fl where
  token := h.token
  new := h.newToken
  names := h.names
  scope := h.scope
  matcher := h.matcher
  behind j hj := h.context j (Nat.le_of_lt hj)
  context := Borrow.free_ne (h.context d (Nat.le_refl _))

theorem free (nt nm d dh : Nat) : Unheld nt nm d dh Borrows.free where
  token _ := by intro h; cases h
  newToken _ _ := rfl
  names _ := rfl
  scope _ := rfl
  matcher _ := by intro h; cases h
  newMatcher _ _ := rfl
  context _ _ := rfl
  errors _ _ := rfl
  hook _ _ _ := rfl

end Unheld

/-! ### The hooks -/

section
open Watched
variable {b : Build} {ke : Str → ParseError}

theorem step_map {y : C α} {h : α → β} {k : β → Build → Except ParseError Unit × Build} :
    Build.step (y >>= fun a => pure (h a)) b k ke = Build.step y b (fun a => k (h a)) ke := by
  unfold Build.step
  rw [C.bind_run]
  cases y b.w.st.toks b.w.nodes <;> rfl

/-- A step, and what follows in the hook. -/
theorem does_build {x : CB α} {y : C α} {f : α → Watched Build Unit}
    {k : α → Build → Except ParseError Unit × Build} (hx : CAgrees x y b.w.st.toks b.w.nodes fl)
    (hf : ∀ a ns, y b.w.st.toks b.w.nodes = .ok a ns →
      Does (f a) { b with w := { b.w with nodes := ns } } fl (hookOutcome (k a { b with w := { b.w with nodes := ns } }))) :
    Does (build x ke >>= f) b fl (hookOutcome (Build.step y b k ke)) := by
  unfold CAgrees at hx
  show Watched.bind (build x ke) f b fl = _
  unfold Watched.bind build Build.step
  rw [hx]
  unfold CB.lift
  cases h : y b.w.st.toks b.w.nodes with
  | ok a ns => exact hf a ns h
  | err e => rfl
  | panic m => rfl
  | diverge => rfl

theorem does_build_last {x : CB Unit} {y : C Unit} (hx : CAgrees x y b.w.st.toks b.w.nodes fl) :
    Does (build x ke) b fl (hookOutcome (Build.step y b (fun _ b => (.ok (), b)) ke)) := by
  unfold CAgrees at hx
  unfold Does build Build.step
  rw [hx]
  unfold CB.lift
  cases h : y b.w.st.toks b.w.nodes <;> rfl

/-- A step that does not change matchers, when more steps follow. -/
theorem does_read {x : CB α} {y : C α} (hr : CReads y) {f : α → Watched Build Unit} {g : α → C β}
    {k : β → Build → Except ParseError Unit × Build} (hx : CAgrees x y b.w.st.toks b.w.nodes fl)
    (hf : ∀ a, y b.w.st.toks b.w.nodes = .ok a b.w.nodes → Does (f a) b fl (hookOutcome (Build.step (g a) b k ke))) :
    Does (build x ke >>= f) b fl (hookOutcome (Build.step (y >>= g) b k ke)) := by
  have he : Build.step (y >>= g) b k ke = Build.step y b (fun a _ => Build.step (g a) b k ke) ke := by
    unfold Build.step
    rw [C.bind_run]
    cases h : y b.w.st.toks b.w.nodes with
    | ok a ns =>
      obtain rfl := hr.get h
      rfl
    | err e => rfl
    | panic m => rfl
    | diverge => rfl
  rw [he]
  refine does_build hx fun a ns h => ?_
  obtain rfl := hr.get h
  exact hf a h

variable {nt nm d dh : Nat}

/-- A token that is borrowed while more steps follow. -/
theorem does_withTok {t : TokId} (hc : Unheld nt nm d dh fl) {f : Token → Watched Build Unit}
    {g : Token → C β} {k : β → Build → Except ParseError Unit × Build}
    (hf : ∀ tk fl', b.w.st.toks[t]? = some tk → Unheld (max nt b.w.st.toks.length) nm d dh fl' →
      Does (f tk) b fl' (hookOutcome (Build.step (g tk) b k patternError))) :
    Does (Watched.share (.token t) (build (CB.lift (C.tok t)) >>= f)) b fl
      (hookOutcome (Build.step (C.tok t >>= g) b k patternError)) := by
  refine does_share (hc.token t) fun n _ => does_read CReads.tok (CAgrees.lift _) fun tk h => ?_
  have hk : b.w.st.toks[t]? = some tk := by
    unfold C.tok at h
    split at h
    · rename_i k' hk'
      cases h
      exact hk'
    · cases h
  exact hf tk _ hk ((hc.mono (Nat.le_max_left _ _) (Nat.le_refl _) (Nat.le_refl _) (Nat.le_refl _)).share
    (Nat.lt_of_lt_of_le (List.getElem?_eq_some_iff.mp hk).1 (Nat.le_max_right _ _)) _)

theorem does_scopes {x : Held α} {y : M α} {a : α} {st : State} (hx : Agrees x y b.w.st fl) (hy : y b.w.st = .ok a st) :
    Does (scopes x) b fl (.ok a { b with w := { b.w with st := st } }) := by
  unfold Agrees at hx
  unfold Does scopes
  rw [hx]
  unfold Held.lift
  rw [hy]
  rfl

theorem does_bindVar (hc : Unheld nt nm d dh fl) (sc : SCtxId) (n : Str) (m : MatcherId) :
    Does (scopes (bindVarB sc n (.matcher m))) b fl (.ok () (b.bind sc n m)) :=
  does_scopes (agrees_bindVar (hc.names sc) hc.scope) rfl

theorem does_pushErrors (hc : Unheld nt nm d dh fl) (es : List ParseError) :
    Does (pushErrors d es) b fl (.ok () { b with errors := b.errors ++ es }) :=
  does_own (hc.errors d (Nat.le_refl _)) rfl

theorem does_hookError (hc : Unheld nt nm d dh fl) (t : TokId) :
    Does (hookErrorB d t) b fl (hookOutcome (hookError t b)) := by
  refine does_withTok hc fun k fl _ hc => ?_
  rw [step_map]
  exact does_build (CAgrees.lift _) fun _ _ _ => does_pushErrors hc _

theorem does_hookAdextopaScope (hc : Unheld nt nm d dh fl) {root : MatcherId} (hr : nm ≤ root)
    (hp : IsProgram b.w.nodes root) (t : TokId) :
    Does (hookAdextopaScopeB root t) b fl (hookOutcome (hookAdextopaScope root t b)) := by
  refine does_withTok hc fun k fl _ hc => ?_
  cases k.getAttribute "name".toList with
  | none => rfl
  | some n =>
    obtain ⟨_, _, _, _, _, hp⟩ := hp
    exact does_build_last (agrees_setName (hc.newMatcher _ hr) hp rfl)

theorem does_hookAssignment {env : Env} {depth : Nat} {sc : SCtxId} (hc : Unheld nt nm d dh fl)
    (hnm : nm ≤ b.w.nodes.length) (t : TokId) :
    Does (hookAssignmentB env depth sc t) b fl (hookOutcome (hookAssignment env depth sc t b)) := by
  refine does_withTok hc fun k fl _ hc => ?_
  refine does_read CReads.child (CAgrees.lift _) fun i _ => does_withTok hc fun ik fl _ hc => ?_
  refine does_read CReads.child (CAgrees.lift _) fun i _ => does_withTok hc fun vk fl _ hc => ?_
  by_cases h1 : vk.name = "Identifier".toList
  · rw [if_pos h1, if_pos h1, step_map]
    exact does_build (CAgrees.lift _) fun _ _ _ => does_bindVar hc _ _ _
  · rw [if_neg h1, if_neg h1]
    by_cases h2 : vk.name = "PatternDefinition".toList
    · rw [if_pos h2, if_pos h2, step_map]
      refine does_build ?_ fun _ _ _ => does_bindVar hc _ _ _
      exact agrees_constructDefinition (agrees_constructPattern env _ depth) (constructPattern_spec env _ depth) _ _ _
        (hc.fresh.mono hnm)
    · rw [if_neg h2, if_neg h2]
      rfl

theorem agrees_constructScope {env : Env} {depth : Nat} {inScope : MatcherId} {lo : Nat} (hi : lo ≤ inScope) (cs : List TokId) :
    ∀ {ns : List Node}, Fresh lo fl → lo ≤ ns.length →
    CAgrees (constructScopeB env depth inScope cs) (constructScope env depth inScope cs) toks ns fl := by
  induction cs with
  | nil => exact fun _ _ => CAgrees.pure _
  | cons c cs ih =>
    intro ns h hl
    have he : constructScope env depth inScope (c :: cs) = ((C.tok c >>= fun k =>
        if k.name = "PatternDefinitionCaptured".toList ∨ k.name = "PatternDefinition".toList then do
          let m ← constructPattern env depth c
          C.addPattern inScope m.1
        else pure ()) >>= fun _ => constructScope env depth inScope cs) := by
      conv => lhs; unfold constructScope
      rw [C.bind_assoc]
      congr 1
      funext k
      split
      · rw [C.bind_assoc]
      · rfl
    rw [he]
    refine CAgrees.bind (CAgrees.withTok h fun k fl _ h => CAgrees.ite (fun _ => ?_) fun _ => CAgrees.pure _) fun _ ns1 h1 => ih h ?_
    · refine CAgrees.bind (agrees_constructPattern env _ depth c ns fl (h.mono hl)) fun m ns1 h1 => ?_
      exact CAgrees.own (h.matcher _ hi) (CAgrees.lift _)
    · refine Nat.le_trans hl ?_
      have hpost : CPost (C.tok c >>= fun k =>
          if k.name = "PatternDefinitionCaptured".toList ∨ k.name = "PatternDefinition".toList then do
            let m ← constructPattern env depth c
            C.addPattern inScope m.1
          else pure ()) toks ns (fun _ ns' => ns.length ≤ ns'.length) True True := by
        apply CPost.bind
        refine CPost.tok (fun k _ => ?_) fun _ => trivial
        split
        · apply CPost.bind
          refine (constructPattern_spec env _ depth c ns).mono ?_ (fun _ => trivial) (fun _ => trivial)
          rintro p ns2 ⟨hp, _⟩
          unfold CPost
          cases hx : C.addPattern inScope p.1 toks ns2 with
          | ok u ns3 =>
            dsimp only
            rw [addPattern_length hx]
            exact hp.length_le
          | err _ => trivial
          | panic _ => trivial
          | diverge => trivial
        · exact CPost.pure (Nat.le_refl _)
      exact hpost.get h1

theorem does_hookPatternScope {env : Env} {depth : Nat} {inScope : MatcherId} (hi : nm ≤ inScope) (hc : Unheld nt nm d dh fl)
    (hnm : nm ≤ b.w.nodes.length) (t : TokId) :
    Does (hookPatternScopeB env depth inScope t) b fl (hookOutcome (hookPatternScope env depth inScope t b)) :=
  does_withTok hc fun _ _ _ hc => does_build_last (agrees_constructScope hi _ hc.fresh hnm)

theorem does_then {x : Watched Build α} {f : α → Watched Build β} {b b' : Build} {a : α} {o : Outcome Build β}
    (hx : Does x b fl (.ok a b')) (hf : Does (f a) b' fl o) : Does (x >>= f) b fl o :=
  does_bind hx (p := fun _ _ => o) fun _ _ he => by cases he; exact hf

theorem does_getTok (hc : Unheld nt nm d dh fl) {t : TokId} {k : Token} (hk : b.w.st.toks[t]? = some k) :
    Does (build (CB.tok t)) b fl (.ok k b) := by
  have : CAgrees (CB.tok t) (C.tok t) b.w.st.toks b.w.nodes fl := CAgrees.tok hc.token
  unfold CAgrees at this
  unfold Does build
  rw [this]
  unfold CB.lift C.tok
  rw [hk]
  rfl

theorem tok_ok {t : TokId} {k : Token} (h : C.tok t toks ns = .ok k ns) : toks[t]? = some k := by
  unfold C.tok at h
  split at h
  · rename_i k' hk'
    cases h
    exact hk'
  · cases h

theorem does_lookup (hc : Unheld nt nm d dh fl) (isc : SCtxId) (n : Str) :
    Does (scopes (Held.share (.names isc) (lookupVarB isc n))) b fl (.ok (b.w.st.lookup isc n) b) := by
  refine does_scopes (y := lookupVar isc n) (agrees_share (Borrow.free_ne (hc.names isc)) fun _ _ => ?_) rfl
  exact agrees_lookupVar fun i => by rw [Borrows.set_other _ _ (by simp)]; exact hc.scope i

theorem does_importIdentifier {sc isc : SCtxId} {root : MatcherId} {file : Str} (hc : Unheld nt nm d dh fl)
    (hr : nm ≤ root) (hp : IsProgram b.w.nodes root) (c : TokId) :
    Does (importIdentifierB sc isc root file c) b fl (hookOutcome (importIdentifier sc isc root file c b)) := by
  refine does_withTok hc fun k fl _ hc => ?_
  refine does_read CReads.findChild (CAgrees.findChild hc.token) fun o _ => ?_
  refine does_read CReads.ofOpt (CAgrees.lift _) fun it _ => ?_
  refine does_read CReads.tok (CAgrees.tok hc.token) fun ik hik => ?_
  have hik := tok_ok hik
  have he : (C.findChild k "ImportAsName" >>= fun o =>
        match o with
        | some a => C.tok a >>= fun t => pure t.getValue >>= fun name => (pure (ik, name) : C (Token × Str))
        | none => pure ik.getValue >>= fun name => pure (ik, name)) =
      ((C.findChild k "ImportAsName" >>= fun o =>
        (match o with
        | some a => do pure (← C.tok a).getValue
        | none => pure ik.getValue)) >>= fun name => pure (ik, name)) := by
    rw [C.bind_assoc]
    congr 1
    funext o
    cases o with
    | none => rfl
    | some a => exact (C.bind_assoc _ _ _).symm
  refine Eq.mp (congrArg (fun y => Does _ b fl (hookOutcome (Build.step y b _ patternError))) he.symm) ?_
  rw [step_map]
  refine does_build ?_ fun name ns hn => ?_
  · refine CAgrees.bind (CAgrees.findChild hc.token) fun o _ _ => ?_
    cases o with
    | none => exact CAgrees.pure _
    | some a => exact CAgrees.bind (CAgrees.tok hc.token) fun _ _ _ => CAgrees.pure _
  have hreads : CReads (C.findChild k "ImportAsName" >>= fun o =>
        (match o with
        | some a => do pure (← C.tok a).getValue
        | none => pure ik.getValue)) := by
    refine CReads.bind CReads.findChild fun o => ?_
    cases o with
    | none => exact CReads.pure
    | some a => exact CReads.bind CReads.tok fun _ => CReads.pure
  obtain rfl := hreads.get hn
  dsimp only
  by_cases h1 : ik.getValue = "_".toList
  · rw [if_pos h1, if_pos h1]
    by_cases h2 : name = "_".toList
    · rw [if_pos h2, if_pos h2]
      exact does_then (does_getTok hc hik) rfl
    · rw [if_neg h2, if_neg h2]
      obtain ⟨_, _, _, _, _, hp⟩ := hp
      exact does_build (agrees_setName (hc.newMatcher _ hr) hp rfl) fun _ _ _ => does_bindVar hc _ _ _
  · rw [if_neg h1, if_neg h1]
    refine does_then (does_lookup hc _ _) ?_
    have hfail : ∀ {e : ParseError}, Does (build (CB.tok it) >>= fun _ => (Watched.fail e : Watched Build Unit)) b fl
        (hookOutcome (Build.fail e b)) := does_then (does_getTok hc hik) rfl
    cases b.w.st.lookup isc ik.getValue with
    | none => exact hfail
    | some v =>
      cases v with
      | matcher m =>
        exact does_then (a := b.w.nodes.length) rfl (does_then rfl (does_bindVar hc _ _ _))
      | str _ => exact hfail
      | token _ => exact hfail

/-- The names of an import, one after the other. -/
theorem does_importIdentifiers {w0 : World} {isc : SCtxId} {root : MatcherId} {file : Str} (hc : Unheld nt nm d dh fl)
    (hr0 : w0.nodes.length ≤ root) (hr : nm ≤ root) (cs : List TokId) :
    ∀ {b' : Build}, Going w0 b' → IsProgram b'.w.nodes root →
    Does (importIdentifiersB w0.st.sctxs.length isc root file cs) b' fl
      (hookOutcome (importIdentifiers w0.st.sctxs.length isc root file cs b')) := by
  induction cs with
  | nil => exact fun _ _ => rfl
  | cons c cs ih =>
    intro b' hg hp
    have h1 := does_importIdentifier (sc := w0.st.sctxs.length) (isc := isc) (file := file) hc
      hr hp c
    obtain ⟨h2, h3⟩ := importIdentifier_safe (isc := isc) (file := file) hg hr0 hp c
    unfold importIdentifiersB importIdentifiers
    cases hx : importIdentifier w0.st.sctxs.length isc root file c b' with
    | mk r b1 =>
      rw [hx] at h1 h2
      cases r with
      | ok u => exact does_then h1 (ih h2 (h3 u b1 hx))
      | error e => exact does_bind h1 (p := fun _ s => .ok () s) fun _ _ he => by cases he

/-- What compiling gives without borrow flags, with flags that are as before. -/
def BuildRes.flagged (r : BuildRes) (fl : Borrows) : BuildBRes :=
  match r with
  | .ok m sc w => .ok m sc w fl
  | .err es => .err es fl
  | .panic m => .panic m
  | .diverge => .diverge

/-- What is wanted of compiling a file inside of `d` imports. -/
def FileAgrees (d : Nat) (cB : Str → World → Borrows → BuildBRes) (c : Str → World → BuildRes) : Prop :=
  ∀ file w fl, Milds w.nodes → Unheld w.st.toks.length w.nodes.length (d + 1) (d + 1) fl →
    cB file w fl = (c file w).flagged fl

theorem does_hookImport {env : Env} {w0 : World} {cB : Str → World → Borrows → BuildBRes} {c : Str → World → BuildRes}
    {fromFile : Option Str} (hcB : FileAgrees d cB c) (hf : ∀ file w, Milds w.nodes → FileSafe w (c file w))
    (hc : Unheld nt nm d (d + 1) fl) (hnt : nt ≤ b.w.st.toks.length) (hnm : nm ≤ b.w.nodes.length) (hg : Going w0 b)
    (t : TokId) : Does (hookImportB env d cB fromFile w0.st.sctxs.length t) b fl
      (hookOutcome (hookImport env c fromFile w0.st.sctxs.length t b)) := by
  cases fromFile with
  | none => exact does_build (CAgrees.tok hc.token) fun _ _ _ => rfl
  | some from_ =>
    unfold hookImportB hookImport
    refine does_withTok hc fun k fl _ hc => ?_
    refine does_read CReads.findChild (CAgrees.findChild hc.token) fun o _ => ?_
    refine does_read CReads.ofOpt (CAgrees.lift _) fun ids _ => ?_
    refine does_withTok hc fun idk fl _ hc => ?_
    refine does_read CReads.findChild (CAgrees.findChild hc.token) fun o _ => ?_
    refine does_read CReads.ofOpt (CAgrees.lift _) fun path _ => ?_
    refine does_read CReads.tok (CAgrees.tok hc.token) fun pk _ => ?_
    refine does_read CReads.ofOpt (CAgrees.lift _) fun joined _ => ?_
    rw [step_map]
    refine does_build (CAgrees.lift _) fun file ns hfile => ?_
    obtain rfl := CReads.ofOpt.get hfile
    have hc1 : Unheld b.w.st.toks.length b.w.nodes.length (d + 1) (d + 1) fl :=
      hc.mono (by omega) hnm (Nat.le_succ d) (Nat.le_refl _)
    have h1 := hcB file b.w fl hg.milds hc1
    have h2 := hf file b.w hg.milds
    unfold Does importedB
    dsimp only
    rw [h1]
    cases hx : c file b.w with
    | ok root isc w =>
      rw [hx] at h2
      obtain ⟨g1, g2, g3, g4, g5, g6⟩ := h2
      exact does_importIdentifiers (b' := { b with w := w }) hc (Nat.le_trans hg.nodes.length_le g4) (Nat.le_trans hnm g4) idk.children
        ⟨hg.nodes.trans g1, hg.toks.trans g2, g3, hg.root.prefix g1, hg.inner.prefix g1, hg.own.grow g6.scopes g6.sctxs⟩ g5
    | err es => exact does_then (does_pushErrors hc es) rfl
    | panic m => rfl
    | diverge => rfl

/-! ### Building -/

/-- The hooks, with and without flags. -/
def bothHooks (env : Env) (d : Nat) (cB : Str → World → Borrows → BuildBRes) (c : Str → World → BuildRes) (fromFile : Option Str)
    (depth : Nat) (root inScope : MatcherId) (sc : SCtxId) : List (Str × HookB Build × Hook Build) :=
  [("Error".toList, hookErrorB d, hookError),
   ("AdextopaScope".toList, hookAdextopaScopeB root, hookAdextopaScope root),
   ("AssignmentExpression".toList, hookAssignmentB env depth sc, hookAssignment env depth sc),
   ("ImportStatement".toList, hookImportB env d cB fromFile sc, hookImport env c fromFile sc),
   ("PatternScope".toList, hookPatternScopeB env depth inScope, hookPatternScope env depth inScope)]

theorem HookSafe.keep {w0 : World} {r : Except ParseError Unit × Build} (h : HookSafe w0 r) :
    ∀ a s', r = (.ok a, s') → Going w0 s' := by
  rintro a s' rfl
  exact h

theorem hooks_agree {env : Env} {w0 : World} {cB : Str → World → Borrows → BuildBRes} {c : Str → World → BuildRes}
    {fromFile : Option Str} {depth : Nat} {l : List TokId} (hcB : FileAgrees d cB c)
    (hf : ∀ file w, Milds w.nodes → FileSafe w (c file w)) :
    HooksAgree d l (Unheld w0.st.toks.length w0.nodes.length d d) (Going w0)
      (bothHooks env d cB c fromFile depth w0.nodes.length (w0.nodes.length + 1) w0.st.sctxs.length) := by
  intro i n hB h hi u _ b fl hg hc
  have hown := hc.hook d i (Nat.le_refl _)
  have hc := hc.inside i
  have hnt := hg.toks.length_le
  have hnm := hg.nodes.length_le
  match i, hi with
  | 0, hi => cases hi; exact ⟨does_own hown (does_hookError hc u), (hookError_safe hg u).keep⟩
  | 1, hi =>
    cases hi
    exact ⟨does_own hown (does_hookAdextopaScope hc (Nat.le_refl _) hg.root u), (hookAdextopaScope_safe hg u).keep⟩
  | 2, hi => cases hi; exact ⟨does_own hown (does_hookAssignment hc hnm u), (hookAssignment_safe hg u).keep⟩
  | 3, hi => cases hi; exact ⟨does_own hown (does_hookImport hcB hf hc hnt hnm hg u), (hookImport_safe hf hg u).keep⟩
  | 4, hi =>
    cases hi
    exact ⟨does_own hown (does_hookPatternScope (Nat.le_succ _) hc hnm u), (hookPatternScope_safe hg u).keep⟩
  | _ + 5, hi => cases hi

theorem Going.start {w : World} (hw : Milds w.nodes) (name : Str) :
    Going w ⟨⟨w.nodes ++ preamble w.nodes.length w.st.sctxs.length name, w.st.newSCtx.2⟩, [], none⟩ := by
  have hat : ∀ i, (w.nodes ++ preamble w.nodes.length w.st.sctxs.length name)[w.nodes.length + i]? =
      (preamble w.nodes.length w.st.sctxs.length name)[i]? := by
    intro i
    rw [List.getElem?_append_right (by omega), Nat.add_sub_cancel_left]
  refine ⟨⟨_, rfl⟩, ⟨[], by simp [State.newSCtx]⟩, hw.append ?_, ⟨_, _, _, _, _, hat 0⟩, ⟨_, _, _, _, _, hat 1⟩,
    OwnScope.start _⟩
  intro nd hnd
  simp only [preamble, List.mem_cons, List.not_mem_nil, or_false] at hnd
  rcases hnd with rfl | rfl | rfl | rfl <;> trivial

theorem buildResult_flagged {ctx : Ctx} {root : MatcherId} {sc : SCtxId} (h1 : fl (.context d) = .shared 0)
    (h2 : fl (.errors d) = .shared 0) (r : VRes Build) :
    buildResultB d ctx root sc (r.flagged fl) = (buildResult ctx root sc r).flagged fl := by
  cases r with
  | ok b => rfl
  | err e b =>
    unfold buildResultB buildResult
    dsimp only [VRes.flagged]
    cases b.crash with
    | some o => cases o <;> rfl
    | none =>
      dsimp only
      split
      · have hne : ¬ fl (.context d) = .exclusive := by rw [h1]; intro h; cases h
        simp only [if_neg hne, if_pos h2]
        cases ctx.errorString e.message (e.range.getD ⟨0, 0⟩) <;> rfl
      · rfl
  | dangling => rfl
  | diverge => rfl

theorem build_agrees {env : Env} {w : World} {cB : Str → World → Borrows → BuildBRes} {c : Str → World → BuildRes}
    {fromFile : Option Str} {depth : Nat} {t : TokId} {ctx : Ctx} {name : Str} {l : List TokId} (hcB : FileAgrees d cB c)
    (hf : ∀ file w, Milds w.nodes → FileSafe w (c file w)) (hw : Milds w.nodes) (hl : Pre w.st.toks [t] l)
    (hc : Unheld w.st.toks.length w.nodes.length d d fl) :
    buildMatcherFromTokensB env d cB depth t ctx name fromFile w fl =
      (buildMatcherFromTokens env c depth t ctx name fromFile w).flagged fl := by
  unfold buildMatcherFromTokensB buildMatcherFromTokens
  rw [if_neg (hc.token t)]
  cases w.st.toks[t]? with
  | none => rfl
  | some k =>
    dsimp only
    by_cases hk : k.name ≠ "Script".toList
    · rw [if_pos hk, if_pos hk]
      rfl
    · rw [if_neg hk, if_neg hk, if_pos (hc.newMatcher _ (Nat.le_refl _))]
      rw [← buildResult_flagged (hc.context d (Nat.le_refl _)) (hc.errors d (Nat.le_refl _))]
      congr 1
      exact visit_agrees (hooks := bothHooks env d cB c fromFile depth w.nodes.length (w.nodes.length + 1) w.st.sctxs.length)
        (hooks_agree (w0 := w) hcB hf)
        (fun u hu => ⟨_, List.getElem?_eq_getElem (hl.valid u hu), hl.closed u hu _ (List.getElem?_eq_getElem (hl.valid u hu))⟩)
        (fun b hg u hu => by
          obtain ⟨ys, hys⟩ := hg.toks
          rw [← hys, List.getElem?_append_left (hl.valid u hu)])
        (fun fl u h hu => ⟨h.token u, fun n _ => h.share (hl.valid u hu) _⟩)
        (hl.roots t (by simp)) (Going.start hw name) hc

end

attribute [local irreducible] Script.switchMatcher Script.programMatcher Script.script tokenize tokenizeB
  buildMatcherFromTokens buildMatcherFromTokensB String.toList

/-- `compile_script_from_file_internal` with the given fuel, inside of `d` imports. -/
def importFileB (env : Env) (fuel d : Nat) (file : Str) (w : World) (fl : Borrows) : BuildBRes :=
  match env.canonical file with
  | none => .panic "called `Result::unwrap()` on an `Err` value"
  | some full =>
    match env.read full with
    | none => .panic "called `Result::unwrap()` on an `Err` value"
    | some src => compileScriptB env fuel (d + 1) ⟨src, full⟩ file (some full) w fl

theorem compileScriptB_succ (env : Env) (fuel d : Nat) (parser : Parser) (name : Str) (fromFile : Option Str)
    (w : World) (fl : Borrows) : compileScriptB env (fuel + 1) d parser name fromFile w fl =
      match (do
        Held.share (.context d) do
          registerB w.st.sctxs.length "SwitchMatcher".toList ((Script.switchMatcher env.uni).run w.nodes).1
          registerB w.st.sctxs.length "ProgramMatcher".toList
            ((Script.programMatcher env.uni).run ((Script.switchMatcher env.uni).run w.nodes).2).1
        tokenizeB (tableOf (setup env parser name w).nodes) env.cfg fuel d (setup env parser name w).ctx
          (setup env parser name w).start : Held (Except Failure TokId)) w.st.newSCtx.2 fl with
      | .ok (.ok t) st fl =>
        buildMatcherFromTokensB env d (importFileB env fuel d) st.toks.length t (setup env parser name w).ctx name fromFile
          ⟨(setup env parser name w).nodes, st⟩ fl
      | .ok (.error .fail) _ fl =>
        .err [⟨"Failed to parse script with an unknown error. This is likely a bug. Please report this issue to the adextopa maintainers.".toList,
          none⟩] fl
      | .ok (.error (.error e)) _ fl => .err [e] fl
      | .panic m => .panic m
      | .diverge => .diverge
      | .conflict c => .conflict c := rfl

theorem agrees_register1 {s : State} {nt nm d dh : Nat} (hc : Unheld nt nm d dh fl) (sc : SCtxId) (n : Str) (m : MatcherId) :
    Agrees (registerB sc n m) (bindVar sc n (.matcher m)) s fl := by
  refine agrees_share (hc.matcher m) fun k _ => agrees_bindVar ?_ fun i => ?_
  · rw [Borrows.set_other _ _ (by simp)]; exact hc.names sc
  · rw [Borrows.set_other _ _ (by simp)]; exact hc.scope i

theorem Unheld.shareContext {nt nm d dh : Nat} (h : Unheld nt nm d dh fl) (n : Nat) :
    Unheld nt nm (d + 1) dh (fl.set (.context d) (.shared n)) where
  token u := by rw [Borrows.set_other _ _ (by simp)]; exact h.token u
  newToken u hu := by rw [Borrows.set_other _ _ (by simp)]; exact h.newToken u hu
  names sc := by rw [Borrows.set_other _ _ (by simp)]; exact h.names sc
  scope i := by rw [Borrows.set_other _ _ (by simp)]; exact h.scope i
  matcher m := by rw [Borrows.set_other _ _ (by simp)]; exact h.matcher m
  newMatcher m hm := by rw [Borrows.set_other _ _ (by simp)]; exact h.newMatcher m hm
  context j hj := by
    have hne : j ≠ d := by omega
    rw [Borrows.set_other _ _ (by simp [hne])]
    exact h.context j (by omega)
  errors j hj := by rw [Borrows.set_other _ _ (by simp)]; exact h.errors j (by omega)
  hook j i hj := by rw [Borrows.set_other _ _ (by simp)]; exact h.hook j i hj

theorem compile_agrees (env : Env) (fuel : Nat) : ∀ d parser name fromFile w fl, Milds w.nodes →
    Unheld w.st.toks.length w.nodes.length d d fl →
    compileScriptB env fuel d parser name fromFile w fl = (compileScript env fuel parser name fromFile w).flagged fl := by
  induction fuel with
  | zero => exact fun _ _ _ _ _ _ _ _ => rfl
  | succ fuel ih =>
    intro d parser name fromFile w fl hw hc
    rw [compileScript_succ, compileScriptB_succ]
    have hm := setup_milds env parser name hw
    have hparse : Agrees (do
        Held.share (.context d) do
          registerB w.st.sctxs.length "SwitchMatcher".toList ((Script.switchMatcher env.uni).run w.nodes).1
          registerB w.st.sctxs.length "ProgramMatcher".toList
            ((Script.programMatcher env.uni).run ((Script.switchMatcher env.uni).run w.nodes).2).1
        tokenizeB (tableOf (setup env parser name w).nodes) env.cfg fuel d (setup env parser name w).ctx
          (setup env parser name w).start) (do
        (do
          bindVar w.st.sctxs.length "SwitchMatcher".toList (.matcher ((Script.switchMatcher env.uni).run w.nodes).1)
          bindVar w.st.sctxs.length "ProgramMatcher".toList
            (.matcher ((Script.programMatcher env.uni).run ((Script.switchMatcher env.uni).run w.nodes).2).1))
        tokenize (tableOf (setup env parser name w).nodes) env.cfg fuel (setup env parser name w).ctx
          (setup env parser name w).start) w.st.newSCtx.2 fl := by
      refine agrees_bind (agrees_share (Borrow.free_ne (hc.context d (Nat.le_refl _))) fun n _ => ?_) fun _ s1 h1 => ?_
      · have hc := hc.shareContext (n + 1)
        exact agrees_bind (agrees_register1 hc _ _ _) fun _ _ _ => agrees_register1 hc _ _ _
      · refine agrees_tokenize (fun m => (hm.table m).grafts) hc.quiet ?_
        have : s1 = (setup env parser name w).st := by
          cases h1
          rfl
        rw [this, setup_toks]
    unfold Agrees Held.lift at hparse
    have hrun : (do
        (do
          bindVar w.st.sctxs.length "SwitchMatcher".toList (.matcher ((Script.switchMatcher env.uni).run w.nodes).1)
          bindVar w.st.sctxs.length "ProgramMatcher".toList
            (.matcher ((Script.programMatcher env.uni).run ((Script.switchMatcher env.uni).run w.nodes).2).1))
        tokenize (tableOf (setup env parser name w).nodes) env.cfg fuel (setup env parser name w).ctx
          (setup env parser name w).start : M (Except Failure TokId)) w.st.newSCtx.2 =
        tokenize (tableOf (setup env parser name w).nodes) env.cfg fuel (setup env parser name w).ctx
          (setup env parser name w).start (setup env parser name w).st := rfl
    rw [hrun] at hparse
    rw [hparse]
    cases ht : tokenize (tableOf (setup env parser name w).nodes) env.cfg fuel (setup env parser name w).ctx
        (setup env parser name w).start (setup env parser name w).st with
    | panic m => rfl
    | diverge => rfl
    | ok r st =>
      cases r with
      | error f => cases f <;> rfl
      | ok t =>
        dsimp only
        obtain ⟨l, hp, -⟩ := C36_tokenize (fun m => (hm.table m).grafts) ht
        have hfr := C05_tokenize_frame (fun m => (hm.table m).frame) ht
        rw [setup_toks] at hfr
        obtain ⟨ys, h1, -⟩ := setup_nodes env parser name w
        refine build_agrees (fun file w fl hw hc => ?_) (fun file w hw => ?_) hm hp
          (hc.mono (prefix_of_same hfr.1).length_le (by rw [h1]; simp) (Nat.le_refl _) (Nat.le_refl _))
        · unfold importFileB importFile
          cases env.canonical file with
          | none => rfl
          | some full =>
            dsimp only
            cases env.read full with
            | none => rfl
            | some src => exact ih _ _ _ _ w fl hw hc
        · unfold importFile
          cases env.canonical file with
          | none => trivial
          | some full =>
            dsimp only
            cases env.read full with
            | none => trivial
            | some src => exact compile_safe _ _ _ _ _ w hw

end Adx
