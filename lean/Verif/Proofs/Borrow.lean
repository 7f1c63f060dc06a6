import Verif.Model.Borrow
import Verif.Props.Tree
import Verif.Proofs.TokInv
import Verif.Proofs.Step
/-
  Running with borrow flags is running without.
-/
namespace Adx

open Held

/-- `b` does to `s` what `a` does, and leaves the flags as they are. -/
def Agrees {α : Type} (b : Held α) (a : M α) (s : State) (fl : Borrows) : Prop := b s fl = lift a s fl

variable {α β : Type} {s : State} {fl : Borrows} {c : Cell} {base : Nat}

theorem Held.bind_def (x : Held α) (f : α → Held β) : (x >>= f) = Held.bind x f := rfl

theorem Borrows.set_set (fl : Borrows) (c : Cell) (a b : Borrow) (h : fl c = b) : (fl.set c a).set c b = fl := by
  funext d
  unfold Borrows.set
  by_cases hd : d = c
  · simp [hd, h]
  · simp [hd]

theorem Borrows.set_same (fl : Borrows) (c : Cell) (a : Borrow) : (fl.set c a) c = a := by simp [Borrows.set]

theorem Borrows.set_other (fl : Borrows) {c d : Cell} (a : Borrow) (h : d ≠ c) : (fl.set c a) d = fl d := by
  simp [Borrows.set, h]

theorem agrees_lift (a : M α) : Agrees (lift a) a s fl := rfl

theorem agrees_pure (a : α) : Agrees (pure a) (pure a) s fl := rfl

theorem agrees_bind {x : Held α} {x' : M α} {f : α → Held β} {f' : α → M β} (hx : Agrees x x' s fl)
    (hf : ∀ a s1, x' s = .ok a s1 → Agrees (f a) (f' a) s1 fl) : Agrees (x >>= f) (x' >>= f') s fl := by
  unfold Agrees at hx
  show Held.bind x f s fl = lift (x' >>= f') s fl
  unfold Held.bind
  rw [hx]
  unfold lift
  rw [bind_eq]
  unfold M.bind
  cases h : x' s with
  | ok a s1 => exact hf a s1 h
  | panic m => rfl
  | diverge => rfl

theorem M.bind_assoc {γ : Type} (x : M α) (f : α → M β) (g : β → M γ) :
    ((x >>= f) >>= g) = (x >>= fun a => f a >>= g) := by
  funext s
  simp only [bind_eq]
  unfold M.bind
  cases x s <;> rfl

theorem agrees_assoc {γ : Type} {b : Held γ} {x : M α} {f : α → M β} {g : β → M γ}
    (h : Agrees b ((x >>= f) >>= g) s fl) : Agrees b (x >>= fun a => f a >>= g) s fl := by
  rw [← M.bind_assoc]
  exact h

theorem agrees_last {x : Held α} {x' : M α} {f : α → Held α} (hx : Agrees x x' s fl)
    (hf : ∀ a s1, x' s = .ok a s1 → Agrees (f a) (pure a) s1 fl) : Agrees (x >>= f) x' s fl := by
  have : x' = (x' >>= fun a => pure a) := by
    funext s
    rw [bind_eq]
    unfold M.bind
    cases x' s <;> rfl
  rw [this]
  exact agrees_bind hx hf

theorem agrees_share {x : Held α} {x' : M α} (hc : fl c ≠ .exclusive)
    (hx : ∀ n, fl c = .shared n → Agrees x x' s (fl.set c (.shared (n + 1)))) : Agrees (share c x) x' s fl := by
  unfold Agrees share
  cases h : fl c with
  | exclusive => exact absurd h hc
  | shared n =>
    have hx := hx n h
    unfold Agrees at hx
    dsimp only
    rw [hx]
    unfold lift
    cases x' s with
    | ok a s1 =>
      dsimp only
      rw [Borrows.set_same]
      dsimp only
      rw [Nat.add_sub_cancel, Borrows.set_set _ _ _ _ h]
    | panic m => rfl
    | diverge => rfl

theorem agrees_own {x : Held α} {x' : M α} (hc : fl c = .shared 0) (hx : Agrees x x' s (fl.set c .exclusive)) :
    Agrees (own c x) x' s fl := by
  unfold Agrees at hx
  unfold Agrees own
  rw [hc]
  show (match x s (fl.set c .exclusive) with
    | BRes.ok a s' fl' => BRes.ok a s' (fl'.set c (.shared 0))
    | r => r) = _
  rw [hx]
  unfold lift
  cases x' s with
  | ok a s1 =>
    dsimp only
    rw [Borrows.set_set _ _ _ _ hc]
  | panic m => rfl
  | diverge => rfl

/-- What only borrows. -/
theorem agrees_skip {x : Held Unit} {f : Unit → Held α} {a : M α} (hx : Agrees x (pure ()) s fl)
    (h : Agrees (f ()) a s fl) : Agrees (x >>= f) a s fl := by
  have : a = ((pure () : M Unit) >>= fun _ => a) := rfl
  rw [this]
  refine agrees_bind hx fun u s1 h1 => ?_
  cases h1
  exact h

theorem agrees_touch1 (hc : fl c ≠ .exclusive) : Agrees (touch c) (pure ()) s fl :=
  agrees_share hc fun _ _ => agrees_pure _

theorem agrees_touch {f : Unit → Held α} {a : M α} (hc : fl c ≠ .exclusive)
    (h : Agrees (f ()) a s fl) : Agrees (touch c >>= f) a s fl := agrees_skip (agrees_touch1 hc) h

theorem agrees_touchMut {f : Unit → Held α} {a : M α} (hc : fl c = .shared 0)
    (h : Agrees (f ()) a s fl) : Agrees (touchMut c >>= f) a s fl :=
  agrees_skip (agrees_own hc (agrees_pure _)) h

theorem agrees_getTok {t : TokId} (hc : fl (.token t) ≠ .exclusive) : Agrees (getTokB t) (getTok t) s fl :=
  agrees_share hc fun _ _ => agrees_lift _

theorem agrees_modTok {t : TokId} {f : Token → Token} (hc : fl (.token t) = .shared 0) :
    Agrees (modTokB t f) (modTok t f) s fl := agrees_own hc (agrees_lift _)

theorem agrees_if {p : Prop} [Decidable p] {x y : Held α} {x' y' : M α} (h : p → Agrees x x' s fl)
    (h' : ¬ p → Agrees y y' s fl) : Agrees (if p then x else y) (if p then x' else y') s fl := by
  by_cases hp : p
  · rw [if_pos hp, if_pos hp]
    exact h hp
  · rw [if_neg hp, if_neg hp]
    exact h' hp

theorem Borrow.free_ne {b : Borrow} (h : b = .shared 0) : b ≠ .exclusive := by
  rw [h]
  intro h
  cases h

/-- The flags when a matcher is called with context `k`: nothing is borrowed but matchers,
contexts and tokens that were there before token `base`; these are shared, and no context
behind `k` is borrowed. -/
structure Quiet (base k : Nat) (fl : Borrows) : Prop where
  token : ∀ t, fl (.token t) ≠ .exclusive
  new : ∀ t, base ≤ t → fl (.token t) = .shared 0
  names : ∀ sc, fl (.names sc) = .shared 0
  scope : ∀ i, fl (.scope i) = .shared 0
  matcher : ∀ m, fl (.matcher m) ≠ .exclusive
  behind : ∀ j, k < j → fl (.context j) = .shared 0
  context : fl (.context k) ≠ .exclusive

theorem Quiet.succ {k : Nat} (h : Quiet base k fl) : Quiet base (k + 1) fl where
  token := h.token
  new := h.new
  names := h.names
  scope := h.scope
  matcher := h.matcher
  behind := fun j hj => h.behind j (by omega)
  context := Borrow.free_ne (h.behind _ (by omega))

theorem Quiet.shareMatcher {k n : Nat} (h : Quiet base k fl) (m : MatcherId) : Quiet base k (fl.set (.matcher m) (.shared n)) where
  token := fun t => by rw [Borrows.set_other _ _ (by simp)]; exact h.token t
  new := fun t => by rw [Borrows.set_other _ _ (by simp)]; exact h.new t
  names := fun t => by rw [Borrows.set_other _ _ (by simp)]; exact h.names t
  scope := fun t => by rw [Borrows.set_other _ _ (by simp)]; exact h.scope t
  matcher := fun t => by
    by_cases ht : t = m
    · subst ht
      rw [Borrows.set_same]
      intro h
      cases h
    · rw [Borrows.set_other _ _ (by simpa using ht)]
      exact h.matcher t
  behind := fun t ht => by rw [Borrows.set_other _ _ (by simp)]; exact h.behind t ht
  context := by rw [Borrows.set_other _ _ (by simp)]; exact h.context

theorem Quiet.shareContext {k n : Nat} (h : Quiet base k fl) : Quiet base k (fl.set (.context k) (.shared n)) where
  token := fun t => by rw [Borrows.set_other _ _ (by simp)]; exact h.token t
  new := fun t => by rw [Borrows.set_other _ _ (by simp)]; exact h.new t
  names := fun t => by rw [Borrows.set_other _ _ (by simp)]; exact h.names t
  scope := fun t => by rw [Borrows.set_other _ _ (by simp)]; exact h.scope t
  matcher := fun t => by rw [Borrows.set_other _ _ (by simp)]; exact h.matcher t
  behind := fun t ht => by
    rw [Borrows.set_other _ _ (by simp; omega)]
    exact h.behind t ht
  context := by
    rw [Borrows.set_same]
    intro h
    cases h

/-! ### The heap does not shrink -/

/-- There are as many tokens as before, or more. -/
def Longer (s s' : State) : Prop := s.toks.length ≤ s'.toks.length

theorem longer_steps : Steps Longer := ⟨fun _ => Nat.le_refl _, Nat.le_trans⟩

theorem longer_modTok (t : TokId) (f : Token → Token) : Pres Longer (modTok t f) :=
  Steps.modTok fun s k _ => by
    show _ ≤ (List.set _ _ _).length
    rw [List.length_set]

theorem longer_addToken (prog : TokId) (ps : PS) (t : TokId) (a u : Bool) : Pres Longer (addToken prog ps t a u) := by
  have H := longer_steps
  unfold addToken
  refine H.bind ?_ fun _ => H.bind (H.getTok t) fun _ => H.bind (longer_modTok _ _) fun _ => H.pure _
  unfold prepToken
  refine H.bind (H.getTok t) fun tk => ?_
  split
  · split
    · exact longer_modTok _ _
    · exact H.pure _
  · split
    · exact Pres.panic _
    · exact H.pure _

theorem longer_handleToken (prog : TokId) (ps : PS) (t : TokId) (a u : Bool) : Pres Longer (handleToken prog ps t a u) :=
  longer_steps.bind (longer_steps.getTok t) fun _ => longer_addToken _ _ _ _ _

theorem longer_extractLoop (prog : TokId) (u : Bool) : ∀ (l : List TokId) (ps : PS), Pres Longer (extractLoop prog u l ps) := by
  have H := longer_steps
  intro l
  induction l with
  | nil => intro ps; exact H.pure _
  | cons c l ih =>
    intro ps
    unfold extractLoop
    refine H.bind (H.getTok c) fun tk => ?_
    split
    · exact ih _
    · exact H.bind (longer_addToken _ _ _ _ _) fun _ => ih _

theorem longer_handleExtract (prog : TokId) (ps : PS) (t : TokId) (u : Bool) : Pres Longer (handleExtract prog ps t u) :=
  longer_steps.bind (longer_steps.getTok t) fun _ => longer_extractLoop _ _ _ _

theorem longer_handleSkip (cfg : Cfg) (ps : PS) (o : Nat) (x : Int) : Pres Longer (handleSkip cfg ps o x) :=
  longer_steps.bind (longer_steps.addOffset _ _ _) fun _ => longer_steps.pure _

theorem longer_payload (cfg : Cfg) (prog : TokId) (ps : PS) (o : Nat) (d : Success) :
    Pres Longer (handlePayload cfg prog ps o d) := by
  unfold handlePayload
  split
  · exact longer_handleToken _ _ _ _ _
  · exact longer_handleExtract _ _ _ _
  · exact longer_handleSkip _ _ _ _
  · exact longer_steps.pure _

theorem longer_finalize (prog : TokId) (ps : PS) (iter : Option (Nat × Nat)) (lc : Nat) (b : Bool) :
    Pres Longer (finalizeProgram prog ps iter lc b) := by
  have H := longer_steps
  unfold finalizeProgram
  dsimp only
  repeat' split
  all_goals first | exact H.pure _ | exact H.bind (longer_modTok _ _) fun _ => H.pure _

theorem longer_runPatterns {T : Table} {cfg : Cfg} {rec_ : ExecFn} (hp : ∀ m c sc, Pres Longer (rec_ m c sc)) {prog : TokId}
    {sc : SCtxId} {o : Nat} {iter : Option (Nat × Nat)} {firstStop : Bool} {lc : Nat} : ∀ (l : List MatcherId) (ps : PS),
    Pres Longer (runPatterns T cfg rec_ prog sc o iter firstStop lc l ps) := by
  have H := longer_steps
  intro l
  induction l with
  | nil => intro ps; exact H.pure _
  | cons p l ih =>
    intro ps
    unfold runPatterns
    refine H.bind (hp _ _ _) fun r => ?_
    split
    · refine H.bind (H.getTok _) fun tk => ?_
      split
      · exact ih _
      · split
        · exact H.pure _
        · exact H.bind (longer_handleToken _ _ _ _ _) fun _ => ih _
    · refine H.bind (H.getTok _) fun tk => ?_
      split
      · exact ih _
      · split
        · exact H.pure _
        · exact H.bind (longer_handleExtract _ _ _ _) fun _ => ih _
    · split
      · exact H.pure _
      · split
        · exact H.bind (longer_handleSkip _ _ _ _) fun _ => ih _
        · exact ih _
    all_goals first
      | exact H.pure _
      | refine H.bind (H.dbg _ _) fun _ => ?_
        repeat' split
        all_goals first | exact H.pure _ | exact ih _ | exact H.bind (longer_finalize _ _ _ _ _) fun _ => H.pure _

/-! ### Scopes -/

theorem agrees_touchScopes (h : ∀ i, fl (.scope i) = .shared 0) (is : List ScopeId) :
    Agrees (touchScopes is) (pure ()) s fl := by
  induction is with
  | nil => exact agrees_pure _
  | cons i is ih => exact agrees_touch (Borrow.free_ne (h i)) ih

theorem agrees_getState {f : State → Held α} {a : M α} (h : Agrees (f s) a s fl) :
    Agrees (lift M.getState >>= f) a s fl := h

theorem agrees_lookupVar {sc : SCtxId} {k : Str} (h : ∀ i, fl (.scope i) = .shared 0) :
    Agrees (lookupVarB sc k) (lookupVar sc k) s fl :=
  agrees_getState (agrees_skip (agrees_touchScopes h _) (agrees_lift _))

theorem agrees_setVar {sc : SCtxId} {k : Str} {v : Var} (h : ∀ i, fl (.scope i) = .shared 0) :
    Agrees (setVarB sc k v) (bindVar sc k v) s fl := by
  refine agrees_getState ?_
  cases s.sctxs[sc]?.getD [] with
  | nil => exact agrees_lift _
  | cons top l => exact agrees_own (h top) (agrees_lift _)

theorem agrees_bindVar {sc : SCtxId} {k : Str} {v : Var} (hn : fl (.names sc) = .shared 0)
    (h : ∀ i, fl (.scope i) = .shared 0) : Agrees (bindVarB sc k v) (bindVar sc k v) s fl :=
  agrees_own hn (agrees_setVar fun i => by rw [Borrows.set_other _ _ (by simp)]; exact h i)

theorem agrees_fetchValue {f : Fetchable} {sc : SCtxId} {k : Nat} (q : Quiet base k fl) :
    Agrees (fetchValueB f sc) (fetchValue f sc) s fl := by
  cases f with
  | str x => exact agrees_pure _
  | matcher m => exact agrees_pure _
  | fetch name =>
    refine agrees_share (Borrow.free_ne (q.names sc)) fun n _ => ?_
    refine agrees_bind (agrees_lookupVar fun i => by rw [Borrows.set_other _ _ (by simp)]; exact q.scope i)
      fun v s1 _ => ?_
    rcases v with _ | v
    · exact agrees_lift _
    · cases v with
      | matcher m => exact agrees_pure _
      | str x => exact agrees_if (fun _ => agrees_lift _) fun _ => agrees_pure _
      | token t =>
        dsimp only
        generalize splitDot name = path
        rcases path with _ | ⟨a, _ | ⟨sub, _ | ⟨b, path⟩⟩⟩
        · exact agrees_lift _
        · exact agrees_lift _
        · refine agrees_share (by
            rw [Borrows.set_other _ _ (by simp)]
            exact q.token t) fun n _ => ?_
          refine agrees_bind (agrees_lift _) fun tk s2 _ => ?_
          iterate 8 refine agrees_if (fun _ => agrees_pure _) fun _ => ?_
          exact agrees_lift _
        · exact agrees_lift _

/-! ### Leaves -/

theorem agrees_equals {name : Str} {pat : Fetchable} {k : Nat} {ctx : Ctx} {sc : SCtxId} (q : Quiet base k fl) :
    Agrees (execEqualsB name pat k ctx sc) (execEquals name pat ctx sc) s fl := by
  refine agrees_touch q.context (agrees_bind (agrees_fetchValue q) fun v s1 _ => ?_)
  refine agrees_touch (Borrow.free_ne (q.behind _ (by omega))) ?_
  cases v with
  | inl x => exact agrees_share (Borrow.free_ne (q.behind _ (by omega))) fun _ _ => agrees_lift _
  | inr m => exact agrees_pure _

theorem agrees_matches {name : Str} {re : Regex} {k : Nat} {ctx : Ctx} (q : Quiet base k fl) :
    Agrees (execMatchesB name re k ctx) (execMatches name re ctx) s fl := by
  refine agrees_touch q.context (agrees_touch (Borrow.free_ne (q.behind _ (by omega))) ?_)
  refine agrees_share (Borrow.free_ne (q.behind _ (by omega))) fun n _ => ?_
  refine agrees_last (agrees_lift _) fun r s1 _ => ?_
  split
  · refine agrees_touch ?_ (agrees_pure _)
    rw [Borrows.set_other _ _ (by simp)]
    exact q.token _
  · exact agrees_pure _

theorem agrees_sequenceRest {name : Str} {c : Ctx} {a b e : Str} {k : Nat} (q : Quiet base k fl)
    (hs : base ≤ s.toks.length) : Agrees (sequenceRest name c a b e) (do
      match ← M.ofOpt "matches_str: slice" (c.matchesStr a) with
      | none => do
        dbg c 10
        pure (.err .fail)
      | some r =>
        match seqLoop c b e (c.offset.stop - r.stop) r.stop r.stop [] with
        | .panic => M.panic "sequence: slice"
        | .fail => do
          dbg c 10
          pure (.err .fail)
        | .found index parts => do
          let t ← newTok ((Token.mkMatched c.parser name
            ⟨c.offset.start + blen a, index - blen b⟩
            ⟨c.offset.start, index⟩).setAttribute "__value".toList parts.flatten)
          dbg c (index - c.offset.start)
          pure (.ok (.token t))) s fl := by
  refine agrees_bind (agrees_lift _) fun r s1 h1 => ?_
  cases r with
  | none => exact agrees_bind (agrees_lift _) fun _ _ _ => agrees_pure _
  | some r =>
    dsimp only
    cases seqLoop c b e (c.offset.stop - r.stop) r.stop r.stop [] with
    | panic => exact agrees_lift _
    | fail => exact agrees_bind (agrees_lift _) fun _ _ _ => agrees_pure _
    | found index parts =>
      have : s1 = s := by
        cases hm : c.matchesStr a with
        | none => rw [hm] at h1; cases h1
        | some x => rw [hm] at h1; cases h1; rfl
      subst this
      refine agrees_bind (agrees_lift _) fun t s2 h2 => ?_
      unfold newTok at h2
      cases h2
      refine agrees_touchMut (q.new _ hs) (agrees_touch (q.token _) ?_)
      exact agrees_bind (agrees_lift _) fun _ _ _ => agrees_pure _

theorem agrees_sequence {name : Str} {a b e : Fetchable} {k : Nat} {ctx : Ctx} {sc : SCtxId} (q : Quiet base k fl)
    (hs : base ≤ s.toks.length) : Agrees (execSequenceB name a b e k ctx sc) (execSequence name a b e ctx sc) s fl := by
  refine agrees_touch q.context ?_
  refine agrees_share (Borrow.free_ne (q.behind _ (by omega))) fun n _ => ?_
  have q1 : Quiet base (k + 1) (fl.set (.context (k + 1)) (.shared (n + 1))) := q.succ.shareContext
  refine agrees_bind (agrees_fetchValue q1) fun v s1 h1 => ?_
  obtain rfl := fetchValue_state h1
  cases v with
  | inr m => exact agrees_pure _
  | inl a =>
    refine agrees_if (fun _ => agrees_lift _) fun _ => ?_
    refine agrees_bind (agrees_fetchValue q1) fun v s2 h2 => ?_
    obtain rfl := fetchValue_state h2
    cases v with
    | inr m => exact agrees_pure _
    | inl b =>
      refine agrees_if (fun _ => agrees_lift _) fun _ => ?_
      refine agrees_bind (agrees_fetchValue q1) fun v s3 h3 => ?_
      obtain rfl := fetchValue_state h3
      cases v with
      | inr m => exact agrees_pure _
      | inl e => exact agrees_sequenceRest q1 hs

/-! ### Programs -/

theorem agrees_prepToken {k : Nat} {prog : TokId} {ps : PS} {t : TokId} {a u : Bool}
    (ht : fl (.token t) = .shared 0) (hp : fl (.token prog) ≠ .exclusive) (hk : fl (.context k) ≠ .exclusive) :
    Agrees (prepTokenB k prog ps t a u) (prepToken ps t a u) s fl := by
  refine agrees_bind (agrees_getTok (Borrow.free_ne ht)) fun tk s1 _ => ?_
  refine agrees_if (fun _ => ?_) fun _ => ?_
  · exact agrees_own ht (agrees_if (fun _ => agrees_lift _) fun _ => agrees_pure _)
  · refine agrees_share (Borrow.free_ne ht) fun n _ => ?_
    refine agrees_touch (by rw [Borrows.set_other _ _ (by simp)]; exact hk) ?_
    refine agrees_if (fun _ => ?_) fun _ => agrees_pure _
    refine agrees_touch ?_ (agrees_lift _)
    by_cases hpt : prog = t
    · subst hpt
      rw [Borrows.set_same]
      intro h
      cases h
    · rw [Borrows.set_other _ _ (by simpa using hpt)]
      exact hp

theorem agrees_addToken {k : Nat} {prog : TokId} {ps : PS} {t : TokId} {a u : Bool}
    (ht : fl (.token t) = .shared 0) (hp : fl (.token prog) ≠ .exclusive) (hk : fl (.context k) = .shared 0) :
    Agrees (addTokenB k prog ps t a u) (addToken prog ps t a u) s fl := by
  refine agrees_bind (agrees_prepToken ht hp (Borrow.free_ne hk)) fun _ s1 _ => ?_
  refine agrees_bind (agrees_getTok (Borrow.free_ne ht)) fun tk s2 _ => ?_
  have hm : Agrees (do
      modTokB t (fun k => { k with parent := some prog })
      pure { (if u then ps.cover tk else ps) with children := (if u then ps.cover tk else ps).children ++ [t] }) (do
      modTok t (fun k => { k with parent := some prog })
      pure { (if u then ps.cover tk else ps) with children := (if u then ps.cover tk else ps).children ++ [t] })
      s2 fl := agrees_bind (agrees_modTok ht) fun _ _ _ => agrees_pure _
  cases u with
  | true =>
    refine agrees_skip (agrees_own hk (agrees_touch1 ?_)) hm
    rw [Borrows.set_other _ _ (by simp)]
    exact Borrow.free_ne ht
  | false => exact hm

theorem agrees_handleToken {k : Nat} {prog : TokId} {ps : PS} {t : TokId} {a u : Bool}
    (ht : fl (.token t) = .shared 0) (hp : fl (.token prog) ≠ .exclusive) (hk : fl (.context k) = .shared 0) :
    Agrees (handleTokenB k prog ps t a u) (handleToken prog ps t a u) s fl := by
  refine agrees_touch (Borrow.free_ne hk) (agrees_bind (agrees_getTok (Borrow.free_ne ht)) fun tk s1 _ => ?_)
  refine agrees_last (agrees_addToken ht hp hk) fun _ _ _ => ?_
  exact agrees_touch (Borrow.free_ne hk) (agrees_touch (Borrow.free_ne ht) (agrees_pure _))

theorem agrees_extractLoop {k : Nat} {prog : TokId} {u : Bool} (hp : fl (.token prog) ≠ .exclusive)
    (hk : fl (.context k) = .shared 0) : ∀ (l : List TokId) (ps : PS) (s : State),
    (∀ ch ∈ l, fl (.token ch) = .shared 0) →
    Agrees (extractLoopB k prog u l ps) (extractLoop prog u l ps) s fl := by
  intro l
  induction l with
  | nil => intro ps s _; exact agrees_pure _
  | cons ch l ih =>
    intro ps s h
    have hc := h ch (by simp)
    have hl := fun d hd => h d (List.mem_cons_of_mem _ hd)
    refine agrees_bind (agrees_getTok (Borrow.free_ne hc)) fun tk s1 _ => ?_
    refine agrees_if (fun _ => ih _ _ hl) fun _ => ?_
    refine agrees_touch (Borrow.free_ne hk) (agrees_bind (agrees_addToken hc hp hk) fun ps s2 _ => ih _ _ hl)

/-- The token is not its own child, and its children are new. -/
def Loose (base : Nat) (s : State) (t : TokId) : Prop :=
  ∀ k, s.toks[t]? = some k → t ∉ k.children ∧ ∀ c ∈ k.children, base ≤ c

theorem agrees_handleExtract {k j : Nat} {prog : TokId} {ps : PS} {t : TokId} {u : Bool} (q : Quiet base j fl) (hj : j < k)
    (hl : Loose base s t) : Agrees (handleExtractB k prog ps t u) (handleExtract prog ps t u) s fl := by
  refine agrees_share (q.token t) fun n hn => ?_
  refine agrees_bind (agrees_lift _) fun tk s1 h1 => ?_
  obtain ⟨htk, rfl⟩ := getTok_ok.mp h1
  have hk : (fl.set (.token t) (.shared (n + 1))) (.context k) = .shared 0 := by
    rw [Borrows.set_other _ _ (by simp)]
    exact q.behind k hj
  refine agrees_touch (Borrow.free_ne hk) ?_
  have hmain : Agrees (extractLoopB k prog (u && !tk.shouldDiscard) tk.children
      (if u && !tk.shouldDiscard then ps.cover tk else ps)) (extractLoop prog (u && !tk.shouldDiscard) tk.children
      (if u && !tk.shouldDiscard then ps.cover tk else ps)) s1 (fl.set (.token t) (.shared (n + 1))) := by
    refine agrees_extractLoop ?_ hk _ _ _ fun ch hch => ?_
    · by_cases hpt : prog = t
      · subst hpt
        rw [Borrows.set_same]
        intro h
        cases h
      · rw [Borrows.set_other _ _ (by simpa using hpt)]
        exact q.token prog
    · have : ch ≠ t := fun he => (hl tk htk).1 (he ▸ hch)
      rw [Borrows.set_other _ _ (by simpa using this)]
      exact q.new ch ((hl tk htk).2 ch hch)
  cases hu : (u && !tk.shouldDiscard) with
  | true =>
    rw [hu] at hmain
    exact agrees_touchMut hk hmain
  | false =>
    rw [hu] at hmain
    exact agrees_skip (agrees_pure _) hmain

theorem agrees_handleSkip {cfg : Cfg} {k : Nat} {ps : PS} {o : Nat} {x : Int} (hk : fl (.context k) = .shared 0) :
    Agrees (handleSkipB cfg k ps o x) (handleSkip cfg ps o x) s fl :=
  agrees_touch (Borrow.free_ne hk) (agrees_last (agrees_lift _) fun _ _ _ => agrees_touchMut hk (agrees_pure _))

theorem agrees_finalize {prog : TokId} {ps : PS} {iter : Option (Nat × Nat)} {lc : Nat} {b : Bool}
    (ht : fl (.token prog) = .shared 0) :
    Agrees (finalizeProgramB prog ps iter lc b) (finalizeProgram prog ps iter lc b) s fl := by
  have hfin : Agrees (if ps.captured.start = usizeMax ∨ ps.matched.start = usizeMax then pure (.err .fail)
      else if ps.children = [] then pure (.err .fail)
      else do
        modTokB prog (fun k =>
          ((({ k with children := ps.children } : Token).setCaptured ps.captured).setMatched
            ps.matched))
        pure (.ok (.token prog)) : Held R) (if ps.captured.start = usizeMax ∨ ps.matched.start = usizeMax then pure (.err .fail)
      else if ps.children = [] then pure (.err .fail)
      else do
        modTok prog (fun k =>
          ((({ k with children := ps.children } : Token).setCaptured ps.captured).setMatched
            ps.matched))
        pure (.ok (.token prog))) s fl := by
    refine agrees_if (fun _ => agrees_pure _) fun _ => agrees_if (fun _ => agrees_pure _) fun _ => ?_
    exact agrees_bind (agrees_modTok ht) fun _ _ _ => agrees_pure _
  unfold finalizeProgramB finalizeProgram
  refine agrees_if (fun _ => ?_) fun _ => hfin
  rcases iter with _ | ⟨lo, hi⟩
  · exact hfin
  · exact agrees_if (fun _ => agrees_pure _) fun _ => agrees_if (fun _ => agrees_pure _) fun _ => hfin

/-- Running other matchers: with flags as without. -/
def RecAgrees (base : Nat) (recB : ExecFnB) (rec_ : ExecFn) : Prop :=
  ∀ m k c sc s fl, Quiet base k fl → base ≤ s.toks.length → Agrees (recB m k c sc) (rec_ m c sc) s fl

/-- The token of a result is the root of a proper tree of new tokens. -/
structure Proper (rec_ : ExecFn) : Prop where
  longer : ∀ m c sc, Pres Longer (rec_ m c sc)
  tree : ∀ m c sc s r s' t, rec_ m c sc s = .ok r s' → r.tok = some t →
    ∃ l, Pre s'.toks [t] l ∧ l.Nodup ∧ ∀ u ∈ l, s.toks.length ≤ u

theorem Pre.loose {t : TokId} {l : List TokId} (h : Pre s.toks [t] l) (hn : l.Nodup) (hb : ∀ u ∈ l, base ≤ u) :
    Loose base s t :=
  fun k hk => ⟨fun hc => h.acyclic hn t (h.roots t (by simp)) k hk t hc (.refl t),
    fun c hc => hb c (h.closed t (h.roots t (by simp)) k hk c hc)⟩

theorem Proper.loose {rec_ : ExecFn} (hp : Proper rec_) {m : MatcherId} {c : Ctx} {sc : SCtxId} {s s' : State} {r : R} {t : TokId}
    (h : rec_ m c sc s = .ok r s') (ht : r.tok = some t) (hs : base ≤ s.toks.length) : Loose base s' t ∧ base ≤ t := by
  obtain ⟨l, h1, h2, h3⟩ := hp.tree _ _ _ _ _ _ t h ht
  exact ⟨h1.loose h2 fun u hu => Nat.le_trans hs (h3 u hu), Nat.le_trans hs (h3 t (h1.roots t (by simp)))⟩

theorem agrees_run {recB : ExecFnB} {rec_ : ExecFn} (hr : RecAgrees base recB rec_) {m : MatcherId} {k : Nat} {c : Ctx}
    {sc : SCtxId} (q : Quiet base k fl) (hs : base ≤ s.toks.length) : Agrees (runB recB m k c sc) (rec_ m c sc) s fl :=
  agrees_share (q.matcher m) fun _ _ => hr _ _ _ _ _ _ (q.shareMatcher m) hs

section
variable {T : Table} {cfg : Cfg} {recB : ExecFnB} {rec_ : ExecFn}

theorem agrees_runPatterns (hr : RecAgrees base recB rec_) (hp : Proper rec_) {prog : TokId} {sc : SCtxId} {o : Nat}
    {iter : Option (Nat × Nat)} {firstStop : Bool} {lc k : Nat} (q : Quiet base k fl) (hprog : base ≤ prog) :
    ∀ (l : List MatcherId) (ps : PS) (s : State), base ≤ s.toks.length → Agrees (runPatternsB T cfg recB prog sc o iter firstStop lc (k + 1) l ps)
      (runPatterns T cfg rec_ prog sc o iter firstStop lc l ps) s fl := by
  have hk : fl (.context (k + 1)) = .shared 0 := q.behind _ (by omega)
  have htok := fun t => q.token t
  intro l
  induction l with
  | nil => intro ps s _; exact agrees_pure _
  | cons p l ih =>
    intro ps s hs
    refine agrees_touchMut hk ?_
    refine agrees_bind (agrees_share (q.matcher p) fun n _ => ?_) fun r s1 h1 => agrees_touchMut hk ?_
    · have q1 := (q.shareMatcher (n := n + 1) p).succ
      refine agrees_share q1.context fun n' _ => hr _ _ _ _ _ _ ?_ hs
      exact (q1.shareContext).succ
    · have hs1 : base ≤ s1.toks.length := Nat.le_trans hs (hp.longer _ _ _ _ _ _ h1)
      have herr : ∀ (x : Option Flow) (y : M Flow),
          (match x with | none => runPatterns T cfg rec_ prog sc o iter firstStop lc l ps | some flow => pure flow) = y →
          Agrees (do
            let stop ← share (.context (k + 1)) (do
              touch (.token prog)
              lift (dbg ps.ctx 10)
              pure x)
            match stop with
            | none => runPatternsB T cfg recB prog sc o iter firstStop lc (k + 1) l ps
            | some flow => pure flow) (dbg ps.ctx 10 >>= fun _ => y) s1 fl := by
        intro x y hy
        subst hy
        refine agrees_assoc (f := fun _ => (pure x : M (Option Flow))) (g := fun st => match st with
          | none => runPatterns T cfg rec_ prog sc o iter firstStop lc l ps
          | some flow => pure flow) ?_
        refine agrees_bind (agrees_share (Borrow.free_ne hk) fun n _ => ?_) fun st s2 h2 => ?_
        · refine agrees_touch ?_ (agrees_bind (agrees_lift _) fun _ _ _ => agrees_pure _)
          rw [Borrows.set_other _ _ (by simp)]
          exact htok prog
        · have hs2 : base ≤ s2.toks.length := Nat.le_trans hs1
            (longer_steps.bind (longer_steps.dbg _ _) (fun _ => longer_steps.pure _) _ _ _ h2)
          cases st with
          | none => exact ih _ _ hs2
          | some flow => exact agrees_pure _
      cases r with
      | err f =>
        cases f with
        | error e => exact herr (some (.ret (.err (.error e)))) _ rfl
        | fail =>
          cases firstStop with
          | true => exact herr none _ rfl
          | false =>
            rcases iter with _ | ⟨lo, hi⟩
            · exact herr (some (.ret (.err .fail))) _ rfl
            · have e : (finalizeProgram prog ps (some (lo, hi)) lc false >>= fun r => pure (Flow.ret r)) =
                  ((finalizeProgram prog ps (some (lo, hi)) lc false >>= fun r => pure (some (Flow.ret r))) >>=
                    fun st => match st with
                      | none => runPatterns T cfg rec_ prog sc o (some (lo, hi)) false lc l ps
                      | some flow => pure flow) := by
                rw [M.bind_assoc]
                rfl
              show Agrees _ (dbg ps.ctx 10 >>= fun _ => finalizeProgram prog ps (some (lo, hi)) lc false >>=
                fun r => pure (Flow.ret r)) s1 fl
              rw [e]
              refine agrees_assoc ?_
              refine agrees_bind (agrees_share (Borrow.free_ne hk) fun n _ => ?_) fun st s2 h2 => ?_
              · refine agrees_touch ?_ (agrees_bind (agrees_lift _) fun _ _ _ => ?_)
                · rw [Borrows.set_other _ _ (by simp)]
                  exact htok prog
                · refine agrees_bind (agrees_finalize ?_) fun _ _ _ => agrees_pure _
                  rw [Borrows.set_other _ _ (by simp)]
                  exact q.new prog hprog
              · obtain ⟨_, s3, _, h4⟩ := bind_ok.mp h2
                obtain ⟨_, s4, _, h6⟩ := bind_ok.mp h4
                cases st with
                | none => cases h6
                | some flow => exact agrees_pure _
      | ok a =>
        have hstop : ∀ (x : Flow) (s : State), Agrees (do
            touch (.context (k + 1))
            touch (.token prog)
            pure x) (pure x) s fl := fun x s =>
          agrees_touch (Borrow.free_ne hk) (agrees_touch (htok prog) (agrees_pure _))
        cases a with
        | token t =>
          refine agrees_bind (agrees_getTok (htok t)) fun tk s2 h2 => ?_
          obtain ⟨_, rfl⟩ := getTok_ok.mp h2
          have hbt := (hp.loose h1 (t := t) rfl hs).2
          refine agrees_if (fun _ => ih _ _ hs1) fun _ => agrees_if (fun _ => hstop _ _) fun _ => ?_
          refine agrees_touch (q.matcher p) ?_
          exact agrees_bind (agrees_handleToken (q.new t hbt) (htok prog) hk) fun _ _ h3 =>
            ih _ _ (Nat.le_trans hs1 (longer_handleToken _ _ _ _ _ _ _ _ h3))
        | proxyChildren t =>
          refine agrees_bind (agrees_getTok (htok t)) fun tk s2 h2 => ?_
          obtain ⟨_, rfl⟩ := getTok_ok.mp h2
          refine agrees_if (fun _ => ih _ _ hs1) fun _ => agrees_if (fun _ => hstop _ _) fun _ => ?_
          refine agrees_touch (q.matcher p) ?_
          exact agrees_bind (agrees_handleExtract q (by omega) (hp.loose h1 (t := t) rfl hs).1) fun _ _ h3 =>
            ih _ _ (Nat.le_trans hs1 (longer_handleExtract _ _ _ _ _ _ _ h3))
        | skip x =>
          refine agrees_if (fun _ => hstop _ _) fun _ => agrees_touch (q.matcher p) ?_
          refine agrees_if (fun _ => ?_) fun _ => ih _ _ hs1
          exact agrees_bind (agrees_handleSkip hk) fun _ _ h3 =>
            ih _ _ (Nat.le_trans hs1 (longer_handleSkip _ _ _ _ _ _ _ h3))
        | brk n d => exact agrees_pure _
        | cont n d => exact agrees_pure _
        | none => exact agrees_pure _
        | stop => exact agrees_pure _

/-- An action that ends a pass is the result of the pattern run last. -/
theorem runPatterns_action (hp : ∀ m c sc, Pres Longer (rec_ m c sc)) {prog : TokId} {sc : SCtxId} {o : Nat} {iter : Option (Nat × Nat)} {firstStop : Bool}
    {lc : Nat} : ∀ (l : List MatcherId) (ps : PS) (s : State) {a : Success} {ps' : PS} {s' : State},
    runPatterns T cfg rec_ prog sc o iter firstStop lc l ps s = .ok (.action a ps') s' →
    ∃ p c s0, s.toks.length ≤ s0.toks.length ∧ rec_ p c sc s0 = .ok (.ok a) s' := by
  intro l
  induction l with
  | nil => intro ps s a ps' s' h; cases h
  | cons p l ih =>
    intro ps s a ps' s' h
    unfold runPatterns at h
    obtain ⟨r, s1, h1, h⟩ := bind_ok.mp h
    have hl : s.toks.length ≤ s1.toks.length := hp _ _ _ _ _ _ h1
    have again : ∀ {ps2 : PS} {s2 : State}, Longer s1 s2 →
        runPatterns T cfg rec_ prog sc o iter firstStop lc l ps2 s2 = .ok (.action a ps') s' →
        ∃ p c s0, s.toks.length ≤ s0.toks.length ∧ rec_ p c sc s0 = .ok (.ok a) s' := by
      intro ps2 s2 hl2 h
      obtain ⟨q, c, s0, h3, h4⟩ := ih _ _ h
      exact ⟨q, c, s0, Nat.le_trans hl (Nat.le_trans hl2 h3), h4⟩
    cases r with
    | err f =>
      obtain ⟨_, s2, h2, h⟩ := bind_ok.mp h
      cases f with
      | error e => cases h
      | fail =>
        dsimp only at h
        split at h
        · exact again (longer_steps.dbg _ _ _ _ _ h2) h
        · split at h
          · obtain ⟨r, s3, h3, h⟩ := bind_ok.mp h
            cases h
          · cases h
    | ok b =>
      cases b with
      | token t =>
        obtain ⟨tk, s2, h2, h⟩ := bind_ok.mp h
        have hl2 := longer_steps.getTok _ _ _ _ h2
        split at h
        · exact again hl2 h
        · split at h
          · cases h
          · obtain ⟨ps2, s3, h3, h⟩ := bind_ok.mp h
            exact again (Nat.le_trans hl2 (longer_handleToken _ _ _ _ _ _ _ _ h3)) h
      | proxyChildren t =>
        obtain ⟨tk, s2, h2, h⟩ := bind_ok.mp h
        have hl2 := longer_steps.getTok _ _ _ _ h2
        split at h
        · exact again hl2 h
        · split at h
          · cases h
          · obtain ⟨ps2, s3, h3, h⟩ := bind_ok.mp h
            exact again (Nat.le_trans hl2 (longer_handleExtract _ _ _ _ _ _ _ h3)) h
      | skip x =>
        dsimp only at h
        split at h
        · cases h
        · split at h
          · obtain ⟨ps2, s3, h3, h⟩ := bind_ok.mp h
            exact again (longer_handleSkip _ _ _ _ _ _ _ h3) h
          · exact again (Nat.le_refl _) h
      | brk n d => cases h; exact ⟨_, _, _, Nat.le_refl _, h1⟩
      | cont n d => cases h; exact ⟨_, _, _, Nat.le_refl _, h1⟩
      | none => cases h; exact ⟨_, _, _, Nat.le_refl _, h1⟩
      | stop => cases h; exact ⟨_, _, _, Nat.le_refl _, h1⟩

theorem agrees_payload {prog : TokId} {ps : PS} {o k : Nat} {d : Success} (q : Quiet base k fl)
    (hd : ∀ t, d.tok = some t → Loose base s t ∧ base ≤ t) :
    Agrees (handlePayloadB cfg (k + 1) prog ps o d) (handlePayload cfg prog ps o d) s fl := by
  have hk : fl (.context (k + 1)) = .shared 0 := q.behind _ (by omega)
  cases d with
  | token t => exact agrees_handleToken (q.new t (hd t rfl).2) (q.token prog) hk
  | proxyChildren t => exact agrees_handleExtract q (by omega) (hd t rfl).1
  | skip x => exact agrees_handleSkip hk
  | brk n d => exact agrees_pure _
  | cont n d => exact agrees_pure _
  | none => exact agrees_pure _
  | stop => exact agrees_pure _

theorem agrees_runIterations (hr : RecAgrees base recB rec_) (hp : Proper rec_) {prog : TokId} {sc : SCtxId} {o : Nat}
    {self : Str} {pats : List MatcherId} {iter : Option (Nat × Nat)} {firstStop : Bool} {k : Nat} (q : Quiet base k fl)
    (hprog : base ≤ prog) : ∀ (i lc : Nat) (ps : PS) (s : State), base ≤ s.toks.length →
    Agrees (runIterationsB T cfg recB prog sc o self pats iter firstStop (k + 1) i lc ps)
      (runIterations T cfg rec_ prog sc o self pats iter firstStop i lc ps) s fl := by
  have hk : fl (.context (k + 1)) = .shared 0 := q.behind _ (by omega)
  have ht := q.new prog hprog
  have htouch : ∀ {α : Type} {x : Held α} {y : M α} {s : State}, Agrees x y s fl → Agrees (do
      touch (.context (k + 1))
      touch (.token prog)
      x) y s fl := fun h => agrees_touch (Borrow.free_ne hk) (agrees_touch (Borrow.free_ne ht) h)
  intro i
  induction i with
  | zero => intro lc ps s _; exact agrees_finalize ht
  | succ i ih =>
    intro lc ps s hs
    refine htouch (agrees_bind (agrees_runPatterns hr hp q hprog _ _ _ hs) fun flow s1 h1 => ?_)
    have hs1 : base ≤ s1.toks.length := Nat.le_trans hs (longer_runPatterns hp.longer _ _ _ _ _ h1)
    cases flow with
    | ret r => exact agrees_pure _
    | next ps => exact ih _ _ _ hs1
    | action a ps1 =>
      obtain ⟨p, c, s0, hs0, hrun⟩ := runPatterns_action hp.longer _ _ _ h1
      cases a with
      | brk n d =>
        refine htouch (agrees_if (fun _ => agrees_pure _) fun _ => ?_)
        refine agrees_bind (agrees_payload q fun t hd => ?_) fun ps2 s2 _ => ?_
        · exact hp.loose hrun hd (Nat.le_trans hs hs0)
        · refine htouch (agrees_bind (agrees_finalize ht) fun r s3 _ => ?_)
          refine agrees_if (fun _ => agrees_pure _) fun _ => ?_
          cases r with
          | ok t => exact agrees_pure _
          | err e => exact agrees_pure _
      | cont n d =>
        refine htouch (agrees_if (fun _ => agrees_pure _) fun _ => ?_)
        refine agrees_bind (agrees_payload q fun t hd => ?_) fun ps2 s2 h2 => ?_
        · exact hp.loose hrun hd (Nat.le_trans hs hs0)
        · exact agrees_if (fun _ => ih _ _ _ (Nat.le_trans hs1 (longer_payload _ _ _ _ _ _ _ _ h2))) fun _ => htouch (agrees_finalize ht)
      | stop => exact agrees_finalize ht
      | token t => exact agrees_lift _
      | proxyChildren t => exact agrees_lift _
      | skip x => exact agrees_lift _
      | none => exact agrees_lift _

theorem agrees_program (hr : RecAgrees base recB rec_) (hp : Proper rec_) {pats : List MatcherId} {name : Str}
    {iter : Option (Nat × Nat)} {firstStop : Bool} {k : Nat} {ctx : Ctx} {sc : SCtxId} (q : Quiet base k fl)
    (hs : base ≤ s.toks.length) : Agrees (execProgramB T cfg recB pats name iter firstStop k ctx sc)
      (execProgram T cfg rec_ pats name iter firstStop ctx sc) s fl := by
  refine agrees_share q.context fun n _ => ?_
  have q1 : Quiet base k (fl.set (.context k) (.shared (n + 1))) := q.shareContext
  refine agrees_touch (Borrow.free_ne (q1.behind _ (by omega))) ?_
  exact agrees_bind (agrees_lift _) fun prog s1 h1 => by
    unfold newTok at h1
    cases h1
    exact agrees_runIterations hr hp q1 hs _ _ _ _ (by
      show base ≤ (s.toks ++ [_]).length
      rw [List.length_append]
      omega)

/-! ### Discard -/

/-- The tokens of `P` have their children in `P`. -/
def ClosedIn (P : TokId → Prop) (s : State) : Prop := ∀ x, P x → ∀ k, s.toks[x]? = some k → ∀ c ∈ k.children, P c

/-- Only token `e` has changed. -/
def Only (e : TokId) (s s' : State) : Prop := ∀ x, x ≠ e → s'.toks[x]? = s.toks[x]?

theorem Only.closed {P : TokId → Prop} {e : TokId} {s s' : State} (h : Only e s s') (he : ¬ P e) (hc : ClosedIn P s) :
    ClosedIn P s' := fun x hx k hk => hc x hx k (by rw [← h x (fun hxe => he (hxe ▸ hx))]; exact hk)

theorem modTok_only {e : TokId} {f : Token → Token} {s s' : State} {u : Unit} (h : modTok e f s = .ok u s') : Only e s s' := by
  unfold modTok at h
  obtain ⟨k, s1, h1, h2⟩ := bind_ok.mp h
  obtain ⟨_, rfl⟩ := getTok_ok.mp h1
  unfold setTok at h2
  cases h2
  intro x hx
  show (List.set _ _ _)[x]? = _
  rw [List.getElem?_set_ne (Ne.symm hx)]

theorem discardRecord_only {e w : TokId} {k : Token} {s s' : State} {u : Unit} (h : discardRecord e w k s = .ok u s') :
    Only e s s' := by
  unfold discardRecord at h
  split at h
  · exact modTok_only h
  · cases h
    exact fun _ _ => rfl

theorem forEach_only {e : TokId} {f : TokId → M Unit} (hf : ∀ c s s' u, f c s = .ok u s' → Only e s s') :
    ∀ (l : List TokId) (s s' : State) (u : Unit), forEach f l s = .ok u s' → Only e s s' := by
  intro l
  induction l with
  | nil => intro s s' u h; cases h; exact fun _ _ => rfl
  | cons c l ih =>
    intro s s' u h
    obtain ⟨u1, s1, h1, h2⟩ := bind_ok.mp h
    intro x hx
    rw [ih _ _ _ h2 x hx, hf _ _ _ _ h1 x hx]

theorem discardCollect_only {e : TokId} : ∀ (n : Nat) (w : TokId) (s s' : State) (u : Unit),
    discardCollect n e w s = .ok u s' → Only e s s' := by
  intro n
  induction n with
  | zero => intro w s s' u h; cases h
  | succ n ih =>
    intro w s s' u h
    unfold discardCollect at h
    obtain ⟨k, s1, h1, h3⟩ := bind_ok.mp h
    obtain ⟨_, rfl⟩ := getTok_ok.mp h1
    obtain ⟨_, s2, h2, h4⟩ := bind_ok.mp h3
    intro x hx
    rw [forEach_only ih _ _ _ _ h4 x hx, discardRecord_only h2 x hx]

theorem agrees_discardCollect {e : TokId} {P : TokId → Prop} (he : ¬ P e) : ∀ (n : Nat) (w : TokId) (s : State)
    (fl : Borrows), P w → ClosedIn P s → fl (.token e) = .shared 0 → (∀ x, fl (.token x) ≠ .exclusive) →
    Agrees (discardCollectB n e w) (discardCollect n e w) s fl := by
  intro n
  induction n with
  | zero => intro w s fl _ _ _ _; exact agrees_lift _
  | succ n ih =>
    intro w s fl hw hc hfe hfx
    have hwe : w ≠ e := fun h => he (h ▸ hw)
    refine agrees_bind (agrees_getTok (hfx w)) fun k s1 h1 => ?_
    obtain ⟨hk, rfl⟩ := getTok_ok.mp h1
    refine agrees_bind (x' := discardRecord e w k) ?_ fun _ s2 h2 => ?_
    · unfold discardRecordB
      by_cases hf : k.flagsEnabled IS_ERROR = true
      · rw [if_pos hf]
        refine agrees_own hfe (agrees_share ?_ fun _ _ => agrees_lift _)
        rw [Borrows.set_other _ _ (by simpa using hwe)]
        exact hfx w
      · rw [if_neg hf]
        unfold discardRecord
        rw [if_neg hf]
        exact agrees_pure _
    · refine agrees_share (hfx w) fun m _ => ?_
      have ho := discardRecord_only h2
      have hc2 := ho.closed he hc
      have hfe' : (fl.set (.token w) (.shared (m + 1))) (.token e) = .shared 0 := by
        rw [Borrows.set_other _ _ (by simpa using hwe.symm)]
        exact hfe
      have hfx' : ∀ x, (fl.set (.token w) (.shared (m + 1))) (.token x) ≠ .exclusive := by
        intro x
        by_cases hx : x = w
        · subst hx
          rw [Borrows.set_same]
          intro h
          cases h
        · rw [Borrows.set_other _ _ (by simpa using hx)]
          exact hfx x
      have hall : ∀ c ∈ k.children, P c := hc w hw k hk
      revert hall
      generalize k.children = cs
      intro hall
      clear h2 ho
      induction cs generalizing s2 with
      | nil => exact agrees_pure _
      | cons c cs ih2 =>
        refine agrees_bind (ih c s2 _ (hall c (by simp)) hc2 hfe' hfx') fun _ s3 h3 => ?_
        exact ih2 s3 ((discardCollect_only _ _ _ _ _ h3).closed he hc2) fun d hd => hall d (List.mem_cons_of_mem _ hd)

theorem agrees_skipToken {k o : Nat} {c : Ctx} {t : TokId} {l : List TokId} (q : Quiet base k fl) (hl : Pre s.toks [t] l)
    (hs : base ≤ s.toks.length) : Agrees (skipTokenB cfg k c o t) (skipToken cfg c o t) s fl := by
  refine agrees_bind (agrees_getTok (q.token t)) fun tk s1 h1 => ?_
  obtain ⟨htk, rfl⟩ := getTok_ok.mp h1
  refine agrees_touch q.context (agrees_bind (agrees_lift _) fun e s2 h2 => ?_)
  unfold newTok at h2
  cases h2
  refine agrees_bind (agrees_lift _) fun s3 s4 h3 => ?_
  unfold M.getState at h3
  cases h3
  refine agrees_bind (agrees_discardCollect (P := (· ∈ l)) ?_ _ _ _ _ (hl.roots t (by simp)) ?_ (q.new _ hs)
    fun x => q.token x) fun _ s5 _ => ?_
  · intro hx
    exact Nat.lt_irrefl _ (hl.valid _ hx)
  · intro x hx j hj d hd
    refine hl.closed x hx j ?_ d hd
    have := hl.valid x hx
    rw [List.getElem?_append_left this] at hj
    exact hj
  · refine agrees_bind (agrees_getTok (q.token _)) fun ek s6 _ => ?_
    refine agrees_if (fun _ => agrees_pure _) fun _ => ?_
    exact agrees_bind (agrees_lift _) fun _ _ _ => agrees_pure _

theorem agrees_discard (hr : RecAgrees base recB rec_) (hp : Proper rec_) {m : MatcherId} {k : Nat} {ctx : Ctx} {sc : SCtxId}
    (q : Quiet base k fl) (hs : base ≤ s.toks.length) : Agrees (execDiscardB cfg recB m k ctx sc) (execDiscard cfg rec_ m ctx sc) s fl := by
  refine agrees_share q.context fun n _ => ?_
  have q1 : Quiet base k (fl.set (.context k) (.shared (n + 1))) := q.shareContext
  refine agrees_share (q1.matcher m) fun n' _ => ?_
  have q2 : Quiet base (k + 1) ((fl.set (.context k) (.shared (n + 1))).set (.matcher m) (.shared (n' + 1))) :=
    (q1.shareMatcher m).succ
  refine agrees_bind (hr _ _ _ _ _ _ q2 hs) fun r s1 h1 => ?_
  have hskip : ∀ {t : TokId} {f : Success → Held R} {g : Success → M R}, r.tok = some t →
      (∀ x s2, Agrees (f x) (g x) s2 ((fl.set (.context k) (.shared (n + 1))).set (.matcher m) (.shared (n' + 1)))) →
      Agrees (skipTokenB cfg (k + 1) (ctx.withName "Discard".toList) ctx.offset.start t >>= f)
        (skipToken cfg (ctx.withName "Discard".toList) ctx.offset.start t >>= g) s1
        ((fl.set (.context k) (.shared (n + 1))).set (.matcher m) (.shared (n' + 1))) := by
    intro t f g ht hfg
    obtain ⟨l, hl, _⟩ := hp.tree _ _ _ _ _ _ t h1 ht
    exact agrees_bind (agrees_skipToken q2 hl (Nat.le_trans hs (hp.longer _ _ _ _ _ _ h1))) fun x s2 _ => hfg x s2
  cases r with
  | err f => exact agrees_pure _
  | ok a =>
    cases a with
    | token t => exact hskip rfl fun _ _ => agrees_pure _
    | proxyChildren t => exact hskip rfl fun _ _ => agrees_pure _
    | brk n d =>
      cases d with
      | token t => exact hskip rfl fun _ _ => agrees_pure _
      | proxyChildren t => exact hskip rfl fun _ _ => agrees_pure _
      | brk _ _ => exact agrees_lift _
      | cont _ _ => exact agrees_lift _
      | skip x => exact agrees_pure _
      | none => exact agrees_pure _
      | stop => exact agrees_pure _
    | cont n d =>
      cases d with
      | token t => exact hskip rfl fun _ _ => agrees_pure _
      | proxyChildren t => exact hskip rfl fun _ _ => agrees_pure _
      | brk _ _ => exact agrees_lift _
      | cont _ _ => exact agrees_lift _
      | skip x => exact agrees_pure _
      | none => exact agrees_pure _
      | stop => exact agrees_pure _
    | skip x => exact agrees_pure _
    | none => exact agrees_pure _
    | stop => exact agrees_pure _

/-! ### Other matchers -/

/-- Running another matcher, with the context borrowed as well. -/
theorem agrees_under (hr : RecAgrees base recB rec_) {m : MatcherId} {k : Nat} {c : Ctx} {sc : SCtxId} (q : Quiet base k fl) (hs : base ≤ s.toks.length) :
    Agrees (share (.matcher m) (share (.context k) (recB m (k + 1) c sc))) (rec_ m c sc) s fl := by
  refine agrees_share (q.matcher m) fun n _ => ?_
  have q1 : Quiet base k (fl.set (.matcher m) (.shared (n + 1))) := q.shareMatcher m
  exact agrees_share q1.context fun n' _ => hr _ _ _ _ _ _ q1.shareContext.succ hs

theorem agrees_optional (hr : RecAgrees base recB rec_) {m : MatcherId} {k : Nat} {ctx : Ctx} {sc : SCtxId}
    (q : Quiet base k fl) (hs : base ≤ s.toks.length) : Agrees (execOptionalB recB m k ctx sc) (execOptional rec_ m ctx sc) s fl := by
  refine agrees_share (q.matcher m) fun n _ => ?_
  have q1 : Quiet base k (fl.set (.matcher m) (.shared (n + 1))) := q.shareMatcher m
  refine agrees_share q1.context fun n' _ => agrees_bind (hr _ _ _ _ _ _ q1.shareContext.succ hs) fun r s1 _ => ?_
  rcases r with a | f
  · exact agrees_pure _
  · cases f <;> exact agrees_pure _

theorem agrees_not (hr : RecAgrees base recB rec_) {m : MatcherId} {k : Nat} {ctx : Ctx} {sc : SCtxId}
    (q : Quiet base k fl) (hs : base ≤ s.toks.length) : Agrees (execNotB recB m k ctx sc) (execNot rec_ m ctx sc) s fl := by
  refine agrees_share (q.matcher m) fun n _ => ?_
  have q1 : Quiet base k (fl.set (.matcher m) (.shared (n + 1))) := q.shareMatcher m
  refine agrees_share q1.context fun n' _ => agrees_bind (hr _ _ _ _ _ _ q1.shareContext.succ hs) fun r s1 _ => ?_
  rcases r with a | f
  · cases a with
    | skip x => exact agrees_if (fun _ => agrees_pure _) fun _ => agrees_pure _
    | _ => exact agrees_pure _
  · cases f <;> exact agrees_pure _

theorem agrees_proxyChildren (hr : RecAgrees base recB rec_) {m : MatcherId} {name : Str} {k : Nat} {ctx : Ctx} {sc : SCtxId}
    (q : Quiet base k fl) (hs : base ≤ s.toks.length) : Agrees (execProxyChildrenB recB m name k ctx sc) (execProxyChildren rec_ m name ctx sc) s fl := by
  refine agrees_bind (agrees_under hr q hs) fun r s1 _ => ?_
  rcases r with a | f
  · cases a with
    | brk n d => cases d <;> exact agrees_pure _
    | cont n d => cases d <;> exact agrees_pure _
    | _ => exact agrees_pure _
  · exact agrees_pure _

theorem agrees_expandRange (hr : RecAgrees base recB rec_) (hp : Proper rec_) {m : MatcherId} {k : Nat} {ctx : Ctx} {sc : SCtxId}
    (q : Quiet base k fl) (hs : base ≤ s.toks.length) : Agrees (execExpandRangeB recB m k ctx sc) (execExpandRange rec_ m ctx sc) s fl := by
  refine agrees_touch q.context (agrees_bind (agrees_run hr q.succ hs) fun r s1 h1 => ?_)
  rcases r with a | f
  · cases a with
    | token t =>
      refine agrees_bind (agrees_getTok (q.token t)) fun tk s2 h2 => ?_
      obtain ⟨_, rfl⟩ := getTok_ok.mp h2
      refine agrees_touch q.succ.context (agrees_bind (agrees_lift _) fun w s3 h3 => ?_)
      unfold newTok at h3
      cases h3
      exact agrees_bind (agrees_modTok (q.new _ (Nat.le_trans hs (hp.longer _ _ _ _ _ _ h1)))) fun _ _ _ => agrees_pure _
    | proxyChildren t =>
      refine agrees_touch (q.token t) ?_
      exact agrees_bind (agrees_modTok (q.new t (hp.loose h1 (t := t) rfl hs).2)) fun _ _ _ => agrees_pure _
    | _ => exact agrees_pure _
  · exact agrees_pure _

theorem agrees_catch (hr : RecAgrees base recB rec_) {m : MatcherId} {f : Ctx → Failure → M R} {k : Nat} {ctx : Ctx}
    {sc : SCtxId} (q : Quiet base k fl) (hs : base ≤ s.toks.length) : Agrees (execCatchB recB m f k ctx sc) (execCatch rec_ m f ctx sc) s fl := by
  refine agrees_touch q.context (agrees_bind (agrees_run hr q.succ hs) fun r s1 _ => ?_)
  rcases r with a | f
  · exact agrees_pure _
  · exact agrees_lift _

theorem agrees_map (hr : RecAgrees base recB rec_) {m : MatcherId} {sf : TokId → Ctx → SCtxId → M R}
    {ff : Failure → Ctx → SCtxId → M R} {k : Nat} {ctx : Ctx}
    {sc : SCtxId} (q : Quiet base k fl) (hs : base ≤ s.toks.length) : Agrees (execMapB recB m sf ff k ctx sc) (execMap rec_ m sf ff ctx sc) s fl := by
  refine agrees_touch q.context (agrees_bind (agrees_run hr q.succ hs) fun r s1 _ => ?_)
  rcases r with a | f
  · cases a with
    | token t => exact agrees_lift _
    | proxyChildren t => exact agrees_lift _
    | _ => exact agrees_pure _
  · exact agrees_lift _

theorem agrees_store (hr : RecAgrees base recB rec_) {m : MatcherId} {name : Str} {k : Nat} {ctx : Ctx} {sc : SCtxId}
    (q : Quiet base k fl) (hs : base ≤ s.toks.length) : Agrees (execStoreB recB m name k ctx sc) (execStore rec_ m name ctx sc) s fl := by
  refine agrees_touch q.context (agrees_bind (agrees_run hr q.succ hs) fun r s1 _ => ?_)
  rcases r with a | f
  · cases a with
    | token t => exact agrees_bind (agrees_bindVar (q.names sc) q.scope) fun _ _ _ => agrees_pure _
    | _ => exact agrees_pure _
  · exact agrees_pure _

theorem agrees_ref (hr : RecAgrees base recB rec_) {target : Fetchable} {name : Str} {k : Nat} {ctx : Ctx} {sc : SCtxId}
    (q : Quiet base k fl) (hs : base ≤ s.toks.length) : Agrees (execRefB recB target name k ctx sc) (execRef rec_ target name ctx sc) s fl := by
  refine agrees_touch q.context (agrees_bind (agrees_fetchValue q) fun v s1 h1 => ?_)
  obtain rfl := fetchValue_state h1
  cases v with
  | inr m => exact agrees_run hr q.succ hs
  | inl n =>
    refine agrees_bind (agrees_share (Borrow.free_ne (q.names sc)) fun j _ => agrees_lookupVar fun i => ?_)
      fun v s2 h2 => ?_
    · rw [Borrows.set_other _ _ (by simp)]
      exact q.scope i
    · unfold lookupVar at h2
      cases h2
      generalize s1.lookup sc n = v
      rcases v with _ | v
      · exact agrees_pure _
      · cases v with
        | matcher m => exact agrees_run hr q.succ hs
        | _ => exact agrees_pure _

theorem agrees_register {sc : SCtxId} {ps : List MatcherId} {k : Nat} (q : Quiet base k fl) :
    Agrees (execRegisterB T sc ps) (execRegister T sc ps) s fl := by
  refine agrees_own (q.names sc) ?_
  induction ps generalizing s with
  | nil => exact agrees_pure _
  | cons p ps ih =>
    refine agrees_bind (agrees_share ?_ fun n _ => agrees_setVar fun i => ?_) fun _ _ _ => ih
    · rw [Borrows.set_other _ _ (by simp)]
      exact q.matcher p
    · rw [Borrows.set_other _ _ (by simp), Borrows.set_other _ _ (by simp)]
      exact q.scope i

theorem agrees_setScope (hr : RecAgrees base recB rec_) {scope : Option SCtxId} {m : MatcherId} {k : Nat} {ctx : Ctx}
    (q : Quiet base k fl) (hs : base ≤ s.toks.length) : Agrees (execSetScopeB recB scope m k ctx) (execSetScope rec_ scope m ctx) s fl := by
  have hown : ∀ {x : M Unit} {s : State}, Agrees (share (.context k) (own (.names ctx.scope) (lift x))) x s fl := by
    intro x s
    refine agrees_share q.context fun n _ => agrees_own ?_ (agrees_lift _)
    rw [Borrows.set_other _ _ (by simp)]
    exact q.names _
  cases scope with
  | some x => exact agrees_under hr q hs
  | none =>
    refine agrees_bind hown fun _ s1 h1 => agrees_touch q.context ?_
    cases h1
    exact agrees_bind (agrees_under hr q hs) fun r s2 _ => agrees_bind hown fun _ _ _ => agrees_pure _

theorem longer_pinEnd (cfg : Cfg) (a b : Nat) (l : List Str) : Pres Longer (pinEnd cfg a b l) := by
  unfold pinEnd
  split
  · exact longer_steps.parseOffset _ _ _ _
  · exact longer_steps.pure _

theorem agrees_pin (hr : RecAgrees base recB rec_) {m : Option MatcherId} {offset : Fetchable} {name : Str} {k : Nat}
    {ctx : Ctx} {sc : SCtxId} (q : Quiet base k fl) (hs : base ≤ s.toks.length) :
    Agrees (execPinB cfg recB m offset name k ctx sc) (execPin cfg rec_ m offset name ctx sc) s fl := by
  have hk : fl (.context (k + 1)) = .shared 0 := q.behind _ (by omega)
  have hk' := Borrow.free_ne hk
  refine agrees_touch q.context (agrees_bind (agrees_fetchValue q) fun v s1 h1 => ?_)
  obtain rfl := fetchValue_state h1
  cases v with
  | inr m => exact agrees_pure _
  | inl v =>
    refine agrees_touch hk' (agrees_bind (agrees_lift _) fun a s2 h2 => agrees_touchMut hk (agrees_touch hk' ?_))
    refine agrees_bind (agrees_lift _) fun b s3 h3 => agrees_touchMut hk (agrees_touch hk' ?_)
    cases m with
    | some m => exact agrees_run hr q.succ (Nat.le_trans hs (Nat.le_trans (longer_steps.parseOffset _ _ _ _ _ _ _ h2) (longer_pinEnd _ _ _ _ _ _ _ h3)))
    | none => exact agrees_touch hk' (agrees_bind (agrees_lift _) fun _ _ _ => agrees_pure _)

theorem agrees_debug (hr : RecAgrees base recB rec_) {m : Option MatcherId} {mode k : Nat} {ctx : Ctx} {sc : SCtxId}
    (q : Quiet base k fl) (hs : base ≤ s.toks.length) : Agrees (execDebugB recB m mode k ctx sc) (execDebug rec_ m mode ctx sc) s fl := by
  refine agrees_share q.context fun n _ => ?_
  have q1 : Quiet base k (fl.set (.context k) (.shared (n + 1))) := q.shareContext
  have hk := q1.behind (k + 1) (by omega)
  refine agrees_touchMut hk (agrees_touch (Borrow.free_ne hk) (agrees_bind (agrees_lift _) fun _ s1 h1 => ?_))
  cases m with
  | none => exact agrees_pure _
  | some m => exact agrees_last (agrees_run hr q1.succ (Nat.le_trans hs (longer_steps.ofOpt _ _ _ _ _ h1))) fun r s2 _ => agrees_touch (q1.matcher m) (agrees_pure _)

theorem agrees_panicRange {k : Nat} {ctx : Ctx} (q : Quiet base k fl) : Agrees (panicRangeB k ctx) (panicRange ctx) s fl := by
  unfold panicRangeB panicRange
  refine agrees_share q.context fun n _ => ?_
  have q1 : Quiet base k (fl.set (.context k) (.shared (n + 1))) := q.shareContext
  cases ctx.stack with
  | nil => exact agrees_touch q1.context (agrees_pure _)
  | cons top l =>
    exact agrees_bind (agrees_getTok (q1.token top)) fun _ _ _ => agrees_touch q1.context (agrees_pure _)

theorem agrees_panic {msg : Str} {k : Nat} {ctx : Ctx} (q : Quiet base k fl) : Agrees (execPanicB msg k ctx) (execPanic msg ctx) s fl :=
  agrees_bind (agrees_panicRange q) fun _ _ _ => agrees_bind (agrees_share q.context fun _ _ => agrees_lift _)
    fun _ _ _ => agrees_pure _

theorem agrees_error {msg : Str} {k : Nat} {ctx : Ctx} (q : Quiet base k fl) (hs : base ≤ s.toks.length) : Agrees (execErrorB msg k ctx) (execError msg ctx) s fl :=
  agrees_share q.context fun _ _ => agrees_bind (agrees_lift _) fun t _ h1 =>
    agrees_touchMut (by
      unfold newErrorToken newErrorTokenWithRange at h1
      obtain ⟨_, s1, h2, h3⟩ := bind_ok.mp h1
      have := longer_steps.ofOpt _ _ _ _ _ h2
      cases h3
      rw [Borrows.set_other _ _ (by simp)]
      exact q.new _ (Nat.le_trans hs this)) (agrees_pure _)

theorem agrees_node (hr : RecAgrees base recB rec_) (hp : Proper rec_) (nd : Node) {k : Nat} {ctx : Ctx} {sc : SCtxId}
    (q : Quiet base k fl) (hs : base ≤ s.toks.length) : Agrees (execNodeB T cfg recB nd k ctx sc) (execNode T cfg rec_ nd ctx sc) s fl := by
  cases nd with
  | equals name _ pat => exact agrees_equals q
  | regex name _ re => exact agrees_matches q
  | sequence name _ a b e => exact agrees_sequence q hs
  | program ps name _ iter firstStop => exact agrees_program hr hp q hs
  | optional m => exact agrees_optional hr q hs
  | not m => exact agrees_not hr q hs
  | discard m => exact agrees_discard hr hp q hs
  | proxyChildren m name _ => exact agrees_proxyChildren hr q hs
  | expandRange m => exact agrees_expandRange hr hp q hs
  | catch_ m f => exact agrees_catch hr q hs
  | map m sf ff => exact agrees_map hr q hs
  | store m name _ => exact agrees_store hr q hs
  | storeStr v name _ => exact agrees_bind (agrees_bindVar (q.names sc) q.scope) fun _ _ _ => agrees_pure _
  | fetch _ => exact agrees_pure _
  | ref target name _ => exact agrees_ref hr q hs
  | register ps => exact agrees_register q
  | setScope scope m => exact agrees_setScope hr q hs
  | pin m offset name _ => exact agrees_pin hr q hs
  | debug m mode => exact agrees_debug hr q hs
  | brk name => exact agrees_pure _
  | null => exact agrees_pure _
  | panic msg => exact agrees_panic q
  | error msg => exact agrees_error q hs

theorem exec_proper (hT : ∀ m, (T m).Grafts) (n : Nat) : Proper (exec T cfg n) where
  longer := fun m c sc s _ _ h => (Post.of_ok (exec_grow hT n m c sc s) h).1.len
  tree := fun _ _ _ _ _ _ _ h ht => C36_tree hT ⟨n, h⟩ ht

theorem agrees_exec (hT : ∀ m, (T m).Grafts) : ∀ n, RecAgrees base (execB T cfg n) (exec T cfg n) := by
  intro n
  induction n with
  | zero => intro m k c sc s fl _ _; exact agrees_lift M.diverge
  | succ n ih =>
    intro m k c sc s fl q hs
    refine agrees_bind ?_ fun _ s1 h1 => agrees_node ih (exec_proper hT n) _ q ?_
    · exact agrees_if (fun _ => agrees_bindVar (q.names sc) q.scope) fun _ => agrees_pure _
    · unfold beforeExec at h1
      split at h1
      · cases h1
        rw [State.bindVar_toks]
        exact hs
      · cases h1
        exact hs

/-! ### `collect_errors` -/

/-- `retainB` without flags. -/
def retainM (root : TokId) : List TokId → M (List TokId)
  | [] => pure []
  | c :: cs => do
    let k ← getTok c
    if k.flagsEnabled IS_ERROR then do
      modTok root (fun r => { r with children := r.children ++ [c] })
      retainM root cs
    else do
      let keep ← retainM root cs
      pure (c :: keep)

theorem agrees_retain {root : TokId} (hr : fl (.token root) = .shared 0) : ∀ (cs : List TokId) (s : State),
    (∀ c ∈ cs, fl (.token c) ≠ .exclusive) → Agrees (retainB root cs) (retainM root cs) s fl := by
  intro cs
  induction cs with
  | nil => intro s _; exact agrees_pure _
  | cons c cs ih =>
    intro s h
    have hi := fun s => ih s fun d hd => h d (List.mem_cons_of_mem _ hd)
    refine agrees_bind (agrees_getTok (h c (by simp))) fun k s1 _ => agrees_if (fun _ => ?_) fun _ => ?_
    · exact agrees_bind (agrees_modTok hr) fun _ _ _ => hi _
    · exact agrees_bind (hi _) fun _ _ _ => agrees_pure _

theorem modTok_run {t : TokId} {f : Token → Token} {s : State} {k : Token} (h : s.toks[t]? = some k) :
    modTok t f s = .ok () { s with toks := s.toks.set t (f k) } := by
  unfold modTok
  rw [bind_run (getTok_ok.mpr ⟨h, rfl⟩)]
  rfl

theorem retainM_eq {root : TokId} : ∀ (cs : List TokId) (s : State) (kr : Token), s.toks[root]? = some kr →
    (∀ c ∈ cs, c < s.toks.length ∧ c ≠ root) →
    retainM root cs s = .ok (cs.filter (fun c => ! isErrorTok s.toks c))
      { s with toks := s.toks.set root { kr with children := kr.children ++ cs.filter (isErrorTok s.toks) } } := by
  intro cs
  induction cs with
  | nil =>
    intro s kr hk _
    obtain ⟨hlt, he⟩ := List.getElem?_eq_some_iff.mp hk
    have : s.toks.set root kr = s.toks := by
      rw [← he]
      exact List.set_getElem_self hlt
    simp only [List.filter_nil, List.append_nil]
    show Res.ok [] s = Res.ok [] { s with toks := s.toks.set root kr }
    rw [this]
  | cons c cs ih =>
    intro s kr hk h
    obtain ⟨hc, hcr⟩ := h c (by simp)
    have hl := fun d hd => h d (List.mem_cons_of_mem _ hd)
    have hlt := (List.getElem?_eq_some_iff.mp hk).1
    have hck : s.toks[c]? = some s.toks[c] := List.getElem?_eq_getElem hc
    unfold retainM
    rw [bind_run (getTok_ok.mpr ⟨hck, rfl⟩)]
    have he := isErrorTok_some hck
    cases hf : s.toks[c].flagsEnabled IS_ERROR with
    | true =>
      rw [hf] at he
      rw [if_pos rfl, bind_run (modTok_run hk)]
      have hsame : ∀ d, isErrorTok (s.toks.set root { kr with children := kr.children ++ [c] }) d = isErrorTok s.toks d := by
        intro d
        unfold isErrorTok
        by_cases hd : d = root
        · subst hd
          rw [List.getElem?_set_self hlt, hk]
        · rw [List.getElem?_set_ne (Ne.symm hd)]
      rw [ih _ { kr with children := kr.children ++ [c] } (List.getElem?_set_self hlt) fun d hd => by
        refine ⟨?_, (hl d hd).2⟩
        show d < (List.set _ _ _).length
        rw [List.length_set]
        exact (hl d hd).1]
      have h1 : isErrorTok (s.toks.set root { kr with children := kr.children ++ [c] }) = isErrorTok s.toks := funext hsame
      dsimp only
      rw [h1, List.set_set, List.filter_cons, List.filter_cons, he]
      simp
    | false =>
      rw [hf] at he
      rw [if_neg (by simp), bind_run (ih s kr hk hl), List.filter_cons, List.filter_cons, he]
      rfl

theorem agrees_congr {b : Held α} {a a' : M α} (h : Agrees b a s fl) (he : a s = a' s) : Agrees b a' s fl := by
  unfold Agrees lift at *
  rw [h, he]

/-- The end of `collectErrors` for a token that is not the root. -/
theorem agrees_prune {root t : TokId} {k : Token} (hrt : root ≠ t) (hk : s.toks[t]? = some k) (hr : root < s.toks.length)
    (hc : ∀ c ∈ k.children, c < s.toks.length ∧ c ≠ root ∧ c ≠ t) (hq : ∀ x, x = root ∨ x = t ∨ x ∈ k.children →
      fl (.token x) = .shared 0) :
    Agrees (do
      let tk ← getTokB t
      if tk.children = [] then pure ()
      else if false = true then pure ()
      else
        own (.token t) do
          let keep ← retainB root tk.children
          lift (modTok t (fun k => { k with children := keep }))) (do
      let tk ← getTok t
      let (keep, errs) ← splitErrors tk.children
      modTok t (fun k => { k with children := keep })
      modTok root (fun k => { k with children := k.children ++ errs })) s fl := by
  have hrk : s.toks[root]? = some s.toks[root] := List.getElem?_eq_getElem hr
  generalize s.toks[root] = kr at hrk
  have htl := (List.getElem?_eq_some_iff.mp hk).1
  have hval : (do
      let (keep, errs) ← splitErrors k.children
      modTok t (fun k => { k with children := keep })
      modTok root (fun k => { k with children := k.children ++ errs })) s = (do
      let keep ← retainM root k.children
      modTok t (fun k => { k with children := keep })) s := by
    rw [bind_run (splitErrors_eq fun c hcm => (hc c hcm).1),
      bind_run (retainM_eq _ s kr hrk fun c hcm => ⟨(hc c hcm).1, (hc c hcm).2.1⟩)]
    dsimp only
    rw [bind_run (modTok_run hk)]
    rw [modTok_run (t := root) (k := kr) (by
      show (List.set _ _ _)[root]? = _
      rw [List.getElem?_set_ne hrt.symm]
      exact hrk)]
    rw [modTok_run (t := t) (k := k) (by
      show (List.set _ _ _)[t]? = _
      rw [List.getElem?_set_ne hrt]
      exact hk)]
    dsimp only
    rw [List.set_comm _ _ hrt]
  refine agrees_bind (agrees_getTok (Borrow.free_ne (hq t (by simp)))) fun tk s1 h1 => ?_
  obtain ⟨htk, rfl⟩ := getTok_ok.mp h1
  rw [hk] at htk
  cases htk
  refine agrees_congr ?_ hval.symm
  by_cases he : k.children = []
  · rw [if_pos he, he]
    refine agrees_congr (agrees_pure _) ?_
    show Res.ok () s1 = _
    rw [bind_run (show retainM root [] s1 = .ok [] s1 from rfl), modTok_run hk]
    have : ({ k with children := [] } : Token) = k := by
      rw [← he]
    rw [this]
    obtain ⟨hlt, he⟩ := List.getElem?_eq_some_iff.mp hk
    rw [← he, List.set_getElem_self hlt]
  · rw [if_neg he, if_neg (by simp)]
    refine agrees_own (hq t (by simp)) (agrees_bind (agrees_retain ?_ _ _ fun c hcm => ?_) fun _ _ _ => agrees_lift _)
    · rw [Borrows.set_other _ _ (by simpa using hrt)]
      exact hq root (by simp)
    · rw [Borrows.set_other _ _ (by simpa using (hc c hcm).2.2)]
      exact Borrow.free_ne (hq c (by simp [hcm]))

theorem agrees_collect_forest {toks0 : List Token} {root : TokId} {n : Nat} {ts l : List TokId}
    (h : Walk toks0 n ts l) : ∀ (s : State) (fl : Borrows), l.Nodup → root ∉ l → root < s.toks.length →
    (∀ u ∈ l, s.toks[u]? = toks0[u]?) → (∀ u, isErrorTok s.toks u = isErrorTok toks0 u) →
    fl (.token root) = .shared 0 → (∀ u ∈ l, fl (.token u) = .shared 0) →
    Agrees (forEachB (fun c => collectErrorsB n root c false) ts) (forEach (fun c => collectErrors n root c false) ts) s fl := by
  induction h with
  | nil n => intro s fl _ _ _ _ _ _ _; exact agrees_pure _
  | @cons n t k ts l l' hk hc hs ih1 ih2 =>
    intro s fl hnd hroot hlt hag hfl hqr hq
    have hnd' := List.nodup_cons.mp hnd
    have htl : t ∉ l := fun hx => hnd'.1 (by simp [hx])
    have htl' : t ∉ l' := fun hx => hnd'.1 (by simp [hx])
    obtain ⟨hndl, hndl', hdis⟩ := List.nodup_append.mp hnd'.2
    have hrt : root ≠ t := fun he => hroot (by simp [he])
    have hrl : root ∉ l := fun hx => hroot (by simp [hx])
    have hrl' : root ∉ l' := fun hx => hroot (by simp [hx])
    have hst : s.toks[t]? = some k := by rw [hag t (by simp), hk]
    obtain ⟨es, s1, hb1, he1, hg1⟩ := collect_forest hc s hndl hrl hlt (fun u hu => hag u (by simp [hu])) hfl
    have hs1t : s1.toks[t]? = some k := by rw [hg1.outside t (Ne.symm hrt) htl, hst]
    have hvalid : ∀ c ∈ k.children, c < s1.toks.length ∧ c ≠ root ∧ c ≠ t := by
      intro c hcm
      have hcl : c ∈ l := hc.pre.roots c hcm
      have : c < toks0.length := hc.pre.valid c hcl
      have h2 : s.toks[c]? = some toks0[c] := by
        rw [hag c (by simp [hcl]), List.getElem?_eq_getElem this]
      refine ⟨?_, fun he => hrl (he ▸ hcl), fun he => htl (he ▸ hcl)⟩
      rw [hg1.length]
      exact (List.getElem?_eq_some_iff.mp h2).1
    have h1 : Agrees (collectErrorsB (n + 1) root t false) (collectErrors (n + 1) root t false) s fl := by
      refine agrees_assoc (x := getTok t) (f := fun tk => forEach (fun c => collectErrors n root c false) tk.children) ?_
      refine agrees_bind (agrees_share (Borrow.free_ne (hq t (by simp))) fun j hj => ?_) fun _ s2 h2 => ?_
      · refine agrees_bind (agrees_lift _) fun tk s2 h2 => ?_
        obtain ⟨htk, rfl⟩ := getTok_ok.mp h2
        rw [hst] at htk
        cases htk
        refine ih1 _ _ hndl hrl hlt (fun u hu => hag u (by simp [hu])) hfl ?_ fun u hu => ?_
        · rw [Borrows.set_other _ _ (by simpa using hrt)]
          exact hqr
        · rw [Borrows.set_other _ _ (by simpa using fun he : u = t => htl (he ▸ hu))]
          exact hq u (by simp [hu])
      · rw [bind_run (getTok_ok.mpr ⟨hst, rfl⟩), he1] at h2
        cases h2
        refine agrees_prune hrt hs1t (by rw [hg1.length]; exact hlt) hvalid fun x hx => ?_
        rcases hx with rfl | rfl | hx
        · exact hqr
        · exact hq x (by simp)
        · exact hq x (by simp [hc.pre.roots x hx])
    refine agrees_bind h1 fun _ s2 h2 => ?_
    -- what the first tree has changed
    have hw : Walk toks0 (n + 1) [t] (t :: (l ++ [])) := .cons hk hc (.nil _)
    obtain ⟨es2, s2', hb2, he2, hg2⟩ := collect_forest (root := root) hw s (by simpa using ⟨htl, hndl⟩)
      (by simpa using ⟨hrt, hrl⟩) hlt (fun u hu => hag u (by simp at hu; simp; tauto)) hfl
    have : s2' = s2 := by
      unfold forEach at he2
      rw [bind_run h2] at he2
      cases he2
      rfl
    subst this
    refine ih2 _ _ hndl' hrl' (by rw [hg2.length]; exact hlt) (fun u hu => ?_) (fun u => by rw [hg2.flags, hfl]) hqr
      fun u hu => hq u (by simp [hu])
    rw [hg2.outside u (fun he => hrl' (he ▸ hu)) ?_]
    · exact hag u (by simp [hu])
    · intro hx
      simp only [List.append_nil, List.mem_cons] at hx
      rcases hx with rfl | hx
      · exact htl' hu
      · exact hdis u hx u hu rfl

theorem agrees_collectTop {t : TokId} {l : List TokId} (hp : Pre s.toks [t] l) (hn : l.Nodup)
    (hq : ∀ u ∈ l, fl (.token u) = .shared 0) : Agrees (collectErrorsTopB t) (collectErrorsTop t) s fl := by
  cases hp with
  | @cons _ k _ l l' hk hc hs =>
    cases hs
    have hqt := hq t (by simp)
    have hn' := List.nodup_cons.mp hn
    have hnl : l.Nodup := by simpa using hn'.2
    have htl : t ∉ l := by simpa using hn'.1
    have hlt := (List.getElem?_eq_some_iff.mp hk).1
    have hw := hc.walk (Nat.le_refl _)
    obtain ⟨es, s1, _, he1, hg1⟩ := collect_forest (root := t) hw s hnl htl hlt (fun _ _ => rfl) fun _ => rfl
    refine agrees_bind (agrees_lift _) fun s2 s3 h3 => ?_
    unfold M.getState at h3
    cases h3
    refine agrees_assoc (x := getTok t) (f := fun tk => forEach (fun c => collectErrors s.toks.length t c false) tk.children) ?_
    refine agrees_bind (agrees_bind (agrees_getTok (Borrow.free_ne hqt)) fun tk s2 h2 => ?_) fun _ s2 h2 => ?_
    · obtain ⟨htk, rfl⟩ := getTok_ok.mp h2
      rw [hk] at htk
      cases htk
      exact agrees_collect_forest hw _ _ hnl htl hlt (fun _ _ => rfl) (fun _ => rfl) hqt fun u hu => hq u (by simp [hu])
    · rw [bind_run (getTok_ok.mpr ⟨hk, rfl⟩), he1] at h2
      cases h2
      have e : (pure () : M Unit) s1 = (getTok t >>= fun _ => (pure () : M Unit)) s1 := by
        rw [bind_run (getTok_ok.mpr ⟨hg1.atRoot k hk, rfl⟩)]
      refine agrees_congr ?_ e.symm
      refine agrees_bind (agrees_getTok (Borrow.free_ne hqt)) fun tk s4 _ => ?_
      by_cases hx : tk.children = []
      · rw [if_pos hx]
        exact agrees_pure _
      · rw [if_neg hx]
        exact agrees_pure _

theorem agrees_tokenize (hT : ∀ m, (T m).Grafts) {n k : Nat} {ctx : Ctx} {m : MatcherId} (q : Quiet base k fl)
    (hs : base ≤ s.toks.length) : Agrees (tokenizeB T cfg n k ctx m) (tokenize T cfg n ctx m) s fl := by
  refine agrees_touch q.context (agrees_share (q.matcher m) fun j _ => ?_)
  have q1 : Quiet base k (fl.set (.matcher m) (.shared (j + 1))) := q.shareMatcher m
  refine agrees_bind (agrees_exec hT n _ _ _ _ _ _ q1 hs) fun r s1 h1 => ?_
  have htop : ∀ {t : TokId} {f : Held (Except Failure TokId)} {g : M (Except Failure TokId)}, r.tok = some t →
      (∀ s2, Agrees f g s2 (fl.set (.matcher m) (.shared (j + 1)))) →
      Agrees (collectErrorsTopB t >>= fun _ => f) (collectErrorsTop t >>= fun _ => g) s1
        (fl.set (.matcher m) (.shared (j + 1))) := by
    intro t f g ht hfg
    obtain ⟨l, hl, hn, hb⟩ := (exec_proper hT n).tree _ _ _ _ _ _ t h1 ht
    exact agrees_bind (agrees_collectTop hl hn fun u hu => q1.new u (Nat.le_trans hs (hb u hu))) fun _ s2 _ => hfg s2
  rcases r with a | f
  · cases a with
    | token t => exact htop rfl fun _ => agrees_pure _
    | proxyChildren t => exact htop rfl fun _ => agrees_pure _
    | brk x d =>
      cases d with
      | token t => exact htop rfl fun _ => agrees_pure _
      | _ => exact agrees_pure _
    | cont x d =>
      cases d with
      | token t => exact htop rfl fun _ => agrees_pure _
      | _ => exact agrees_pure _
    | _ => exact agrees_pure _
  · exact agrees_pure _

end

end Adx
