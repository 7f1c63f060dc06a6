import Verif.Proofs.Post
/-
  Relations on heaps that only constrain variables: if a relation is kept by the
  few variable operations of the engine, it is kept by every run.
-/
namespace Adx

/-- `m` only makes steps allowed by `Rel`. -/
def Pres {α : Type} (Rel : State → State → Prop) (m : M α) : Prop :=
  ∀ s a s', m s = .ok a s' → Rel s s'

/-- A relation on heaps that is kept by token operations, by the engine's
bindings, and by opening and closing a scope. -/
structure VarRel (T : Table) (Rel : State → State → Prop) : Prop where
  refl : ∀ s, Rel s s
  trans : ∀ {a b c}, Rel a b → Rel b c → Rel a c
  toks : ∀ s ts, Rel s { s with toks := ts }
  bindM : ∀ s sc m, Rel s (s.bindVar sc (T m).name (.matcher m))
  bindT : ∀ s sc k t, Rel s (s.bindVar sc k (.token t))
  bindS : ∀ s sc k v, Rel s (s.bindVar sc k (.str v))
  scope : ∀ s k s2, Rel (s.pushScope k) s2 → Rel s (s2.popScope k)

/-- User callbacks keep the relation. -/
def PresNode (Rel : State → State → Prop) : Node → Prop
  | .catch_ _ f => ∀ c e, Pres Rel (f c e)
  | .map _ sf ff => (∀ t c sc, Pres Rel (sf t c sc)) ∧ (∀ e c sc, Pres Rel (ff e c sc))
  | _ => True

section
variable {T : Table} {Rel : State → State → Prop} (H : VarRel T Rel) {α β : Type}

include H

theorem Pres.pure (a : α) : Pres Rel (pure a : M α) := by
  intro s b s' h
  cases h
  exact H.refl s

theorem Pres.bind {m : M α} {f : α → M β} (hm : Pres Rel m) (hf : ∀ a, Pres Rel (f a)) :
    Pres Rel (m >>= f) := by
  intro s b s' h
  rw [bind_eq] at h
  unfold M.bind at h
  cases hms : m s with
  | ok a s1 =>
    rw [hms] at h
    exact H.trans (hm s a s1 hms) (hf a s1 b s' h)
  | panic e => rw [hms] at h; cases h
  | diverge => rw [hms] at h; cases h

omit H in
theorem Pres.panic (e : String) : Pres Rel (M.panic e : M α) := by
  intro s a s' h
  cases h

omit H in
theorem Pres.diverge : Pres Rel (M.diverge : M α) := by
  intro s a s' h
  cases h

theorem Pres.ofOpt (e : String) (o : Option α) : Pres Rel (M.ofOpt e o) := by
  cases o with
  | none => exact Pres.panic e
  | some a => exact Pres.pure H a

theorem Pres.getState : Pres Rel M.getState := by
  intro s a s' h
  cases h
  exact H.refl s

theorem Pres.newTok (t : Token) : Pres Rel (newTok t) := by
  intro s a s' h
  cases h
  exact H.toks s _

theorem Pres.getTok (i : TokId) : Pres Rel (getTok i) := by
  intro s a s' h
  unfold Adx.getTok at h
  cases hg : s.toks[i]? with
  | none => rw [hg] at h; cases h
  | some t => rw [hg] at h; cases h; exact H.refl s

theorem Pres.setTok (i : TokId) (t : Token) : Pres Rel (setTok i t) := by
  intro s a s' h
  cases h
  exact H.toks s _

theorem Pres.modTok (i : TokId) (f : Token → Token) : Pres Rel (modTok i f) :=
  Pres.bind H (Pres.getTok H i) (fun _ => Pres.setTok H i _)

theorem Pres.lookupVar (sc : SCtxId) (k : Str) : Pres Rel (lookupVar sc k) := by
  intro s a s' h
  cases h
  exact H.refl s

theorem Pres.fetchValue (f : Fetchable) (sc : SCtxId) : Pres Rel (fetchValue f sc) := by
  intro s v s' h
  have hs : Post True (Adx.fetchValue f sc) s (fun _ s' => s' = s) :=
    Post.fetchValue (Q := fun _ s' => s' = s) (fun _ => rfl)
  have := hs.of_ok h
  subst this
  exact H.refl s'

theorem Pres.dbg (c : Ctx) (n : Nat) : Pres Rel (dbg c n) := by
  unfold Adx.dbg
  split
  · split
    · exact Pres.pure H ()
    · exact Pres.panic _
  · exact Pres.pure H ()

theorem addToken_pres (prog : TokId) (ps : PS) (t : TokId) (f u : Bool) :
    Pres Rel (addToken prog ps t f u) := by
  unfold addToken prepToken
  refine Pres.bind H (Pres.bind H (Pres.getTok H t) (fun tk => ?_)) (fun _ => ?_)
  · split
    · split
      · exact Pres.modTok H _ _
      · exact Pres.pure H ()
    · split
      · exact Pres.panic _
      · exact Pres.pure H ()
  · exact Pres.bind H (Pres.getTok H t) (fun tk => Pres.bind H (Pres.modTok H _ _)
      (fun _ => Pres.pure H _))

theorem handleToken_pres (prog : TokId) (ps : PS) (t : TokId) (f u : Bool) :
    Pres Rel (handleToken prog ps t f u) :=
  Pres.bind H (Pres.getTok H t) (fun _ => addToken_pres H _ _ _ _ _)

theorem extractLoop_pres (prog : TokId) (u : Bool) : ∀ (cs : List TokId) (ps : PS),
    Pres Rel (extractLoop prog u cs ps) := by
  intro cs
  induction cs with
  | nil => intro ps; exact Pres.pure H ps
  | cons c cs ih =>
    intro ps
    unfold extractLoop
    refine Pres.bind H (Pres.getTok H c) (fun tk => ?_)
    split
    · exact ih ps
    · exact Pres.bind H (addToken_pres H _ _ _ _ _) (fun ps => ih ps)

theorem handleExtract_pres (prog : TokId) (ps : PS) (t : TokId) (u : Bool) :
    Pres Rel (handleExtract prog ps t u) :=
  Pres.bind H (Pres.getTok H t) (fun _ => extractLoop_pres H _ _ _ _)

theorem handleSkip_pres (cfg : Cfg) (ps : PS) (o : Nat) (k : Int) :
    Pres Rel (handleSkip cfg ps o k) := by
  refine Pres.bind H ?_ (fun n => Pres.pure H _)
  unfold addOffset
  dsimp only
  split
  · exact Pres.pure H _
  · split
    · exact Pres.panic _
    · exact Pres.pure H _

theorem finalize_pres (prog : TokId) (ps : PS) (iter : Option (Nat × Nat)) (lc : Nat) (b : Bool) :
    Pres Rel (finalizeProgram prog ps iter lc b) := by
  have fin : Pres Rel
      (if ps.captured.start = usizeMax ∨ ps.matched.start = usizeMax then pure (.err .fail)
      else if ps.children = [] then pure (.err .fail)
      else do
        modTok prog (fun k =>
          ((({ k with children := ps.children } : Token).setCaptured ps.captured).setMatched
            ps.matched))
        pure (.ok (.token prog)) : M R) := by
    split
    · exact Pres.pure H _
    · split
      · exact Pres.pure H _
      · exact Pres.bind H (Pres.modTok H _ _) (fun _ => Pres.pure H _)
  unfold finalizeProgram
  dsimp only
  split
  · split
    · split
      · exact Pres.pure H _
      · split
        · exact Pres.pure H _
        · exact fin
    · exact fin
  · exact fin

theorem runPatterns_pres {cfg : Cfg} {f : ExecFn} (hf : ∀ m c sc, Pres Rel (f m c sc)) (prog : TokId)
    (sc : SCtxId) (so : Nat) (iter : Option (Nat × Nat)) (fs : Bool) (lc : Nat) :
    ∀ (pats : List MatcherId) (ps : PS),
    Pres Rel (runPatterns T cfg f prog sc so iter fs lc pats ps) := by
  intro pats
  induction pats with
  | nil => intro ps; exact Pres.pure H _
  | cons p pats ih =>
    intro ps
    unfold runPatterns
    refine Pres.bind H (hf _ _ _) (fun r => ?_)
    split
    · refine Pres.bind H (Pres.getTok H _) (fun tk => ?_)
      split
      · exact ih ps
      · split
        · exact Pres.pure H _
        · exact Pres.bind H (handleToken_pres H _ _ _ _ _) (fun ps => ih ps)
    · refine Pres.bind H (Pres.getTok H _) (fun tk => ?_)
      split
      · exact ih ps
      · split
        · exact Pres.pure H _
        · exact Pres.bind H (handleExtract_pres H _ _ _ _) (fun ps => ih ps)
    · split
      · exact Pres.pure H _
      · split
        · exact Pres.bind H (handleSkip_pres H _ _ _ _) (fun ps => ih ps)
        · exact ih ps
    · exact Pres.pure H _
    · refine Pres.bind H (Pres.dbg H _ _) (fun _ => ?_)
      split
      · split
        · exact ih ps
        · split
          · exact Pres.bind H (finalize_pres H _ _ _ _ _) (fun r => Pres.pure H _)
          · exact Pres.pure H _
      · exact Pres.pure H _

theorem handlePayload_pres (cfg : Cfg) (prog : TokId) (ps : PS) (so : Nat) (d : Success) :
    Pres Rel (handlePayload cfg prog ps so d) := by
  unfold handlePayload
  split
  · exact handleToken_pres H _ _ _ _ _
  · exact handleExtract_pres H _ _ _ _
  · exact handleSkip_pres H _ _ _ _
  · exact Pres.pure H _

theorem runIterations_pres {cfg : Cfg} {f : ExecFn} (hf : ∀ m c sc, Pres Rel (f m c sc))
    (prog : TokId) (sc : SCtxId) (so : Nat) (self : Str) (pats : List MatcherId)
    (iter : Option (Nat × Nat)) (fs : Bool) : ∀ (k lc : Nat) (ps : PS),
    Pres Rel (runIterations T cfg f prog sc so self pats iter fs k lc ps) := by
  intro k
  induction k with
  | zero => intro lc ps; exact finalize_pres H _ _ _ _ _
  | succ k ih =>
    intro lc ps
    unfold runIterations
    refine Pres.bind H (runPatterns_pres H hf _ _ _ _ _ _ _ _) (fun fl => ?_)
    split
    · exact Pres.pure H _
    · exact ih _ _
    · split
      · exact Pres.pure H _
      · refine Pres.bind H (handlePayload_pres H _ _ _ _ _) (fun ps => ?_)
        refine Pres.bind H (finalize_pres H _ _ _ _ _) (fun r => ?_)
        split
        · exact Pres.pure H _
        · split <;> exact Pres.pure H _
    · split
      · exact Pres.pure H _
      · refine Pres.bind H (handlePayload_pres H _ _ _ _ _) (fun ps => ?_)
        split
        · exact ih _ _
        · exact finalize_pres H _ _ _ _ _
    · exact finalize_pres H _ _ _ _ _
    · exact Pres.panic _

theorem forEach_pres {f : TokId → M Unit} (hf : ∀ t, Pres Rel (f t)) :
    ∀ cs, Pres Rel (forEach f cs) := by
  intro cs
  induction cs with
  | nil => exact Pres.pure H ()
  | cons c cs ih => exact Pres.bind H (hf c) (fun _ => ih)

theorem discardCollect_pres (e : TokId) : ∀ (n : Nat) (t : TokId),
    Pres Rel (discardCollect n e t) := by
  intro n
  induction n with
  | zero => intro t; exact Pres.diverge
  | succ n ih =>
    intro t
    unfold discardCollect
    refine Pres.bind H (Pres.getTok H _) (fun w => Pres.bind H ?_ (fun _ => forEach_pres H ih _))
    unfold discardRecord
    split
    · exact Pres.modTok H _ _
    · exact Pres.pure H ()

theorem skipToken_pres (cfg : Cfg) (c : Ctx) (o : Nat) (t : TokId) :
    Pres Rel (skipToken cfg c o t) := by
  unfold skipToken
  refine Pres.bind H (Pres.getTok H _) (fun tk => Pres.bind H (Pres.newTok H _) (fun e =>
    Pres.bind H (Pres.getState H) (fun s => Pres.bind H (discardCollect_pres H _ _ _) (fun _ =>
    Pres.bind H (Pres.getTok H _) (fun ek => ?_)))))
  split
  · exact Pres.pure H _
  · refine Pres.bind H ?_ (fun d => Pres.pure H _)
    unfold subOffset
    dsimp only
    split
    · exact Pres.pure H _
    · split
      · exact Pres.panic _
      · exact Pres.pure H _

theorem newErrorTokenWithRange_pres (c : Ctx) (msg : Str) (r : Range) :
    Pres Rel (newErrorTokenWithRange c msg r) :=
  Pres.bind H (Pres.ofOpt H _ _) (fun _ => Pres.newTok H _)

theorem parseOffset_pres (cfg : Cfg) (a b : Nat) (v : Str) : Pres Rel (parseOffset cfg a b v) := by
  unfold parseOffset
  dsimp only
  split
  · exact Pres.pure H _
  split
  · exact Pres.panic _
  split
  · exact Pres.panic _
  repeat' split
  all_goals first | exact Pres.pure H _ | exact Pres.panic _

theorem execRegister_pres (sc : SCtxId) : ∀ ps, Pres Rel (execRegister T sc ps) := by
  intro ps
  induction ps with
  | nil => exact Pres.pure H _
  | cons p ps ih =>
    refine Pres.bind H ?_ (fun _ => ih)
    intro s a s' h
    cases h
    exact H.bindM s sc p

theorem bindT_pres (sc : SCtxId) (k : Str) (t : TokId) : Pres Rel (bindVar sc k (.token t)) := by
  intro s a s' h
  cases h
  exact H.bindT s sc k t

theorem execNode_pres {cfg : Cfg} {f : ExecFn} (hf : ∀ m c sc, Pres Rel (f m c sc)) {n : Node}
    (hn : PresNode Rel n) (c : Ctx) (sc : SCtxId) : Pres Rel (execNode T cfg f n c sc) := by
  cases n with
  | equals name cu pat =>
    refine Pres.bind H (Pres.fetchValue H _ _) (fun v => ?_)
    split
    · refine Pres.bind H (Pres.ofOpt H _ _) (fun o => ?_)
      split
      · exact Pres.bind H (Pres.dbg H _ _) (fun _ => Pres.bind H (Pres.newTok H _)
          (fun _ => Pres.pure H _))
      · exact Pres.bind H (Pres.dbg H _ _) (fun _ => Pres.pure H _)
    · exact Pres.pure H _
  | regex name cu re =>
    refine Pres.bind H (Pres.ofOpt H _ _) (fun o => ?_)
    split
    · split
      · exact Pres.bind H (Pres.dbg H _ _) (fun _ => Pres.pure H _)
      · exact Pres.bind H (Pres.newTok H _) (fun _ => Pres.pure H _)
    · exact Pres.bind H (Pres.dbg H _ _) (fun _ => Pres.pure H _)
  | sequence name cu a b e =>
    refine Pres.bind H (Pres.fetchValue H _ _) (fun v => ?_)
    split
    · exact Pres.pure H _
    split
    · exact Pres.panic _
    refine Pres.bind H (Pres.fetchValue H _ _) (fun v => ?_)
    split
    · exact Pres.pure H _
    split
    · exact Pres.panic _
    refine Pres.bind H (Pres.fetchValue H _ _) (fun v => ?_)
    split
    · exact Pres.pure H _
    refine Pres.bind H (Pres.ofOpt H _ _) (fun o => ?_)
    split
    · exact Pres.bind H (Pres.dbg H _ _) (fun _ => Pres.pure H _)
    split
    · exact Pres.panic _
    · exact Pres.bind H (Pres.dbg H _ _) (fun _ => Pres.pure H _)
    · exact Pres.bind H (Pres.newTok H _) (fun _ => Pres.bind H (Pres.dbg H _ _)
        (fun _ => Pres.pure H _))
  | program ps name cu iter fs =>
    exact Pres.bind H (Pres.newTok H _) (fun _ => runIterations_pres H hf _ _ _ _ _ _ _ _ _ _)
  | optional m =>
    refine Pres.bind H (hf _ _ _) (fun r => ?_)
    split <;> exact Pres.pure H _
  | not m =>
    refine Pres.bind H (hf _ _ _) (fun r => ?_)
    repeat' split
    all_goals exact Pres.pure H _
  | discard m =>
    refine Pres.bind H (hf _ _ _) (fun r => ?_)
    repeat' split
    all_goals first
      | exact Pres.pure H _
      | exact Pres.panic _
      | exact Pres.bind H (skipToken_pres H _ _ _ _) (fun _ => Pres.pure H _)
  | proxyChildren m name cu =>
    refine Pres.bind H (hf _ _ _) (fun r => ?_)
    repeat' split
    all_goals exact Pres.pure H _
  | expandRange m =>
    refine Pres.bind H (hf _ _ _) (fun r => ?_)
    split
    · exact Pres.bind H (Pres.getTok H _) (fun _ => Pres.bind H (Pres.newTok H _) (fun _ =>
        Pres.bind H (Pres.modTok H _ _) (fun _ => Pres.pure H _)))
    · exact Pres.bind H (Pres.modTok H _ _) (fun _ => Pres.pure H _)
    · exact Pres.pure H _
  | catch_ m g =>
    refine Pres.bind H (hf _ _ _) (fun r => ?_)
    split
    · exact Pres.pure H _
    · exact hn _ _
  | map m sf ff =>
    refine Pres.bind H (hf _ _ _) (fun r => ?_)
    split
    · exact hn.1 _ _ _
    · exact hn.1 _ _ _
    · exact Pres.pure H _
    · exact hn.2 _ _ _
  | store m name cu =>
    refine Pres.bind H (hf _ _ _) (fun r => ?_)
    split
    · exact Pres.bind H (bindT_pres H _ _ _) (fun _ => Pres.pure H _)
    · exact Pres.pure H _
  | storeStr v name cu =>
    refine Pres.bind H ?_ (fun _ => Pres.pure H _)
    intro s a s' h
    cases h
    exact H.bindS s sc name v
  | fetch name => exact Pres.pure H _
  | ref target name cu =>
    refine Pres.bind H (Pres.fetchValue H _ _) (fun v => ?_)
    split
    · refine Pres.bind H (Pres.lookupVar H _ _) (fun o => ?_)
      split
      · exact hf _ _ _
      · exact Pres.pure H _
    · exact hf _ _ _
  | register ps => exact execRegister_pres H _ _
  | setScope k m =>
    show Pres Rel (execSetScope f k m c)
    unfold execSetScope
    cases k with
    | some k => exact hf _ _ _
    | none =>
      intro s a s' h
      dsimp only at h
      rw [bind_eq] at h
      unfold M.bind pushScope at h
      dsimp only at h
      rw [bind_eq] at h
      unfold M.bind at h
      cases hb : f m (c.withName "SetScope".toList) c.scope (s.pushScope c.scope) with
      | ok r s2 =>
        rw [hb] at h
        cases h
        exact H.scope s c.scope s2 (hf _ _ _ _ _ _ hb)
      | panic e => rw [hb] at h; cases h
      | diverge => rw [hb] at h; cases h
  | pin m o name cu =>
    refine Pres.bind H (Pres.fetchValue H _ _) (fun v => ?_)
    split
    · exact Pres.pure H _
    · refine Pres.bind H (parseOffset_pres H _ _ _ _) (fun a => Pres.bind H ?_ (fun b => ?_))
      · unfold pinEnd
        split
        · exact parseOffset_pres H _ _ _ _
        · exact Pres.pure H _
      · split
        · exact hf _ _ _
        · exact Pres.bind H (Pres.newTok H _) (fun _ => Pres.pure H _)
  | debug m k =>
    refine Pres.bind H (Pres.ofOpt H _ _) (fun _ => ?_)
    split
    · exact hf _ _ _
    · exact Pres.pure H _
  | brk name => exact Pres.pure H _
  | null => exact Pres.pure H _
  | panic msg =>
    refine Pres.bind H ?_ (fun _ => Pres.bind H (Pres.ofOpt H _ _) (fun _ => Pres.pure H _))
    unfold panicRange
    split
    · exact Pres.bind H (Pres.getTok H _) (fun _ => Pres.pure H _)
    · exact Pres.pure H _
  | error msg =>
    exact Pres.bind H (newErrorTokenWithRange_pres H _ _ _) (fun _ => Pres.pure H _)

/-- Every run keeps the relation. -/
theorem exec_pres (cfg : Cfg) (hT : ∀ m, PresNode Rel (T m)) :
    ∀ n m c sc, Pres Rel (exec T cfg n m c sc) := by
  intro n
  induction n with
  | zero => intro m c sc; exact Pres.diverge
  | succ n ih =>
    intro m c sc
    refine Pres.bind H ?_ (fun _ => execNode_pres H ih (hT m) c sc)
    unfold beforeExec
    split
    · intro s a s' h
      cases h
      exact H.bindM s sc m
    · exact Pres.pure H ()

end

end Adx
