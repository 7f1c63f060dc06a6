import Verif.Proofs.Step
/-
  Runs that stay within a set of matchers and one scope context: a condition on the
  heap that holds as long as only this context is changed, and only matchers of the set
  are stored in it, holds throughout the run.
-/
namespace Adx

/-- `m` keeps the condition `I`. -/
def Keep {α : Type} (I : State → Prop) (m : M α) : Prop :=
  ∀ s a s', I s → m s = .ok a s' → I s'

/-- A condition that is kept by token operations and by binding tokens, strings and
matchers in `S` in the context `sc`, and which ensures that only matchers in `S` are
found there. -/
structure VarKeep (S : MatcherId → Prop) (sc : SCtxId) (I : State → Prop) : Prop where
  toks : ∀ s ts, I s → I { s with toks := ts }
  bindM : ∀ s k m, I s → S m → I (s.bindVar sc k (.matcher m))
  bindT : ∀ s k t, I s → I (s.bindVar sc k (.token t))
  bindS : ∀ s k v, I s → I (s.bindVar sc k (.str v))
  look : ∀ s k m, I s → s.lookup sc k = some (.matcher m) → S m

/-- A matcher that refers to matchers in `S` only, does not change the scope context, and
has callbacks that keep the condition. -/
def KeepNode (S : MatcherId → Prop) (I : State → Prop) : Node → Prop
  | .program ps _ _ _ _ => ∀ p ∈ ps, S p
  | .optional m => S m
  | .not m => S m
  | .discard m => S m
  | .proxyChildren m _ _ => S m
  | .expandRange m => S m
  | .catch_ m f => S m ∧ ∀ c e, Keep I (f c e)
  | .map m sf ff => S m ∧ (∀ t c sc, Keep I (sf t c sc)) ∧ (∀ e c sc, Keep I (ff e c sc))
  | .store m _ _ => S m
  | .ref (.matcher m) _ _ => S m
  | .register ps => ∀ p ∈ ps, S p
  | .setScope _ _ => False
  | .pin (some m) _ _ _ => S m
  | .debug (some m) _ => S m
  | _ => True

section
variable {T : Table} {S : MatcherId → Prop} {sc : SCtxId} {I : State → Prop} (H : VarKeep S sc I) {α β : Type}

include H

theorem Keep.pure (a : α) : Keep I (pure a : M α) := by
  intro s b s' hI h
  cases h
  exact hI

theorem Keep.bind {m : M α} {f : α → M β} (hm : Keep I m) (hf : ∀ a, Keep I (f a)) :
    Keep I (m >>= f) := by
  intro s b s' hI h
  rw [bind_eq] at h
  unfold M.bind at h
  cases hms : m s with
  | ok a s1 =>
    rw [hms] at h
    exact hf a s1 b s' (hm s a s1 hI hms) h
  | panic e => rw [hms] at h; cases h
  | diverge => rw [hms] at h; cases h

omit H in
theorem Keep.panic (e : String) : Keep I (M.panic e : M α) := by
  intro s a s' hI h
  cases h

omit H in
theorem Keep.diverge : Keep I (M.diverge : M α) := by
  intro s a s' hI h
  cases h

theorem Keep.ofOpt (e : String) (o : Option α) : Keep I (M.ofOpt e o) := by
  cases o with
  | none => exact Keep.panic e
  | some a => exact Keep.pure H a

theorem Keep.getState : Keep I M.getState := by
  intro s a s' hI h
  cases h
  exact hI

theorem Keep.newTok (t : Token) : Keep I (newTok t) := by
  intro s a s' hI h
  cases h
  exact H.toks s _ hI

theorem Keep.getTok (i : TokId) : Keep I (getTok i) := by
  intro s a s' hI h
  unfold Adx.getTok at h
  cases hg : s.toks[i]? with
  | none => rw [hg] at h; cases h
  | some t => rw [hg] at h; cases h; exact hI

theorem Keep.setTok (i : TokId) (t : Token) : Keep I (setTok i t) := by
  intro s a s' hI h
  cases h
  exact H.toks s _ hI

theorem Keep.modTok (i : TokId) (f : Token → Token) : Keep I (modTok i f) :=
  Keep.bind H (Keep.getTok H i) (fun _ => Keep.setTok H i _)

theorem Keep.lookupVar (sc : SCtxId) (k : Str) : Keep I (lookupVar sc k) := by
  intro s a s' hI h
  cases h
  exact hI

theorem Keep.fetchValue (f : Fetchable) (sc : SCtxId) : Keep I (fetchValue f sc) := by
  intro s v s' hI h
  have hs : Post True (Adx.fetchValue f sc) s (fun _ s' => s' = s) :=
    Post.fetchValue (Q := fun _ s' => s' = s) (fun _ => rfl)
  have := hs.of_ok h
  subst this
  exact hI

theorem Keep.dbg (c : Ctx) (n : Nat) : Keep I (dbg c n) := by
  unfold Adx.dbg
  split
  · split
    · exact Keep.pure H ()
    · exact Keep.panic _
  · exact Keep.pure H ()

theorem addToken_keep (prog : TokId) (ps : PS) (t : TokId) (f u : Bool) :
    Keep I (addToken prog ps t f u) := by
  unfold addToken prepToken
  refine Keep.bind H (Keep.bind H (Keep.getTok H t) (fun tk => ?_)) (fun _ => ?_)
  · split
    · split
      · exact Keep.modTok H _ _
      · exact Keep.pure H ()
    · split
      · exact Keep.panic _
      · exact Keep.pure H ()
  · exact Keep.bind H (Keep.getTok H t) (fun tk => Keep.bind H (Keep.modTok H _ _)
      (fun _ => Keep.pure H _))

theorem handleToken_keep (prog : TokId) (ps : PS) (t : TokId) (f u : Bool) :
    Keep I (handleToken prog ps t f u) :=
  Keep.bind H (Keep.getTok H t) (fun _ => addToken_keep H _ _ _ _ _)

theorem extractLoop_keep (prog : TokId) (u : Bool) : ∀ (cs : List TokId) (ps : PS),
    Keep I (extractLoop prog u cs ps) := by
  intro cs
  induction cs with
  | nil => intro ps; exact Keep.pure H ps
  | cons c cs ih =>
    intro ps
    unfold extractLoop
    refine Keep.bind H (Keep.getTok H c) (fun tk => ?_)
    split
    · exact ih ps
    · exact Keep.bind H (addToken_keep H _ _ _ _ _) (fun ps => ih ps)

theorem handleExtract_keep (prog : TokId) (ps : PS) (t : TokId) (u : Bool) :
    Keep I (handleExtract prog ps t u) :=
  Keep.bind H (Keep.getTok H t) (fun _ => extractLoop_keep H _ _ _ _)

theorem handleSkip_keep (cfg : Cfg) (ps : PS) (o : Nat) (k : Int) :
    Keep I (handleSkip cfg ps o k) := by
  refine Keep.bind H ?_ (fun n => Keep.pure H _)
  unfold addOffset
  dsimp only
  split
  · exact Keep.pure H _
  · split
    · exact Keep.panic _
    · exact Keep.pure H _

theorem finalize_keep (prog : TokId) (ps : PS) (iter : Option (Nat × Nat)) (lc : Nat) (b : Bool) :
    Keep I (finalizeProgram prog ps iter lc b) := by
  have fin : Keep I
      (if ps.captured.start = usizeMax ∨ ps.matched.start = usizeMax then pure (.err .fail)
      else if ps.children = [] then pure (.err .fail)
      else do
        modTok prog (fun k =>
          ((({ k with children := ps.children } : Token).setCaptured ps.captured).setMatched
            ps.matched))
        pure (.ok (.token prog)) : M R) := by
    split
    · exact Keep.pure H _
    · split
      · exact Keep.pure H _
      · exact Keep.bind H (Keep.modTok H _ _) (fun _ => Keep.pure H _)
  unfold finalizeProgram
  dsimp only
  split
  · split
    · split
      · exact Keep.pure H _
      · split
        · exact Keep.pure H _
        · exact fin
    · exact fin
  · exact fin

theorem runPatterns_keep {cfg : Cfg} {f : ExecFn} (hf : ∀ m c, S m → Keep I (f m c sc)) (prog : TokId)
    (so : Nat) (iter : Option (Nat × Nat)) (fs : Bool) (lc : Nat) :
    ∀ (pats : List MatcherId) (_ : ∀ p ∈ pats, S p) (ps : PS),
    Keep I (runPatterns T cfg f prog sc so iter fs lc pats ps) := by
  intro pats
  induction pats with
  | nil => intro _ ps; exact Keep.pure H _
  | cons p pats ih =>
    intro hp ps
    have ih := ih fun q hq => hp q (List.mem_cons_of_mem _ hq)
    unfold runPatterns
    refine Keep.bind H (hf _ _ (hp p List.mem_cons_self)) (fun r => ?_)
    split
    · refine Keep.bind H (Keep.getTok H _) (fun tk => ?_)
      split
      · exact ih ps
      · split
        · exact Keep.pure H _
        · exact Keep.bind H (handleToken_keep H _ _ _ _ _) (fun ps => ih ps)
    · refine Keep.bind H (Keep.getTok H _) (fun tk => ?_)
      split
      · exact ih ps
      · split
        · exact Keep.pure H _
        · exact Keep.bind H (handleExtract_keep H _ _ _ _) (fun ps => ih ps)
    · split
      · exact Keep.pure H _
      · split
        · exact Keep.bind H (handleSkip_keep H _ _ _ _) (fun ps => ih ps)
        · exact ih ps
    · exact Keep.pure H _
    · refine Keep.bind H (Keep.dbg H _ _) (fun _ => ?_)
      split
      · split
        · exact ih ps
        · split
          · exact Keep.bind H (finalize_keep H _ _ _ _ _) (fun r => Keep.pure H _)
          · exact Keep.pure H _
      · exact Keep.pure H _

theorem handlePayload_keep (cfg : Cfg) (prog : TokId) (ps : PS) (so : Nat) (d : Success) :
    Keep I (handlePayload cfg prog ps so d) := by
  unfold handlePayload
  split
  · exact handleToken_keep H _ _ _ _ _
  · exact handleExtract_keep H _ _ _ _
  · exact handleSkip_keep H _ _ _ _
  · exact Keep.pure H _

theorem runIterations_keep {cfg : Cfg} {f : ExecFn} (hf : ∀ m c, S m → Keep I (f m c sc))
    (prog : TokId) (so : Nat) (self : Str) (pats : List MatcherId) (hp : ∀ p ∈ pats, S p)
    (iter : Option (Nat × Nat)) (fs : Bool) : ∀ (k lc : Nat) (ps : PS),
    Keep I (runIterations T cfg f prog sc so self pats iter fs k lc ps) := by
  intro k
  induction k with
  | zero => intro lc ps; exact finalize_keep H _ _ _ _ _
  | succ k ih =>
    intro lc ps
    unfold runIterations
    refine Keep.bind H (runPatterns_keep H hf _ _ _ _ _ _ hp _) (fun fl => ?_)
    split
    · exact Keep.pure H _
    · exact ih _ _
    · split
      · exact Keep.pure H _
      · refine Keep.bind H (handlePayload_keep H _ _ _ _ _) (fun ps => ?_)
        refine Keep.bind H (finalize_keep H _ _ _ _ _) (fun r => ?_)
        split
        · exact Keep.pure H _
        · split <;> exact Keep.pure H _
    · split
      · exact Keep.pure H _
      · refine Keep.bind H (handlePayload_keep H _ _ _ _ _) (fun ps => ?_)
        split
        · exact ih _ _
        · exact finalize_keep H _ _ _ _ _
    · exact finalize_keep H _ _ _ _ _
    · exact Keep.panic _

theorem forEach_keep {f : TokId → M Unit} (hf : ∀ t, Keep I (f t)) :
    ∀ cs, Keep I (forEach f cs) := by
  intro cs
  induction cs with
  | nil => exact Keep.pure H ()
  | cons c cs ih => exact Keep.bind H (hf c) (fun _ => ih)

theorem discardCollect_keep (e : TokId) : ∀ (n : Nat) (t : TokId),
    Keep I (discardCollect n e t) := by
  intro n
  induction n with
  | zero => intro t; exact Keep.diverge
  | succ n ih =>
    intro t
    unfold discardCollect
    refine Keep.bind H (Keep.getTok H _) (fun w => Keep.bind H ?_ (fun _ => forEach_keep H ih _))
    unfold discardRecord
    split
    · exact Keep.modTok H _ _
    · exact Keep.pure H ()

theorem skipToken_keep (cfg : Cfg) (c : Ctx) (o : Nat) (t : TokId) :
    Keep I (skipToken cfg c o t) := by
  unfold skipToken
  refine Keep.bind H (Keep.getTok H _) (fun tk => Keep.bind H (Keep.newTok H _) (fun e =>
    Keep.bind H (Keep.getState H) (fun s => Keep.bind H (discardCollect_keep H _ _ _) (fun _ =>
    Keep.bind H (Keep.getTok H _) (fun ek => ?_)))))
  split
  · exact Keep.pure H _
  · refine Keep.bind H ?_ (fun d => Keep.pure H _)
    unfold subOffset
    dsimp only
    split
    · exact Keep.pure H _
    · split
      · exact Keep.panic _
      · exact Keep.pure H _

theorem newErrorTokenWithRange_keep (c : Ctx) (msg : Str) (r : Range) :
    Keep I (newErrorTokenWithRange c msg r) :=
  Keep.bind H (Keep.ofOpt H _ _) (fun _ => Keep.newTok H _)

theorem parseOffset_keep (cfg : Cfg) (a b : Nat) (v : Str) : Keep I (parseOffset cfg a b v) := by
  unfold parseOffset
  dsimp only
  split
  · exact Keep.pure H _
  split
  · exact Keep.panic _
  split
  · exact Keep.panic _
  repeat' split
  all_goals first | exact Keep.pure H _ | exact Keep.panic _

theorem execRegister_keep : ∀ ps, (∀ p ∈ ps, S p) → Keep I (execRegister T sc ps) := by
  intro ps
  induction ps with
  | nil => intro _; exact Keep.pure H _
  | cons p ps ih =>
    intro hp
    refine Keep.bind H ?_ (fun _ => ih fun q hq => hp q (List.mem_cons_of_mem _ hq))
    intro s a s' hI h
    cases h
    exact H.bindM s _ p hI (hp p List.mem_cons_self)

theorem bindT_keep (k : Str) (t : TokId) : Keep I (bindVar sc k (.token t)) := by
  intro s a s' hI h
  cases h
  exact H.bindT s k t hI

theorem execNode_keep {cfg : Cfg} {f : ExecFn} (hf : ∀ m c, S m → Keep I (f m c sc)) {n : Node}
    (hn : KeepNode S I n) (c : Ctx) : Keep I (execNode T cfg f n c sc) := by
  cases n with
  | equals name cu pat =>
    refine Keep.bind H (Keep.fetchValue H _ _) (fun v => ?_)
    split
    · refine Keep.bind H (Keep.ofOpt H _ _) (fun o => ?_)
      split
      · exact Keep.bind H (Keep.dbg H _ _) (fun _ => Keep.bind H (Keep.newTok H _)
          (fun _ => Keep.pure H _))
      · exact Keep.bind H (Keep.dbg H _ _) (fun _ => Keep.pure H _)
    · exact Keep.pure H _
  | regex name cu re =>
    refine Keep.bind H (Keep.ofOpt H _ _) (fun o => ?_)
    split
    · split
      · exact Keep.bind H (Keep.dbg H _ _) (fun _ => Keep.pure H _)
      · exact Keep.bind H (Keep.newTok H _) (fun _ => Keep.pure H _)
    · exact Keep.bind H (Keep.dbg H _ _) (fun _ => Keep.pure H _)
  | sequence name cu a b e =>
    refine Keep.bind H (Keep.fetchValue H _ _) (fun v => ?_)
    split
    · exact Keep.pure H _
    split
    · exact Keep.panic _
    refine Keep.bind H (Keep.fetchValue H _ _) (fun v => ?_)
    split
    · exact Keep.pure H _
    split
    · exact Keep.panic _
    refine Keep.bind H (Keep.fetchValue H _ _) (fun v => ?_)
    split
    · exact Keep.pure H _
    refine Keep.bind H (Keep.ofOpt H _ _) (fun o => ?_)
    split
    · exact Keep.bind H (Keep.dbg H _ _) (fun _ => Keep.pure H _)
    split
    · exact Keep.panic _
    · exact Keep.bind H (Keep.dbg H _ _) (fun _ => Keep.pure H _)
    · exact Keep.bind H (Keep.newTok H _) (fun _ => Keep.bind H (Keep.dbg H _ _)
        (fun _ => Keep.pure H _))
  | program ps name cu iter fs =>
    exact Keep.bind H (Keep.newTok H _) (fun _ => runIterations_keep H hf _ _ _ _ hn _ _ _ _ _)
  | optional m =>
    refine Keep.bind H (hf _ _ hn) (fun r => ?_)
    split <;> exact Keep.pure H _
  | not m =>
    refine Keep.bind H (hf _ _ hn) (fun r => ?_)
    repeat' split
    all_goals exact Keep.pure H _
  | discard m =>
    refine Keep.bind H (hf _ _ hn) (fun r => ?_)
    repeat' split
    all_goals first
      | exact Keep.pure H _
      | exact Keep.panic _
      | exact Keep.bind H (skipToken_keep H _ _ _ _) (fun _ => Keep.pure H _)
  | proxyChildren m name cu =>
    refine Keep.bind H (hf _ _ hn) (fun r => ?_)
    repeat' split
    all_goals exact Keep.pure H _
  | expandRange m =>
    refine Keep.bind H (hf _ _ hn) (fun r => ?_)
    split
    · exact Keep.bind H (Keep.getTok H _) (fun _ => Keep.bind H (Keep.newTok H _) (fun _ =>
        Keep.bind H (Keep.modTok H _ _) (fun _ => Keep.pure H _)))
    · exact Keep.bind H (Keep.modTok H _ _) (fun _ => Keep.pure H _)
    · exact Keep.pure H _
  | catch_ m g =>
    refine Keep.bind H (hf _ _ hn.1) (fun r => ?_)
    split
    · exact Keep.pure H _
    · exact hn.2 _ _
  | map m sf ff =>
    refine Keep.bind H (hf _ _ hn.1) (fun r => ?_)
    split
    · exact hn.2.1 _ _ _
    · exact hn.2.1 _ _ _
    · exact Keep.pure H _
    · exact hn.2.2 _ _ _
  | store m name cu =>
    refine Keep.bind H (hf _ _ hn) (fun r => ?_)
    split
    · exact Keep.bind H (bindT_keep H _ _) (fun _ => Keep.pure H _)
    · exact Keep.pure H _
  | storeStr v name cu =>
    refine Keep.bind H ?_ (fun _ => Keep.pure H _)
    intro s a s' hI h
    cases h
    exact H.bindS s name v hI
  | fetch name => exact Keep.pure H _
  | ref target name cu =>
    show Keep I (execRef f target name c sc)
    unfold execRef
    intro s r s' hI h
    obtain ⟨v, s1, h1, h2⟩ := bind_ok.mp h
    have hs : Post True (Adx.fetchValue target sc) s (fun _ s' => s' = s) :=
      Post.fetchValue (Q := fun _ s' => s' = s) (fun _ => rfl)
    have := hs.of_ok h1
    subst this
    cases v with
    | inl k =>
      dsimp only at h2
      obtain ⟨o, s2, h3, h4⟩ := bind_ok.mp h2
      cases h3
      cases hv : s1.lookup sc k with
      | none => rw [hv] at h4; cases h4; exact hI
      | some v =>
        rw [hv] at h4
        cases v with
        | matcher m => exact hf _ _ (H.look _ _ m hI hv) _ _ _ hI h4
        | str _ => cases h4; exact hI
        | token _ => cases h4; exact hI
    | inr m =>
      dsimp only at h2
      have hS : S m := by
        unfold Adx.fetchValue at h1
        cases target with
        | str _ => cases h1
        | matcher _ => cases h1; exact hn
        | fetch k =>
          dsimp only at h1
          obtain ⟨o, s2, h3, h4⟩ := bind_ok.mp h1
          cases h3
          cases hv : s1.lookup sc ((splitDot k).headD []) with
          | none => rw [hv] at h4; cases h4
          | some v =>
            rw [hv] at h4
            cases v with
            | matcher m' => cases h4; exact H.look _ _ _ hI hv
            | str v =>
              dsimp only at h4
              split at h4 <;> cases h4
            | token t =>
              dsimp only at h4
              generalize splitDot k = q at h4
              split at h4
              · obtain ⟨tk, s3, h5, h6⟩ := bind_ok.mp h4
                repeat' split at h6
                all_goals cases h6
              · cases h4
      exact hf _ _ hS _ _ _ hI h2
  | register ps => exact execRegister_keep H _ hn
  | setScope k m => exact hn.elim
  | pin m o name cu =>
    refine Keep.bind H (Keep.fetchValue H _ _) (fun v => ?_)
    split
    · exact Keep.pure H _
    · refine Keep.bind H (parseOffset_keep H _ _ _ _) (fun a => Keep.bind H ?_ (fun b => ?_))
      · unfold pinEnd
        split
        · exact parseOffset_keep H _ _ _ _
        · exact Keep.pure H _
      · split
        · exact hf _ _ hn
        · exact Keep.bind H (Keep.newTok H _) (fun _ => Keep.pure H _)
  | debug m k =>
    refine Keep.bind H (Keep.ofOpt H _ _) (fun _ => ?_)
    split
    · exact hf _ _ hn
    · exact Keep.pure H _
  | brk name => exact Keep.pure H _
  | null => exact Keep.pure H _
  | panic msg =>
    refine Keep.bind H ?_ (fun _ => Keep.bind H (Keep.ofOpt H _ _) (fun _ => Keep.pure H _))
    unfold panicRange
    split
    · exact Keep.bind H (Keep.getTok H _) (fun _ => Keep.pure H _)
    · exact Keep.pure H _
  | error msg =>
    exact Keep.bind H (newErrorTokenWithRange_keep H _ _ _) (fun _ => Keep.pure H _)

/-- Every run of a matcher in `S` keeps the condition. -/
theorem exec_keep (cfg : Cfg) (hT : ∀ m, S m → KeepNode S I (T m)) :
    ∀ n m c, S m → Keep I (exec T cfg n m c sc) := by
  intro n
  induction n with
  | zero => intro m c _; exact Keep.diverge
  | succ n ih =>
    intro m c hm
    refine Keep.bind H ?_ (fun _ => execNode_keep H ih (hT m hm) c)
    unfold beforeExec
    split
    · intro s a s' hI h
      cases h
      exact H.bindM s _ m hI hm
    · exact Keep.pure H ()

theorem splitErrors_keep : ∀ cs, Keep I (splitErrors cs) := by
  intro cs
  induction cs with
  | nil => exact Keep.pure H _
  | cons c cs ih => exact Keep.bind H (Keep.getTok H _) fun _ => Keep.bind H ih fun _ => Keep.pure H _

theorem collectErrors_keep : ∀ (n : Nat) (root t : TokId) (b : Bool),
    Keep I (collectErrors n root t b) := by
  intro n
  induction n with
  | zero => intro _ _ _; exact Keep.diverge
  | succ n ih =>
    intro root t b
    unfold collectErrors
    refine Keep.bind H (Keep.getTok H _) fun tk => Keep.bind H (forEach_keep H (fun c => ih _ _ _) _) fun _ => ?_
    split
    · exact Keep.pure H _
    · exact Keep.bind H (Keep.getTok H _) fun _ => Keep.bind H (splitErrors_keep H _) fun _ =>
        Keep.bind H (Keep.modTok H _ _) fun _ => Keep.modTok H _ _

/-- A parse keeps the condition. -/
theorem tokenize_keep (cfg : Cfg) (hT : ∀ m, S m → KeepNode S I (T m)) {n : Nat} {m : MatcherId} {c : Ctx}
    (hm : S m) (hc : c.scope = sc) : Keep I (tokenize T cfg n c m) := by
  subst hc
  have hcol : ∀ t, Keep I (do collectErrorsTop t; pure (.ok t) : M (Except Failure TokId)) := fun t =>
    Keep.bind H (Keep.bind H (Keep.getState H) fun _ => collectErrors_keep H _ _ _ _) fun _ => Keep.pure H _
  unfold tokenize
  refine Keep.bind H (exec_keep H cfg hT n m c hm) fun r => ?_
  split
  · exact hcol _
  · exact hcol _
  · exact hcol _
  · exact hcol _
  · exact Keep.pure H _
  · exact Keep.pure H _

end

end Adx
