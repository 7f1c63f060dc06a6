import Verif.Proofs.Pres
/-
  Invariants of single tokens: a predicate on tokens that is kept by each of the few
  ways in which the engine creates or changes a token holds of all tokens after every
  run.
-/
namespace Adx

/-- The predicate holds of tokens as the engine creates them and is kept by the
engine's changes.  Ranges are only changed on standard tokens and on error tokens. -/
structure TokInv (P : Token → Prop) (p : Parser) : Prop where
  fresh : ∀ name c m, P (Token.mkMatched p name c m)
  quoted : ∀ name c m v, P ((Token.mkMatched p name c m).setAttribute "__value".toList v)
  error : ∀ r v, P (((Token.mk' p "Error".toList r).setAttribute "__message".toList v).enableFlags IS_ERROR)
  pin : ∀ name r, P (Token.mkPin p name r r)
  parent : ∀ k q, P k → P { k with parent := q }
  kids : ∀ k l, P k → P { k with children := l }
  captured : ∀ k r, P k → (k.kind = .standard ∨ k.flagsEnabled IS_ERROR = true) → P (k.setCaptured r)
  matched : ∀ k r, P k → (k.kind = .standard ∨ k.flagsEnabled IS_ERROR = true) → P (k.setMatched r)
  expand : ∀ k, P k → P (k.setCaptured k.matched)

/-- All tokens of the heap satisfy the predicate. -/
def AllTok (P : Token → Prop) (s : State) : Prop := ∀ (t : TokId) k, s.toks[t]? = some k → P k

/-- A step keeps the kind of every token, and the predicate. -/
structure Good (P : Token → Prop) (s s' : State) : Prop where
  kind : ∀ (t : TokId) k, s.toks[t]? = some k → ∃ k', s'.toks[t]? = some k' ∧ k'.kind = k.kind
  all : AllTok P s → AllTok P s'

/-- User callbacks keep the predicate. -/
def GoodNode (P : Token → Prop) (p : Parser) : Node → Prop
  | .catch_ _ f => ∀ c e, c.parser = p → Pres (Good P) (f c e)
  | .map _ sf ff => (∀ t c sc, c.parser = p → Pres (Good P) (sf t c sc)) ∧
      (∀ e c sc, c.parser = p → Pres (Good P) (ff e c sc))
  | _ => True

/-- Is `t` a standard token? -/
def Std (t : TokId) (s : State) : Prop := ∃ k, s.toks[t]? = some k ∧ k.kind = .standard

variable {P : Token → Prop} {p : Parser}

theorem Good.refl (s : State) : Good P s s := ⟨fun _ k hk => ⟨k, hk, rfl⟩, id⟩

theorem Good.trans {a b c : State} (h : Good P a b) (h' : Good P b c) : Good P a c := by
  refine ⟨fun t k hk => ?_, fun ha => h'.all (h.all ha)⟩
  obtain ⟨k1, h1, e1⟩ := h.kind t k hk
  obtain ⟨k2, h2, e2⟩ := h'.kind t k1 h1
  exact ⟨k2, h2, e2.trans e1⟩

theorem Good.toks_eq {s s' : State} (h : s'.toks = s.toks) : Good P s s' := by
  refine ⟨fun t k hk => ⟨k, by rw [h]; exact hk, rfl⟩, fun ha t k hk => ?_⟩
  rw [h] at hk
  exact ha t k hk

theorem Good.std {s s' : State} (h : Good P s s') {t : TokId} (ht : Std t s) : Std t s' := by
  obtain ⟨k, hk, hs⟩ := ht
  obtain ⟨k', hk', he⟩ := h.kind t k hk
  exact ⟨k', hk', he.trans hs⟩

theorem Good.new {s : State} {k : Token} (hk : P k) : Good P s { s with toks := s.toks ++ [k] } := by
  refine ⟨fun t k' hk' => ⟨k', ?_, rfl⟩, fun ha t k' hk' => ?_⟩
  · have := (List.getElem?_eq_some_iff.mp hk').1
    simp only
    rw [List.getElem?_append_left this]
    exact hk'
  · simp only at hk'
    by_cases hlt : t < s.toks.length
    · rw [List.getElem?_append_left hlt] at hk'
      exact ha t k' hk'
    · have hlt' := (List.getElem?_eq_some_iff.mp hk').1
      simp at hlt'
      have : t = s.toks.length := Nat.le_antisymm (by omega) (Nat.not_lt.mp hlt)
      subst this
      simp at hk'
      subst hk'
      exact hk

theorem Good.set {s : State} {t : TokId} {k k' : Token} (hk : s.toks[t]? = some k)
    (he : k'.kind = k.kind) (hp : P k → P k') : Good P s { s with toks := s.toks.set t k' } := by
  have hlt := (List.getElem?_eq_some_iff.mp hk).1
  refine ⟨fun u ku hu => ?_, fun ha u ku hu => ?_⟩
  · simp only
    rw [List.getElem?_set]
    by_cases hut : t = u
    · subst hut
      rw [hk] at hu
      cases hu
      exact ⟨k', by simp [hlt], he⟩
    · exact ⟨ku, by simp [hut, hu], rfl⟩
  · simp only at hu
    rw [List.getElem?_set] at hu
    by_cases hut : t = u
    · subst hut
      simp [hlt] at hu
      subst hu
      exact hp (ha t k hk)
    · simp [hut] at hu
      exact ha u ku hu

@[simp] theorem Token.setCaptured_kind (k : Token) (r : Range) : (k.setCaptured r).kind = k.kind := by
  unfold Token.setCaptured
  cases h : k.kind <;> simp

@[simp] theorem Token.setMatched_kind (k : Token) (r : Range) : (k.setMatched r).kind = k.kind := by
  unfold Token.setMatched
  cases h : k.kind <;> simp

@[simp] theorem Token.setCaptured_flags (k : Token) (r : Range) : (k.setCaptured r).flags = k.flags := by
  unfold Token.setCaptured
  cases h : k.kind <;> rfl

/-- Steps while `prog` is a standard token. -/
def GoodFor (P : Token → Prop) (prog : TokId) (s s' : State) : Prop := Std prog s → Good P s s'

theorem GoodFor.varless (prog : TokId) : (∀ s, GoodFor P prog s s) ∧
    (∀ {a b c}, GoodFor P prog a b → GoodFor P prog b c → GoodFor P prog a c) :=
  ⟨fun s _ => Good.refl s, fun h h' ha => (h ha).trans (h' ((h ha).std ha))⟩

/-- A reflexive and transitive relation between heaps. -/
structure Steps (Rel : State → State → Prop) : Prop where
  refl : ∀ s, Rel s s
  trans : ∀ {a b c}, Rel a b → Rel b c → Rel a c

theorem Good.steps (P : Token → Prop) : Steps (Good P) := ⟨Good.refl, Good.trans⟩
theorem GoodFor.steps (P : Token → Prop) (prog : TokId) : Steps (GoodFor P prog) :=
  ⟨(GoodFor.varless prog).1, (GoodFor.varless prog).2⟩

section basic
variable {Rel : State → State → Prop} (H : Steps Rel) {α β : Type}
include H

theorem Steps.pure (a : α) : Pres Rel (pure a : M α) := by
  intro s b s' h
  cases h
  exact H.refl s

theorem Steps.bind {m : M α} {f : α → M β} (hm : Pres Rel m) (hf : ∀ a, Pres Rel (f a)) :
    Pres Rel (m >>= f) := by
  intro s b s' h
  rw [bind_eq] at h
  unfold M.bind at h
  cases hms : m s with
  | ok a s1 =>
    rw [hms] at h
    exact H.trans (hm s a s1 hms) (hf a s1 b s' h)
  | panic e => rw [hms] at h; cases h
  | diverge => rw [hms] at h; cases h

theorem Steps.ofOpt (e : String) (o : Option α) : Pres Rel (M.ofOpt e o) := by
  cases o with
  | none => exact Pres.panic e
  | some a => exact H.pure a

theorem Steps.getState : Pres Rel M.getState := by
  intro s a s' h
  cases h
  exact H.refl s

theorem Steps.getTok (i : TokId) : Pres Rel (getTok i) := by
  intro s a s' h
  unfold Adx.getTok at h
  cases hg : s.toks[i]? with
  | none => rw [hg] at h; cases h
  | some t => rw [hg] at h; cases h; exact H.refl s

omit H in
/-- Reading a token and going on with it, in the same heap. -/
theorem Steps.getTok_bind {i : TokId} {f : Token → M α}
    (h : ∀ s k, s.toks[i]? = some k → ∀ a s', f k s = .ok a s' → Rel s s') :
    Pres Rel (Adx.getTok i >>= f) := by
  intro s a s' he
  rw [bind_eq] at he
  unfold M.bind Adx.getTok at he
  cases hg : s.toks[i]? with
  | none => rw [hg] at he; cases he
  | some k =>
    rw [hg] at he
    exact h s k hg a s' he

omit H in
theorem Steps.modTok {i : TokId} {f : Token → Token}
    (h : ∀ s k, s.toks[i]? = some k → Rel s { s with toks := s.toks.set i (f k) }) :
    Pres Rel (Adx.modTok i f) := by
  refine Steps.getTok_bind (fun s k hk a s' he => ?_)
  cases he
  exact h s k hk

theorem Steps.lookupVar (sc : SCtxId) (k : Str) : Pres Rel (lookupVar sc k) := by
  intro s a s' h
  cases h
  exact H.refl s

theorem Steps.fetchValue (f : Fetchable) (sc : SCtxId) : Pres Rel (fetchValue f sc) := by
  intro s v s' h
  have hs : Post True (Adx.fetchValue f sc) s (fun _ s' => s' = s) :=
    Post.fetchValue (Q := fun _ s' => s' = s) (fun _ => rfl)
  have := hs.of_ok h
  subst this
  exact H.refl s'

theorem Steps.dbg (c : Ctx) (n : Nat) : Pres Rel (dbg c n) := by
  unfold Adx.dbg
  split
  · split
    · exact H.pure ()
    · exact Pres.panic _
  · exact H.pure ()

theorem Steps.parseOffset (cfg : Cfg) (a b : Nat) (v : Str) : Pres Rel (parseOffset cfg a b v) := by
  unfold Adx.parseOffset
  dsimp only
  split
  · exact H.pure _
  split
  · exact Pres.panic _
  split
  · exact Pres.panic _
  repeat' split
  all_goals first | exact H.pure _ | exact Pres.panic _

theorem Steps.forEach {f : TokId → M Unit} (hf : ∀ t, Pres Rel (f t)) :
    ∀ cs, Pres Rel (forEach f cs) := by
  intro cs
  induction cs with
  | nil => exact H.pure ()
  | cons c cs ih => exact H.bind (hf c) (fun _ => ih)

theorem Steps.addOffset (cfg : Cfg) (o : Nat) (k : Int) : Pres Rel (addOffset cfg o k) := by
  unfold Adx.addOffset
  dsimp only
  split
  · exact H.pure _
  · split
    · exact Pres.panic _
    · exact H.pure _

end basic

theorem Pres.mono {α : Type} {R1 R2 : State → State → Prop} {m : M α} (h : Pres R1 m)
    (hr : ∀ s s', R1 s s' → R2 s s') : Pres R2 m := fun s a s' he => hr s s' (h s a s' he)

theorem new_good {k : Token} (hk : P k) : Pres (Good P) (newTok k) := by
  intro s a s' h
  cases h
  exact Good.new hk

/-- Two contexts that differ only in where they read. -/
def Ctx.Sim (c c' : Ctx) : Prop := ∃ n, c' = c.setStart n

theorem Ctx.Sim.refl (c : Ctx) : c.Sim c := ⟨c.offset.start, rfl⟩

theorem Ctx.Sim.trans {a b c : Ctx} (h : a.Sim b) (h' : b.Sim c) : a.Sim c := by
  obtain ⟨n, rfl⟩ := h
  obtain ⟨m, rfl⟩ := h'
  exact ⟨m, rfl⟩

theorem Ctx.Sim.parser {a b : Ctx} (h : a.Sim b) : b.parser = a.parser := by
  obtain ⟨n, rfl⟩ := h
  rfl

/-- `m` only makes steps allowed by `Rel`, and its results satisfy `Q`. -/
def PresQ {α : Type} (Rel : State → State → Prop) (Q : α → Prop) (m : M α) : Prop :=
  ∀ s a s', m s = .ok a s' → Rel s s' ∧ Q a

section presq
variable {Rel : State → State → Prop} (H : Steps Rel) {α β : Type}

theorem Pres.toQ {m : M α} (h : Pres Rel m) : PresQ Rel (fun _ => True) m :=
  fun s a s' he => ⟨h s a s' he, trivial⟩

theorem PresQ.toPres {m : M α} {Q : α → Prop} (h : PresQ Rel Q m) : Pres Rel m :=
  fun s a s' he => (h s a s' he).1

theorem PresQ.panic {Q : α → Prop} (e : String) : PresQ Rel Q (M.panic e : M α) := by
  intro s a s' h
  cases h

theorem PresQ.mono {R1 R2 : State → State → Prop} {Q : α → Prop} {m : M α} (h : PresQ R1 Q m)
    (hr : ∀ s s', R1 s s' → R2 s s') : PresQ R2 Q m :=
  fun s a s' he => ⟨hr s s' (h s a s' he).1, (h s a s' he).2⟩

include H

theorem Steps.pureQ {Q : α → Prop} {a : α} (h : Q a) : PresQ Rel Q (Pure.pure a : M α) := by
  intro s b s' he
  cases he
  exact ⟨H.refl s, h⟩

theorem Steps.bindQ {m : M α} {f : α → M β} {Q1 : α → Prop} {Q : β → Prop} (hm : PresQ Rel Q1 m)
    (hf : ∀ a, Q1 a → PresQ Rel Q (f a)) : PresQ Rel Q (m >>= f) := by
  intro s b s' h
  rw [bind_eq] at h
  unfold M.bind at h
  cases hms : m s with
  | ok a s1 =>
    rw [hms] at h
    obtain ⟨h1, h2⟩ := hm s a s1 hms
    obtain ⟨h3, h4⟩ := hf a h2 s1 b s' h
    exact ⟨H.trans h1 h3, h4⟩
  | panic e => rw [hms] at h; cases h
  | diverge => rw [hms] at h; cases h

theorem Steps.bindP {m : M α} {f : α → M β} {Q : β → Prop} (hm : Pres Rel m)
    (hf : ∀ a, PresQ Rel Q (f a)) : PresQ Rel Q (m >>= f) :=
  H.bindQ hm.toQ (fun a _ => hf a)

end presq

section program
variable (I : TokInv P p) {T : Table}
include I

theorem addToken_good (prog : TokId) (ps : PS) (t : TokId) (f u : Bool) :
    PresQ (Good P) (fun ps' => ps.ctx.Sim ps'.ctx) (addToken prog ps t f u) := by
  have H := Good.steps P
  unfold addToken prepToken
  refine H.bindP (Steps.getTok_bind (fun s k hk => ?_)) (fun _ => ?_)
  · by_cases he : k.flagsEnabled IS_ERROR = true
    · rw [if_pos he]
      by_cases hm : k.matched.start = k.matched.stop
      · rw [if_pos hm]
        intro a s' h
        have : ∀ k', s.toks[t]? = some k' → k' = k := by
          intro k' hk'; rw [hk] at hk'; cases hk'; rfl
        unfold modTok at h
        rw [bind_eq] at h
        unfold M.bind getTok at h
        rw [hk] at h
        cases h
        refine Good.set hk (by simp) (fun hp => ?_)
        refine I.matched _ _ (I.captured _ _ hp (Or.inr he)) (Or.inr ?_)
        unfold Token.flagsEnabled
        rw [Token.setCaptured_flags]
        exact he
      · rw [if_neg hm]
        exact H.pure () s
    · rw [if_neg he]
      split
      · exact Pres.panic _ s
      · exact H.pure () s
  · refine H.bindP (H.getTok t) (fun tk => H.bindP (Steps.modTok (fun s k hk => ?_)) (fun _ => H.pureQ ?_))
    · exact Good.set hk rfl (I.parent _ _)
    · cases u
      · exact Ctx.Sim.refl _
      · exact ⟨_, rfl⟩

theorem handleToken_good (prog : TokId) (ps : PS) (t : TokId) (f u : Bool) :
    PresQ (Good P) (fun ps' => ps.ctx.Sim ps'.ctx) (handleToken prog ps t f u) :=
  (Good.steps P).bindP ((Good.steps P).getTok t) (fun _ => addToken_good I _ _ _ _ _)

theorem extractLoop_good (prog : TokId) (u : Bool) : ∀ (cs : List TokId) (ps : PS),
    PresQ (Good P) (fun ps' => ps.ctx.Sim ps'.ctx) (extractLoop prog u cs ps) := by
  have H := Good.steps P
  intro cs
  induction cs with
  | nil => intro ps; exact H.pureQ (Ctx.Sim.refl _)
  | cons c cs ih =>
    intro ps
    unfold extractLoop
    refine H.bindP (H.getTok c) (fun tk => ?_)
    split
    · exact ih ps
    · refine H.bindQ (addToken_good I _ _ _ _ _) (fun ps1 h1 => ?_)
      intro s a s' he
      obtain ⟨g, h2⟩ := ih ps1 s a s' he
      exact ⟨g, h1.trans h2⟩

theorem handleExtract_good (prog : TokId) (ps : PS) (t : TokId) (u : Bool) :
    PresQ (Good P) (fun ps' => ps.ctx.Sim ps'.ctx) (handleExtract prog ps t u) := by
  refine (Good.steps P).bindP ((Good.steps P).getTok t) (fun tk => ?_)
  intro s a s' he
  obtain ⟨g, h2⟩ := extractLoop_good I _ _ _ _ s a s' he
  refine ⟨g, Ctx.Sim.trans ?_ h2⟩
  split
  · exact ⟨_, rfl⟩
  · exact Ctx.Sim.refl _

omit I in
theorem handleSkip_good (cfg : Cfg) (ps : PS) (o : Nat) (k : Int) :
    PresQ (Good P) (fun ps' => ps.ctx.Sim ps'.ctx) (handleSkip cfg ps o k) :=
  (Good.steps P).bindP ((Good.steps P).addOffset _ _ _) (fun n => (Good.steps P).pureQ ⟨n, rfl⟩)

theorem handlePayload_good (cfg : Cfg) (prog : TokId) (ps : PS) (so : Nat) (d : Success) :
    PresQ (Good P) (fun ps' => ps.ctx.Sim ps'.ctx) (handlePayload cfg prog ps so d) := by
  unfold handlePayload
  split
  · exact handleToken_good I _ _ _ _ _
  · exact handleExtract_good I _ _ _ _
  · exact handleSkip_good _ _ _ _
  · exact (Good.steps P).pureQ (Ctx.Sim.refl _)

theorem finalize_good (prog : TokId) (ps : PS) (iter : Option (Nat × Nat)) (lc : Nat) (b : Bool) :
    Pres (GoodFor P prog) (finalizeProgram prog ps iter lc b) := by
  have H := GoodFor.steps P prog
  have fin : Pres (GoodFor P prog)
      (if ps.captured.start = usizeMax ∨ ps.matched.start = usizeMax then pure (.err .fail)
      else if ps.children = [] then pure (.err .fail)
      else do
        modTok prog (fun k =>
          ((({ k with children := ps.children } : Token).setCaptured ps.captured).setMatched
            ps.matched))
        pure (.ok (.token prog)) : M R) := by
    split
    · exact H.pure _
    · split
      · exact H.pure _
      · refine H.bind (Steps.modTok (fun s k hk hstd => ?_)) (fun _ => H.pure _)
        obtain ⟨k', hk', hs⟩ := hstd
        rw [hk] at hk'
        cases hk'
        refine Good.set hk (by simp) (fun hp => ?_)
        exact I.matched _ _ (I.captured _ _ (I.kids _ _ hp) (Or.inl hs)) (Or.inl (by simpa using hs))
  unfold finalizeProgram
  dsimp only
  split
  · split
    · split
      · exact H.pure _
      · split
        · exact H.pure _
        · exact fin
    · exact fin
  · exact fin

/-- The context that a pass hands on differs only in where it reads. -/
def FlowSim (c : Ctx) : Flow → Prop
  | .next ps => c.Sim ps.ctx
  | .action _ ps => c.Sim ps.ctx
  | .ret _ => True

omit I in
theorem FlowSim.trans {a b : Ctx} (h : a.Sim b) {fl : Flow} (h' : FlowSim b fl) : FlowSim a fl := by
  cases fl with
  | next ps => exact Ctx.Sim.trans h h'
  | action x ps => exact Ctx.Sim.trans h h'
  | ret r => trivial

theorem runPatterns_good {cfg : Cfg} {f : ExecFn}
    (hf : ∀ m c sc, c.parser = p → Pres (Good P) (f m c sc)) (prog : TokId)
    (sc : SCtxId) (so : Nat) (iter : Option (Nat × Nat)) (fs : Bool) (lc : Nat) :
    ∀ (pats : List MatcherId) (ps : PS), ps.ctx.parser = p →
    PresQ (GoodFor P prog) (FlowSim ps.ctx) (runPatterns T cfg f prog sc so iter fs lc pats ps) := by
  have H := GoodFor.steps P prog
  have up : ∀ {s s' : State}, Good P s s' → GoodFor P prog s s' := fun hg _ => hg
  intro pats
  induction pats with
  | nil => intro ps _; exact H.pureQ (Ctx.Sim.refl _)
  | cons q pats ih =>
    intro ps hp
    have go : ∀ {m : M PS}, PresQ (Good P) (fun ps' => ps.ctx.Sim ps'.ctx) m →
        PresQ (GoodFor P prog) (FlowSim ps.ctx)
          (m >>= runPatterns T cfg f prog sc so iter fs lc pats) := by
      intro m hm
      refine H.bindQ (hm.mono (fun _ _ => up)) (fun ps1 h1 => ?_)
      intro s a s' he
      obtain ⟨g, h2⟩ := ih ps1 (h1.parser.trans hp) s a s' he
      exact ⟨g, FlowSim.trans h1 h2⟩
    unfold runPatterns
    refine H.bindP ((hf _ { ps.ctx with stack := prog :: ps.ctx.stack } _ hp).mono (fun _ _ => up)) (fun r => ?_)
    split
    · refine H.bindP (H.getTok _) (fun tk => ?_)
      split
      · exact ih ps hp
      · split
        · exact H.pureQ trivial
        · exact go (handleToken_good I _ _ _ _ _)
    · refine H.bindP (H.getTok _) (fun tk => ?_)
      split
      · exact ih ps hp
      · split
        · exact H.pureQ trivial
        · exact go (handleExtract_good I _ _ _ _)
    · split
      · exact H.pureQ trivial
      · split
        · exact go (handleSkip_good _ _ _ _)
        · exact ih ps hp
    · exact H.pureQ (Ctx.Sim.refl _)
    · refine H.bindP (H.dbg _ _) (fun _ => ?_)
      split
      · split
        · exact ih ps hp
        · split
          · exact H.bindP (finalize_good I _ _ _ _ _) (fun r => H.pureQ trivial)
          · exact H.pureQ trivial
      · exact H.pureQ trivial

theorem runIterations_good {cfg : Cfg} {f : ExecFn}
    (hf : ∀ m c sc, c.parser = p → Pres (Good P) (f m c sc))
    (prog : TokId) (sc : SCtxId) (so : Nat) (self : Str) (pats : List MatcherId)
    (iter : Option (Nat × Nat)) (fs : Bool) : ∀ (k lc : Nat) (ps : PS), ps.ctx.parser = p →
    Pres (GoodFor P prog) (runIterations T cfg f prog sc so self pats iter fs k lc ps) := by
  have H := GoodFor.steps P prog
  have up : ∀ {s s' : State}, Good P s s' → GoodFor P prog s s' := fun hg _ => hg
  intro k
  induction k with
  | zero => intro lc ps _; exact finalize_good I _ _ _ _ _
  | succ k ih =>
    intro lc ps hp
    unfold runIterations
    refine PresQ.toPres (Q := fun _ => True) ?_
    refine H.bindQ (runPatterns_good I hf _ _ _ _ _ _ _ _ hp) (fun fl hfl => ?_)
    split
    · exact H.pureQ trivial
    · exact (ih _ _ (Ctx.Sim.parser hfl |>.trans hp)).toQ
    · split
      · exact H.pureQ trivial
      · refine H.bindP ((handlePayload_good I _ _ _ _ _).toPres.mono (fun _ _ => up)) (fun ps => ?_)
        refine H.bindP (finalize_good I _ _ _ _ _) (fun r => ?_)
        split
        · exact H.pureQ trivial
        · split <;> exact H.pureQ trivial
    · split
      · exact H.pureQ trivial
      · refine H.bindQ ((handlePayload_good I _ _ _ _ _).mono (fun _ _ => up)) (fun ps1 h1 => ?_)
        split
        · exact (ih _ _ (h1.parser.trans (Ctx.Sim.parser hfl |>.trans hp))).toQ
        · exact (finalize_good I _ _ _ _ _).toQ
    · exact (finalize_good I _ _ _ _ _).toQ
    · exact PresQ.panic _

omit I in
theorem ite_both {α : Type} {Q : α → Prop} {c : Prop} [Decidable c] {a b : α} (ha : Q a) (hb : Q b) :
    Q (if c then a else b) := by
  split
  · exact ha
  · exact hb

theorem discardCollect_good (e : TokId) : ∀ (n : Nat) (t : TokId),
    Pres (GoodFor P e) (discardCollect n e t) := by
  have H := GoodFor.steps P e
  intro n
  induction n with
  | zero => intro t; exact Pres.diverge
  | succ n ih =>
    intro t
    unfold discardCollect
    refine H.bind (H.getTok _) (fun w => H.bind ?_ (fun _ => H.forEach ih _))
    unfold discardRecord
    split
    · refine Steps.modTok (fun s k hk hstd => ?_)
      obtain ⟨k', hk', hs⟩ := hstd
      rw [hk] at hk'
      cases hk'
      refine Good.set hk ?_ (fun hp => ?_)
      · exact ite_both (Q := fun x : Token => x.kind = k.kind) (by simp) rfl
      · exact ite_both (Q := P) (I.matched _ _ (I.kids _ _ hp) (Or.inl hs)) (I.kids _ _ hp)
    · exact H.pure ()

theorem skipToken_good (cfg : Cfg) {c : Ctx} (hc : c.parser = p) (o : Nat) (t : TokId) :
    Pres (Good P) (skipToken cfg c o t) := by
  have H := Good.steps P
  unfold skipToken
  refine H.bind (H.getTok _) (fun tk => ?_)
  intro s a s' h
  rw [bind_eq] at h
  unfold M.bind newTok at h
  dsimp only at h
  have hnew : Good P s { s with toks := s.toks ++ [Token.mk' c.parser "Error".toList ⟨o, tk.matched.stop⟩] } :=
    Good.new (by rw [hc]; exact I.fresh _ _ _)
  refine hnew.trans ?_
  have hstd : Std s.toks.length
      { s with toks := s.toks ++ [Token.mk' c.parser "Error".toList ⟨o, tk.matched.stop⟩] } :=
    ⟨_, List.getElem?_concat_length .., rfl⟩
  have H' := GoodFor.steps P s.toks.length
  refine (?_ : Pres (GoodFor P s.toks.length) _) _ _ _ h hstd
  refine H'.bind H'.getState (fun s => H'.bind (discardCollect_good I _ _ _) (fun _ =>
    H'.bind (H'.getTok _) (fun ek => ?_)))
  split
  · exact H'.pure _
  · refine H'.bind ?_ (fun d => H'.pure _)
    unfold subOffset
    dsimp only
    split
    · exact H'.pure _
    · split
      · exact Pres.panic _
      · exact H'.pure _

omit I in
theorem bindVar_good (sc : SCtxId) (k : Str) (v : Var) : Pres (Good P) (bindVar sc k v) := by
  intro s a s' h
  cases h
  exact Good.toks_eq (by simp)

omit I in
theorem execRegister_good (sc : SCtxId) : ∀ ps, Pres (Good P) (execRegister T sc ps) := by
  have H := Good.steps P
  intro ps
  induction ps with
  | nil => exact H.pure _
  | cons p ps ih => exact H.bind (bindVar_good _ _ _) (fun _ => ih)

theorem execNode_good {cfg : Cfg} {f : ExecFn}
    (hf : ∀ m c sc, c.parser = p → Pres (Good P) (f m c sc)) {n : Node} (hn : GoodNode P p n) (c : Ctx)
    (sc : SCtxId) (hc : c.parser = p) : Pres (Good P) (execNode T cfg f n c sc) := by
  have H := Good.steps P
  cases n with
  | equals name cu pat =>
    refine H.bind (H.fetchValue _ _) (fun v => ?_)
    split
    · refine H.bind (H.ofOpt _ _) (fun o => ?_)
      split
      · exact H.bind (H.dbg _ _) (fun _ => H.bind (new_good (by
          show P (Token.mk' c.parser _ _)
          rw [hc]; exact I.fresh _ _ _)) (fun _ => H.pure _))
      · exact H.bind (H.dbg _ _) (fun _ => H.pure _)
    · exact H.pure _
  | regex name cu re =>
    refine H.bind (H.ofOpt _ _) (fun o => ?_)
    split
    · split
      · exact H.bind (H.dbg _ _) (fun _ => H.pure _)
      · exact H.bind (new_good (by
          show P (Token.mk' c.parser _ _)
          rw [hc]; exact I.fresh _ _ _)) (fun _ => H.pure _)
    · exact H.bind (H.dbg _ _) (fun _ => H.pure _)
  | sequence name cu a b e =>
    refine H.bind (H.fetchValue _ _) (fun v => ?_)
    split
    · exact H.pure _
    split
    · exact Pres.panic _
    refine H.bind (H.fetchValue _ _) (fun v => ?_)
    split
    · exact H.pure _
    split
    · exact Pres.panic _
    refine H.bind (H.fetchValue _ _) (fun v => ?_)
    split
    · exact H.pure _
    refine H.bind (H.ofOpt _ _) (fun o => ?_)
    split
    · exact H.bind (H.dbg _ _) (fun _ => H.pure _)
    split
    · exact Pres.panic _
    · exact H.bind (H.dbg _ _) (fun _ => H.pure _)
    · exact H.bind (new_good (by
        show P ((Token.mkMatched c.parser _ _ _).setAttribute _ _)
        rw [hc]; exact I.quoted _ _ _ _)) (fun _ => H.bind (H.dbg _ _) (fun _ => H.pure _))
  | program ps name cu iter fs =>
    intro s a s' h
    replace h : (newTok (Token.mk' c.parser name Range.blank) >>= fun prog =>
      runIterations T cfg f prog sc c.offset.start name ps iter fs (iterCount iter) 0
        ⟨c.withName name, [], ⟨usizeMax, 0⟩, ⟨usizeMax, 0⟩⟩) s = .ok a s' := h
    rw [bind_eq] at h
    unfold M.bind newTok at h
    dsimp only at h
    have hnew : Good P s { s with toks := s.toks ++ [Token.mk' c.parser name Range.blank] } :=
      Good.new (by rw [hc]; exact I.fresh _ _ _)
    refine hnew.trans (runIterations_good I hf _ _ _ _ _ _ _ _ _ _ hc _ _ _ h ?_)
    exact ⟨_, List.getElem?_concat_length .., rfl⟩
  | optional m =>
    refine H.bind (hf _ _ _ hc) (fun r => ?_)
    split <;> exact H.pure _
  | not m =>
    refine H.bind (hf _ _ _ hc) (fun r => ?_)
    repeat' split
    all_goals exact H.pure _
  | discard m =>
    refine H.bind (hf _ _ _ hc) (fun r => ?_)
    repeat' split
    all_goals first
      | exact H.pure _
      | exact Pres.panic _
      | exact H.bind (skipToken_good I _ (c := c.withName "Discard".toList) hc _ _) (fun _ => H.pure _)
  | proxyChildren m name cu =>
    refine H.bind (hf _ _ _ hc) (fun r => ?_)
    repeat' split
    all_goals exact H.pure _
  | expandRange m =>
    refine H.bind (hf _ _ _ hc) (fun r => ?_)
    split
    · refine H.bind (H.getTok _) (fun _ => H.bind (new_good (by
        show P (Token.mkMatched c.parser _ _ _)
        rw [hc]; exact I.fresh _ _ _)) (fun _ =>
        H.bind (Steps.modTok (fun s k hk => Good.set hk rfl (I.kids _ _))) (fun _ => H.pure _)))
    · exact H.bind (Steps.modTok (fun s k hk => Good.set hk (by simp) (I.expand _))) (fun _ => H.pure _)
    · exact H.pure _
  | catch_ m g =>
    refine H.bind (hf _ _ _ hc) (fun r => ?_)
    split
    · exact H.pure _
    · exact hn _ _ hc
  | map m sf ff =>
    refine H.bind (hf _ _ _ hc) (fun r => ?_)
    split
    · exact hn.1 _ _ _ hc
    · exact hn.1 _ _ _ hc
    · exact H.pure _
    · exact hn.2 _ _ _ hc
  | store m name cu =>
    refine H.bind (hf _ _ _ hc) (fun r => ?_)
    split
    · exact H.bind (bindVar_good _ _ _) (fun _ => H.pure _)
    · exact H.pure _
  | storeStr v name cu =>
    exact H.bind (bindVar_good _ _ _) (fun _ => H.pure _)
  | fetch name => exact H.pure _
  | ref target name cu =>
    refine H.bind (H.fetchValue _ _) (fun v => ?_)
    split
    · refine H.bind (H.lookupVar _ _) (fun o => ?_)
      split
      · exact hf _ _ _ hc
      · exact H.pure _
    · exact hf _ _ _ hc
  | register ps => exact execRegister_good _ _
  | setScope k m =>
    show Pres (Good P) (execSetScope f k m c)
    unfold execSetScope
    cases k with
    | some k => exact hf _ _ _ hc
    | none =>
      refine H.bind ?_ (fun _ => H.bind (hf _ _ _ hc) (fun r => H.bind ?_ (fun _ => H.pure _)))
      · intro s a s' h
        cases h
        exact Good.toks_eq (by simp)
      · intro s a s' h
        cases h
        exact Good.toks_eq (by simp)
  | pin m o name cu =>
    refine H.bind (H.fetchValue _ _) (fun v => ?_)
    split
    · exact H.pure _
    · refine H.bind (H.parseOffset _ _ _ _) (fun a => H.bind ?_ (fun b => ?_))
      · unfold pinEnd
        split
        · exact H.parseOffset _ _ _ _
        · exact H.pure _
      · split
        · exact hf _ _ _ hc
        · exact H.bind (new_good (by
            show P (Token.mkPin c.parser _ _ _)
            rw [hc]; exact I.pin _ _)) (fun _ => H.pure _)
  | debug m k =>
    refine H.bind (H.ofOpt _ _) (fun _ => ?_)
    split
    · exact hf _ _ _ hc
    · exact H.pure _
  | brk name => exact H.pure _
  | null => exact H.pure _
  | panic msg =>
    refine H.bind ?_ (fun _ => H.bind (H.ofOpt _ _) (fun _ => H.pure _))
    unfold panicRange
    split
    · exact H.bind (H.getTok _) (fun _ => H.pure _)
    · exact H.pure _
  | error msg =>
    refine H.bind (H.bind (H.ofOpt _ _) (fun _ => new_good (by
      rw [hc]; exact I.error _ _))) (fun _ => H.pure _)

/-- Every run keeps the predicate. -/
theorem exec_good (cfg : Cfg) (hT : ∀ m, GoodNode P p (T m)) :
    ∀ n m c sc, c.parser = p → Pres (Good P) (exec T cfg n m c sc) := by
  have H := Good.steps P
  intro n
  induction n with
  | zero => intro m c sc _; exact Pres.diverge
  | succ n ih =>
    intro m c sc hc
    refine H.bind ?_ (fun _ => execNode_good I ih (hT m) c sc hc)
    unfold beforeExec
    split
    · exact bindVar_good _ _ _
    · exact H.pure ()

omit I in
theorem splitErrors_pres {Rel : State → State → Prop} (H : Steps Rel) :
    ∀ l, Pres Rel (splitErrors l) := by
  intro l
  induction l with
  | nil => exact H.pure _
  | cons c cs ih => exact H.bind (H.getTok c) (fun k => H.bind ih (fun _ => H.pure _))

theorem collectErrors_good : ∀ (n : Nat) (root t : TokId) (b : Bool),
    Pres (Good P) (collectErrors n root t b) := by
  have H := Good.steps P
  intro n
  induction n with
  | zero => intro root t b; exact Pres.diverge
  | succ n ih =>
    intro root t b
    unfold collectErrors
    refine H.bind (H.getTok t) (fun tk => H.bind (H.forEach (fun c => ih root c false) _) (fun _ => ?_))
    split
    · exact H.pure ()
    · refine H.bind (H.getTok t) (fun tk => H.bind (splitErrors_pres H _) (fun x =>
        H.bind (Steps.modTok (fun s k hk => Good.set hk rfl (I.kids _ _))) (fun _ =>
          Steps.modTok (fun s k hk => Good.set hk rfl (I.kids _ _)))))

theorem tokenize_good (cfg : Cfg) (hT : ∀ m, GoodNode P p (T m)) (n : Nat) (c : Ctx) (m : MatcherId)
    (hc : c.parser = p) : Pres (Good P) (tokenize T cfg n c m) := by
  have H := Good.steps P
  have hcol : ∀ t, Pres (Good P) (collectErrorsTop t) := fun t =>
    H.bind H.getState (fun _ => collectErrors_good I _ _ _ _)
  refine H.bind (exec_good I cfg hT n m c _ hc) (fun r => ?_)
  split
  all_goals first
    | exact H.pure _
    | exact H.bind (hcol _) (fun _ => H.pure _)

end program

end Adx
