import Verif.Proofs.Post
/-
  A relational logic for the engine: two runs, of two grammars whose matchers
  correspond under a renaming `σ`, in contexts that differ at most in their debug
  level.  Used for depth-independence (C06) and for the transparency of `Debug`
  (C07).
-/
namespace Adx

/-- Rename the matchers held in a variable. -/
def Var.ren (σ : MatcherId → MatcherId) : Var → Var
  | .matcher m => .matcher (σ m)
  | v => v

/-- Rename the matchers held in a scope. -/
def Scope.ren (σ : MatcherId → MatcherId) (sc : Scope) : Scope :=
  sc.map (fun kv => (kv.1, kv.2.ren σ))

/-- Rename the matchers held in variables. -/
def State.ren (σ : MatcherId → MatcherId) (s : State) : State :=
  { s with scopes := s.scopes.map (Scope.ren σ) }

/-- Rename the matcher of a `Fetchable`. -/
def Fetchable.ren (σ : MatcherId → MatcherId) : Fetchable → Fetchable
  | .matcher m => .matcher (σ m)
  | f => f

theorem Var.ren_id (v : Var) : v.ren id = v := by cases v <;> rfl

theorem Scope.ren_id (sc : Scope) : Scope.ren id sc = sc := by
  unfold Scope.ren
  simp [Var.ren_id]

theorem State.ren_id (s : State) : s.ren id = s := by
  unfold State.ren
  have : (Scope.ren id) = id := funext Scope.ren_id
  rw [this]
  simp

theorem Fetchable.ren_id (f : Fetchable) : f.ren id = f := by cases f <;> rfl

section
variable (σ : MatcherId → MatcherId)

theorem Scope.get_ren (sc : Scope) (k : Str) :
    AMap.get (Scope.ren σ sc) k = (AMap.get sc k).map (Var.ren σ) := by
  unfold Scope.ren
  induction sc with
  | nil => rfl
  | cons kv sc ih =>
    obtain ⟨k', v⟩ := kv
    unfold AMap.get
    simp only [List.map_cons]
    split
    · rfl
    · exact ih

theorem Scope.insert_ren (sc : Scope) (k : Str) (v : Var) :
    AMap.insert (Scope.ren σ sc) k (v.ren σ) = Scope.ren σ (AMap.insert sc k v) := by
  unfold Scope.ren
  induction sc with
  | nil => rfl
  | cons kv sc ih =>
    obtain ⟨k', v'⟩ := kv
    unfold AMap.insert
    simp only [List.map_cons]
    split
    · rfl
    · rw [ih]; rfl

@[simp] theorem State.ren_toks (s : State) : (s.ren σ).toks = s.toks := rfl
@[simp] theorem State.ren_sctxs (s : State) : (s.ren σ).sctxs = s.sctxs := rfl

theorem State.ren_scope (s : State) (i : Nat) :
    (s.ren σ).scopes[i]?.getD [] = Scope.ren σ (s.scopes[i]?.getD []) := by
  unfold State.ren
  simp only [List.getElem?_map]
  cases s.scopes[i]? <;> rfl

theorem lookupStack_ren (s : State) (st : List ScopeId) (k : Str) :
    lookupStack (s.ren σ).scopes st k = (lookupStack s.scopes st k).map (Var.ren σ) := by
  induction st with
  | nil => rfl
  | cons i st ih =>
    unfold lookupStack
    rw [State.ren_scope, Scope.get_ren]
    cases AMap.get (s.scopes[i]?.getD []) k with
    | none => exact ih
    | some v => rfl

theorem State.lookup_ren (s : State) (sc : SCtxId) (k : Str) :
    (s.ren σ).lookup sc k = (s.lookup sc k).map (Var.ren σ) := by
  unfold State.lookup
  exact lookupStack_ren σ s _ k

theorem State.bindVar_ren (s : State) (sc : SCtxId) (k : Str) (v : Var) :
    (s.ren σ).bindVar sc k (v.ren σ) = (s.bindVar sc k v).ren σ := by
  unfold State.bindVar
  rw [State.ren_sctxs]
  cases s.sctxs[sc]?.getD [] with
  | nil =>
    unfold State.ren
    simp only [List.map_append, List.length_map]
    rfl
  | cons top st =>
    simp only
    rw [State.ren_scope, Scope.insert_ren]
    unfold State.ren
    simp only [List.map_set]

theorem State.pushScope_ren (s : State) (sc : SCtxId) :
    (s.ren σ).pushScope sc = (s.pushScope sc).ren σ := by
  unfold State.pushScope State.ren
  simp only [List.map_append, List.length_map]
  rfl

theorem State.popScope_ren (s : State) (sc : SCtxId) :
    (s.ren σ).popScope sc = (s.popScope sc).ren σ := rfl

end

/-- Two computations started in corresponding heaps: if the first finishes, so does
the second, with related values and corresponding heaps; if the first panics, so
does the second with the same message, unless the first is allowed to panic alone
(`pn`). -/
def RelM {α β : Type} (σ : MatcherId → MatcherId) (pn : Prop) (V : α → β → Prop)
    (m : M α) (m' : M β) : Prop :=
  ∀ s, match m s with
    | .ok a s1 => ∃ a', m' (s.ren σ) = .ok a' (s1.ren σ) ∧ V a a'
    | .panic e => pn ∨ m' (s.ren σ) = .panic e
    | .diverge => True

section
variable {σ : MatcherId → MatcherId} {pn : Prop} {α β γ δ : Type}

theorem RelM.pure {V : α → β → Prop} {a : α} {b : β} (h : V a b) :
    RelM σ pn V (pure a) (pure b) := fun _ => ⟨b, rfl, h⟩

theorem RelM.panic {V : α → β → Prop} {e : String} : RelM σ pn V (M.panic e) (M.panic e) :=
  fun _ => Or.inr rfl

theorem RelM.diverge {V : α → β → Prop} {m' : M β} : RelM σ pn V (M.diverge) m' :=
  fun _ => trivial

theorem RelM.bind {V : α → β → Prop} {W : γ → δ → Prop} {m : M α} {m' : M β} {f : α → M γ}
    {f' : β → M δ} (h : RelM σ pn V m m') (hf : ∀ a b, V a b → RelM σ pn W (f a) (f' b)) :
    RelM σ pn W (m >>= f) (m' >>= f') := by
  intro s
  rw [bind_eq, bind_eq]
  have hs := h s
  unfold M.bind
  cases hm : m s with
  | ok a s1 =>
    rw [hm] at hs
    obtain ⟨b, hb, hv⟩ := hs
    rw [hb]
    exact hf a b hv s1
  | panic e =>
    rw [hm] at hs
    rcases hs with hp | hs
    · exact Or.inl hp
    · rw [hs]; exact Or.inr rfl
  | diverge => trivial

theorem RelM.mono {V W : α → β → Prop} {m : M α} {m' : M β} (h : RelM σ pn V m m')
    (hw : ∀ a b, V a b → W a b) : RelM σ pn W m m' := by
  intro s
  have hs := h s
  cases hm : m s with
  | ok a s1 =>
    rw [hm] at hs
    obtain ⟨b, hb, hv⟩ := hs
    exact ⟨b, hb, hw _ _ hv⟩
  | panic e => rw [hm] at hs; exact hs
  | diverge => trivial

theorem RelM.ofOpt {e : String} {o : Option α} :
    RelM σ pn Eq (M.ofOpt e o) (M.ofOpt e o) := by
  intro s
  cases o with
  | none => exact Or.inr rfl
  | some a => exact ⟨a, rfl, rfl⟩

theorem RelM.newTok {t : Token} : RelM σ pn Eq (newTok t) (newTok t) :=
  fun _ => ⟨_, rfl, rfl⟩

theorem RelM.getTok {i : TokId} : RelM σ pn Eq (getTok i) (getTok i) := by
  intro s
  unfold Adx.getTok
  rw [State.ren_toks]
  cases s.toks[i]? with
  | none => exact Or.inr rfl
  | some t => exact ⟨_, rfl, rfl⟩

theorem RelM.setTok {i : TokId} {t : Token} : RelM σ pn Eq (setTok i t) (setTok i t) :=
  fun _ => ⟨_, rfl, rfl⟩

theorem RelM.modTok {i : TokId} {f : Token → Token} :
    RelM σ pn Eq (modTok i f) (modTok i f) := by
  unfold Adx.modTok
  apply RelM.bind RelM.getTok
  rintro a b rfl
  exact RelM.setTok

theorem RelM.lookupVar {sc : SCtxId} {k : Str} :
    RelM σ pn (fun v v' => v' = v.map (Var.ren σ)) (lookupVar sc k) (lookupVar sc k) :=
  fun s => ⟨_, rfl, State.lookup_ren σ s sc k⟩

theorem RelM.bindVar {sc : SCtxId} {k : Str} {v v' : Var} (h : v' = v.ren σ) :
    RelM σ pn Eq (bindVar sc k v) (bindVar sc k v') := by
  subst h
  intro s
  refine ⟨(), ?_, rfl⟩
  show Res.ok () _ = _
  rw [State.bindVar_ren]

theorem RelM.pushScope {sc : SCtxId} : RelM σ pn Eq (pushScope sc) (pushScope sc) := by
  intro s
  refine ⟨(), ?_, rfl⟩
  show Res.ok () _ = _
  rw [State.pushScope_ren]

theorem RelM.popScope {sc : SCtxId} : RelM σ pn Eq (popScope sc) (popScope sc) :=
  fun _ => ⟨(), rfl, rfl⟩

theorem RelM.ite {c : Prop} [Decidable c] {V : α → β → Prop} {a b : M α} {a' b' : M β}
    (h1 : c → RelM σ pn V a a') (h2 : ¬c → RelM σ pn V b b') :
    RelM σ pn V (if c then a else b) (if c then a' else b') := by
  by_cases hc : c
  · rw [if_pos hc, if_pos hc]; exact h1 hc
  · rw [if_neg hc, if_neg hc]; exact h2 hc

end

/-- Values of fetches correspond. -/
def FetRel (σ : MatcherId → MatcherId) : Str ⊕ MatcherId → Str ⊕ MatcherId → Prop
  | .inl a, .inl b => a = b
  | .inr m, .inr m' => m' = σ m
  | _, _ => False

section
variable {σ : MatcherId → MatcherId} {pn : Prop}

theorem RelM.fetchValue {f : Fetchable} {sc : SCtxId} :
    RelM σ pn (FetRel σ) (fetchValue f sc) (fetchValue (f.ren σ) sc) := by
  cases f with
  | str s => exact RelM.pure rfl
  | matcher m => exact RelM.pure rfl
  | fetch name =>
    unfold Fetchable.ren Adx.fetchValue
    apply RelM.bind RelM.lookupVar
    rintro v _ rfl
    cases v with
    | none => exact RelM.panic
    | some v =>
      cases v with
      | matcher m => exact RelM.pure rfl
      | str s => exact RelM.ite (fun _ => RelM.panic) (fun _ => RelM.pure rfl)
      | token t =>
        simp only [Option.map_some, Var.ren]
        split
        · apply RelM.bind RelM.getTok
          rintro tk _ rfl
          repeat' (first | exact RelM.pure rfl | exact RelM.panic | (apply RelM.ite <;> intro _))
        · exact RelM.panic


/-- Contexts that differ at most in the name, and in the debug level when the
first run may panic alone; the second run then has debugging off. -/
structure CR (pn : Prop) (c c' : Ctx) : Prop where
  scope : c'.scope = c.scope
  stack : c'.stack = c.stack
  offset : c'.offset = c.offset
  parser : c'.parser = c.parser
  debug : (¬pn ∧ c'.debug = c.debug) ∨ (pn ∧ c'.debug = 0)

theorem CR.refl (h : ¬pn) (c : Ctx) : CR pn c c := ⟨rfl, rfl, rfl, rfl, Or.inl ⟨h, rfl⟩⟩

theorem CR.withName {c c' : Ctx} (h : CR pn c c') (n : Str) : CR pn (c.withName n) (c'.withName n) :=
  ⟨h.scope, h.stack, h.offset, h.parser, h.debug⟩

theorem CR.setStart {c c' : Ctx} (h : CR pn c c') (n : Nat) : CR pn (c.setStart n) (c'.setStart n) :=
  ⟨h.scope, h.stack, by simp only [Ctx.setStart, h.offset], h.parser, h.debug⟩

theorem CR.setOffset {c c' : Ctx} (h : CR pn c c') (r : Range) :
    CR pn { c with offset := r } { c' with offset := r } :=
  ⟨h.scope, h.stack, rfl, h.parser, h.debug⟩

theorem CR.push {c c' : Ctx} (h : CR pn c c') (t : TokId) :
    CR pn { c with stack := t :: c.stack } { c' with stack := t :: c'.stack } :=
  ⟨h.scope, by simp only [h.stack], h.offset, h.parser, h.debug⟩

theorem CR.chunk {c c' : Ctx} (h : CR pn c c') : c'.chunk = c.chunk := by
  unfold Ctx.chunk; rw [h.parser, h.offset]

theorem CR.matchesStr {c c' : Ctx} (h : CR pn c c') (p : Str) : c'.matchesStr p = c.matchesStr p := by
  unfold Ctx.matchesStr; rw [h.chunk, h.offset]

theorem CR.matchesStrAt {c c' : Ctx} (h : CR pn c c') (p : Str) (o : Nat) :
    c'.matchesStrAt p o = c.matchesStrAt p o := by
  unfold Ctx.matchesStrAt; rw [h.parser, h.offset]

theorem CR.matchesRegexp {c c' : Ctx} (h : CR pn c c') (r : Regex) :
    c'.matchesRegexp r = c.matchesRegexp r := by
  unfold Ctx.matchesRegexp; rw [h.chunk, h.offset]

theorem CR.debugRange {c c' : Ctx} (h : CR pn c c') (n : Nat) : c'.debugRange n = c.debugRange n := by
  unfold Ctx.debugRange; rw [h.parser, h.offset]

theorem CR.errorString {c c' : Ctx} (h : CR pn c c') (m : Str) (r : Range) :
    c'.errorString m r = c.errorString m r := by
  unfold Ctx.errorString Ctx.getLines Ctx.getColumns; rw [h.parser]

theorem CR.seqLoop {c c' : Ctx} (h : CR pn c c') (a b : Str) (k i p : Nat) (parts : List Str) :
    Adx.seqLoop c' a b k i p parts = Adx.seqLoop c a b k i p parts := by
  induction k generalizing i p parts with
  | zero => rfl
  | succ k ih =>
    unfold Adx.seqLoop
    simp only [h.matchesStrAt, h.offset, h.parser, ih]

theorem RelM.dbg {c c' : Ctx} (h : CR pn c c') {n : Nat} :
    RelM σ pn Eq (dbg c n) (dbg c' n) := by
  intro s
  unfold Adx.dbg
  rw [h.debugRange]
  rcases h.debug with ⟨_, hd⟩ | ⟨hp, hd⟩
  · rw [hd]
    by_cases h0 : c.debug > 0
    · simp only [h0, if_true]
      cases c.debugRange n with
      | none => exact Or.inr rfl
      | some _ => exact ⟨(), rfl, trivial⟩
    · simp only [h0, if_false]
      exact ⟨(), rfl, trivial⟩
  · rw [hd]
    by_cases h0 : c.debug > 0
    · simp only [h0, if_true]
      cases c.debugRange n with
      | none => exact Or.inl hp
      | some _ => exact ⟨(), rfl, trivial⟩
    · simp only [h0, if_false]
      exact ⟨(), rfl, trivial⟩

/-- The engine's recursive calls correspond. -/
def RecRel (σ : MatcherId → MatcherId) (pn : Prop) (f f' : ExecFn) : Prop :=
  ∀ m c c' sc, CR pn c c' → RelM σ pn Eq (f m c sc) (f' (σ m) c' sc)

/-- Nodes correspond under the renaming; callbacks behave alike in contexts that
differ only in the debug level. -/
def NodeRel (σ : MatcherId → MatcherId) (pn : Prop) : Node → Node → Prop
  | .equals n c p, x => x = .equals n c (p.ren σ)
  | .regex n c r, x => x = .regex n c r
  | .sequence n c a b e, x => x = .sequence n c (a.ren σ) (b.ren σ) (e.ren σ)
  | .program ps n c i f, x => x = .program (ps.map σ) n c i f
  | .optional m, x => x = .optional (σ m)
  | .not m, x => x = .not (σ m)
  | .discard m, x => x = .discard (σ m)
  | .proxyChildren m n c, x => x = .proxyChildren (σ m) n c
  | .expandRange m, x => x = .expandRange (σ m)
  | .catch_ m f, x => ∃ f', x = .catch_ (σ m) f' ∧
      ∀ c c' e, CR pn c c' → c'.name = c.name → RelM σ pn Eq (f c e) (f' c' e)
  | .map m sf ff, x => ∃ sf' ff', x = .map (σ m) sf' ff' ∧
      (∀ t c c' sc, CR pn c c' → c'.name = c.name → RelM σ pn Eq (sf t c sc) (sf' t c' sc)) ∧
      (∀ e c c' sc, CR pn c c' → c'.name = c.name → RelM σ pn Eq (ff e c sc) (ff' e c' sc))
  | .store m n c, x => x = .store (σ m) n c
  | .storeStr v n c, x => x = .storeStr v n c
  | .fetch n, x => x = .fetch n
  | .ref t n c, x => x = .ref (t.ren σ) n c
  | .register ps, x => x = .register (ps.map σ)
  | .setScope k m, x => x = .setScope k (σ m)
  | .pin m o n c, x => x = .pin (m.map σ) (o.ren σ) n c
  | .debug m k, x => ∃ k', x = .debug (m.map σ) k' ∧ ((¬pn ∧ k' = k) ∨ (pn ∧ k' = 0))
  | .brk n, x => x = .brk n
  | .null, x => x = .null
  | .panic e, x => x = .panic e
  | .error e, x => x = .error e

/-- What the engine asks of a matcher it does not run: is it consuming, its name. -/
structure AskRel (σ : MatcherId → MatcherId) (T T' : Table) (n : Node) : Prop where
  consuming : ∀ ps nm c i f, n = .program ps nm c i f →
    ∀ p ∈ ps, (T' (σ p)).isConsuming = (T p).isConsuming
  name : ∀ ps, n = .register ps → ∀ p ∈ ps, (T' (σ p)).name = (T p).name

/-- Program states correspond. -/
structure PSR (pn : Prop) (a b : PS) : Prop where
  ctx : CR pn a.ctx b.ctx
  children : b.children = a.children
  captured : b.captured = a.captured
  matched : b.matched = a.matched

@[inherit_doc PSR]
def FlowR (pn : Prop) : Flow → Flow → Prop
  | .next a, .next b => PSR pn a b
  | .action x a, .action y b => x = y ∧ PSR pn a b
  | .ret r, .ret r' => r = r'
  | _, _ => False

theorem PSR.cover {a b : PS} (h : PSR pn a b) (tk : Token) : PSR pn (a.cover tk) (b.cover tk) :=
  ⟨h.ctx.setStart _, h.children, by simp only [PS.cover, h.captured],
    by simp only [PS.cover, h.matched]⟩

theorem prepToken_rel {a b : PS} (h : PSR pn a b) {t : TokId} {f u : Bool} :
    RelM σ pn Eq (prepToken a t f u) (prepToken b t f u) := by
  unfold prepToken
  apply RelM.bind RelM.getTok
  rintro tk _ rfl
  apply RelM.ite <;> intro _
  · apply RelM.ite <;> intro _
    · rw [h.matched]; exact RelM.modTok
    · exact RelM.pure rfl
  · rw [h.ctx.offset]
    apply RelM.ite <;> intro _
    · exact RelM.panic
    · exact RelM.pure rfl

theorem addToken_rel {a b : PS} (h : PSR pn a b) {prog t : TokId} {f u : Bool} :
    RelM σ pn (PSR pn) (addToken prog a t f u) (addToken prog b t f u) := by
  unfold addToken
  apply RelM.bind (prepToken_rel h)
  rintro _ _ _
  apply RelM.bind RelM.getTok
  rintro tk _ rfl
  apply RelM.bind RelM.modTok
  rintro _ _ _
  apply RelM.pure
  cases u with
  | true =>
    have := h.cover tk
    exact ⟨this.ctx, by simp [this.children], this.captured, this.matched⟩
  | false => exact ⟨h.ctx, by simp [h.children], h.captured, h.matched⟩

theorem handleToken_rel {a b : PS} (h : PSR pn a b) {prog t : TokId} {f u : Bool} :
    RelM σ pn (PSR pn) (handleToken prog a t f u) (handleToken prog b t f u) := by
  unfold handleToken
  apply RelM.bind RelM.getTok
  rintro tk _ rfl
  exact addToken_rel h

theorem extractLoop_rel {prog : TokId} {u : Bool} : ∀ {cs : List TokId} {a b : PS}, PSR pn a b →
    RelM σ pn (PSR pn) (extractLoop prog u cs a) (extractLoop prog u cs b) := by
  intro cs
  induction cs with
  | nil => intro a b h; exact RelM.pure h
  | cons c cs ih =>
    intro a b h
    unfold extractLoop
    apply RelM.bind RelM.getTok
    rintro tk _ rfl
    apply RelM.ite <;> intro _
    · exact ih h
    · apply RelM.bind (addToken_rel h)
      intro a b h
      exact ih h

theorem handleExtract_rel {a b : PS} (h : PSR pn a b) {prog t : TokId} {u : Bool} :
    RelM σ pn (PSR pn) (handleExtract prog a t u) (handleExtract prog b t u) := by
  unfold handleExtract
  apply RelM.bind RelM.getTok
  rintro tk _ rfl
  apply extractLoop_rel
  split
  · exact h.cover tk
  · exact h

theorem addOffset_rel {cfg : Cfg} {n : Nat} {k : Int} :
    RelM σ pn Eq (addOffset cfg n k) (addOffset cfg n k) := by
  unfold addOffset
  repeat' (first | exact RelM.pure rfl | exact RelM.panic | (apply RelM.ite <;> intro _))

theorem handleSkip_rel {cfg : Cfg} {a b : PS} (h : PSR pn a b) {o : Nat} {k : Int} :
    RelM σ pn (PSR pn) (handleSkip cfg a o k) (handleSkip cfg b o k) := by
  unfold handleSkip
  rw [h.ctx.offset]
  apply RelM.bind addOffset_rel
  rintro n _ rfl
  exact RelM.pure ⟨h.ctx.setStart _, h.children, h.captured, by simp only [h.matched]⟩

theorem finalize_rel {a b : PS} (h : PSR pn a b) {prog : TokId} {iter : Option (Nat × Nat)}
    {n : Nat} {f : Bool} :
    RelM σ pn Eq (finalizeProgram prog a iter n f) (finalizeProgram prog b iter n f) := by
  have fin : RelM σ pn Eq
      (if a.captured.start = usizeMax ∨ a.matched.start = usizeMax then pure (.err .fail)
      else if a.children = [] then pure (.err .fail)
      else do
        modTok prog (fun k =>
          ((({ k with children := a.children } : Token).setCaptured a.captured).setMatched
            a.matched))
        pure (.ok (.token prog)) : M R)
      (if b.captured.start = usizeMax ∨ b.matched.start = usizeMax then pure (.err .fail)
      else if b.children = [] then pure (.err .fail)
      else do
        modTok prog (fun k =>
          ((({ k with children := b.children } : Token).setCaptured b.captured).setMatched
            b.matched))
        pure (.ok (.token prog)) : M R) := by
    rw [h.captured, h.matched, h.children]
    apply RelM.ite <;> intro _
    · exact RelM.pure rfl
    apply RelM.ite <;> intro _
    · exact RelM.pure rfl
    apply RelM.bind RelM.modTok
    rintro _ _ _
    exact RelM.pure rfl
  unfold finalizeProgram
  dsimp only
  apply RelM.ite <;> intro _
  · cases iter with
    | none => exact fin
    | some i =>
      rw [h.children] at fin ⊢
      dsimp only
      apply RelM.ite <;> intro _
      · exact RelM.pure rfl
      apply RelM.ite <;> intro _
      · exact RelM.pure rfl
      exact fin
  · exact fin

theorem runPatterns_rel {T T' : Table} {cfg : Cfg} {f f' : ExecFn} (hf : RecRel σ pn f f')
    {prog : TokId} {sc : SCtxId} {so : Nat} {iter : Option (Nat × Nat)} {fs : Bool} {lc : Nat} :
    ∀ {ps : List MatcherId}, (∀ p ∈ ps, (T' (σ p)).isConsuming = (T p).isConsuming) →
    ∀ {a b : PS}, PSR pn a b →
    RelM σ pn (FlowR pn) (runPatterns T cfg f prog sc so iter fs lc ps a)
      (runPatterns T' cfg f' prog sc so iter fs lc (ps.map σ) b) := by
  intro ps
  induction ps with
  | nil => intro _ a b h; exact RelM.pure h
  | cons p ps ih =>
    intro hc a b h
    have hcp := hc p (by simp)
    have ih := @ih (fun q hq => hc q (by simp [hq]))
    unfold runPatterns
    simp only [List.map_cons]
    rw [hcp]
    apply RelM.bind (hf p _ _ sc (h.ctx.push prog))
    rintro r _ rfl
    rcases r with x | e
    · cases x with
      | token t =>
        dsimp only
        apply RelM.bind RelM.getTok
        rintro tk _ rfl
        apply RelM.ite <;> intro _
        · exact ih h
        apply RelM.ite <;> intro _
        · exact RelM.pure rfl
        apply RelM.bind (handleToken_rel h)
        intro a b h
        exact ih h
      | proxyChildren t =>
        dsimp only
        apply RelM.bind RelM.getTok
        rintro tk _ rfl
        apply RelM.ite <;> intro _
        · exact ih h
        apply RelM.ite <;> intro _
        · exact RelM.pure rfl
        apply RelM.bind (handleExtract_rel h)
        intro a b h
        exact ih h
      | skip k =>
        dsimp only
        apply RelM.ite <;> intro _
        · exact RelM.pure rfl
        apply RelM.ite <;> intro _
        · apply RelM.bind (handleSkip_rel h)
          intro a b h
          exact ih h
        · exact ih h
      | brk n d => exact RelM.pure ⟨rfl, h⟩
      | cont n d => exact RelM.pure ⟨rfl, h⟩
      | none => exact RelM.pure ⟨rfl, h⟩
      | stop => exact RelM.pure ⟨rfl, h⟩
    · dsimp only
      apply RelM.bind (RelM.dbg h.ctx)
      rintro _ _ _
      cases e with
      | fail =>
        dsimp only
        apply RelM.ite <;> intro _
        · exact ih h
        apply RelM.ite <;> intro _
        · apply RelM.bind (finalize_rel h)
          rintro r _ rfl
          exact RelM.pure rfl
        · exact RelM.pure rfl
      | error e => exact RelM.pure rfl

theorem handlePayload_rel {cfg : Cfg} {a b : PS} (h : PSR pn a b) {prog : TokId} {so : Nat}
    {d : Success} :
    RelM σ pn (PSR pn) (handlePayload cfg prog a so d) (handlePayload cfg prog b so d) := by
  cases d with
  | token t => exact handleToken_rel h
  | proxyChildren t => exact handleExtract_rel h
  | skip k => exact handleSkip_rel h
  | brk _ _ => exact RelM.pure h
  | cont _ _ => exact RelM.pure h
  | none => exact RelM.pure h
  | stop => exact RelM.pure h

theorem runIterations_rel {T T' : Table} {cfg : Cfg} {f f' : ExecFn} (hf : RecRel σ pn f f')
    {prog : TokId} {sc : SCtxId} {so : Nat} {self : Str} {iter : Option (Nat × Nat)} {fs : Bool}
    {ps : List MatcherId} (hc : ∀ p ∈ ps, (T' (σ p)).isConsuming = (T p).isConsuming) :
    ∀ {k lc : Nat} {a b : PS}, PSR pn a b →
    RelM σ pn Eq (runIterations T cfg f prog sc so self ps iter fs k lc a)
      (runIterations T' cfg f' prog sc so self (ps.map σ) iter fs k lc b) := by
  intro k
  induction k with
  | zero => intro lc a b h; exact finalize_rel h
  | succ k ih =>
    intro lc a b h
    unfold runIterations
    apply RelM.bind (runPatterns_rel hf hc h)
    intro x y hxy
    rcases x with a | ⟨x, a⟩ | r <;> rcases y with b | ⟨y, b⟩ | r' <;> try exact hxy.elim
    · exact ih hxy
    · obtain ⟨rfl, h⟩ := hxy
      cases x with
      | brk n d =>
        dsimp only
        apply RelM.ite <;> intro _
        · exact RelM.pure rfl
        apply RelM.bind (handlePayload_rel h)
        intro a b h
        apply RelM.bind (finalize_rel h)
        rintro r _ rfl
        apply RelM.ite <;> intro _
        · exact RelM.pure rfl
        · cases r <;> exact RelM.pure rfl
      | cont n d =>
        dsimp only
        apply RelM.ite <;> intro _
        · exact RelM.pure rfl
        apply RelM.bind (handlePayload_rel h)
        intro a b h
        apply RelM.ite <;> intro _
        · exact ih h
        · exact finalize_rel h
      | stop => exact finalize_rel h
      | token _ => exact RelM.panic
      | proxyChildren _ => exact RelM.panic
      | skip _ => exact RelM.panic
      | none => exact RelM.panic
    · cases hxy
      exact RelM.pure rfl

theorem execProgram_rel {T T' : Table} {cfg : Cfg} {f f' : ExecFn} (hf : RecRel σ pn f f')
    {c c' : Ctx} (h : CR pn c c') {sc : SCtxId} {name : Str} {iter : Option (Nat × Nat)} {fs : Bool}
    {ps : List MatcherId} (hc : ∀ p ∈ ps, (T' (σ p)).isConsuming = (T p).isConsuming) :
    RelM σ pn Eq (execProgram T cfg f ps name iter fs c sc)
      (execProgram T' cfg f' (ps.map σ) name iter fs c' sc) := by
  unfold execProgram
  dsimp only
  have h1 := h.withName name
  rw [h1.parser, h1.offset]
  apply RelM.bind RelM.newTok
  rintro prog _ rfl
  exact runIterations_rel hf hc ⟨h1, rfl, rfl, rfl⟩

theorem forEach_rel {f f' : TokId → M Unit} (hf : ∀ t, RelM σ pn Eq (f t) (f' t)) :
    ∀ cs, RelM σ pn Eq (forEach f cs) (forEach f' cs) := by
  intro cs
  induction cs with
  | nil => exact RelM.pure rfl
  | cons c cs ih =>
    unfold forEach
    apply RelM.bind (hf c)
    rintro _ _ _
    exact ih

theorem discardCollect_rel {e : TokId} : ∀ {n : Nat} {t : TokId},
    RelM σ pn Eq (discardCollect n e t) (discardCollect n e t) := by
  intro n
  induction n with
  | zero => intro t; exact RelM.diverge
  | succ n ih =>
    intro t
    unfold discardCollect
    apply RelM.bind RelM.getTok
    rintro w _ rfl
    have : RelM σ pn Eq (discardRecord e t w) (discardRecord e t w) := by
      unfold discardRecord
      apply RelM.ite <;> intro _
      · exact RelM.modTok
      · exact RelM.pure rfl
    apply RelM.bind this
    rintro _ _ _
    exact forEach_rel (fun t => ih) _

theorem RelM.getState : RelM σ pn (fun s s' => s' = s.ren σ) M.getState M.getState :=
  fun _ => ⟨_, rfl, rfl⟩

theorem skipToken_rel {cfg : Cfg} {c c' : Ctx} (h : CR pn c c') {o : Nat} {t : TokId} :
    RelM σ pn Eq (skipToken cfg c o t) (skipToken cfg c' o t) := by
  unfold skipToken
  rw [h.parser]
  apply RelM.bind RelM.getTok
  rintro tk _ rfl
  apply RelM.bind RelM.newTok
  rintro e _ rfl
  apply RelM.bind RelM.getState
  rintro s _ rfl
  rw [State.ren_toks]
  apply RelM.bind discardCollect_rel
  rintro _ _ _
  apply RelM.bind RelM.getTok
  rintro ek _ rfl
  apply RelM.ite <;> intro _
  · exact RelM.pure rfl
  · have : RelM σ pn Eq (subOffset cfg tk.matched.stop o) (subOffset cfg tk.matched.stop o) := by
      unfold subOffset
      dsimp only
      repeat' (first | exact RelM.pure rfl | exact RelM.panic | (apply RelM.ite <;> intro _))
    apply RelM.bind this
    rintro d _ rfl
    exact RelM.pure rfl

theorem newErrorTokenWithRange_rel {c c' : Ctx} (h : CR pn c c') {msg : Str} {r : Range} :
    RelM σ pn Eq (newErrorTokenWithRange c msg r) (newErrorTokenWithRange c' msg r) := by
  unfold newErrorTokenWithRange
  rw [h.errorString, h.parser]
  apply RelM.bind RelM.ofOpt
  rintro m _ rfl
  exact RelM.newTok

theorem parseOffset_rel {cfg : Cfg} {a b : Nat} {v : Str} :
    RelM σ pn Eq (parseOffset cfg a b v) (parseOffset cfg a b v) := by
  unfold parseOffset
  apply RelM.ite <;> intro _
  · exact RelM.pure rfl
  cases bslice v 0 1 with
  | none => exact RelM.panic
  | some pre =>
    dsimp only
    cases parseUsize (if pre = ['+'] ∨ pre = ['-'] then v.tail else v) with
    | none => exact RelM.panic
    | some n =>
      dsimp only
      repeat' (first | exact RelM.pure rfl | exact RelM.panic | (apply RelM.ite <;> intro _))

theorem execRegister_rel {T T' : Table} {sc : SCtxId} : ∀ {ps : List MatcherId},
    (∀ p ∈ ps, (T' (σ p)).name = (T p).name) →
    RelM σ pn Eq (execRegister T sc ps) (execRegister T' sc (ps.map σ)) := by
  intro ps
  induction ps with
  | nil => intro _; exact RelM.pure rfl
  | cons p ps ih =>
    intro hn
    unfold execRegister
    simp only [List.map_cons]
    rw [hn p (by simp)]
    apply RelM.bind (RelM.bindVar rfl)
    rintro _ _ _
    exact ih (fun q hq => hn q (by simp [hq]))

theorem execNode_rel {T T' : Table} {cfg : Cfg} {f f' : ExecFn} (hf : RecRel σ pn f f')
    {n n' : Node} (hn : NodeRel σ pn n n') (ha : AskRel σ T T' n) {c c' : Ctx} (h : CR pn c c')
    {sc : SCtxId} : RelM σ pn Eq (execNode T cfg f n c sc) (execNode T' cfg f' n' c' sc) := by
  cases n with
  | equals name cu pat =>
    cases hn
    show RelM σ pn Eq (execEquals name pat c sc) (execEquals name (pat.ren σ) c' sc)
    unfold execEquals
    have h1 := h.withName name
    apply RelM.bind RelM.fetchValue
    rintro (v | m) (v' | m') hv <;> cases hv
    · dsimp only
      rw [h1.matchesStr, h1.parser]
      apply RelM.bind RelM.ofOpt
      rintro o _ rfl
      cases o with
      | none =>
        apply RelM.bind (RelM.dbg h1)
        rintro _ _ _
        exact RelM.pure rfl
      | some r =>
        apply RelM.bind (RelM.dbg h1)
        rintro _ _ _
        apply RelM.bind RelM.newTok
        rintro t _ rfl
        exact RelM.pure rfl
    · exact RelM.pure rfl
  | regex name cu re =>
    cases hn
    show RelM σ pn Eq (execMatches name re c) (execMatches name re c')
    unfold execMatches
    have h1 := h.withName name
    dsimp only
    rw [h1.matchesRegexp, h1.parser]
    apply RelM.bind RelM.ofOpt
    rintro o _ rfl
    cases o with
    | none =>
      apply RelM.bind (RelM.dbg h1)
      rintro _ _ _
      exact RelM.pure rfl
    | some r =>
      apply RelM.ite <;> intro _
      · apply RelM.bind (RelM.dbg h1)
        rintro _ _ _
        exact RelM.pure rfl
      · apply RelM.bind RelM.newTok
        rintro t _ rfl
        exact RelM.pure rfl
  | sequence name cu a b e =>
    cases hn
    show RelM σ pn Eq (execSequence name a b e c sc)
      (execSequence name (a.ren σ) (b.ren σ) (e.ren σ) c' sc)
    unfold execSequence
    have h1 := h.withName name
    apply RelM.bind RelM.fetchValue
    rintro (v | m) (v' | m') hv <;> cases hv
    · dsimp only
      apply RelM.ite <;> intro _
      · exact RelM.panic
      apply RelM.bind RelM.fetchValue
      rintro (v | m) (v' | m') hv <;> cases hv
      · dsimp only
        apply RelM.ite <;> intro _
        · exact RelM.panic
        apply RelM.bind RelM.fetchValue
        rintro (v | m) (v' | m') hv <;> cases hv
        · dsimp only
          rw [h1.matchesStr, h1.parser, h1.offset]
          simp only [h1.seqLoop]
          apply RelM.bind RelM.ofOpt
          rintro o _ rfl
          cases o with
          | none =>
            apply RelM.bind (RelM.dbg h1)
            rintro _ _ _
            exact RelM.pure rfl
          | some r =>
            dsimp only
            split
            · exact RelM.panic
            · apply RelM.bind (RelM.dbg h1)
              rintro _ _ _
              exact RelM.pure rfl
            · apply RelM.bind RelM.newTok
              rintro t _ rfl
              apply RelM.bind (RelM.dbg h1)
              rintro _ _ _
              exact RelM.pure rfl
        · exact RelM.pure rfl
      · exact RelM.pure rfl
    · exact RelM.pure rfl
  | program ps name cu iter fs =>
    cases hn
    exact execProgram_rel hf h (ha.consuming _ _ _ _ _ rfl)
  | optional m =>
    cases hn
    apply RelM.bind (hf m _ _ sc (h.withName _))
    rintro r _ rfl
    split <;> exact RelM.pure rfl
  | not m =>
    cases hn
    apply RelM.bind (hf m _ _ sc (h.withName _))
    rintro r _ rfl
    split
    · exact RelM.pure rfl
    · exact RelM.pure rfl
    · apply RelM.ite <;> intro _ <;> exact RelM.pure rfl
    · exact RelM.pure rfl
    · exact RelM.pure rfl
  | discard m =>
    cases hn
    show RelM σ pn Eq (execDiscard cfg f m c sc) (execDiscard cfg f' (σ m) c' sc)
    unfold execDiscard
    have h1 := h.withName "Discard".toList
    dsimp only
    rw [h.offset]
    apply RelM.bind (hf m _ _ sc h1)
    rintro r _ rfl
    split
    · apply RelM.bind (skipToken_rel h1)
      rintro x _ rfl
      exact RelM.pure rfl
    · apply RelM.bind (skipToken_rel h1)
      rintro x _ rfl
      exact RelM.pure rfl
    · split
      · apply RelM.bind (skipToken_rel h1)
        rintro x _ rfl
        exact RelM.pure rfl
      · apply RelM.bind (skipToken_rel h1)
        rintro x _ rfl
        exact RelM.pure rfl
      · exact RelM.panic
      · exact RelM.panic
      · exact RelM.pure rfl
    · split
      · apply RelM.bind (skipToken_rel h1)
        rintro x _ rfl
        exact RelM.pure rfl
      · apply RelM.bind (skipToken_rel h1)
        rintro x _ rfl
        exact RelM.pure rfl
      · exact RelM.panic
      · exact RelM.panic
      · exact RelM.pure rfl
    · exact RelM.pure rfl
  | proxyChildren m name cu =>
    cases hn
    apply RelM.bind (hf m _ _ sc (h.withName _))
    rintro r _ rfl
    split <;> exact RelM.pure rfl
  | expandRange m =>
    cases hn
    show RelM σ pn Eq (execExpandRange f m c sc) (execExpandRange f' (σ m) c' sc)
    unfold execExpandRange
    have h1 := h.withName "Catch".toList
    dsimp only
    rw [h1.parser]
    apply RelM.bind (hf m _ _ sc h1)
    rintro r _ rfl
    split
    · apply RelM.bind RelM.getTok
      rintro tk _ rfl
      apply RelM.bind RelM.newTok
      rintro w _ rfl
      apply RelM.bind RelM.modTok
      rintro _ _ _
      exact RelM.pure rfl
    · apply RelM.bind RelM.modTok
      rintro _ _ _
      exact RelM.pure rfl
    · exact RelM.pure rfl
  | catch_ m g =>
    obtain ⟨g', rfl, hg⟩ := hn
    apply RelM.bind (hf m _ _ sc (h.withName _))
    rintro r _ rfl
    cases r with
    | ok x => exact RelM.pure rfl
    | err e => exact hg _ _ e (h.withName _) rfl
  | map m sf ff =>
    obtain ⟨sf', ff', rfl, hs, he⟩ := hn
    apply RelM.bind (hf m _ _ sc (h.withName _))
    rintro r _ rfl
    cases r with
    | ok x =>
      cases x with
      | token t => exact hs t _ _ sc (h.withName _) rfl
      | proxyChildren t => exact hs t _ _ sc (h.withName _) rfl
      | skip _ => exact RelM.pure rfl
      | brk _ _ => exact RelM.pure rfl
      | cont _ _ => exact RelM.pure rfl
      | none => exact RelM.pure rfl
      | stop => exact RelM.pure rfl
    | err e => exact he e _ _ sc (h.withName _) rfl
  | store m name cu =>
    cases hn
    apply RelM.bind (hf m _ _ sc (h.withName _))
    rintro r _ rfl
    split
    · apply RelM.bind (RelM.bindVar rfl)
      rintro _ _ _
      exact RelM.pure rfl
    · exact RelM.pure rfl
  | storeStr v name cu =>
    cases hn
    apply RelM.bind (RelM.bindVar rfl)
    rintro _ _ _
    exact RelM.pure rfl
  | fetch name =>
    cases hn
    exact RelM.pure rfl
  | ref target name cu =>
    cases hn
    apply RelM.bind RelM.fetchValue
    rintro (v | m) (v' | m') hv <;> cases hv
    · dsimp only
      apply RelM.bind RelM.lookupVar
      rintro o _ rfl
      cases o with
      | none => exact RelM.pure rfl
      | some x =>
        cases x with
        | matcher m => exact hf m _ _ sc (h.withName _)
        | str _ => exact RelM.pure rfl
        | token _ => exact RelM.pure rfl
    · exact hf m _ _ sc (h.withName _)
  | register ps =>
    cases hn
    exact execRegister_rel (ha.name _ rfl)
  | setScope k m =>
    cases hn
    show RelM σ pn Eq (execSetScope f k m c) (execSetScope f' k (σ m) c')
    unfold execSetScope
    cases k with
    | some k => exact hf m _ _ k (h.withName _)
    | none =>
      dsimp only
      rw [h.scope]
      apply RelM.bind RelM.pushScope
      rintro _ _ _
      apply RelM.bind (hf m _ _ _ (h.withName _))
      rintro r _ rfl
      apply RelM.bind RelM.popScope
      rintro _ _ _
      exact RelM.pure rfl
  | pin m o name cu =>
    cases hn
    show RelM σ pn Eq (execPin cfg f m o name c sc) (execPin cfg f' (m.map σ) (o.ren σ) name c' sc)
    unfold execPin
    have h1 := h.withName name
    apply RelM.bind RelM.fetchValue
    rintro (v | x) (v' | x') hv <;> cases hv
    · dsimp only
      rw [h1.offset, h1.parser]
      apply RelM.bind parseOffset_rel
      rintro a _ rfl
      have : RelM σ pn Eq (pinEnd cfg a (c.withName name).offset.stop (splitDotDot v))
          (pinEnd cfg a (c.withName name).offset.stop (splitDotDot v)) := by
        unfold pinEnd
        split
        · exact parseOffset_rel
        · exact RelM.pure rfl
      apply RelM.bind this
      rintro b _ rfl
      cases m with
      | some m => exact hf m _ _ sc ⟨h.scope, h.stack, rfl, rfl, h.debug⟩
      | none =>
        apply RelM.bind RelM.newTok
        rintro t _ rfl
        exact RelM.pure rfl
    · exact RelM.pure rfl
  | debug m k =>
    obtain ⟨k', rfl, hk⟩ := hn
    show RelM σ pn Eq (execDebug f m k c sc) (execDebug f' (m.map σ) k' c' sc)
    unfold execDebug
    have h1 : CR pn { c.withName "Debug".toList with debug := k }
        { c'.withName "Debug".toList with debug := k' } :=
      ⟨h.scope, h.stack, h.offset, h.parser, hk⟩
    dsimp only
    rw [h1.debugRange]
    apply RelM.bind RelM.ofOpt
    rintro _ _ rfl
    cases m with
    | some m => exact hf m _ _ sc h1
    | none => exact RelM.pure rfl
  | brk name =>
    cases hn
    exact RelM.pure rfl
  | null =>
    cases hn
    exact RelM.pure rfl
  | panic msg =>
    cases hn
    show RelM σ pn Eq (execPanic msg c) (execPanic msg c')
    unfold execPanic
    have : RelM σ pn Eq (panicRange c) (panicRange c') := by
      unfold panicRange
      rw [h.stack, h.offset]
      split
      · apply RelM.bind RelM.getTok
        rintro tk _ rfl
        exact RelM.pure rfl
      · exact RelM.pure rfl
    apply RelM.bind this
    rintro r _ rfl
    rw [h.errorString]
    apply RelM.bind RelM.ofOpt
    rintro m _ rfl
    exact RelM.pure rfl
  | error msg =>
    cases hn
    show RelM σ pn Eq (execError msg c) (execError msg c')
    unfold execError newErrorToken
    rw [h.offset]
    apply RelM.bind (newErrorTokenWithRange_rel h)
    rintro t _ rfl
    exact RelM.pure rfl

end

/-- The two grammars correspond: each matcher is either a `Debug` wrapper that the
renaming sees through, or corresponds to a node of the same kind. -/
structure TableRel (σ : MatcherId → MatcherId) (pn : Prop) (T T' : Table) : Prop where
  node : ∀ m, (pn ∧ ∃ b k, T m = .debug (some b) k ∧ σ m = σ b) ∨ NodeRel σ pn (T m) (T' (σ m))
  ask : ∀ m, AskRel σ T T' (T m)

theorem NodeRel.custom {σ : MatcherId → MatcherId} {pn : Prop} {n n' : Node}
    (h : NodeRel σ pn n n') : n'.hasCustomName = n.hasCustomName ∧ n'.name = n.name := by
  cases n <;> first
    | (cases h; exact ⟨rfl, rfl⟩)
    | (obtain ⟨_, rfl, _⟩ := h; exact ⟨rfl, rfl⟩)
    | (obtain ⟨_, _, rfl, _⟩ := h; exact ⟨rfl, rfl⟩)

theorem exec_rel {σ : MatcherId → MatcherId} {pn : Prop} {T T' : Table} {cfg : Cfg}
    (hT : TableRel σ pn T T') :
    ∀ {n n' : Nat}, n ≤ n' → RecRel σ pn (exec T cfg n) (exec T' cfg n') := by
  intro n
  induction n with
  | zero => intro n' _ m c c' sc _; exact RelM.diverge
  | succ n ih =>
    intro n' hle m c c' sc h
    obtain ⟨k, rfl⟩ : ∃ k, n' = k + 1 := ⟨n' - 1, by omega⟩
    rcases hT.node m with ⟨hp, b, md, hm, hσ⟩ | hn
    · have h0 : c'.debug = 0 := by
        rcases h.debug with ⟨hn, _⟩ | ⟨_, h0⟩
        · exact (hn hp).elim
        · exact h0
      have hb := ih (Nat.le_of_succ_le hle) b { c.withName "Debug".toList with debug := md } c' sc
        ⟨h.scope, h.stack, h.offset, h.parser, Or.inr ⟨hp, h0⟩⟩
      rw [hσ]
      intro s
      have he : exec T cfg (n + 1) m c sc s = execDebug (exec T cfg n) (some b) md c sc s := by
        show (beforeExec (T m) m sc >>= fun _ => execNode T cfg (exec T cfg n) (T m) c sc) s = _
        rw [hm]
        rfl
      rw [he]
      unfold execDebug
      dsimp only
      cases ({ c.withName "Debug".toList with debug := md } : Ctx).debugRange 10 with
      | none => exact Or.inl hp
      | some _ => exact hb s
    · unfold exec
      have hb : RelM σ pn Eq (beforeExec (T m) m sc) (beforeExec (T' (σ m)) (σ m) sc) := by
        unfold beforeExec
        rw [hn.custom.1, hn.custom.2]
        apply RelM.ite <;> intro _
        · exact RelM.bindVar rfl
        · exact RelM.pure rfl
      apply RelM.bind hb
      rintro _ _ _
      exact execNode_rel (ih (Nat.le_of_succ_le_succ hle)) hn (hT.ask m) h

end Adx
