import Verif.Spec.Halt
import Verif.Spec.Runs
import Verif.Model.Build
import Verif.Proofs.Post
import Verif.Proofs.Step
/-
  C22: errors are never swallowed.
-/
namespace Adx

variable {T : Table} {cfg : Cfg} {report : ParseError → State → String} {D : Prop} {α β : Type}

/-- What is left of a run after an error was raised in the heap `s0`: the error, as `ee`,
with scopes closed; or the panic of a debug print. -/
def Aftermath (D : Prop) (ee : ParseError → α) (e : ParseError) (s0 : State) (y : Res α) : Prop :=
  (∃ s', y = .ok (ee e) s' ∧ Closed s0 s') ∨ (D ∧ y = .panic "debug_range: slice")

/-- The braked run `x` and the real run `y` agree, or the brake was used and the real
run ends with that error. -/
def Cut (report : ParseError → State → String) (D : Prop) (ee : ParseError → α) (x y : Res α) : Prop :=
  x = y ∨ ∃ e s0, x = .panic (report e s0) ∧ Aftermath D ee e s0 y

/-- The result that is an error. -/
abbrev raised (e : ParseError) : R := .err (.error e)

/-- As `Cut`, for a matcher with the brake on it. -/
def Cut' (report : ParseError → State → String) (D : Prop) (x y : Res R) : Prop :=
  (x = y ∧ ∀ e s, y ≠ .ok (raised e) s) ∨ ∃ e s0, x = .panic (report e s0) ∧ Aftermath D raised e s0 y

theorem Cut.halt {x y : Res R} (h : Cut report D raised x y) : Cut' report D (haltOnError report x) y := by
  rcases h with rfl | ⟨e, s0, rfl, h⟩
  · unfold haltOnError
    split
    · exact Or.inr ⟨_, _, rfl, Or.inl ⟨_, rfl, .refl⟩⟩
    · rename_i hx
      exact Or.inl ⟨rfl, fun e s he => hx e s he⟩
  · exact Or.inr ⟨e, s0, rfl, h⟩

theorem Cut.refl {ee : ParseError → α} (x : Res α) : Cut report D ee x x := Or.inl rfl

theorem Cut'.cut {x y : Res R} (h : Cut' report D x y) : Cut report D raised x y := by
  rcases h with ⟨rfl, _⟩ | h
  · exact Or.inl rfl
  · exact Or.inr h

/-- Go on after running a matcher. -/
theorem Cut'.bind {ee : ParseError → α} {x y : M R} {k k' : R → M α} {s : State} (h : Cut' report D (x s) (y s))
    (hk : ∀ r s1, y s = .ok r s1 → (∀ e, r ≠ raised e) → Cut report D ee (k r s1) (k' r s1))
    (he : ∀ e s0 s1, Closed s0 s1 → Aftermath D ee e s0 (k' (raised e) s1)) :
    Cut report D ee ((x >>= k) s) ((y >>= k') s) := by
  rw [bind_eq, bind_eq]
  unfold M.bind
  rcases h with ⟨h1, h2⟩ | ⟨e, s0, h1, h2⟩
  · rw [h1]
    cases hy : y s with
    | ok r s1 => exact hk r s1 hy fun e hr => h2 e s1 (by rw [hy, hr])
    | panic p => exact Or.inl rfl
    | diverge => exact Or.inl rfl
  · rw [h1]
    rcases h2 with ⟨s', h2, h3⟩ | ⟨hD, h2⟩
    · rw [h2]
      exact Or.inr ⟨e, s0, rfl, he e s0 s' h3⟩
    · rw [h2]
      exact Or.inr ⟨e, s0, rfl, Or.inr ⟨hD, rfl⟩⟩

/-- Go on after steps that run no matcher. -/
theorem Cut.step {ee : ParseError → β} {x : M α} {k k' : α → M β} {s : State}
    (hk : ∀ a s1, x s = .ok a s1 → Cut report D ee (k a s1) (k' a s1)) :
    Cut report D ee ((x >>= k) s) ((x >>= k') s) := by
  rw [bind_eq, bind_eq]
  unfold M.bind
  cases hx : x s with
  | ok r s1 => exact hk r s1 hx
  | panic p => exact Or.inl rfl
  | diverge => exact Or.inl rfl

theorem Aftermath.pure {ee : ParseError → α} {e : ParseError} {s0 s1 : State} (h : Closed s0 s1) :
    Aftermath D ee e s0 ((Pure.pure (ee e) : M α) s1) := Or.inl ⟨s1, rfl, h⟩

/-! ### Programs -/

theorem addToken_debug {prog : TokId} {ps ps' : PS} {t : TokId} {a u : Bool} {s s' : State}
    (h : addToken prog ps t a u s = .ok ps' s') : ps'.ctx.debug = ps.ctx.debug := by
  unfold addToken at h
  obtain ⟨_, s1, _, h⟩ := bind_ok.mp h
  obtain ⟨k, s2, _, h⟩ := bind_ok.mp h
  obtain ⟨_, s3, _, h⟩ := bind_ok.mp h
  obtain ⟨rfl, _⟩ := pure_ok.mp h
  cases u <;> rfl

theorem handleToken_debug {prog : TokId} {ps ps' : PS} {t : TokId} {a u : Bool} {s s' : State}
    (h : handleToken prog ps t a u s = .ok ps' s') : ps'.ctx.debug = ps.ctx.debug := by
  unfold handleToken at h
  obtain ⟨k, s1, _, h⟩ := bind_ok.mp h
  exact addToken_debug h

theorem extractLoop_debug {prog : TokId} {u : Bool} (cs : List TokId) : ∀ {ps ps' : PS} {s s' : State},
    extractLoop prog u cs ps s = .ok ps' s' → ps'.ctx.debug = ps.ctx.debug := by
  induction cs with
  | nil =>
    intro ps ps' s s' h
    obtain ⟨rfl, _⟩ := pure_ok.mp h
    rfl
  | cons t cs ih =>
    intro ps ps' s s' h
    unfold extractLoop at h
    obtain ⟨k, s1, _, h⟩ := bind_ok.mp h
    split at h
    · exact ih h
    · obtain ⟨ps1, s2, h1, h⟩ := bind_ok.mp h
      exact (ih h).trans (addToken_debug h1)

theorem handleExtract_debug {prog : TokId} {ps ps' : PS} {t : TokId} {u : Bool} {s s' : State}
    (h : handleExtract prog ps t u s = .ok ps' s') : ps'.ctx.debug = ps.ctx.debug := by
  unfold handleExtract at h
  obtain ⟨k, s1, _, h⟩ := bind_ok.mp h
  have := extractLoop_debug _ h
  rw [this]
  split <;> rfl

theorem handleSkip_debug {ps ps' : PS} {a : Nat} {k : Int} {s s' : State}
    (h : handleSkip cfg ps a k s = .ok ps' s') : ps'.ctx.debug = ps.ctx.debug := by
  unfold handleSkip at h
  obtain ⟨n, s1, _, h⟩ := bind_ok.mp h
  obtain ⟨rfl, _⟩ := pure_ok.mp h
  rfl

theorem handlePayload_debug {prog : TokId} {ps ps' : PS} {a : Nat} {d : Success} {s s' : State}
    (h : handlePayload cfg prog ps a d s = .ok ps' s') : ps'.ctx.debug = ps.ctx.debug := by
  unfold handlePayload at h
  cases d with
  | token t => exact handleToken_debug h
  | proxyChildren t => exact handleExtract_debug h
  | skip k => exact handleSkip_debug h
  | _ =>
    obtain ⟨rfl, _⟩ := pure_ok.mp h
    rfl

/-- Runs of matchers that correspond, in contexts whose debug output may panic only if
`D`. -/
def RecCut (report : ParseError → State → String) (D : Prop) (f g : ExecFn) : Prop :=
  ∀ m (c : Ctx) sc s, (c.debug > 0 → D) → Cut' report D (f m c sc s) (g m c sc s)

theorem dbg_aftermath {ee : ParseError → α} {e : ParseError} {s0 s1 : State} {c : Ctx} {k : M α} (hc : c.debug > 0 → D)
    (h : Aftermath D ee e s0 (k s1)) : Aftermath D ee e s0 ((dbg c 10 >>= fun _ => k) s1) := by
  rw [bind_eq]
  unfold M.bind dbg
  by_cases hx : c.debug > 0
  · rw [if_pos hx]
    cases c.debugRange 10 with
    | some _ => exact h
    | none => exact Or.inr ⟨hc hx, rfl⟩
  · rw [if_neg hx]
    exact h

theorem runPatterns_cut {f g : ExecFn} (hrec : RecCut report D f g) {prog : TokId} {sc : SCtxId} {a : Nat}
    {iter : Option (Nat × Nat)} {first : Bool} {lc : Nat} :
    ∀ (ms : List MatcherId) {s : State} {ps : PS}, (ps.ctx.debug > 0 → D) →
      Cut report D (fun e => Flow.ret (raised e)) (runPatterns T cfg f prog sc a iter first lc ms ps s)
        (runPatterns T cfg g prog sc a iter first lc ms ps s) := by
  intro ms
  induction ms with
  | nil => intro s ps _; exact Cut.refl _
  | cons m ms ih =>
    intro s ps hd
    unfold runPatterns
    dsimp only
    refine Cut'.bind (hrec m _ sc s hd) ?_ ?_
    · intro r s1 _ hr
      cases r with
      | err x =>
        cases x with
        | error e => exact (hr e rfl).elim
        | fail =>
          dsimp only
          apply Cut.step
          intro _ s2 _
          split
          · exact ih hd
          · exact Cut.refl _
      | ok x =>
        cases x with
        | token t =>
          dsimp only
          apply Cut.step
          intro k s2 _
          split
          · exact ih hd
          · split
            · exact Cut.refl _
            · apply Cut.step
              intro ps2 s3 h
              exact ih (by rw [handleToken_debug h]; exact hd)
        | proxyChildren t =>
          dsimp only
          apply Cut.step
          intro k s2 _
          split
          · exact ih hd
          · split
            · exact Cut.refl _
            · apply Cut.step
              intro ps2 s3 h
              exact ih (by rw [handleExtract_debug h]; exact hd)
        | skip k =>
          dsimp only
          split
          · exact Cut.refl _
          · split
            · apply Cut.step
              intro ps2 s3 h
              exact ih (by rw [handleSkip_debug h]; exact hd)
            · exact ih hd
        | brk _ _ => exact Cut.refl _
        | cont _ _ => exact Cut.refl _
        | stop => exact Cut.refl _
        | none => exact Cut.refl _
    · intro e s0 s1 hc
      exact dbg_aftermath hd (Aftermath.pure hc)

theorem runPatterns_debug {g : ExecFn} {prog : TokId} {sc : SCtxId} {a : Nat}
    {iter : Option (Nat × Nat)} {first : Bool} {lc : Nat} (ms : List MatcherId) : ∀ {s s' : State} {ps : PS} {fl : Flow},
      runPatterns T cfg g prog sc a iter first lc ms ps s = .ok fl s' →
      (∀ ps', fl = .next ps' → ps'.ctx.debug = ps.ctx.debug) ∧
      ∀ x ps', fl = .action x ps' → ps'.ctx.debug = ps.ctx.debug := by
  induction ms with
  | nil =>
    intro s s' ps fl h
    obtain ⟨rfl, _⟩ := pure_ok.mp h
    exact ⟨fun ps' h => by cases h; rfl, fun x ps' h => by cases h⟩
  | cons m ms ih =>
    intro s s' ps fl h
    unfold runPatterns at h
    obtain ⟨r, s1, _, h⟩ := bind_ok.mp h
    have ret : ∀ {r : R} {s1 : State}, (pure (Flow.ret r) : M Flow) s1 = .ok fl s' →
        (∀ ps', fl = .next ps' → ps'.ctx.debug = ps.ctx.debug) ∧
        ∀ x ps', fl = .action x ps' → ps'.ctx.debug = ps.ctx.debug := by
      intro r s1 h
      obtain ⟨rfl, _⟩ := pure_ok.mp h
      exact ⟨fun ps' h => (by cases h), fun x ps' h => by cases h⟩
    have act : ∀ {x : Success} {s1 : State}, (pure (Flow.action x ps) : M Flow) s1 = .ok fl s' →
        (∀ ps', fl = .next ps' → ps'.ctx.debug = ps.ctx.debug) ∧
        ∀ x ps', fl = .action x ps' → ps'.ctx.debug = ps.ctx.debug := by
      intro x s1 h
      obtain ⟨rfl, _⟩ := pure_ok.mp h
      exact ⟨fun ps' h => (by cases h), fun x ps' h => by cases h; rfl⟩
    have step : ∀ {ps1 : PS} {s1 : State}, ps1.ctx.debug = ps.ctx.debug →
        runPatterns T cfg g prog sc a iter first lc ms ps1 s1 = .ok fl s' →
        (∀ ps', fl = .next ps' → ps'.ctx.debug = ps.ctx.debug) ∧
        ∀ x ps', fl = .action x ps' → ps'.ctx.debug = ps.ctx.debug := by
      intro ps1 s1 he h
      have := ih h
      rw [he] at this
      exact this
    cases r with
    | err x =>
      obtain ⟨_, s2, _, h⟩ := bind_ok.mp h
      cases x with
      | error e => exact ret h
      | fail =>
        dsimp only at h
        split at h
        · exact step rfl h
        · split at h
          · obtain ⟨_, s3, _, h⟩ := bind_ok.mp h
            exact ret h
          · exact ret h
    | ok x =>
      cases x with
      | token t =>
        obtain ⟨k, s2, _, h⟩ := bind_ok.mp h
        split at h
        · exact step rfl h
        · split at h
          · exact ret h
          · obtain ⟨ps2, s3, h1, h⟩ := bind_ok.mp h
            exact step (handleToken_debug h1) h
      | proxyChildren t =>
        obtain ⟨k, s2, _, h⟩ := bind_ok.mp h
        split at h
        · exact step rfl h
        · split at h
          · exact ret h
          · obtain ⟨ps2, s3, h1, h⟩ := bind_ok.mp h
            exact step (handleExtract_debug h1) h
      | skip k =>
        dsimp only at h
        split at h
        · exact ret h
        · split at h
          · obtain ⟨ps2, s3, h1, h⟩ := bind_ok.mp h
            exact step (handleSkip_debug h1) h
          · exact step rfl h
      | brk _ _ => exact act h
      | cont _ _ => exact act h
      | stop => exact act h
      | none => exact act h

theorem runIterations_cut {f g : ExecFn} (hrec : RecCut report D f g) {prog : TokId} {sc : SCtxId} {a : Nat} {self : Str}
    {ms : List MatcherId} {iter : Option (Nat × Nat)} {first : Bool} :
    ∀ (k lc : Nat) {s : State} {ps : PS}, (ps.ctx.debug > 0 → D) →
      Cut report D raised (runIterations T cfg f prog sc a self ms iter first k lc ps s)
        (runIterations T cfg g prog sc a self ms iter first k lc ps s) := by
  intro k
  induction k with
  | zero => intro lc s ps _; exact Cut.refl _
  | succ k ih =>
    intro lc s ps hd
    unfold runIterations
    dsimp only
    rw [bind_eq, bind_eq]
    unfold M.bind
    rcases runPatterns_cut (T := T) (cfg := cfg) hrec (prog := prog) (sc := sc) (a := a) (iter := iter) (first := first)
      (lc := lc) ms (s := s) hd with h | ⟨e, s0, h1, h2⟩
    · rw [h]
      cases hy : runPatterns T cfg g prog sc a iter first lc ms ps s with
      | panic p => exact Cut.refl _
      | diverge => exact Cut.refl _
      | ok fl s1 =>
        obtain ⟨hn, ha⟩ := runPatterns_debug ms hy
        cases fl with
        | ret r => exact Cut.refl _
        | next ps1 => exact ih _ (by rw [hn ps1 rfl]; exact hd)
        | action x ps1 =>
          have hd1 : ps1.ctx.debug > 0 → D := by rw [ha x ps1 rfl]; exact hd
          cases x with
          | cont nm d =>
            dsimp only
            split
            · exact Cut.refl _
            · apply Cut.step
              intro ps2 s2 h2
              split
              · exact ih _ (by rw [handlePayload_debug h2]; exact hd1)
              · exact Cut.refl _
          | brk nm d => exact Cut.refl _
          | stop => exact Cut.refl _
          | token _ => exact Cut.refl _
          | proxyChildren _ => exact Cut.refl _
          | skip _ => exact Cut.refl _
          | none => exact Cut.refl _
    · rw [h1]
      rcases h2 with ⟨s', h2, h3⟩ | ⟨hD, h2⟩
      · rw [h2]
        exact Or.inr ⟨e, s0, rfl, Or.inl ⟨s', rfl, h3⟩⟩
      · rw [h2]
        exact Or.inr ⟨e, s0, rfl, Or.inr ⟨hD, rfl⟩⟩

/-! ### All matchers -/

theorem execNode_cut {f g : ExecFn} (hrec : RecCut report D f g) {nd : Node} (hn : nd.LetsErrors) (hq : ¬ nd.Quiet → D)
    {c : Ctx} {sc : SCtxId} {s : State} (hd : c.debug > 0 → D) :
    Cut report D raised (execNode T cfg f nd c sc s) (execNode T cfg g nd c sc s) := by
  -- a wrapper that hands errors on
  have wrap : ∀ {c : Ctx} {sc : SCtxId} {s : State} {m : MatcherId} {k : R → M R}, (c.debug > 0 → D) →
      (∀ e s, k (raised e) s = .ok (raised e) s) →
      Cut report D raised ((f m c sc >>= k) s) ((g m c sc >>= k) s) := by
    intro c sc s m k hd hk
    refine Cut'.bind (hrec m c sc s hd) (fun r s1 _ _ => Cut.refl _) fun e s0 s1 hc => ?_
    rw [hk]
    exact Or.inl ⟨s1, rfl, hc⟩
  cases nd with
  | equals => exact Cut.refl _
  | regex => exact Cut.refl _
  | sequence => exact Cut.refl _
  | program ps name cu iter first =>
    unfold execNode execProgram
    apply Cut.step
    intro prog s1 _
    exact runIterations_cut hrec _ _ hd
  | optional m => exact wrap hd fun _ _ => rfl
  | not m => exact wrap hd fun _ _ => rfl
  | discard m => exact wrap hd fun _ _ => rfl
  | proxyChildren m name cu => exact wrap hd fun _ _ => rfl
  | expandRange m => exact wrap hd fun _ _ => rfl
  | catch_ m h => exact wrap hd fun e s => hn _ e s
  | map m sf ff => exact wrap hd fun e s => hn e _ _ s
  | store m name cu => exact wrap hd fun _ _ => rfl
  | storeStr => exact Cut.refl _
  | fetch => exact Cut.refl _
  | ref target name cu =>
    unfold execNode execRef
    apply Cut.step
    intro v s1 _
    cases v with
    | inr m => exact (hrec m (c.withName name) sc s1 hd).cut
    | inl w =>
      apply Cut.step
      intro v s2 _
      cases v with
      | none => exact Cut.refl _
      | some v =>
        cases v with
        | matcher m => exact (hrec m (c.withName name) sc s2 hd).cut
        | token _ => exact Cut.refl _
        | str _ => exact Cut.refl _
  | register => exact Cut.refl _
  | setScope scope m =>
    unfold execNode execSetScope
    cases scope with
    | some k => exact (hrec m (c.withName "SetScope".toList) k s hd).cut
    | none =>
      dsimp only
      apply Cut.step
      intro _ s1 _
      exact Cut'.bind (hrec m _ _ s1 hd) (fun r s2 _ _ => Cut.refl _) fun e s0 s2 hc => Or.inl ⟨_, rfl, hc.pop _⟩
  | pin m offset name cu =>
    unfold execNode execPin
    apply Cut.step
    intro v s1 _
    cases v with
    | inr _ => exact Cut.refl _
    | inl w =>
      apply Cut.step
      intro a s2 _
      apply Cut.step
      intro b s3 _
      cases m with
      | none => exact Cut.refl _
      | some m => exact (hrec m { c.withName name with offset := ⟨a, b⟩ } sc s3 hd).cut
  | debug m mode =>
    unfold execNode execDebug
    apply Cut.step
    intro _ s1 _
    cases m with
    | none => exact Cut.refl _
    | some m =>
      refine (hrec m _ sc s1 fun hm => hq fun hz => ?_).cut
      have hm' : mode > 0 := hm
      have hz' : mode = 0 := hz
      omega
  | brk => exact Cut.refl _
  | null => exact Cut.refl _
  | panic => exact Cut.refl _
  | error => exact Cut.refl _

theorem exec_cut (hT : ∀ m, (T m).LetsErrors) (hq : ∀ m, ¬ (T m).Quiet → D) :
    ∀ n, RecCut report D (execHalt T cfg report n) (exec T cfg n) := by
  intro n
  induction n with
  | zero => intro m c sc s _; exact Or.inl ⟨rfl, fun e s h => by cases h⟩
  | succ n ih =>
    intro m c sc s hd
    unfold execHalt exec
    refine Cut.halt ?_
    apply Cut.step
    intro _ s1 _
    exact execNode_cut ih (hT m) (hq m) hd

variable {m : MatcherId} {c : Ctx} {sc : SCtxId} {s s' : State} {n : Nat}

/-- C22: run the engine with a brake that stops everything at the first raised error.
Either no error is raised, and the brake makes no difference; or the brake stops the run
at an error `e` in some heap `s0`, and then the engine returns that very error, the heap
being as it was except for scopes that were closed.  With debug output on, printing may
panic on the way. -/
theorem C22_halt (hT : ∀ m, (T m).LetsErrors) (report : ParseError → State → String) :
    (execHalt T cfg report n m c sc s = exec T cfg n m c sc s ∧ ∀ e s', exec T cfg n m c sc s ≠ .ok (.err (.error e)) s') ∨
    ∃ e s0, execHalt T cfg report n m c sc s = .panic (report e s0) ∧
      ((∃ s', exec T cfg n m c sc s = .ok (.err (.error e)) s' ∧ Closed s0 s') ∨
        exec T cfg n m c sc s = .panic "debug_range: slice") := by
  rcases exec_cut (D := True) (report := report) (cfg := cfg) hT (fun _ _ => trivial) n m c sc s (fun _ => trivial) with h | ⟨e, s0, h1, h2⟩
  · exact Or.inl h
  · refine Or.inr ⟨e, s0, h1, h2.imp id fun h => h.2⟩

/-- C22: without debug output the error always arrives. -/
theorem C22_error (hT : ∀ m, (T m).LetsErrors) (hq : ∀ m, (T m).Quiet) (hc : c.debug = 0)
    (report : ParseError → State → String) :
    (execHalt T cfg report n m c sc s = exec T cfg n m c sc s ∧ ∀ e s', exec T cfg n m c sc s ≠ .ok (.err (.error e)) s') ∨
    ∃ e s0 s', execHalt T cfg report n m c sc s = .panic (report e s0) ∧
      exec T cfg n m c sc s = .ok (.err (.error e)) s' ∧ Closed s0 s' := by
  rcases exec_cut (D := False) (report := report) (cfg := cfg) hT (fun m h => h (hq m)) n m c sc s (fun h => by omega) with h | ⟨e, s0, h1, h2⟩
  · exact Or.inl h
  · rcases h2 with ⟨s', h2, h3⟩ | ⟨h, _⟩
    · exact Or.inr ⟨e, s0, s', h1, h2, h3⟩
    · exact h.elim

/-- C22: `tokenize` reports that error. -/
theorem C22_tokenize (hT : ∀ m, (T m).LetsErrors) (hq : ∀ m, (T m).Quiet) (hc : c.debug = 0)
    (report : ParseError → State → String) (hx : execHalt T cfg report n m c c.scope s ≠ exec T cfg n m c c.scope s) :
    ∃ e s0 s', execHalt T cfg report n m c c.scope s = .panic (report e s0) ∧
      tokenize T cfg n c m s = .ok (.error (.error e)) s' ∧ Closed s0 s' := by
  rcases C22_error (n := n) (m := m) (sc := c.scope) (s := s) (cfg := cfg) hT hq hc report with h | ⟨e, s0, s', h1, h2, h3⟩
  · exact (hx h.1).elim
  · refine ⟨e, s0, s', h1, ?_, h3⟩
    unfold tokenize
    rw [bind_eq]
    unfold M.bind
    rw [h2]
    rfl

/-- C22: the assertion macros pass errors on. -/
theorem C22_macros (m : MatcherId) (msg : Str) (sf : TokId → Ctx → SCtxId → M R) :
    (Node.map m sf failureIsFine).LetsErrors ∧ (Node.map m sf (fatalIfNotErr msg)).LetsErrors ∧
      (Node.map m sf (assertIfNotErr msg)).LetsErrors ∧ (Node.map m sf passFailure).LetsErrors :=
  ⟨fun _ _ _ _ => rfl, fun _ _ _ _ => rfl, fun _ _ _ _ => rfl, fun _ _ _ _ => rfl⟩

/-! ### Examples -/

/-- An error deep inside loops, switches, optional and negated matchers, in a scope. -/
example : let T : Table := fun
      | 0 => .program [1, 2] "P".toList false (some (0, 5)) false
      | 1 => .equals "E".toList false (.str "a".toList)
      | 2 => .optional 3
      | 3 => .program [4, 1] "S".toList false none true
      | 4 => .not 5
      | 5 => .setScope none 6
      | 6 => .discard 7
      | _ => .panic "m".toList
    (∀ m, (T m).LetsErrors) ∧ (∀ m, (T m).Quiet) ∧
    (execHalt T ⟨true⟩ (fun e _ => String.ofList e.message) 9 0 (Ctx.new ⟨"aab".toList, []⟩ 0 []) 0 ⟨[], [], [[]]⟩).panics ∧
    (exec T ⟨true⟩ 9 0 (Ctx.new ⟨"aab".toList, []⟩ 0 []) 0 ⟨[], [], [[]]⟩).holds (fun r s' =>
      match r with
      | .err (.error e) => e.range == some ⟨0, 1⟩ && s'.toks.length == 3
      | _ => false) := by
  refine ⟨fun m => ?_, fun m => ?_, by decide +kernel, by decide +kernel⟩
  all_goals
    match m with
    | 0 | 1 | 2 | 3 | 4 | 5 | 6 | _ + 7 => trivial

/-- `Catch` may swallow an error. -/
theorem C22_catch_counterexample :
    let T : Table := fun
      | 0 => .catch_ 1 (fun _ _ => pure (.ok (.skip 0)))
      | _ => .panic "m".toList
    (execHalt T ⟨true⟩ (fun _ _ => "") 9 0 (Ctx.new ⟨"a".toList, []⟩ 0 []) 0 ⟨[], [], [[]]⟩).panics ∧
    (exec T ⟨true⟩ 9 0 (Ctx.new ⟨"a".toList, []⟩ 0 []) 0 ⟨[], [], [[]]⟩).holds (fun r _ => r == .ok (.skip 0)) := by
  decide +kernel

end Adx
