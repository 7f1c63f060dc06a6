import Verif.Props.Depth
import Verif.Spec.Redirect
/-
  C07: `Debug` does not change what a grammar does.
-/
namespace Adx

/-- The callbacks of a matcher do not look at the debug level (and treat matchers
held in variables as opaque). -/
def DebugBlind (σ : MatcherId → MatcherId) : Node → Prop
  | .catch_ _ f => ∀ c e, RelM σ True Eq (f c e) (f { c with debug := 0 } e)
  | .map _ sf ff =>
    (∀ t c sc, RelM σ True Eq (sf t c sc) (sf t { c with debug := 0 } sc)) ∧
    (∀ e c sc, RelM σ True Eq (ff e c sc) (ff e { c with debug := 0 } sc))
  | _ => True

theorem Fetchable.redirect_eq (σ : MatcherId → MatcherId) (f : Fetchable) :
    f.redirect σ = f.ren σ := by cases f <;> rfl

theorem CR.zero {c c' : Ctx} (h : CR True c c') (hn : c'.name = c.name) :
    c' = { c with debug := 0 } := by
  rcases h.debug with ⟨hf, _⟩ | ⟨_, hd⟩
  · exact (hf trivial).elim
  · cases c; cases c'
    cases h.scope; cases h.stack; cases h.offset; cases h.parser; cases hn; cases hd
    rfl

theorem NodeRel.redirect {σ : MatcherId → MatcherId} {n : Node} (hb : DebugBlind σ n) :
    NodeRel σ True n (n.redirect σ) := by
  cases n with
  | catch_ m f =>
    refine ⟨f, rfl, fun c c' e h hn => ?_⟩
    rw [h.zero hn]
    exact hb c e
  | map m sf ff =>
    refine ⟨sf, ff, rfl, fun t c c' sc h hn => ?_, fun e c c' sc h hn => ?_⟩
    · rw [h.zero hn]
      exact hb.1 t c sc
    · rw [h.zero hn]
      exact hb.2 e c sc
  | debug m k => exact ⟨0, rfl, Or.inr ⟨trivial, rfl⟩⟩
  | _ => simp [NodeRel, Node.redirect, Fetchable.redirect_eq]

theorem Node.redirect_isConsuming (σ : MatcherId → MatcherId) (n : Node) :
    (n.redirect σ).isConsuming = n.isConsuming := by cases n <;> rfl

theorem Node.redirect_name (σ : MatcherId → MatcherId) (n : Node) :
    (n.redirect σ).name = n.name := by cases n <;> rfl

theorem SeesThroughDebug.tableRel {T : Table} {σ : MatcherId → MatcherId}
    (hσ : SeesThroughDebug T σ) (hp : DebugPlaced T σ) (hb : ∀ m, DebugBlind σ (T m)) :
    TableRel σ True T (withoutDebug T σ) := by
  refine ⟨fun m => ?_, fun m => ⟨?_, ?_⟩⟩
  · by_cases hd : ∃ b k, T m = .debug (some b) k
    · obtain ⟨b, k, hm⟩ := hd
      exact Or.inl ⟨trivial, b, k, hm, hσ.wrapper m b k hm⟩
    · have : σ m = m := hσ.other m (fun b k h => hd ⟨b, k, h⟩)
      rw [this]
      exact Or.inr (NodeRel.redirect (hb m))
  · intro ps n c i f hm p hp'
    unfold withoutDebug
    rw [Node.redirect_isConsuming]
    exact hp.consuming m ps n c i f hm p hp'
  · intro ps hm p hp'
    unfold withoutDebug
    rw [Node.redirect_name]
    exact hp.name m ps hm p hp'

/-- C07: if a grammar with `Debug` wrappers returns a result, then the grammar
without them returns the same result, creates exactly the same tokens, and leaves
the same variables (matchers held in variables being unwrapped). -/
theorem C07_debug_transparent {T : Table} {cfg : Cfg} {σ : MatcherId → MatcherId}
    (hσ : SeesThroughDebug T σ) (hp : DebugPlaced T σ) (hb : ∀ m, DebugBlind σ (T m))
    {m : MatcherId} {c : Ctx} {sc : SCtxId} {s s' : State} {r : R}
    (h : Runs T cfg m c sc s r s') :
    Runs (withoutDebug T σ) cfg (σ m) { c with debug := 0 } sc (s.ren σ) r (s'.ren σ) := by
  obtain ⟨n, h⟩ := h
  refine ⟨n, ?_⟩
  have hr := exec_rel (cfg := cfg) (hσ.tableRel hp hb) (Nat.le_refl n) m c { c with debug := 0 } sc
    ⟨rfl, rfl, rfl, rfl, Or.inr ⟨trivial, rfl⟩⟩ s
  rw [h] at hr
  obtain ⟨r', hr', rfl⟩ := hr
  exact hr'

/-- C07, other direction: a grammar with `Debug` wrappers never finishes with
anything other than what the grammar without them returns, unless it panics. -/
theorem C07_debug_no_other_result {T : Table} {cfg : Cfg} {σ : MatcherId → MatcherId}
    (hσ : SeesThroughDebug T σ) (hp : DebugPlaced T σ) (hb : ∀ m, DebugBlind σ (T m))
    {m : MatcherId} {c : Ctx} {sc : SCtxId} {s s1 s2 : State} {r1 r2 : R}
    (h1 : Runs (withoutDebug T σ) cfg (σ m) { c with debug := 0 } sc (s.ren σ) r1 s1)
    (h2 : Runs T cfg m c sc s r2 s2) : r2 = r1 ∧ s2.ren σ = s1 :=
  C06_unique (C07_debug_transparent hσ hp hb h2) h1

/-- The callbacks of the library's own macros do not look at the debug level. -/
theorem C07_library_callbacks (σ : MatcherId → MatcherId) (m : MatcherId) (msg : Str) :
    DebugBlind σ (.map m (fatalIfOk msg) failureIsFine) ∧
    DebugBlind σ (.map m successIsFine (fatalIfNotErr msg)) ∧
    DebugBlind σ (.map m (assertIfOk msg) failureIsFine) ∧
    DebugBlind σ (.map m successIsFine (assertIfNotErr msg)) := by
  have hc : ∀ c : Ctx, CR True c { c with debug := 0 } :=
    fun c => ⟨rfl, rfl, rfl, rfl, Or.inr ⟨trivial, rfl⟩⟩
  have hf : ∀ e (c : Ctx) sc,
      RelM σ True Eq (failureIsFine e c sc) (failureIsFine e { c with debug := 0 } sc) := by
    intro e c sc
    cases e <;> exact RelM.pure rfl
  refine ⟨⟨?_, hf⟩, ⟨fun _ _ _ => RelM.pure rfl, ?_⟩, ⟨?_, hf⟩,
    ⟨fun _ _ _ => RelM.pure rfl, ?_⟩⟩
  · intro t c sc
    apply RelM.bind RelM.getTok
    rintro tk _ rfl
    rw [(hc c).errorString]
    apply RelM.bind RelM.ofOpt
    rintro x _ rfl
    exact RelM.pure rfl
  · intro e c sc
    cases e with
    | error e => exact RelM.pure rfl
    | fail =>
      unfold fatalIfNotErr
      dsimp only
      rw [(hc c).errorString]
      apply RelM.bind RelM.ofOpt
      rintro x _ rfl
      exact RelM.pure rfl
  · intro t c sc
    apply RelM.bind RelM.getTok
    rintro tk _ rfl
    apply RelM.bind (newErrorTokenWithRange_rel (hc c))
    rintro x _ rfl
    exact RelM.pure rfl
  · intro e c sc
    cases e with
    | error e => exact RelM.pure rfl
    | fail =>
      apply RelM.bind (newErrorTokenWithRange_rel (hc c))
      rintro x _ rfl
      exact RelM.pure rfl

/-- The grammar of the examples below: `Program(Debug(Equals "a"), Debug(Debug(Equals "b")))`. -/
def exDebug : Table := fun
  | 0 => .program [1, 3] "P".toList false none false
  | 1 => .debug (some 2) 1
  | 2 => .equals "A".toList false (.str ['a'])
  | 3 => .debug (some 4) 2
  | 4 => .debug (some 5) 1
  | _ => .equals "B".toList false (.str ['b'])

/-- Non-vacuity of C07: the hypotheses hold of a grammar with nested `Debug`s, which
returns a token on `ab`. -/
example :
    let σ : MatcherId → MatcherId := fun m => if m = 1 then 2 else if m = 3 ∨ m = 4 then 5 else m
    SeesThroughDebug exDebug σ ∧ DebugPlaced exDebug σ ∧ (∀ m, DebugBlind σ (exDebug m)) ∧
    (exec exDebug ⟨true⟩ 9 0 (Ctx.new ⟨"ab".toList, []⟩ 0 []) 0 ⟨[], [], [[]]⟩).holds
      (fun r s => r = .ok (.token 0) ∧ s.toks.length = 3) := by
  refine ⟨⟨?_, ?_⟩, ⟨?_, ?_⟩, ?_, by decide +kernel⟩
  · intro d b k h
    match d with
    | 1 => cases h; rfl
    | 3 => cases h; rfl
    | 4 => cases h; rfl
    | 0 => cases h
    | 2 => cases h
    | _ + 5 => cases h
  · intro m h
    match m with
    | 1 => exact (h _ _ rfl).elim
    | 3 => exact (h _ _ rfl).elim
    | 4 => exact (h _ _ rfl).elim
    | 0 => rfl
    | 2 => rfl
    | m + 5 => simp
  · intro m ps n c i f h p hp
    match m with
    | 0 =>
      cases h
      simp only [List.mem_cons, List.not_mem_nil, or_false] at hp
      rcases hp with rfl | rfl <;> rfl
    | 1 => cases h
    | 2 => cases h
    | 3 => cases h
    | 4 => cases h
    | _ + 5 => cases h
  · intro m ps h p hp
    match m with
    | 0 => cases h
    | 1 => cases h
    | 2 => cases h
    | 3 => cases h
    | 4 => cases h
    | _ + 5 => cases h
  · intro m
    match m with
    | 0 => trivial
    | 1 => trivial
    | 2 => trivial
    | 3 => trivial
    | 4 => trivial
    | _ + 5 => trivial

/-- The condition `DebugPlaced` is needed: around a `Pin`, which is not consuming,
`Debug` changes the result.  On `ab`, `Program(Pin("a"), "a")` matches, and
`Program(Debug(Pin("a")), "a")` does not. -/
theorem C07_debug_around_pin_counterexample :
    let T (d : MatcherId) : Table := fun
      | 0 => .program [d, 3] "P".toList false none false
      | 1 => .debug (some 2) 1
      | 2 => .pin (some 3) (.str []) "Pin".toList false
      | _ => .equals "A".toList false (.str ['a'])
    let c := Ctx.new ⟨"ab".toList, []⟩ 0 []
    (exec (T 2) ⟨true⟩ 9 0 c 0 ⟨[], [], [[]]⟩).holds (fun r _ => r = .ok (.token 0)) ∧
    (exec (T 1) ⟨true⟩ 9 0 c 0 ⟨[], [], [[]]⟩).holds (fun r _ => r = .err .fail) := by
  decide +kernel

/-- So is its other part: `Register(Debug(A))` does not register `A`.  On `ab`,
`Program(Register(A), Ref("A"))` matches; with `Debug` around `A` the reference is an
error. -/
theorem C07_register_debug_counterexample :
    let T (d : MatcherId) : Table := fun
      | 0 => .program [1, 4] "P".toList false none false
      | 1 => .register [d]
      | 2 => .debug (some 3) 1
      | 3 => .equals "A".toList true (.str ['a'])
      | _ => .ref (.str "A".toList) "Ref".toList false
    let c := Ctx.new ⟨"ab".toList, []⟩ 0 []
    (exec (T 3) ⟨true⟩ 9 0 c 0 ⟨[], [], [[]]⟩).holds (fun r _ => r = .ok (.token 0)) ∧
    (exec (T 2) ⟨true⟩ 9 0 c 0 ⟨[], [], [[]]⟩).holds (fun r _ => r = .err (.error
      ⟨"`Ref` matcher unable to locate target reference `A`".toList, none⟩)) := by
  decide +kernel

end Adx
