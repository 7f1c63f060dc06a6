import Verif.Proofs.Program
import Verif.Spec.Heap
/-
  C14, C15, C16, C33: programs, switches and loops over arbitrary parts.
-/
namespace Adx

variable {T : Table} {cfg : Cfg} {m : MatcherId} {c : Ctx} {sc : SCtxId} {s s' : State} {r : R}
  {ps : List MatcherId} {name : Str} {cu : Bool}

theorem not_answers_none (self called : Str) : ¬ Answers none self called := fun h => h.1 rfl

/-- C14: a `Program` makes one pass over its parts, in order, each at the position
where the previous one ended (`Pass`); if all of them succeed it hands over what it
has collected; a plain failure of a part is the program's failure and an error is its
error, in both cases without running the remaining parts. -/
theorem C14_program (hm : T m = .program ps name cu none false) (hd : c.debug = 0) :
    Runs T cfg m c sc s r s' ↔
      let s0 := entered T m sc s
      let prog := s.toks.length
      let pass := Pass T cfg (partsOf T cfg c sc prog) prog c.offset.start false ps
        (.start c.offset.start) (s0.withProgram c.parser name)
      (∃ a s1, pass (.done a) s1 ∧ Completes prog a s1 r s') ∨
      (∃ a, pass (.fails a) s' ∧ r = .err .fail) ∨
      (∃ e, pass (.raises e) s' ∧ r = .err (.error e)) ∨
      (∃ a s1, pass (.acts .stop a) s1 ∧ Completes prog a s1 r s') ∨
      (∃ b d a a' s1 s2 x, pass (.acts (.brk b d) a) s1 ∧
        TakesPayload cfg prog c.offset.start d a s1 a' s2 ∧ Completes prog a' s2 x s' ∧
        r = (match x with | .ok y => .ok (.brk b y) | .err e => .err e)) ∨
      (∃ b d a a' s1 s2, pass (.acts (.cont b d) a) s1 ∧
        TakesPayload cfg prog c.offset.start d a s1 a' s2 ∧ Completes prog a' s2 r s') := by
  rw [program_iff hm hd]
  unfold ProgramRuns
  rw [entered_toks]
  dsimp only
  constructor
  · intro h
    cases h with
    | next hp hr =>
      cases hr with
      | over h =>
        cases h with
        | skips h => cases h
        | short h => cases h
        | completes _ h => exact Or.inl ⟨_, _, hp, h⟩
    | failsProgram _ hp => exact Or.inr (Or.inl ⟨_, hp, rfl⟩)
    | failsLoop hi _ _ => exact (hi rfl).elim
    | raises hp => exact Or.inr (Or.inr (Or.inl ⟨_, hp, rfl⟩))
    | picks hp => exact hp.not_picks.elim
    | stops hp h =>
      cases h with
      | skips h => cases h
      | short h => cases h
      | completes _ h => exact Or.inr (Or.inr (Or.inr (Or.inl ⟨_, _, hp, h⟩)))
    | switchBreak hf => cases hf
    | switchContinue hf => cases hf
    | breakHere _ _ _ ha => exact (not_answers_none _ _ ha).elim
    | breakOut _ hp ht _ hc =>
      exact Or.inr (Or.inr (Or.inr (Or.inr (Or.inl ⟨_, _, _, _, _, _, _, hp, ht, hc, rfl⟩))))
    | breakNothing _ hp ht _ hc =>
      exact Or.inr (Or.inr (Or.inr (Or.inr (Or.inl ⟨_, _, _, _, _, _, _, hp, ht, hc, rfl⟩))))
    | continueHere _ _ _ ha => exact (not_answers_none _ _ ha).elim
    | continueElse _ hp ht _ hc =>
      exact Or.inr (Or.inr (Or.inr (Or.inr (Or.inr ⟨_, _, _, _, _, _, hp, ht, hc⟩))))
  · rintro (⟨a, s1, hp, hc⟩ | ⟨a, hp, rfl⟩ | ⟨e, hp, rfl⟩ | ⟨a, s1, hp, hc⟩ |
      ⟨b, d, a, a', s1, s2, x, hp, ht, hc, rfl⟩ | ⟨b, d, a, a', s1, s2, hp, ht, hc⟩)
    · exact .next hp (.over (.completes (by simp) hc))
    · exact .failsProgram rfl hp
    · exact .raises hp
    · exact .stops hp (.completes (by simp) hc)
    · cases x with
      | ok y => exact .breakOut rfl hp ht (not_answers_none _ _) hc
      | err e => exact .breakNothing rfl hp ht (not_answers_none _ _) hc
    · exact .continueElse rfl hp ht (not_answers_none _ _) hc

/-- Parts that all return ordinary tokens, one after the other: each part is run where
the token of the previous one ended, and its token is handed to `prog`. -/
inductive TokenChain (B : Behav) (prog : TokId) :
    List MatcherId → Nat → State → List TokId → List Range → List Range → State → Prop
  | nil {pos s} : TokenChain B prog [] pos s [] [] [] s
  | cons {p ps pos s t k s1 ts caps mats s'} (h : B p pos s (.ok (.token t)) s1)
      (hk : s1.toks[t]? = some k) (hp : k.kind = .standard) (he : k.flags &&& IS_ERROR = 0)
      (hf : k.matched.stop ≠ pos)
      (hr : TokenChain B prog ps k.matched.stop (s1.put t { k with parent := some prog }) ts caps mats s') :
      TokenChain B prog (p :: ps) pos s (t :: ts) (k.captured :: caps) (k.matched :: mats) s'

theorem TokenChain.pass {B : Behav} {prog : TokId} {start pos : Nat} {ts : List TokId}
    {caps mats : List Range} (hcon : ∀ p ∈ ps, (T p).isConsuming = true)
    (h : TokenChain B prog ps pos s ts caps mats s') (a : Acc) (ha : a.pos = pos) :
    ∃ q, Pass T cfg B prog start false ps a s
      (.done ⟨q, a.kids ++ ts, a.caps ++ caps, a.mats ++ mats⟩) s' := by
  induction h generalizing a with
  | nil =>
    refine ⟨a.pos, ?_⟩
    simp only [List.append_nil]
    exact .nil
  | @cons p ps pos s t k s1 ts caps mats s' h hk hp he hf hr ih =>
    subst ha
    have had : k.adopted prog (lowest a.mats) = { k with parent := some prog } := by
      unfold Token.adopted
      rw [if_neg (fun h => h.1 he)]
    obtain ⟨q, hq⟩ := ih (fun p hp => hcon p (by simp [hp])) (a.add true t { k with parent := some prog }) rfl
    refine ⟨q, .takes h (by simp) (a1 := a.add true t { k with parent := some prog })
      (s2 := s1.put t { k with parent := some prog }) ?_ ?_⟩
    · rw [hcon p (by simp), ← had]
      exact .token hk hp (fun _ _ => hf)
    · simpa [Acc.add, Acc.cover, had] using hq

/-- C14: if the parts return tokens one after the other, the `Program` returns its own
token, whose children are exactly those tokens in order, spanning them. -/
theorem C14_tokens (hm : T m = .program ps name cu none false) (hd : c.debug = 0)
    (hps : ps ≠ []) (hcon : ∀ p ∈ ps, (T p).isConsuming = true) {ts : List TokId}
    {caps mats : List Range} {s1 : State} {k : Token}
    (h : TokenChain (partsOf T cfg c sc s.toks.length) s.toks.length ps c.offset.start
      ((entered T m sc s).withProgram c.parser name) ts caps mats s1)
    (hcap : ∀ r ∈ caps, r.start < usizeMax) (hmat : ∀ r ∈ mats, r.start < usizeMax)
    (hk : s1.toks[s.toks.length]? = some k) :
    Runs T cfg m c sc s (.ok (.token s.toks.length)) (s1.put s.toks.length
      (({ k with children := ts }.setCaptured (span caps)).setMatched (span mats))) := by
  obtain ⟨q, hq⟩ := h.pass (T := T) (cfg := cfg) (start := c.offset.start) hcon (.start c.offset.start) rfl
  have hlow : ∀ l : List Range, (∀ r ∈ l, r.start < usizeMax) → l ≠ [] → lowest l ≠ usizeMax := by
    intro l hl hne
    cases l with
    | nil => exact (hne rfl).elim
    | cons x l =>
      have := hl x (by simp)
      simp only [lowest]
      omega
  have hne : ts ≠ [] ∧ caps ≠ [] ∧ mats ≠ [] := by
    cases h with
    | nil => exact (hps rfl).elim
    | cons => simp
  exact (C14_program hm hd).mpr (Or.inl ⟨_, _, hq, .token (by simpa [Acc.start] using hne.1)
    (by simpa [Acc.start] using hlow _ hcap hne.2.1) (by simpa [Acc.start] using hlow _ hmat hne.2.2) hk⟩)

/-- C14: when a part fails after the parts before it succeeded, the `Program`
fails, in the heap right after that part: the parts behind it are not run. -/
theorem C14_fails {pre post : List MatcherId} {p : MatcherId}
    (hm : T m = .program (pre ++ p :: post) name cu none false) (hd : c.debug = 0)
    {s1 : State} {a : Acc}
    (hpre : Pass T cfg (partsOf T cfg c sc s.toks.length) s.toks.length c.offset.start false pre
      (.start c.offset.start) ((entered T m sc s).withProgram c.parser name) (.done a) s1)
    (hp : partsOf T cfg c sc s.toks.length p a.pos s1 (.err .fail) s') :
    Runs T cfg m c sc s (.err .fail) s' := by
  refine (C14_program hm hd).mpr (Or.inr (Or.inl ⟨a, ?_, rfl⟩))
  generalize (Acc.start c.offset.start) = a0 at hpre
  generalize ((entered T m sc s).withProgram c.parser name) = s0 at hpre
  clear hm
  induction pre generalizing a0 s0 with
  | nil =>
    cases hpre
    exact .fails rfl hp
  | cons x pre ih =>
    cases hpre with
    | takes h hn ht hr => exact .takes h hn ht (ih _ _ hr)
    | misses hf => cases hf

/-- Non-vacuity of C14: success with two children, and failure of the second part. -/
example :
    let T : Table := fun
      | 0 => .program [1, 2] "P".toList false none false
      | 1 => .equals "A".toList false (.str "ab".toList)
      | _ => .equals "B".toList false (.str "c".toList)
    let run (src : String) := exec T ⟨true⟩ 9 0 (Ctx.new ⟨src.toList, []⟩ 0 []) 0 ⟨[], [], [[]]⟩
    (run "abcd").holds (fun r s => r = .ok (.token 0) ∧
      (s.toks[0]?.map (fun k => (k.children, k.matched))) = some ([1, 2], ⟨0, 3⟩)) ∧
    (run "abd").holds (fun r _ => r = .err .fail) := by
  decide +kernel

/-! ### Switch -/

/-- C15: a `Switch` makes one pass over its alternatives; the first one that succeeds
with a token, spliced children or a positive skip is the result; failing alternatives
are passed over; an error is the result at once; if no alternative matches it fails. -/
theorem C15_switch (hm : T m = .program ps name cu none true) (hd : c.debug = 0) :
    Runs T cfg m c sc s r s' ↔
      let s0 := entered T m sc s
      let prog := s.toks.length
      let pass := Pass T cfg (partsOf T cfg c sc prog) prog c.offset.start true ps
        (.start c.offset.start) (s0.withProgram c.parser name)
      (∃ x, pass (.picks x) s' ∧ r = .ok x) ∨
      (∃ e, pass (.raises e) s' ∧ r = .err (.error e)) ∨
      (∃ a, pass (.done a) s' ∧ r = .err .fail) ∨
      (∃ a, pass (.acts .stop a) s' ∧ r = .err .fail) ∨
      (∃ b d a, (pass (.acts (.brk b d) a) s' ∨ pass (.acts (.cont b d) a) s') ∧
        r = .ok (.brk b d)) := by
  rw [program_iff hm hd]
  unfold ProgramRuns
  rw [entered_toks]
  dsimp only
  have hkids : ∀ {ps a s o s1}, Pass T cfg (partsOf T cfg c sc s.toks.length) s.toks.length
      c.offset.start true ps a s o s1 → True := fun _ => trivial
  have hempty : ∀ {B prog start ps a s o s1}, Pass T cfg B prog start true ps a s o s1 → a.kids = [] →
      ∀ a1, (o = .done a1 ∨ ∃ x, o = .acts x a1) → a1.kids = [] := by
    intro B prog start ps a s o s1 h
    induction h with
    | nil =>
      rintro ha a1 (h | ⟨x, h⟩) <;> cases h
      exact ha
    | takes _ hn ht _ ih =>
      intro ha
      apply ih
      cases ht with
      | token hk hp => exact (hn rfl (.token hk hp)).elim
      | pin => exact ha
      | proxy hk hp => exact (hn rfl (.proxy hk hp)).elim
      | skip => exact ha
      | idle => exact ha
    | picks => rintro ha a1 (h | ⟨x, h⟩) <;> cases h
    | misses _ _ _ ih => exact ih
    | fails hf => cases hf
    | raises => rintro ha a1 (h | ⟨x, h⟩) <;> cases h
    | acts =>
      rintro ha a1 (h | ⟨x, h⟩) <;> cases h
      exact ha
  have hno : ∀ {prog a s1}, a.kids = [] → Completes prog a s1 r s' → r = .err .fail ∧ s' = s1 := by
    intro prog a s1 ha h
    cases h with
    | nothing => exact ⟨rfl, rfl⟩
    | token h1 => exact (h1 ha).elim
  constructor
  · intro h
    cases h with
    | next hp hr =>
      cases hr with
      | over h =>
        cases h with
        | skips h => cases h
        | short h => cases h
        | completes _ h =>
          obtain ⟨rfl, rfl⟩ := hno (hempty hp rfl _ (Or.inl rfl)) h
          exact Or.inr (Or.inr (Or.inl ⟨_, hp, rfl⟩))
    | failsProgram _ hp => exact hp.not_fails.elim
    | failsLoop hi _ _ => exact (hi rfl).elim
    | raises hp => exact Or.inr (Or.inl ⟨_, hp, rfl⟩)
    | picks hp => exact Or.inl ⟨_, hp, rfl⟩
    | stops hp h =>
      cases h with
      | skips h => cases h
      | short h => cases h
      | completes _ h =>
        obtain ⟨rfl, rfl⟩ := hno (hempty hp rfl _ (Or.inr ⟨_, rfl⟩)) h
        exact Or.inr (Or.inr (Or.inr (Or.inl ⟨_, hp, rfl⟩)))
    | switchBreak _ hp => exact Or.inr (Or.inr (Or.inr (Or.inr ⟨_, _, _, Or.inl hp, rfl⟩)))
    | switchContinue _ hp => exact Or.inr (Or.inr (Or.inr (Or.inr ⟨_, _, _, Or.inr hp, rfl⟩)))
    | breakHere hf => cases hf
    | breakOut hf => cases hf
    | breakNothing hf => cases hf
    | continueHere hf => cases hf
    | continueElse hf => cases hf
  · rintro (⟨x, hp, rfl⟩ | ⟨e, hp, rfl⟩ | ⟨a, hp, rfl⟩ | ⟨a, hp, rfl⟩ | ⟨b, d, a, hp | hp, rfl⟩)
    · exact .picks hp
    · exact .raises hp
    · exact .next hp (.over (.completes (by simp) (.nothing (Or.inl (hempty hp rfl _ (Or.inl rfl))))))
    · exact .stops hp (.completes (by simp) (.nothing (Or.inl (hempty hp rfl _ (Or.inr ⟨_, rfl⟩)))))
    · exact .switchBreak rfl hp
    · exact .switchContinue rfl hp

theorem AllFail.pass {B : Behav} {prog : TokId} {start : Nat} {a : Acc} {pre post : List MatcherId}
    {o : Out} {s1 : State} (h : AllFail B a.pos pre s s1)
    (hp : Pass T cfg B prog start true post a s1 o s') :
    Pass T cfg B prog start true (pre ++ post) a s o s' := by
  induction h with
  | nil => exact hp
  | cons h _ ih => exact .misses rfl h (ih hp)

/-- C15: alternatives before it having failed at the starting position, the first
alternative that matches, at the starting position, gives the result; the alternatives
behind it are not run. -/
theorem C15_first_match {pre post : List MatcherId} {p : MatcherId} {x : Success} {s1 : State}
    (hm : T m = .program (pre ++ p :: post) name cu none true) (hd : c.debug = 0)
    (hpre : AllFail (partsOf T cfg c sc s.toks.length) c.offset.start pre
      ((entered T m sc s).withProgram c.parser name) s1)
    (hp : partsOf T cfg c sc s.toks.length p c.offset.start s1 (.ok x) s') (hx : Chosen x s') :
    Runs T cfg m c sc s (.ok x) s' :=
  (C15_switch hm hd).mpr (Or.inl ⟨x, AllFail.pass (a := .start c.offset.start) hpre (.picks rfl hp hx), rfl⟩)

/-- C15: an error of an alternative ends the choice. -/
theorem C15_error {pre post : List MatcherId} {p : MatcherId} {e : ParseError} {s1 : State}
    (hm : T m = .program (pre ++ p :: post) name cu none true) (hd : c.debug = 0)
    (hpre : AllFail (partsOf T cfg c sc s.toks.length) c.offset.start pre
      ((entered T m sc s).withProgram c.parser name) s1)
    (hp : partsOf T cfg c sc s.toks.length p c.offset.start s1 (.err (.error e)) s') :
    Runs T cfg m c sc s (.err (.error e)) s' :=
  (C15_switch hm hd).mpr (Or.inr (Or.inl ⟨e, AllFail.pass (a := .start c.offset.start) hpre (.raises hp), rfl⟩))

/-- C15: if all alternatives fail, so does the `Switch`. -/
theorem C15_none (hm : T m = .program ps name cu none true) (hd : c.debug = 0)
    (h : AllFail (partsOf T cfg c sc s.toks.length) c.offset.start ps
      ((entered T m sc s).withProgram c.parser name) s') :
    Runs T cfg m c sc s (.err .fail) s' := by
  refine (C15_switch hm hd).mpr (Or.inr (Or.inr (Or.inl ⟨.start c.offset.start, ?_, rfl⟩)))
  have := AllFail.pass (T := T) (cfg := cfg) (prog := s.toks.length) (start := c.offset.start)
    (a := .start c.offset.start) (post := []) h .nil
  rwa [List.append_nil] at this

/-- C15, converse: a result that is a match comes from some alternative; it is the first
one that matched, and it read at the position where the alternatives before it left off. -/
theorem C15_result (hm : T m = .program ps name cu none true) (hd : c.debug = 0) {t : TokId}
    (h : Runs T cfg m c sc s (.ok (.token t)) s') :
    ∃ p ∈ ps, ∃ pos s1, partsOf T cfg c sc s.toks.length p pos s1 (.ok (.token t)) s' := by
  have hfind : ∀ {B prog start ps a s o s1}, Pass T cfg B prog start true ps a s o s1 →
      ∀ x, o = .picks x → ∃ p ∈ ps, ∃ pos s2, B p pos s2 (.ok x) s1 := by
    intro B prog start ps a s o s1 h
    induction h with
    | nil => intro x h; cases h
    | takes _ _ _ _ ih =>
      intro x hx
      obtain ⟨p, hp, h⟩ := ih x hx
      exact ⟨p, by simp [hp], h⟩
    | picks _ h =>
      intro x hx
      cases hx
      exact ⟨_, by simp, _, _, h⟩
    | misses _ _ _ ih =>
      intro x hx
      obtain ⟨p, hp, h⟩ := ih x hx
      exact ⟨p, by simp [hp], h⟩
    | fails => intro x h; cases h
    | raises => intro x h; cases h
    | acts => intro x h; cases h
  rcases (C15_switch hm hd).mp h with ⟨x, hp, hx⟩ | ⟨e, _, hx⟩ | ⟨a, _, hx⟩ | ⟨a, _, hx⟩ | ⟨b, d, a, _, hx⟩
  · cases hx
    exact hfind hp _ rfl
  all_goals cases hx

/-- Non-vacuity of C15: the second alternative is chosen, none matches, and ordered
choice (`a` before `ab`). -/
example :
    let T : Table := fun
      | 0 => .program [1, 2, 3] "S".toList false none true
      | 1 => .equals "B".toList false (.str "b".toList)
      | 2 => .equals "A".toList false (.str "a".toList)
      | _ => .equals "AB".toList false (.str "ab".toList)
    let run (src : String) := exec T ⟨true⟩ 9 0 (Ctx.new ⟨src.toList, []⟩ 0 []) 0 ⟨[], [], [[]]⟩
    (run "ab").holds (fun r s => r = .ok (.token 1) ∧
      (s.toks[1]?.map (·.name)) = some "A".toList ∧ s.toks.length = 2) ∧
    (run "c").holds (fun r _ => r = .err .fail) := by
  decide +kernel

/-! ### Loop -/

theorem loops_iff {B : Behav} {prog : TokId} {start : Nat} {self : Str} {lo hi k n : Nat} {a : Acc} :
    Loops T cfg B prog start self ps (some (lo, hi)) false k n a s r s' ↔
      ∃ j a1 s1, j ≤ k ∧ Rounds T cfg B prog start self ps (some (lo, hi)) j a s a1 s1 ∧
        ((j = k ∧ Ends prog (some (lo, hi)) (n + j) a1 s1 r s') ∨
         (j < k ∧ LastRound T cfg B prog start self ps (some (lo, hi)) (n + j) a1 s1 r s')) := by
  constructor
  · intro h
    generalize hi' : (some (lo, hi) : Option (Nat × Nat)) = iter at h ⊢
    generalize hf' : false = first at h
    induction h with
    | over h => exact ⟨0, _, _, Nat.le_refl _, .zero, Or.inl ⟨rfl, h⟩⟩
    | @next k n a s a1 s1 r s' hp hr ih =>
      subst hf'
      obtain ⟨j, a2, s2, hj, hR, h⟩ := ih
      refine ⟨j + 1, a2, s2, by omega, .next hp hR, ?_⟩
      rw [show n + (j + 1) = n + 1 + j by omega]
      rcases h with ⟨h1, h2⟩ | ⟨h1, h2⟩
      · exact Or.inl ⟨by omega, h2⟩
      · exact Or.inr ⟨by omega, h2⟩
    | failsProgram hn => subst hn; cases hi'
    | failsLoop _ hp hc =>
      subst hf'
      exact ⟨0, _, _, by omega, .zero, Or.inr ⟨by omega, .fails hp hc⟩⟩
    | raises hp =>
      subst hf'
      exact ⟨0, _, _, by omega, .zero, Or.inr ⟨by omega, .raises hp⟩⟩
    | picks hp => subst hf'; exact hp.not_picks.elim
    | stops hp hc =>
      subst hf'
      exact ⟨0, _, _, by omega, .zero, Or.inr ⟨by omega, .stops hp hc⟩⟩
    | switchBreak hf => subst hf'; cases hf
    | switchContinue hf => subst hf'; cases hf
    | breakHere _ hp ht hm hc =>
      subst hf'
      exact ⟨0, _, _, by omega, .zero, Or.inr ⟨by omega, .breakHere hp ht hm hc⟩⟩
    | breakOut _ hp ht hm hc =>
      subst hf'
      exact ⟨0, _, _, by omega, .zero, Or.inr ⟨by omega, .breakOut hp ht hm hc⟩⟩
    | breakNothing _ hp ht hm hc =>
      subst hf'
      exact ⟨0, _, _, by omega, .zero, Or.inr ⟨by omega, .breakOut hp ht hm hc⟩⟩
    | @continueHere k n a s a1 s1 b d a2 s2 r s' _ hp ht hm hr ih =>
      subst hf'
      obtain ⟨j, a3, s3, hj, hR, h⟩ := ih
      refine ⟨j + 1, a3, s3, by omega, .cont hp ht hm hR, ?_⟩
      rw [show n + (j + 1) = n + 1 + j by omega]
      rcases h with ⟨h1, h2⟩ | ⟨h1, h2⟩
      · exact Or.inl ⟨by omega, h2⟩
      · exact Or.inr ⟨by omega, h2⟩
    | continueElse _ hp ht hm hc =>
      subst hf'
      exact ⟨0, _, _, by omega, .zero, Or.inr ⟨by omega, .contElse hp ht hm hc⟩⟩
  · rintro ⟨j, a1, s1, hj, hR, h⟩
    induction hR generalizing k n with
    | zero =>
      rcases h with ⟨rfl, h⟩ | ⟨hk, h⟩
      · exact .over h
      · obtain ⟨k, rfl⟩ : ∃ k', k = k' + 1 := ⟨k - 1, by omega⟩
        cases h with
        | fails hp hc => exact .failsLoop (by simp) hp hc
        | raises hp => exact .raises hp
        | stops hp hc => exact .stops hp hc
        | breakHere hp ht hm hc => exact .breakHere rfl hp ht hm hc
        | @breakOut b d a1 s1 a2 s2 r s' hp ht hm hc =>
          cases r with
          | ok y => exact .breakOut rfl hp ht hm hc
          | err e => exact .breakNothing rfl hp ht hm hc
        | contElse hp ht hm hc => exact .continueElse rfl hp ht hm hc
    | @next j a s a1 s1 a' s' hp _ ih =>
      obtain ⟨k, rfl⟩ : ∃ k', k = k' + 1 := ⟨k - 1, by omega⟩
      refine .next hp (ih (by omega) ?_)
      rw [show n + 1 + j = n + (j + 1) by omega]
      rcases h with ⟨h1, h2⟩ | ⟨h1, h2⟩
      · exact Or.inl ⟨by omega, h2⟩
      · exact Or.inr ⟨by omega, h2⟩
    | @cont j a s b d a1 s1 a2 s2 a' s' hp ht hm _ ih =>
      obtain ⟨k, rfl⟩ : ∃ k', k = k' + 1 := ⟨k - 1, by omega⟩
      refine .continueHere rfl hp ht hm (ih (by omega) ?_)
      rw [show n + 1 + j = n + (j + 1) by omega]
      rcases h with ⟨h1, h2⟩ | ⟨h1, h2⟩
      · exact Or.inl ⟨by omega, h2⟩
      · exact Or.inr ⟨by omega, h2⟩

/-- C16: a `Loop` with range `lo..hi` completes `j ≤ hi - lo` rounds; then either
`j = hi - lo` and it ends regularly, or `j < hi - lo` and one more round ends it early. -/
theorem C16_loop {lo hi : Nat} (hm : T m = .program ps name cu (some (lo, hi)) false)
    (hd : c.debug = 0) :
    Runs T cfg m c sc s r s' ↔
      let prog := s.toks.length
      ∃ j a1 s1, j ≤ hi - lo ∧
        Rounds T cfg (partsOf T cfg c sc prog) prog c.offset.start name ps (some (lo, hi)) j
          (.start c.offset.start) ((entered T m sc s).withProgram c.parser name) a1 s1 ∧
        ((j = hi - lo ∧ Ends prog (some (lo, hi)) j a1 s1 r s') ∨
         (j < hi - lo ∧
          LastRound T cfg (partsOf T cfg c sc prog) prog c.offset.start name ps (some (lo, hi)) j a1 s1 r s')) := by
  rw [program_iff hm hd]
  unfold ProgramRuns
  rw [entered_toks, loops_iff]
  simp only [Nat.zero_add]
  rfl

/-- C16: a `Loop` whose body stops matching hands over what it has collected so far;
it fails only if that is nothing. -/
theorem C16_loop_out_of_matches {lo hi j : Nat} {a a1 : Acc} {s1 s2 : State}
    (hm : T m = .program ps name cu (some (lo, hi)) false) (hd : c.debug = 0) (hj : j < hi - lo)
    (hr : Rounds T cfg (partsOf T cfg c sc s.toks.length) s.toks.length c.offset.start name ps
      (some (lo, hi)) j (.start c.offset.start) ((entered T m sc s).withProgram c.parser name) a s1)
    (hp : Pass T cfg (partsOf T cfg c sc s.toks.length) s.toks.length c.offset.start false ps a s1
      (.fails a1) s2)
    (hc : Completes s.toks.length a1 s2 r s') : Runs T cfg m c sc s r s' :=
  (C16_loop hm hd).mpr ⟨j, a, s1, by omega, hr, Or.inr ⟨hj, .fails hp hc⟩⟩

/-- C16, falsified part: a loop that must match at least twice (`2..5`) succeeds
although its body matches only once. -/
theorem C16_minimum_counterexample :
    let T : Table := fun
      | 0 => .program [1] "L".toList false (some (2, 5)) false
      | _ => .equals "A".toList false (.str ['a'])
    ∃ s', Runs T ⟨true⟩ 0 (Ctx.new ⟨"ab".toList, []⟩ 0 []) 0 ⟨[], [], [[]]⟩ (.ok (.token 0)) s' ∧
      (s'.toks[0]?.map (·.children)) = some [1] := by
  exact Runs.of_check 3 (by decide +kernel)

/-- C16, falsified part: a loop that may match zero times (`0..5`) fails if its body
fails at once. -/
theorem C16_zero_iterations_counterexample :
    let T : Table := fun
      | 0 => .program [1] "L".toList false (some (0, 5)) false
      | _ => .equals "A".toList false (.str ['a'])
    ∃ s', Runs T ⟨true⟩ 0 (Ctx.new ⟨"b".toList, []⟩ 0 []) 0 ⟨[], [], [[]]⟩ (.err .fail) s' :=
  ⟨_, ⟨3, rfl⟩⟩

/-- C16, falsified part: an iteration that fails half-way is not undone; its first
tokens stay in the loop's token and its text stays consumed. -/
theorem C16_partial_iteration_counterexample :
    let T : Table := fun
      | 0 => .program [1, 2] "L".toList false (some (0, 5)) false
      | 1 => .equals "A".toList false (.str ['a'])
      | _ => .equals "B".toList false (.str ['b'])
    ∃ s', Runs T ⟨true⟩ 0 (Ctx.new ⟨"abac".toList, []⟩ 0 []) 0 ⟨[], [], [[]]⟩ (.ok (.token 0)) s' ∧
      (s'.toks[0]?.map (fun k => (k.children, k.matched))) = some ([1, 2, 3], ⟨0, 3⟩) := by
  exact Runs.of_check 3 (by decide +kernel)

/-- Non-vacuity of C16: the upper bound `1..4` cuts a longer run off after three rounds. -/
example :
    let T : Table := fun
      | 0 => .program [1] "L".toList false (some (1, 4)) false
      | _ => .equals "A".toList false (.str ['a'])
    (exec T ⟨true⟩ 9 0 (Ctx.new ⟨"aaaaaa".toList, []⟩ 0 []) 0 ⟨[], [], [[]]⟩).holds
      (fun r s => r = .ok (.token 0) ∧ (s.toks[0]?.map (·.children)) = some [1, 2, 3]) := by
  decide +kernel

/-! ### Non-empty results -/

theorem Completes.token_kids {prog t : TokId} {a : Acc} (hx : r.tok = some t)
    (h : Completes prog a s r s') :
    t = prog ∧ ∃ k, s'.toks[t]? = some k ∧ k.children ≠ [] := by
  cases h with
  | nothing => cases hx
  | token h1 h2 h3 hk =>
    cases hx
    refine ⟨rfl, _, put_get hk, ?_⟩
    have : ∀ (k : Token) r r', ((k.setCaptured r).setMatched r').children = k.children := by
      intro k r r'
      unfold Token.setMatched Token.setCaptured
      cases hk : k.kind <;> simp [hk]
    rw [this]
    exact h1

theorem Ends.token_kids {prog t : TokId} {a : Acc} {iter : Option (Nat × Nat)} {n : Nat}
    (hx : r.tok = some t) (h : Ends prog iter n a s r s') :
    t = prog ∧ ∃ k, s'.toks[t]? = some k ∧ k.children ≠ [] := by
  cases h with
  | skips => cases hx
  | short => cases hx
  | completes _ h => exact h.token_kids hx

/-- C33: a `Program` or `Loop` that returns a token (directly, or as the payload of a
`Break`) returns its own new token, with at least one child. -/
theorem C33_nonempty {iter : Option (Nat × Nat)} (hm : T m = .program ps name cu iter false)
    (hd : c.debug = 0) {t : TokId} (h : Runs T cfg m c sc s r s') (ht : r.tok = some t) :
    t = s.toks.length ∧ ∃ k, s'.toks[t]? = some k ∧ k.children ≠ [] := by
  rw [program_iff hm hd] at h
  unfold ProgramRuns at h
  rw [entered_toks] at h
  generalize hf' : false = first at h
  generalize maxPasses iter = k at h
  generalize (0 : Nat) = n0 at h
  generalize Acc.start c.offset.start = a at h
  generalize (entered T m sc s).withProgram c.parser name = w at h
  induction h with
  | over h =>
    exact h.token_kids ht
  | next _ _ ih => exact ih ht
  | failsProgram => cases ht
  | failsLoop _ _ hc =>
    exact hc.token_kids ht
  | raises => cases ht
  | picks hp => subst hf'; exact hp.not_picks.elim
  | stops _ hc =>
    exact hc.token_kids ht
  | switchBreak hf => subst hf'; cases hf
  | switchContinue hf => subst hf'; cases hf
  | breakHere _ _ _ _ hc =>
    exact hc.token_kids ht
  | breakOut _ _ _ _ hc =>
    refine Completes.token_kids ?_ hc
    exact ht
  | breakNothing => cases ht
  | continueHere _ _ _ _ _ ih => exact ih ht
  | continueElse _ _ _ _ hc =>
    exact hc.token_kids ht

/-- Non-vacuity of C33: skipping everything is not enough for a `Program` to succeed. -/
example :
    let T : Table := fun
      | 0 => .program [1] "P".toList false none false
      | 1 => .discard 2
      | _ => .equals "A".toList false (.str ['a'])
    let c := Ctx.new ⟨"ab".toList, []⟩ 0 []
    (exec T ⟨true⟩ 9 0 c 0 ⟨[], [], [[]]⟩).holds (fun r _ => r = .err .fail) ∧
    (exec T ⟨true⟩ 9 1 c 0 ⟨[], [], [[]]⟩).holds (fun r _ => r = .ok (.skip 1)) := by
  decide +kernel

end Adx
