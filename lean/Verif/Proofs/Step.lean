import Verif.Props.Depth
import Verif.Spec.Outcome
/-
  One step of the engine in terms of `Runs`: a matcher that wraps another one.
-/
namespace Adx

variable {T : Table} {cfg : Cfg} {m b : MatcherId} {c c' : Ctx} {sc sc' : SCtxId} {s s' : State}
  {r : R}

/-- The name of a context is not observable. -/
theorem exec_name (n : Nat) (x : Str) :
    exec T cfg n m (c.withName x) sc s = exec T cfg n m c sc s := by
  have h1 := exec_rel (cfg := cfg) (TableRel.same T) (Nat.le_refl n) m c (c.withName x) sc
    ⟨rfl, rfl, rfl, rfl, Or.inl ⟨not_false, rfl⟩⟩ s
  have h2 := exec_rel (cfg := cfg) (TableRel.same T) (Nat.le_refl n) m (c.withName x) c sc
    ⟨rfl, rfl, rfl, rfl, Or.inl ⟨not_false, rfl⟩⟩ s
  simp only [State.ren_id, id] at h1 h2
  cases he : exec T cfg n m c sc s with
  | ok a s1 =>
    rw [he] at h1
    obtain ⟨b, hb, rfl⟩ := h1
    exact hb
  | panic e =>
    rw [he] at h1
    rcases h1 with hf | hb
    · exact hf.elim
    · exact hb
  | diverge =>
    cases he' : exec T cfg n m (c.withName x) sc s with
    | ok a s1 =>
      rw [he'] at h2
      obtain ⟨b, hb, rfl⟩ := h2
      rw [he] at hb
      cases hb
    | panic e =>
      rw [he'] at h2
      rcases h2 with hf | hb
      · exact hf.elim
      · rw [he] at hb
        cases hb
    | diverge => rfl

theorem runs_name (x : Str) : Runs T cfg m (c.withName x) sc s r s' ↔ Runs T cfg m c sc s r s' := by
  unfold Runs
  simp only [exec_name]

theorem panics_name (x : Str) : Panics T cfg m (c.withName x) sc s ↔ Panics T cfg m c sc s := by
  unfold Panics
  simp only [exec_name]

theorem bind_run {α β : Type} {x : M α} {f : α → M β} {s s1 : State} {a : α} (h : x s = .ok a s1) :
    (x >>= f) s = f a s1 := by
  rw [bind_eq]
  unfold M.bind
  rw [h]

theorem bind_ok {α β : Type} {x : M α} {f : α → M β} {s s' : State} {b : β} :
    (x >>= f) s = .ok b s' ↔ ∃ a s1, x s = .ok a s1 ∧ f a s1 = .ok b s' := by
  rw [bind_eq]
  unfold M.bind
  cases x s with
  | ok a s1 =>
    constructor
    · intro h; exact ⟨a, s1, rfl, h⟩
    · rintro ⟨a, s1, h, h'⟩; cases h; exact h'
  | panic e =>
    constructor
    · intro h; cases h
    · rintro ⟨a, s1, h, h'⟩; cases h
  | diverge =>
    constructor
    · intro h; cases h
    · rintro ⟨a, s1, h, h'⟩; cases h

theorem bind_panic {α β : Type} {x : M α} {f : α → M β} {s : State} {e : String} :
    (x >>= f) s = .panic e ↔ x s = .panic e ∨ ∃ a s1, x s = .ok a s1 ∧ f a s1 = .panic e := by
  rw [bind_eq]
  unfold M.bind
  cases x s with
  | ok a s1 =>
    constructor
    · intro h; exact Or.inr ⟨a, s1, rfl, h⟩
    · rintro (h | ⟨a, s1, h, h'⟩)
      · cases h
      · cases h; exact h'
  | panic e =>
    constructor
    · intro h; cases h; exact Or.inl rfl
    · rintro (h | ⟨a, s1, h, h'⟩)
      · cases h; rfl
      · cases h
  | diverge =>
    constructor
    · intro h; cases h
    · rintro (h | ⟨a, s1, h, h'⟩)
      · cases h
      · cases h

theorem pure_ok {α : Type} {a b : α} {s s' : State} :
    (pure a : M α) s = .ok b s' ↔ a = b ∧ s = s' := by
  constructor
  · intro h; cases h; exact ⟨rfl, rfl⟩
  · rintro ⟨rfl, rfl⟩; rfl

theorem pure_ok' {α : Type} {a b : α} {s s' : State} :
    (pure a : M α) s = .ok b s' ↔ b = a ∧ s' = s := by
  constructor
  · intro h; cases h; exact ⟨rfl, rfl⟩
  · rintro ⟨rfl, rfl⟩; rfl

/-- A matcher that runs another one and then does something of its own. -/
theorem runs_wrap {k : R → M R}
    (h : ∀ n, exec T cfg (n + 1) m c sc = (exec T cfg n b c' sc' >>= k)) :
    Runs T cfg m c sc s r s' ↔ ∃ r0 s1, Runs T cfg b c' sc' s r0 s1 ∧ k r0 s1 = .ok r s' := by
  constructor
  · rintro ⟨n, hn⟩
    cases n with
    | zero => cases hn
    | succ n =>
      rw [h n] at hn
      obtain ⟨r0, s1, h0, h1⟩ := bind_ok.mp hn
      exact ⟨r0, s1, ⟨n, h0⟩, h1⟩
  · rintro ⟨r0, s1, ⟨n, h0⟩, h1⟩
    refine ⟨n + 1, ?_⟩
    rw [h n]
    exact bind_ok.mpr ⟨r0, s1, h0, h1⟩

theorem panics_wrap {k : R → M R}
    (h : ∀ n, exec T cfg (n + 1) m c sc = (exec T cfg n b c' sc' >>= k)) :
    Panics T cfg m c sc s ↔ Panics T cfg b c' sc' s ∨
      ∃ r0 s1 e, Runs T cfg b c' sc' s r0 s1 ∧ k r0 s1 = .panic e := by
  constructor
  · rintro ⟨n, e, hn⟩
    cases n with
    | zero => cases hn
    | succ n =>
      rw [h n] at hn
      rcases bind_panic.mp hn with h0 | ⟨r0, s1, h0, h1⟩
      · exact Or.inl ⟨n, e, h0⟩
      · exact Or.inr ⟨r0, s1, e, ⟨n, h0⟩, h1⟩
  · rintro (⟨n, e, h0⟩ | ⟨r0, s1, e, ⟨n, h0⟩, h1⟩)
    · refine ⟨n + 1, e, ?_⟩
      rw [h n]
      exact bind_panic.mpr (Or.inl h0)
    · refine ⟨n + 1, e, ?_⟩
      rw [h n]
      exact bind_panic.mpr (Or.inr ⟨r0, s1, h0, h1⟩)

/-- A matcher without sub-matchers: one step suffices. -/
theorem runs_leaf {k : M R} (h : ∀ n, exec T cfg (n + 1) m c sc = k) :
    Runs T cfg m c sc s r s' ↔ k s = .ok r s' := by
  constructor
  · rintro ⟨n, hn⟩
    cases n with
    | zero => cases hn
    | succ n => rw [h n] at hn; exact hn
  · intro hk
    exact ⟨1, by rw [h 0]; exact hk⟩

theorem panics_leaf {k : M R} (h : ∀ n, exec T cfg (n + 1) m c sc = k) :
    Panics T cfg m c sc s ↔ ∃ e, k s = .panic e := by
  constructor
  · rintro ⟨n, e, hn⟩
    cases n with
    | zero => cases hn
    | succ n => rw [h n] at hn; exact ⟨e, hn⟩
  · rintro ⟨e, hk⟩
    exact ⟨1, e, by rw [h 0]; exact hk⟩

/-- One step of a matcher without a custom name. -/
theorem exec_plain (hc : (T m).hasCustomName = false) (n : Nat) :
    exec T cfg (n + 1) m c sc = execNode T cfg (exec T cfg n) (T m) c sc := by
  show (beforeExec (T m) m sc >>= fun _ => execNode T cfg (exec T cfg n) (T m) c sc) = _
  unfold beforeExec
  rw [hc]
  rfl

/-- One step of a matcher with a custom name: it first binds its own name. -/
theorem exec_custom (hc : (T m).hasCustomName = true) (n : Nat) :
    exec T cfg (n + 1) m c sc s = execNode T cfg (exec T cfg n) (T m) c sc
      (s.bindVar sc (T m).name (.matcher m)) := by
  show (beforeExec (T m) m sc >>= fun _ => execNode T cfg (exec T cfg n) (T m) c sc) s = _
  unfold beforeExec
  rw [hc]
  rfl

/-- One step of any matcher: it registers itself if it has a custom name, then
does its own work. -/
theorem exec_succ (n : Nat) :
    exec T cfg (n + 1) m c sc s = execNode T cfg (exec T cfg n) (T m) c sc (entered T m sc s) := by
  unfold entered
  cases hc : (T m).hasCustomName with
  | false => rw [exec_plain hc]; rfl
  | true => rw [exec_custom hc]; rfl

/-- A matcher that does not run other matchers. -/
theorem runs_own {k : M R} (h : ∀ f, execNode T cfg f (T m) c sc = k) :
    Runs T cfg m c sc s r s' ↔ k (entered T m sc s) = .ok r s' := by
  constructor
  · rintro ⟨n, hn⟩
    cases n with
    | zero => cases hn
    | succ n => rw [exec_succ, h] at hn; exact hn
  · intro hk
    exact ⟨1, by rw [exec_succ, h]; exact hk⟩

theorem panics_own {k : M R} (h : ∀ f, execNode T cfg f (T m) c sc = k) :
    Panics T cfg m c sc s ↔ ∃ e, k (entered T m sc s) = .panic e := by
  constructor
  · rintro ⟨n, e, hn⟩
    cases n with
    | zero => cases hn
    | succ n => rw [exec_succ, h] at hn; exact ⟨e, hn⟩
  · rintro ⟨e, hk⟩
    exact ⟨1, e, by rw [exec_succ, h]; exact hk⟩

/-- A matcher that runs one other matcher and then does something of its own. -/
theorem runs_body {k : R → M R}
    (h : ∀ f, execNode T cfg f (T m) c sc = (f b c' sc' >>= k)) :
    Runs T cfg m c sc s r s' ↔
      ∃ r0 s1, Runs T cfg b c' sc' (entered T m sc s) r0 s1 ∧ k r0 s1 = .ok r s' := by
  constructor
  · rintro ⟨n, hn⟩
    cases n with
    | zero => cases hn
    | succ n =>
      rw [exec_succ, h] at hn
      obtain ⟨r0, s1, h0, h1⟩ := bind_ok.mp hn
      exact ⟨r0, s1, ⟨n, h0⟩, h1⟩
  · rintro ⟨r0, s1, ⟨n, h0⟩, h1⟩
    refine ⟨n + 1, ?_⟩
    rw [exec_succ, h]
    exact bind_ok.mpr ⟨r0, s1, h0, h1⟩

theorem panics_body {k : R → M R}
    (h : ∀ f, execNode T cfg f (T m) c sc = (f b c' sc' >>= k)) :
    Panics T cfg m c sc s ↔ Panics T cfg b c' sc' (entered T m sc s) ∨
      ∃ r0 s1 e, Runs T cfg b c' sc' (entered T m sc s) r0 s1 ∧ k r0 s1 = .panic e := by
  constructor
  · rintro ⟨n, e, hn⟩
    cases n with
    | zero => cases hn
    | succ n =>
      rw [exec_succ, h] at hn
      rcases bind_panic.mp hn with h0 | ⟨r0, s1, h0, h1⟩
      · exact Or.inl ⟨n, e, h0⟩
      · exact Or.inr ⟨r0, s1, e, ⟨n, h0⟩, h1⟩
  · rintro (⟨n, e, h0⟩ | ⟨r0, s1, e, ⟨n, h0⟩, h1⟩)
    · refine ⟨n + 1, e, ?_⟩
      rw [exec_succ, h]
      exact bind_panic.mpr (Or.inl h0)
    · refine ⟨n + 1, e, ?_⟩
      rw [exec_succ, h]
      exact bind_panic.mpr (Or.inr ⟨r0, s1, h0, h1⟩)

@[simp] theorem entered_toks : (entered T m sc s).toks = s.toks := by
  unfold entered
  split <;> simp

theorem entered_plain (h : (T m).hasCustomName = false) : entered T m sc s = s := by
  unfold entered
  rw [h]
  rfl

theorem ofOpt_ok {α : Type} {e : String} {o : Option α} {a : α} :
    M.ofOpt e o s = .ok a s' ↔ o = some a ∧ s' = s := by
  unfold M.ofOpt
  cases o with
  | none => constructor <;> intro h <;> cases h <;> contradiction
  | some b => rw [pure_ok']; constructor <;> (rintro ⟨h1, h2⟩; exact ⟨by simp_all, h2⟩)

theorem getTok_ok {i : TokId} {k : Token} :
    getTok i s = .ok k s' ↔ s.toks[i]? = some k ∧ s' = s := by
  unfold getTok
  cases s.toks[i]? with
  | none => simp
  | some t => simp [eq_comm]

theorem newTok_ok {i : TokId} {k : Token} :
    newTok k s = .ok i s' ↔ i = s.toks.length ∧ s' = { s with toks := s.toks ++ [k] } := by
  unfold newTok
  constructor
  · intro h; cases h; exact ⟨rfl, rfl⟩
  · rintro ⟨rfl, rfl⟩; rfl

theorem modTok_ok {i : TokId} {f : Token → Token} {u : Unit} :
    modTok i f s = .ok u s' ↔
      ∃ k, s.toks[i]? = some k ∧ s' = { s with toks := s.toks.set i (f k) } := by
  unfold modTok
  rw [bind_ok]
  constructor
  · rintro ⟨k, s1, h, h'⟩
    obtain ⟨h1, rfl⟩ := getTok_ok.mp h
    cases h'
    exact ⟨k, h1, rfl⟩
  · rintro ⟨k, h, rfl⟩
    exact ⟨k, s, getTok_ok.mpr ⟨h, rfl⟩, rfl⟩

theorem dbg_ok {k : Nat} {u : Unit} (h : dbg c k s = .ok u s') : s' = s := by
  unfold dbg at h
  by_cases hd : c.debug > 0
  · rw [if_pos hd] at h
    cases hr : c.debugRange k with
    | some _ => rw [hr] at h; cases h; rfl
    | none => rw [hr] at h; cases h
  · rw [if_neg hd] at h
    cases h; rfl

theorem dbg_off {k : Nat} (h : c.debug = 0) : dbg c k s = .ok () s := by
  unfold dbg
  rw [h]
  rfl

/-- The computation returns normally. -/
def Rets {α : Type} (x : M α) (s : State) : Prop := ∃ a s', x s = .ok a s'

theorem Rets.bind {α β : Type} {x : M α} {f : α → M β} {s s1 : State} {a : α}
    (h : x s = .ok a s1) (h' : Rets (f a) s1) : Rets (x >>= f) s := by
  obtain ⟨b, s2, h2⟩ := h'
  exact ⟨b, s2, bind_ok.mpr ⟨a, s1, h, h2⟩⟩

theorem Rets.pure {α : Type} (a : α) (s : State) : Rets (Pure.pure a : M α) s := ⟨a, s, rfl⟩

theorem own_total {k : M R} (h : ∀ f, execNode T cfg f (T m) c sc = k)
    (hr : Rets k (entered T m sc s)) :
    (∃ r s', Runs T cfg m c sc s r s') ∧ ¬ Panics T cfg m c sc s := by
  obtain ⟨r, s', hr⟩ := hr
  refine ⟨⟨r, s', (runs_own h).mpr hr⟩, fun hp => ?_⟩
  obtain ⟨e, he⟩ := (panics_own h).mp hp
  rw [hr] at he
  cases he

theorem fetchValue_state {f : Fetchable} {v : Str ⊕ MatcherId} (h : fetchValue f sc s = .ok v s') :
    s' = s :=
  Post.of_ok (p := True) (Post.fetchValue (Q := fun _ s' => s' = s) (fun _ => rfl)) h

theorem parseOffset_state {a b k : Nat} {v : Str} (h : parseOffset cfg a b v s = .ok k s') : s' = s := by
  unfold parseOffset at h
  split at h
  · exact (pure_ok'.mp h).2
  · cases hb : bslice v 0 1 with
    | none => rw [hb] at h; cases h
    | some pre =>
      rw [hb] at h
      simp only at h
      generalize parseUsize _ = o at h
      cases o with
      | none => cases h
      | some n =>
        simp only at h
        repeat' split at h
        all_goals first | exact (pure_ok'.mp h).2 | cases h

theorem pinEnd_state {a b k : Nat} {v : List Str} (h : pinEnd cfg a b v s = .ok k s') : s' = s := by
  unfold pinEnd at h
  split at h
  · exact parseOffset_state h
  · exact (pure_ok'.mp h).2

/-- A concrete run, checked by evaluation. -/
theorem Runs.of_check {P : State → Prop} [DecidablePred P] (n : Nat)
    (h : (exec T cfg n m c sc s).holds (fun r' s' => decide (r' = r) && decide (P s')) = true) :
    ∃ s', Runs T cfg m c sc s r s' ∧ P s' := by
  obtain ⟨r', s', h1, h2⟩ := Res.of_holds h
  simp only [Bool.and_eq_true, decide_eq_true_eq] at h2
  obtain ⟨rfl, h2⟩ := h2
  exact ⟨s', ⟨n, h1⟩, h2⟩

end Adx
