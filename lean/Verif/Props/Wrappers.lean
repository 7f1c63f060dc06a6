import Verif.Proofs.Step
/-
  C17, C18: `Optional` and `Not`, for arbitrary bodies.
-/
namespace Adx

variable {T : Table} {cfg : Cfg} {m b : MatcherId} {c : Ctx} {sc : SCtxId} {s s' : State} {r : R}

/-- C17: `Optional(b)` does what `b` does at the same position, with the same
effects, except that a plain failure becomes a success consuming nothing. -/
theorem C17_optional (hm : T m = .optional b) :
    Runs T cfg m c sc s r s' ↔
      (Runs T cfg b c sc s (.err .fail) s' ∧ r = .ok (.skip 0)) ∨
      (Runs T cfg b c sc s r s' ∧ r ≠ .err .fail) := by
  have hstep : ∀ n, exec T cfg (n + 1) m c sc =
      (exec T cfg n b (c.withName "Optional".toList) sc >>= fun r => match r with
        | .err .fail => pure (.ok (.skip 0))
        | r => pure r) := by
    intro n
    rw [exec_plain (by rw [hm]; rfl), hm]
    rfl
  rw [runs_wrap hstep]
  simp only [runs_name]
  constructor
  · rintro ⟨r0, s1, h0, h1⟩
    split at h1
    · obtain ⟨rfl, rfl⟩ := pure_ok.mp h1
      exact Or.inl ⟨h0, rfl⟩
    · rename_i hne
      obtain ⟨rfl, rfl⟩ := pure_ok.mp h1
      exact Or.inr ⟨h0, hne⟩
  · rintro (⟨h0, rfl⟩ | ⟨h0, hne⟩)
    · exact ⟨_, _, h0, rfl⟩
    · refine ⟨_, _, h0, ?_⟩
      split
      · exact (hne rfl).elim
      · rfl

/-- C17: `Optional` never returns a plain failure. -/
theorem C17_optional_never_fails (hm : T m = .optional b) :
    ¬ Runs T cfg m c sc s (.err .fail) s' := by
  rw [C17_optional hm]
  rintro (⟨_, h⟩ | ⟨_, h⟩)
  · cases h
  · exact h rfl

/-- C17: `Optional(b)` panics exactly when `b` does. -/
theorem C17_optional_panics (hm : T m = .optional b) :
    Panics T cfg m c sc s ↔ Panics T cfg b c sc s := by
  have hstep : ∀ n, exec T cfg (n + 1) m c sc =
      (exec T cfg n b (c.withName "Optional".toList) sc >>= fun r => match r with
        | .err .fail => pure (.ok (.skip 0))
        | r => pure r) := by
    intro n
    rw [exec_plain (by rw [hm]; rfl), hm]
    rfl
  rw [panics_wrap hstep]
  simp only [panics_name]
  constructor
  · rintro (h | ⟨r0, s1, e, h0, h1⟩)
    · exact h
    · split at h1 <;> cases h1
  · exact Or.inl

/-- Non-vacuity of C17: both alternatives occur. -/
example :
    let T : Table := fun
      | 0 => .optional 1
      | _ => .equals "A".toList false (.str ['a'])
    let run (src : String) := exec T ⟨true⟩ 5 0 (Ctx.new ⟨src.toList, []⟩ 0 []) 0 ⟨[], [], [[]]⟩
    (run "ab").holds (fun r _ => r = .ok (.token 0)) ∧
    (run "ba").holds (fun r s => r = .ok (.skip 0) ∧ s.toks = []) := by
  decide +kernel

/-- What it means for a body to have matched something: a token, spliced children,
or a non-zero skip. -/
def MatchedSomething : R → Prop
  | .ok (.token _) => True
  | .ok (.proxyChildren _) => True
  | .ok (.skip k) => k ≠ 0
  | _ => False

/-- What it means for a body to have matched nothing: a plain failure or a zero skip. -/
def MatchedNothing (r : R) : Prop := r = .err .fail ∨ r = .ok (.skip 0)

/-- C18: `Not(b)` fails exactly when `b` matches something at the same position,
succeeds consuming nothing exactly when `b` matches nothing, and passes on errors
and control results; the effects are those of `b`. -/
theorem C18_not (hm : T m = .not b) :
    Runs T cfg m c sc s r s' ↔ ∃ r0, Runs T cfg b c sc s r0 s' ∧
      ((MatchedSomething r0 ∧ r = .err .fail) ∨ (MatchedNothing r0 ∧ r = .ok (.skip 0)) ∨
       (¬ MatchedSomething r0 ∧ ¬ MatchedNothing r0 ∧ r = r0)) := by
  have hstep : ∀ n, exec T cfg (n + 1) m c sc =
      (exec T cfg n b (c.withName "Not".toList) sc >>= fun r => match r with
        | .ok (.token _) => pure (.err .fail)
        | .ok (.proxyChildren _) => pure (.err .fail)
        | .ok (.skip k) => if k ≠ 0 then pure (.err .fail) else pure (.ok (.skip k))
        | .err .fail => pure (.ok (.skip 0))
        | r => pure r) := by
    intro n
    rw [exec_plain (by rw [hm]; rfl), hm]
    rfl
  rw [runs_wrap hstep]
  simp only [runs_name]
  have key : ∀ r0 s1, ((match r0 with
        | .ok (.token _) => pure (.err .fail)
        | .ok (.proxyChildren _) => pure (.err .fail)
        | .ok (.skip k) => if k ≠ 0 then pure (.err .fail) else pure (.ok (.skip k))
        | .err .fail => pure (.ok (.skip 0))
        | r => pure r : M R) s1 = .ok r s') ↔ s' = s1 ∧
      ((MatchedSomething r0 ∧ r = .err .fail) ∨ (MatchedNothing r0 ∧ r = .ok (.skip 0)) ∨
       (¬ MatchedSomething r0 ∧ ¬ MatchedNothing r0 ∧ r = r0)) := by
    intro r0 s1
    rcases r0 with x | e
    · cases x with
      | skip k =>
        by_cases hk : k = 0
        · subst hk
          simp [pure_ok', MatchedSomething, MatchedNothing, and_comm]
        · simp [pure_ok', MatchedSomething, MatchedNothing, hk, and_comm]
      | _ => simp [pure_ok', MatchedSomething, MatchedNothing, and_comm]
    · cases e <;> simp [pure_ok', MatchedSomething, MatchedNothing, and_comm]
  constructor
  · rintro ⟨r0, s1, h0, h1⟩
    obtain ⟨rfl, h2⟩ := (key r0 s1).mp h1
    exact ⟨r0, h0, h2⟩
  · rintro ⟨r0, h0, h1⟩
    exact ⟨r0, s', h0, (key r0 s').mpr ⟨rfl, h1⟩⟩

/-- C18: `Not` never returns a token, nor moves the position. -/
theorem C18_not_consumes_nothing (hm : T m = .not b) (h : Runs T cfg m c sc s r s') :
    (∀ t, r ≠ .ok (.token t)) ∧ (∀ t, r ≠ .ok (.proxyChildren t)) ∧
    (∀ k, r = .ok (.skip k) → k = 0) := by
  obtain ⟨r0, _, hr⟩ := (C18_not hm).mp h
  rcases hr with ⟨_, rfl⟩ | ⟨_, rfl⟩ | ⟨h1, h2, rfl⟩
  · exact ⟨fun t ht => (by cases ht), fun t ht => (by cases ht), fun k hk => (by cases hk)⟩
  · exact ⟨fun t ht => (by cases ht), fun t ht => (by cases ht), fun k hk => (by cases hk; rfl)⟩
  · refine ⟨fun t ht => ?_, fun t ht => ?_, fun k hk => ?_⟩
    · subst ht; exact h1 trivial
    · subst ht; exact h1 trivial
    · subst hk
      by_cases hk : k = 0
      · exact hk
      · exact (h1 hk).elim

/-- Non-vacuity of C18: both outcomes occur. -/
example :
    let T : Table := fun
      | 0 => .not 1
      | _ => .equals "A".toList false (.str ['a'])
    let run (src : String) := exec T ⟨true⟩ 5 0 (Ctx.new ⟨src.toList, []⟩ 0 []) 0 ⟨[], [], [[]]⟩
    (run "ab").holds (fun r _ => r = .err .fail) ∧
    (run "ba").holds (fun r _ => r = .ok (.skip 0)) := by
  decide +kernel

end Adx
