import Verif.Proofs.Rel
import Verif.Spec.Runs
import Verif.Spec.Outcome
import Verif.Model.Build
/-
  C06: the outcome of a run does not depend on the available recursion depth.
-/
namespace Adx

theorem NodeRel.same (n : Node) : NodeRel id False n n := by
  have hid : ∀ c c' : Ctx, CR False c c' → c'.name = c.name → c' = c := by
    intro c c' h hn
    rcases h.debug with ⟨_, hd⟩ | ⟨h, _⟩
    · cases c; cases c'
      cases h.scope; cases h.stack; cases h.offset; cases h.parser; cases hn; cases hd
      rfl
    · exact h.elim
  have hrefl : ∀ (m : M R), RelM id False Eq m m := by
    intro m s
    simp only [State.ren_id]
    cases m s with
    | ok a s1 => exact ⟨a, rfl, rfl⟩
    | panic e => exact Or.inr rfl
    | diverge => trivial
  cases n with
  | equals => simp [NodeRel, Fetchable.ren_id]
  | sequence => simp [NodeRel, Fetchable.ren_id]
  | ref => simp [NodeRel, Fetchable.ren_id]
  | pin => simp [NodeRel, Fetchable.ren_id]
  | catch_ m f =>
    refine ⟨f, rfl, fun c c' e h hn => ?_⟩
    rw [hid c c' h hn]
    exact hrefl _
  | map m sf ff =>
    refine ⟨sf, ff, rfl, fun t c c' sc h hn => ?_, fun e c c' sc h hn => ?_⟩
    · rw [hid c c' h hn]
      exact hrefl _
    · rw [hid c c' h hn]
      exact hrefl _
  | debug m k => exact ⟨k, by simp, Or.inl ⟨not_false, rfl⟩⟩
  | _ => simp [NodeRel]

theorem TableRel.same (T : Table) : TableRel id False T T :=
  ⟨fun m => Or.inr (NodeRel.same (T m)), fun _ => ⟨fun _ _ _ _ _ _ _ _ => rfl, fun _ _ _ _ => rfl⟩⟩

/-- C06: if a run finishes (with a result or a panic) within depth `n`, then with
any larger depth it has exactly the same outcome. -/
theorem C06_depth_independent {T : Table} {cfg : Cfg} {n n' : Nat} (hn : n ≤ n') {m : MatcherId}
    {c : Ctx} {sc : SCtxId} {s : State} (h : exec T cfg n m c sc s ≠ .diverge) :
    exec T cfg n' m c sc s = exec T cfg n m c sc s := by
  have hr := exec_rel (cfg := cfg) (TableRel.same T) hn m c c sc (CR.refl not_false c) s
  simp only [State.ren_id] at hr
  cases he : exec T cfg n m c sc s with
  | ok a s1 =>
    rw [he] at hr
    obtain ⟨b, hb, rfl⟩ := hr
    exact hb
  | panic e =>
    rw [he] at hr
    rcases hr with hf | hb
    · exact hf.elim
    · exact hb
  | diverge => exact (h he).elim

/-- C06: a terminating run has a unique result and a unique final heap. -/
theorem C06_unique {T : Table} {cfg : Cfg} {m : MatcherId} {c : Ctx} {sc : SCtxId}
    {s s1 s2 : State} {r1 r2 : R} (h1 : Runs T cfg m c sc s r1 s1) (h2 : Runs T cfg m c sc s r2 s2) :
    r1 = r2 ∧ s1 = s2 := by
  obtain ⟨n1, h1⟩ := h1
  obtain ⟨n2, h2⟩ := h2
  have e1 := C06_depth_independent (Nat.le_max_left n1 n2) (T := T) (cfg := cfg) (m := m) (c := c) (sc := sc)
    (s := s) (by simp [h1])
  have e2 := C06_depth_independent (Nat.le_max_right n1 n2) (T := T) (cfg := cfg) (m := m) (c := c) (sc := sc)
    (s := s) (by simp [h2])
  rw [e2, h1, h2] at e1
  cases e1
  exact ⟨rfl, rfl⟩

/-- C06: a run cannot both return and panic. -/
theorem C06_no_panic_if_runs {T : Table} {cfg : Cfg} {m : MatcherId} {c : Ctx} {sc : SCtxId}
    {s s1 : State} {r : R} (h1 : Runs T cfg m c sc s r s1) : ¬ Panics T cfg m c sc s := by
  rintro ⟨n2, e, h2⟩
  obtain ⟨n1, h1⟩ := h1
  have e1 := C06_depth_independent (Nat.le_max_left n1 n2) (T := T) (cfg := cfg) (m := m) (c := c) (sc := sc)
    (s := s) (by simp [h1])
  have e2 := C06_depth_independent (Nat.le_max_right n1 n2) (T := T) (cfg := cfg) (m := m) (c := c) (sc := sc)
    (s := s) (by simp [h2])
  rw [e2, h1, h2] at e1
  cases e1

/-- C06 for `tokenize`. -/
theorem C06_tokenize_depth_independent {T : Table} {cfg : Cfg} {n n' : Nat} (hn : n ≤ n')
    {m : MatcherId} {c : Ctx} {s : State} (h : tokenize T cfg n c m s ≠ .diverge) :
    tokenize T cfg n' c m s = tokenize T cfg n c m s := by
  have he : exec T cfg n m c c.scope s ≠ .diverge := by
    intro he
    apply h
    unfold tokenize
    rw [bind_eq]
    unfold M.bind
    rw [he]
  unfold tokenize
  rw [bind_eq, bind_eq]
  unfold M.bind
  rw [C06_depth_independent hn he]

/-- Non-vacuity of C06: a recursive grammar `P = "(" P? ")"` that finishes within
depth 9 on `(())`, but not within depth 4. -/
example :
    let T : Table := fun
      | 0 => .program [1, 2, 3] "P".toList false none false
      | 1 => .equals "Open".toList false (.str ['('])
      | 2 => .optional 0
      | _ => .equals "Close".toList false (.str [')'])
    let c := Ctx.new ⟨"(())".toList, []⟩ 0 []
    (exec T ⟨true⟩ 9 0 c 0 ⟨[], [], [[]]⟩).holds (fun r _ => r = .ok (.token 0)) ∧
    (exec T ⟨true⟩ 4 0 c 0 ⟨[], [], [[]]⟩).holds (fun _ _ => true) = false := by
  decide +kernel

end Adx
