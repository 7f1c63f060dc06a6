import Verif.Props.Program
import Verif.Props.Wrappers
import Verif.Spec.Unwind
/-
  C24, C25, C28: `Break`, `Continue` and `Pin` inside programs.
-/
namespace Adx

variable {T : Table} {cfg : Cfg} {m : MatcherId} {c : Ctx} {sc : SCtxId} {s s' : State} {r : R}
  {name : Str} {cu : Bool}

theorem Pass.append {B : Behav} {prog : TokId} {start : Nat} {first : Bool} {pre post : List MatcherId}
    {a a1 : Acc} {s1 : State} {o : Out} {q : Out}
    (h : Pass T cfg B prog start first pre a s q s1) (hq : q = .done a1)
    (h2 : Pass T cfg B prog start first post a1 s1 o s') :
    Pass T cfg B prog start first (pre ++ post) a s o s' := by
  induction h with
  | nil => cases hq; exact h2
  | takes h hn ht _ ih => exact .takes h hn ht (ih hq h2)
  | picks => cases hq
  | misses hf h _ ih => exact .misses hf h (ih hq h2)
  | fails => cases hq
  | raises => cases hq
  | acts => cases hq

theorem Rounds.loops {B : Behav} {prog : TokId} {start : Nat} {self : Str} {ps : List MatcherId}
    {iter : Option (Nat × Nat)} {j k n : Nat} {a a1 : Acc} {s1 : State}
    (h : Rounds T cfg B prog start self ps iter j a s a1 s1)
    (h2 : Loops T cfg B prog start self ps iter false k (n + j) a1 s1 r s') :
    Loops T cfg B prog start self ps iter false (k + j) n a s r s' := by
  induction h generalizing n with
  | zero => exact h2
  | @next j a s a1 s1 a' s' hp _ ih =>
    refine .next (k := k + j) hp (ih ?_)
    rwa [show n + 1 + j = n + (j + 1) by omega]
  | @cont j a s b d a1 s1 a2 s2 a' s' hp ht hm _ ih =>
    refine .continueHere (k := k + j) rfl hp ht hm (ih ?_)
    rwa [show n + 1 + j = n + (j + 1) by omega]

/-- C24: `Break` consumes nothing and has no effect but the break. -/
theorem C24_break {n : Str} (hm : T m = .brk n) :
    Runs T cfg m c sc s r s' ↔ r = .ok (.brk n .none) ∧ s' = s := by
  have hk : ∀ f, execNode T cfg f (T m) c sc = pure (.ok (.brk n .none)) := by
    intro f; rw [hm]; rfl
  rw [runs_own hk, entered_plain (by rw [hm]; rfl), pure_ok']

theorem partsOf_eq (c : Ctx) (prog : TokId) :
    partsOf T cfg c sc prog = fun p pos => Runs T cfg p (c.inside prog pos) sc := rfl

/-- C24: in a loop that the `Break` addresses, after `j` completed rounds and a part of
the next one, the break ends the loop: the payload is added, and the loop hands over
what has been collected.  The parts behind the break are not run (nothing is said of
them). -/
theorem C24_break_here {iter : Option (Nat × Nat)} {n : Str} {pre post : List MatcherId} {p : MatcherId}
    {j : Nat} {d : Success} {a0 a1 a2 : Acc} {s0 s1 s2 s3 : State}
    (hm : T m = .program (pre ++ p :: post) name cu iter false) (hd : c.debug = 0)
    (ha : Answers iter name n) (hj : j < maxPasses iter)
    (hr : Rounds T cfg (fun p pos => Runs T cfg p (c.inside s.toks.length pos) sc)
      s.toks.length c.offset.start name (pre ++ p :: post) iter j (.start c.offset.start)
      ((entered T m sc s).withProgram c.parser name) a0 s0)
    (hpre : Pass T cfg (fun p pos => Runs T cfg p (c.inside s.toks.length pos) sc)
      s.toks.length c.offset.start false pre a0 s0 (.done a1) s1)
    (h : Runs T cfg p (c.inside s.toks.length a1.pos) sc s1 (.ok (.brk n d)) s2)
    (ht : TakesPayload cfg s.toks.length c.offset.start d a1 s2 a2 s3)
    (hc : Completes s.toks.length a2 s3 r s') : Runs T cfg m c sc s r s' := by
  rw [program_iff hm hd]
  unfold ProgramRuns
  rw [entered_toks, partsOf_eq]
  obtain ⟨k, hk⟩ : ∃ k, maxPasses iter = (k + 1) + j := ⟨maxPasses iter - j - 1, by omega⟩
  rw [hk]
  refine hr.loops (.breakHere rfl (hpre.append rfl (.acts h .brk)) ht ha hc)

/-- C24: in a program, or a loop of another name, the `Break` goes through: the payload
is added to what has been collected, and the whole travels on with the break; if that
is nothing, the break is lost and the program fails. -/
theorem C24_break_through {iter : Option (Nat × Nat)} {n : Str} {pre post : List MatcherId} {p : MatcherId}
    {j : Nat} {d : Success} {a0 a1 a2 : Acc} {s0 s1 s2 s3 : State}
    (hm : T m = .program (pre ++ p :: post) name cu iter false) (hd : c.debug = 0)
    (ha : ¬ Answers iter name n) (hj : j < maxPasses iter)
    (hr : Rounds T cfg (fun p pos => Runs T cfg p (c.inside s.toks.length pos) sc)
      s.toks.length c.offset.start name (pre ++ p :: post) iter j (.start c.offset.start)
      ((entered T m sc s).withProgram c.parser name) a0 s0)
    (hpre : Pass T cfg (fun p pos => Runs T cfg p (c.inside s.toks.length pos) sc)
      s.toks.length c.offset.start false pre a0 s0 (.done a1) s1)
    (h : Runs T cfg p (c.inside s.toks.length a1.pos) sc s1 (.ok (.brk n d)) s2)
    (ht : TakesPayload cfg s.toks.length c.offset.start d a1 s2 a2 s3)
    (hc : Completes s.toks.length a2 s3 r s') :
    Runs T cfg m c sc s (match r with | .ok x => .ok (.brk n x) | .err e => .err e) s' := by
  rw [program_iff hm hd]
  unfold ProgramRuns
  rw [entered_toks, partsOf_eq]
  obtain ⟨k, hk⟩ : ∃ k, maxPasses iter = (k + 1) + j := ⟨maxPasses iter - j - 1, by omega⟩
  rw [hk]
  refine hr.loops ?_
  cases r with
  | ok x => exact .breakOut rfl (hpre.append rfl (.acts h .brk)) ht ha hc
  | err e => exact .breakNothing rfl (hpre.append rfl (.acts h .brk)) ht ha hc

theorem Missed.allFail {prog : TokId} {pos : Nat} {ps : List MatcherId}
    (h : Missed T cfg (c.inside prog pos) sc ps s s') :
    AllFail (partsOf T cfg c sc prog) pos ps s s' := by
  generalize hi : c.inside prog pos = c' at h
  induction h with
  | nil => exact .nil
  | cons h _ ih => subst hi; exact .cons h ih

/-- C24: a `Break` that travels out of any nesting of programs, switches, optionals and
loops of other names, arrives with what they collected. -/
theorem C24_unwinds {n : Str} {d : Success} (h : Unwinds T cfg n m c sc s d s') (hd : c.debug = 0) :
    Runs T cfg m c sc s (.ok (.brk n d)) s' := by
  induction h with
  | brk hm => exact (C24_break hm).mpr ⟨rfl, rfl⟩
  | optional hm _ ih => exact (C17_optional hm).mpr (Or.inr ⟨ih hd, by simp⟩)
  | @switch m c sc s d s' pre p post name cu s1 hm hpre _ ih =>
    refine (C15_switch hm hd).mpr (Or.inr (Or.inr (Or.inr (Or.inr
      ⟨n, d, .start c.offset.start, Or.inl ?_, rfl⟩))))
    exact AllFail.pass (a := .start c.offset.start) hpre.allFail (.acts (ih hd) .brk)
  | program hm hna hj hr hpre _ ht hc ih =>
    exact C24_break_through (r := .ok _) hm hd hna hj hr hpre (ih hd) ht hc

/-- C24: the addressed loop, at any distance from the `Break`, ends with what has been
collected on the way, and the break does not go further. -/
theorem C24_addressed_loop {iter : Option (Nat × Nat)} {n : Str} {pre post : List MatcherId}
    {p : MatcherId} {j : Nat} {d : Success} {a0 a1 a2 : Acc} {s0 s1 s2 s3 : State}
    (hm : T m = .program (pre ++ p :: post) name cu iter false) (hd : c.debug = 0)
    (ha : Answers iter name n) (hj : j < maxPasses iter)
    (hr : Rounds T cfg (fun p pos => Runs T cfg p (c.inside s.toks.length pos) sc)
      s.toks.length c.offset.start name (pre ++ p :: post) iter j (.start c.offset.start)
      ((entered T m sc s).withProgram c.parser name) a0 s0)
    (hpre : Pass T cfg (fun p pos => Runs T cfg p (c.inside s.toks.length pos) sc)
      s.toks.length c.offset.start false pre a0 s0 (.done a1) s1)
    (h : Unwinds T cfg n p (c.inside s.toks.length a1.pos) sc s1 d s2)
    (ht : TakesPayload cfg s.toks.length c.offset.start d a1 s2 a2 s3)
    (hc : Completes s.toks.length a2 s3 r s') :
    Runs T cfg m c sc s r s' ∧ ∀ b y, r ≠ .ok (.brk b y) := by
  refine ⟨C24_break_here hm hd ha hj hr hpre (C24_unwinds h hd) ht hc, ?_⟩
  cases hc <;> simp

/-- C24, falsified part: a `Break` out of a nested program that has not collected
anything becomes a plain failure.  Here `Break("X")` does not end the loop `X`: only the
inner loop `Y` ends, and the part `B` of `X` behind it is run. -/
theorem C24_empty_program_counterexample :
    let T : Table := fun
      | 0 => .program [1, 5] "X".toList false (some (0, 9)) false
      | 1 => .program [2, 3] "Y".toList false (some (0, 9)) false
      | 2 => .equals "A".toList false (.str ['a'])
      | 3 => .program [4] "P".toList false none false
      | 4 => .brk "X".toList
      | _ => .equals "B".toList false (.str ['b'])
    ∃ s', Runs T ⟨true⟩ 0 (Ctx.new ⟨"ab".toList, []⟩ 0 []) 0 ⟨[], [], [[]]⟩ (.ok (.token 0)) s' ∧
      (s'.toks[0]?.map (·.children)) = some [1, 4] ∧
      (s'.toks[4]?.map (·.name)) = some "B".toList :=
  Runs.of_check 9 (by decide +kernel)

/-- Non-vacuity of C24: `Break("X")` in a switch in a program in the unaddressed inner
loop ends the outer loop `X` in its first round; the token of the program in between
keeps its partial content, the part `z` behind is not run. -/
example :
    let T : Table := fun
      | 0 => .program [1, 8] "X".toList false (some (0, 9)) false
      | 1 => .program [2] "Y".toList false (some (0, 9)) false
      | 2 => .program [3, 4] "P".toList false none false
      | 3 => .equals "A".toList false (.str ['a'])
      | 4 => .program [5, 6] "S".toList false none true
      | 5 => .equals "B".toList false (.str ['b'])
      | 6 => .brk "X".toList
      | _ => .equals "Z".toList false (.str ['z'])
    (exec T ⟨true⟩ 9 0 (Ctx.new ⟨"abacz".toList, []⟩ 0 []) 0 ⟨[], [], [[]]⟩).holds
      (fun r s => r = .ok (.token 0) ∧
        ((s.toks[0]?.map (·.children)) = some [1] ∧ (s.toks[1]?.map (·.children)) = some [2, 6] ∧
         (s.toks[6]?.map (fun k => (k.children, k.matched))) = some ([7], ⟨2, 3⟩))) := by
  decide +kernel

/-! ### Continue -/

/-- C25: a `Continue` that reaches its loop directly completes the round: the payload is
added, what has been collected is kept, and the next round starts behind it. -/
theorem C25_continue {iter : Option (Nat × Nat)} {n self : Str} {pre post : List MatcherId}
    {p : MatcherId} {B : Behav} {prog : TokId} {start k j : Nat} {d : Success} {a a1 a2 : Acc} {s1 s2 s3 : State}
    (ha : Answers iter self n)
    (hpre : Pass T cfg B prog start false pre a s (.done a1) s1)
    (h : B p a1.pos s1 (.ok (.cont n d)) s2)
    (ht : TakesPayload cfg prog start d a1 s2 a2 s3)
    (hr : Loops T cfg B prog start self (pre ++ p :: post) iter false k (j + 1) a2 s3 r s') :
    Loops T cfg B prog start self (pre ++ p :: post) iter false (k + 1) j a s r s' :=
  .continueHere rfl (hpre.append rfl (.acts h .cont)) ht ha hr

/-- C25: the rounds of a loop after a `Continue` that reaches it directly, for the
engine: `j` rounds, one of them cut short by the `Continue`, then `j'` more rounds are
`j + 1 + j'` rounds. -/
theorem C25_continue_counts {iter : Option (Nat × Nat)} {n self : Str} {pre post : List MatcherId}
    {p : MatcherId} {B : Behav} {prog : TokId} {start j j' : Nat} {d : Success}
    {a a0 a1 a2 a3 : Acc} {s0 s1 s2 s3 s4 : State} (ha : Answers iter self n)
    (hr : Rounds T cfg B prog start self (pre ++ p :: post) iter j a s a0 s0)
    (hpre : Pass T cfg B prog start false pre a0 s0 (.done a1) s1)
    (h : B p a1.pos s1 (.ok (.cont n d)) s2)
    (ht : TakesPayload cfg prog start d a1 s2 a2 s3)
    (hr' : Rounds T cfg B prog start self (pre ++ p :: post) iter j' a2 s3 a3 s4) :
    Rounds T cfg B prog start self (pre ++ p :: post) iter (j + 1 + j') a s a3 s4 := by
  induction hr with
  | zero =>
    rw [show 0 + 1 + j' = j' + 1 by omega]
    exact .cont (hpre.append rfl (.acts h .cont)) ht ha hr'
  | @next j a s a1 s1 a' s' hp _ ih =>
    rw [show j + 1 + 1 + j' = j + 1 + j' + 1 by omega]
    exact .next hp (ih hpre)
  | @cont j a s b d a1 s1 a2 s2 a' s' hp ht hm _ ih =>
    rw [show j + 1 + 1 + j' = j + 1 + j' + 1 by omega]
    exact .cont hp ht hm (ih hpre)

/-- A matcher that returns `Continue` (no matcher of the crate does so by itself; a
`Map` callback can). -/
def continueNode (b : MatcherId) : Node :=
  .map b (fun t _ _ => pure (.ok (.cont [] (.token t)))) (fun e _ _ => pure (.err e))

/-- Non-vacuity of C25: the part behind the `Continue` is never run, the loop goes on. -/
example :
    let T : Table := fun
      | 0 => .program [1, 3] "L".toList false (some (0, 9)) false
      | 1 => continueNode 2
      | 2 => .equals "A".toList false (.str ['a'])
      | _ => .equals "Z".toList false (.str ['z'])
    (exec T ⟨true⟩ 9 0 (Ctx.new ⟨"aaz".toList, []⟩ 0 []) 0 ⟨[], [], [[]]⟩).holds
      (fun r s => r = .ok (.token 0) ∧ (s.toks[0]?.map (·.children)) = some [1, 2]) := by
  decide +kernel

/-- C25, falsified part: inside a `Switch` the `Continue` becomes a `Break`; the loop
ends after one round. -/
theorem C25_switch_counterexample :
    let T : Table := fun
      | 0 => .program [1] "L".toList false (some (0, 9)) false
      | 1 => .program [2] "S".toList false none true
      | 2 => continueNode 3
      | _ => .equals "A".toList false (.str ['a'])
    ∃ s', Runs T ⟨true⟩ 0 (Ctx.new ⟨"aa".toList, []⟩ 0 []) 0 ⟨[], [], [[]]⟩ (.ok (.token 0)) s' ∧
      (s'.toks[0]?.map (fun k => (k.children, k.matched))) = some ([2], ⟨0, 1⟩) := by
  exact Runs.of_check 5 (by decide +kernel)

/-- C25: for every `Switch`, a `Continue` of the alternative that is reached leaves it
as a `Break`. -/
theorem C25_switch {pre post : List MatcherId} {p : MatcherId} {n : Str} {d : Success} {s1 : State}
    (hm : T m = .program (pre ++ p :: post) name cu none true) (hd : c.debug = 0)
    (hpre : Missed T cfg (c.inside s.toks.length c.offset.start) sc pre
      ((entered T m sc s).withProgram c.parser name) s1)
    (h : Runs T cfg p (c.inside s.toks.length c.offset.start) sc s1 (.ok (.cont n d)) s') :
    Runs T cfg m c sc s (.ok (.brk n d)) s' :=
  (C15_switch hm hd).mpr (Or.inr (Or.inr (Or.inr (Or.inr ⟨n, d, .start c.offset.start,
    Or.inr (AllFail.pass (a := .start c.offset.start) hpre.allFail (.acts h .cont)), rfl⟩))))

/-- C25: for every nested `Program`, and loop of another name, a `Continue` ends it with
what it has collected and is itself dropped. -/
theorem C25_dropped {iter : Option (Nat × Nat)} {n : Str} {pre post : List MatcherId} {p : MatcherId}
    {j : Nat} {d : Success} {a0 a1 a2 : Acc} {s0 s1 s2 s3 : State}
    (hm : T m = .program (pre ++ p :: post) name cu iter false) (hd : c.debug = 0)
    (ha : ¬ Answers iter name n) (hj : j < maxPasses iter)
    (hr : Rounds T cfg (fun p pos => Runs T cfg p (c.inside s.toks.length pos) sc)
      s.toks.length c.offset.start name (pre ++ p :: post) iter j (.start c.offset.start)
      ((entered T m sc s).withProgram c.parser name) a0 s0)
    (hpre : Pass T cfg (fun p pos => Runs T cfg p (c.inside s.toks.length pos) sc)
      s.toks.length c.offset.start false pre a0 s0 (.done a1) s1)
    (h : Runs T cfg p (c.inside s.toks.length a1.pos) sc s1 (.ok (.cont n d)) s2)
    (ht : TakesPayload cfg s.toks.length c.offset.start d a1 s2 a2 s3)
    (hc : Completes s.toks.length a2 s3 r s') : Runs T cfg m c sc s r s' := by
  rw [program_iff hm hd]
  unfold ProgramRuns
  rw [entered_toks, partsOf_eq]
  obtain ⟨k, hk⟩ : ∃ k, maxPasses iter = (k + 1) + j := ⟨maxPasses iter - j - 1, by omega⟩
  rw [hk]
  exact hr.loops (.continueElse rfl (hpre.append rfl (.acts h .cont)) ht ha hc)

/-- C25, falsified part: a nested `Program` drops the `Continue`; the part `z` of the
loop, behind the nested program, is run in the same round. -/
theorem C25_program_counterexample :
    let T : Table := fun
      | 0 => .program [1, 4] "L".toList false (some (0, 9)) false
      | 1 => .program [2, 4] "P".toList false none false
      | 2 => continueNode 3
      | 3 => .equals "A".toList false (.str ['a'])
      | _ => .equals "Z".toList false (.str ['z'])
    ∃ s', Runs T ⟨true⟩ 0 (Ctx.new ⟨"aza".toList, []⟩ 0 []) 0 ⟨[], [], [[]]⟩ (.ok (.token 0)) s' ∧
      (s'.toks[0]?.map (·.children)) = some [1, 3, 4] := by
  exact Runs.of_check 5 (by decide +kernel)

/-! ### Pin -/

theorem Splices.still {prog : TokId} {ts : List TokId} {a a' : Acc}
    (h : Splices prog false ts a s a' s') :
    a'.pos = a.pos ∧ a'.caps = a.caps ∧ a'.mats = a.mats := by
  induction h with
  | nil => exact ⟨rfl, rfl, rfl⟩
  | pin _ _ _ ih => exact ih
  | kid _ _ _ ih => exact ih

theorem Takes.still {prog : TokId} {start : Nat} {x : Success} {a a' : Acc}
    (h : Takes cfg prog start false x a s a' s') :
    a'.pos = a.pos ∧ a'.caps = a.caps ∧ a'.mats = a.mats := by
  cases h with
  | token => exact ⟨rfl, rfl, rfl⟩
  | pin => exact ⟨rfl, rfl, rfl⟩
  | proxy _ _ h => exact h.still
  | skip hc => cases hc
  | idle => exact ⟨rfl, rfl, rfl⟩

/-- C28: when a `Pin` succeeds with anything but a control action, the parts behind it
are run at the same position as if it were not there, and the ranges that the program
covers are the same. -/
theorem C28_pin {p : MatcherId} {b : Option MatcherId} {off : Fetchable} {pn : Str} {pcu : Bool}
    {ps : List MatcherId} {B : Behav} {prog : TokId} {start : Nat} {a : Acc} {o : Out} {x : Success}
    {s1 : State} (hp : T p = .pin b off pn pcu)
    (hB : ∀ r s2, B p a.pos s r s2 → r = .ok x ∧ s2 = s1) (hx : ¬ Control x)
    (h : Pass T cfg B prog start false (p :: ps) a s o s') :
    ∃ a1 s2, a1.pos = a.pos ∧ span a1.caps = span a.caps ∧ span a1.mats = span a.mats ∧
      Pass T cfg B prog start false ps a1 s2 o s' := by
  cases h with
  | takes h _ ht hr =>
    rw [hp] at ht
    obtain ⟨h1, h2, h3⟩ := Takes.still ht
    exact ⟨_, _, h1, by rw [h2], by rw [h3], hr⟩
  | picks hf => cases hf
  | misses hf => cases hf
  | fails _ h => cases (hB _ _ h).1
  | raises h => cases (hB _ _ h).1
  | acts h hc =>
    cases (hB _ _ h).1
    exact (hx hc).elim

/-- C28: an empty `Pin` in a program leaves no trace but a token in the heap that is not
a child of anything. -/
theorem C28_empty_pin {p : MatcherId} {off : Fetchable} {pn : Str} {pcu : Bool} {prog : TokId}
    {start : Nat} {a : Acc} {o : Out} {ps : List MatcherId} {r0 : R} {s1 : State} {sct : SCtxId}
    (hp : T p = .pin none off pn pcu)
    (hB : Runs T cfg p (c.inside prog a.pos) sct s r0 s1) (hr : ∀ e, r0 ≠ .err e)
    (h : Pass T cfg (fun p pos => Runs T cfg p (c.inside prog pos) sct) prog start false (p :: ps) a s o s') :
    s1.toks.take s.toks.length = s.toks ∧ s1.toks.length = s.toks.length + 1 ∧
      Pass T cfg (fun p pos => Runs T cfg p (c.inside prog pos) sct) prog start false ps a s1 o s' := by
  have hk : ∀ f, execNode T cfg f (T p) (c.inside prog a.pos) sct =
      execPin cfg (fun _ _ _ => M.diverge) none off pn (c.inside prog a.pos) sct := by
    intro f; rw [hp]; rfl
  have hpin : r0 = .ok (.token s.toks.length) ∧
      ∃ k, s1.toks = s.toks ++ [k] ∧ k.kind = .pin := by
    rw [runs_own hk] at hB
    unfold execPin at hB
    obtain ⟨v, s2, h2, hB⟩ := bind_ok.mp hB
    have hs2 := fetchValue_state h2
    subst hs2
    cases v with
    | inr _ =>
      obtain ⟨rfl, rfl⟩ := pure_ok'.mp hB
      exact (hr _ rfl).elim
    | inl v =>
      obtain ⟨x, s3, h3, hB⟩ := bind_ok.mp hB
      have := parseOffset_state h3
      subst this
      obtain ⟨y, s4, h4, hB⟩ := bind_ok.mp hB
      have := pinEnd_state h4
      subst this
      obtain ⟨t, s5, h5, hB⟩ := bind_ok.mp hB
      obtain ⟨rfl, rfl⟩ := newTok_ok.mp h5
      obtain ⟨rfl, rfl⟩ := pure_ok'.mp hB
      rw [entered_toks]
      exact ⟨rfl, _, rfl, rfl⟩
  obtain ⟨rfl, k, hk1, hk2⟩ := hpin
  refine ⟨by simp [hk1], by simp [hk1], ?_⟩
  have hget : s1.toks[s.toks.length]? = some k := by simp [hk1]
  cases h with
  | takes h _ ht hr =>
    obtain ⟨h1, rfl⟩ := C06_unique h hB
    cases h1
    cases ht with
    | token hk' hp' =>
      rw [hget] at hk'
      cases hk'
      rw [hk2] at hp'
      cases hp'
    | pin => exact hr
  | picks hf => cases hf
  | misses hf => cases hf
  | fails _ h => cases (C06_unique h hB).1
  | raises h => cases (C06_unique h hB).1
  | acts h hc =>
    cases (C06_unique h hB).1
    cases hc

/-- Non-vacuity of C28: a `Pin` in the middle, with a body that matches elsewhere; the
program matches `0..2` as if it were not there, the pinned token becomes a child. -/
example :
    let T : Table := fun
      | 0 => .program [1, 2, 4] "P".toList false none false
      | 1 => .equals "A".toList false (.str ['a'])
      | 2 => .pin (some 3) (.str ['3']) "Pin".toList false
      | 3 => .equals "D".toList false (.str ['d'])
      | _ => .equals "B".toList false (.str ['b'])
    (exec T ⟨true⟩ 9 0 (Ctx.new ⟨"abcd".toList, []⟩ 0 []) 0 ⟨[], [], [[]]⟩).holds
      (fun r s => r = .ok (.token 0) ∧
        (s.toks[0]?.map (fun k => (k.children, k.matched))) = some ([1, 2, 3], ⟨0, 2⟩)) := by
  decide +kernel

end Adx
