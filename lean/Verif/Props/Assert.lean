import Verif.Spec.Assert
import Verif.Spec.Outcome
import Verif.Props.Proxy
import Verif.Props.Lines
import Verif.Props.Program
/-
  C42: the assertion macros, `Panic` and `Error`.
  C43: the ranges of the loop macros.
-/
namespace Adx

variable {T : Table} {cfg : Cfg} {m b : MatcherId} {c : Ctx} {sc : SCtxId} {s s' : State} {r : R} {msg : Str}

/-- The body yields token `t` and heap `s1`. -/
def Finds (T : Table) (cfg : Cfg) (b : MatcherId) (c : Ctx) (sc : SCtxId) (s : State) (t : TokId) (k : Token)
    (s1 : State) : Prop :=
  (Runs T cfg b c sc s (.ok (.token t)) s1 ∨ Runs T cfg b c sc s (.ok (.proxyChildren t)) s1) ∧ s1.toks[t]? = some k

theorem errorString_name {x : Str} {q : Range} : (c.withName x).errorString msg q = c.errorString msg q := rfl

theorem newErr_ok {q : Range} {t : TokId} : newErrorTokenWithRange c msg q s = .ok t s' ↔
    ∃ w k, c.errorString msg q = some w ∧ Complains c.parser q w k ∧ t = s.toks.length ∧
      s' = { s with toks := s.toks ++ [k] } := by
  unfold newErrorTokenWithRange
  rw [bind_ok]
  constructor
  · rintro ⟨w, s1, h1, h2⟩
    obtain ⟨h11, rfl⟩ := ofOpt_ok.mp h1
    refine ⟨w, ((Token.mk' c.parser "Error".toList q).setAttribute "__message".toList w).enableFlags IS_ERROR, h11,
      ?_, ?_, ?_⟩
    rotate_left
    · cases h2; rfl
    · cases h2; rfl
    · exact ⟨rfl, rfl, rfl, rfl, rfl, rfl, rfl, rfl, (by decide : (0 : Flags) ||| IS_ERROR = 0x02#8), rfl, rfl, rfl⟩
  · rintro ⟨w, k, h1, h2, rfl, rfl⟩
    refine ⟨w, s, ofOpt_ok.mpr ⟨h1, rfl⟩, ?_⟩
    have : k = ((Token.mk' c.parser "Error".toList q).setAttribute "__message".toList w).enableFlags IS_ERROR := by
      obtain ⟨a1, a2, a3, a4, a5, a6, a7, a8, a9, a10, a11, a12⟩ := h2
      cases k
      simp only at a1 a2 a3 a4 a5 a6 a7 a8 a9 a10 a11 a12
      subst a1 a2 a3 a4 a5 a6 a7 a8 a9 a10 a11 a12
      rw [show (0x02#8 : Flags) = 0 ||| IS_ERROR by decide]
      rfl
    rw [this]
    rfl

/-- **C42.**  `FatalIf!(b, msg)` raises an error about the text that `b` matched; it is an
empty success where `b` fails; errors pass. -/
theorem C42_fatal_if (hm : T m = .map b (fatalIfOk msg) failureIsFine) :
    Runs T cfg m c sc s r s' ↔
      (∃ t k w, Finds T cfg b c sc s t k s' ∧ c.errorString msg k.matched = some w ∧
        r = .err (.error ⟨w, some k.matched⟩)) ∨
      (Runs T cfg b c sc s (.err .fail) s' ∧ r = .ok (.skip 0)) ∨
      (∃ e, Runs T cfg b c sc s (.err (.error e)) s' ∧ r = .err (.error e)) ∨
      (Runs T cfg b c sc s r s' ∧ Tokenless r) := by
  rw [C41_map hm]
  have h1 : ∀ t s1, fatalIfOk msg t (c.withName "Map".toList) sc s1 = .ok r s' ↔
      ∃ k w, s1.toks[t]? = some k ∧ c.errorString msg k.matched = some w ∧
        r = .err (.error ⟨w, some k.matched⟩) ∧ s' = s1 := by
    intro t s1
    unfold fatalIfOk
    rw [bind_ok]
    constructor
    · rintro ⟨k, s2, h1, h2⟩
      obtain ⟨h11, rfl⟩ := getTok_ok.mp h1
      replace h2 := bind_ok.mp h2
      obtain ⟨w, s3, h3, h4⟩ := h2
      obtain ⟨h31, rfl⟩ := ofOpt_ok.mp h3
      obtain ⟨h41, rfl⟩ := pure_ok'.mp h4
      exact ⟨k, w, h11, h31, h41, rfl⟩
    · rintro ⟨k, w, h1, h2, rfl, rfl⟩
      exact ⟨k, s', getTok_ok.mpr ⟨h1, rfl⟩, bind_ok.mpr ⟨w, s', ofOpt_ok.mpr ⟨h2, rfl⟩, rfl⟩⟩
  constructor
  · rintro (⟨t, s1, h, hf⟩ | ⟨e, s1, h, hf⟩ | h)
    · obtain ⟨k, w, e1, e2, e3, rfl⟩ := (h1 t s1).mp hf
      exact Or.inl ⟨t, k, w, ⟨h, e1⟩, e2, e3⟩
    · cases e with
      | fail =>
        obtain ⟨rfl, rfl⟩ := pure_ok'.mp hf
        exact Or.inr (Or.inl ⟨h, rfl⟩)
      | error e =>
        obtain ⟨rfl, rfl⟩ := pure_ok'.mp hf
        exact Or.inr (Or.inr (Or.inl ⟨e, h, rfl⟩))
    · exact Or.inr (Or.inr (Or.inr h))
  · rintro (⟨t, k, w, ⟨h, e1⟩, e2, e3⟩ | ⟨h, rfl⟩ | ⟨e, h, rfl⟩ | h)
    · exact Or.inl ⟨t, s', h, (h1 t s').mpr ⟨k, w, e1, e2, e3, rfl⟩⟩
    · exact Or.inr (Or.inl ⟨_, s', h, rfl⟩)
    · exact Or.inr (Or.inl ⟨_, s', h, rfl⟩)
    · exact Or.inr (Or.inr h)

/-- **C42.**  `FatalIfNot!(b, msg)` raises an error about the rest of the window where `b`
fails; where `b` matches it succeeds *without consuming anything*; errors pass. -/
theorem C42_fatal_if_not (hm : T m = .map b successIsFine (fatalIfNotErr msg)) :
    Runs T cfg m c sc s r s' ↔
      (∃ t, (Runs T cfg b c sc s (.ok (.token t)) s' ∨ Runs T cfg b c sc s (.ok (.proxyChildren t)) s') ∧
        r = .ok (.skip 0)) ∨
      (∃ w, Runs T cfg b c sc s (.err .fail) s' ∧ c.errorString msg c.offset = some w ∧
        r = .err (.error ⟨w, some c.offset⟩)) ∨
      (∃ e, Runs T cfg b c sc s (.err (.error e)) s' ∧ r = .err (.error e)) ∨
      (Runs T cfg b c sc s r s' ∧ Tokenless r) := by
  rw [C41_map hm]
  constructor
  · rintro (⟨t, s1, h, hf⟩ | ⟨e, s1, h, hf⟩ | h)
    · obtain ⟨rfl, rfl⟩ := pure_ok'.mp hf
      exact Or.inl ⟨t, h, rfl⟩
    · cases e with
      | fail =>
        replace hf := bind_ok.mp hf
        obtain ⟨w, s3, h3, h4⟩ := hf
        obtain ⟨h31, rfl⟩ := ofOpt_ok.mp h3
        obtain ⟨h41, rfl⟩ := pure_ok'.mp h4
        exact Or.inr (Or.inl ⟨w, h, h31, h41⟩)
      | error e =>
        obtain ⟨rfl, rfl⟩ := pure_ok'.mp hf
        exact Or.inr (Or.inr (Or.inl ⟨e, h, rfl⟩))
    · exact Or.inr (Or.inr (Or.inr h))
  · rintro (⟨t, h, rfl⟩ | ⟨w, h, h2, rfl⟩ | ⟨e, h, rfl⟩ | h)
    · exact Or.inl ⟨t, s', h, rfl⟩
    · exact Or.inr (Or.inl ⟨_, s', h, bind_ok.mpr ⟨w, s', ofOpt_ok.mpr ⟨h2, rfl⟩, rfl⟩⟩)
    · exact Or.inr (Or.inl ⟨_, s', h, rfl⟩)
    · exact Or.inr (Or.inr h)

/-- **C42.**  `AssertIf!(b, msg)` returns an error token for the text that `b` matched; it
is an empty success where `b` fails; errors pass. -/
theorem C42_assert_if (hm : T m = .map b (assertIfOk msg) failureIsFine) :
    Runs T cfg m c sc s r s' ↔
      (∃ t k w s1 e, Finds T cfg b c sc s t k s1 ∧ c.errorString msg k.matched = some w ∧
        Complains c.parser k.matched w e ∧ s' = { s1 with toks := s1.toks ++ [e] } ∧
        r = .ok (.token s1.toks.length)) ∨
      (Runs T cfg b c sc s (.err .fail) s' ∧ r = .ok (.skip 0)) ∨
      (∃ e, Runs T cfg b c sc s (.err (.error e)) s' ∧ r = .err (.error e)) ∨
      (Runs T cfg b c sc s r s' ∧ Tokenless r) := by
  rw [C41_map hm]
  have h1 : ∀ t s1, assertIfOk msg t (c.withName "Map".toList) sc s1 = .ok r s' ↔
      ∃ k w e, s1.toks[t]? = some k ∧ c.errorString msg k.matched = some w ∧
        Complains c.parser k.matched w e ∧ s' = { s1 with toks := s1.toks ++ [e] } ∧
        r = .ok (.token s1.toks.length) := by
    intro t s1
    unfold assertIfOk
    rw [bind_ok]
    constructor
    · rintro ⟨k, s2, h1, h2⟩
      obtain ⟨h11, rfl⟩ := getTok_ok.mp h1
      replace h2 := bind_ok.mp h2
      obtain ⟨u, s3, h3, h4⟩ := h2
      obtain ⟨w, e, h5, h6, rfl, rfl⟩ := newErr_ok.mp h3
      obtain ⟨h41, rfl⟩ := pure_ok'.mp h4
      exact ⟨k, w, e, h11, h5, h6, rfl, h41⟩
    · rintro ⟨k, w, e, h1, h2, h3, rfl, rfl⟩
      exact ⟨k, s1, getTok_ok.mpr ⟨h1, rfl⟩, bind_ok.mpr ⟨s1.toks.length, _, newErr_ok.mpr ⟨w, e, h2, h3, rfl, rfl⟩, rfl⟩⟩
  constructor
  · rintro (⟨t, s1, h, hf⟩ | ⟨e, s1, h, hf⟩ | h)
    · obtain ⟨k, w, e, e1, e2, e3, e4, e5⟩ := (h1 t s1).mp hf
      exact Or.inl ⟨t, k, w, s1, e, ⟨h, e1⟩, e2, e3, e4, e5⟩
    · cases e with
      | fail =>
        obtain ⟨rfl, rfl⟩ := pure_ok'.mp hf
        exact Or.inr (Or.inl ⟨h, rfl⟩)
      | error e =>
        obtain ⟨rfl, rfl⟩ := pure_ok'.mp hf
        exact Or.inr (Or.inr (Or.inl ⟨e, h, rfl⟩))
    · exact Or.inr (Or.inr (Or.inr h))
  · rintro (⟨t, k, w, s1, e, ⟨h, e1⟩, e2, e3, e4, e5⟩ | ⟨h, rfl⟩ | ⟨e, h, rfl⟩ | h)
    · exact Or.inl ⟨t, s1, h, (h1 t s1).mpr ⟨k, w, e, e1, e2, e3, e4, e5⟩⟩
    · exact Or.inr (Or.inl ⟨_, s', h, rfl⟩)
    · exact Or.inr (Or.inl ⟨_, s', h, rfl⟩)
    · exact Or.inr (Or.inr h)

/-- **C42.**  `AssertIfNot!(b, msg)` returns an empty error token at the current position
where `b` fails; where `b` matches it succeeds *without consuming anything*; errors
pass. -/
theorem C42_assert_if_not (hm : T m = .map b successIsFine (assertIfNotErr msg)) :
    Runs T cfg m c sc s r s' ↔
      (∃ t, (Runs T cfg b c sc s (.ok (.token t)) s' ∨ Runs T cfg b c sc s (.ok (.proxyChildren t)) s') ∧
        r = .ok (.skip 0)) ∨
      (∃ w s1 e, Runs T cfg b c sc s (.err .fail) s1 ∧
        c.errorString msg ⟨c.offset.start, c.offset.start⟩ = some w ∧
        Complains c.parser ⟨c.offset.start, c.offset.start⟩ w e ∧ s' = { s1 with toks := s1.toks ++ [e] } ∧
        r = .ok (.token s1.toks.length)) ∨
      (∃ e, Runs T cfg b c sc s (.err (.error e)) s' ∧ r = .err (.error e)) ∨
      (Runs T cfg b c sc s r s' ∧ Tokenless r) := by
  rw [C41_map hm]
  constructor
  · rintro (⟨t, s1, h, hf⟩ | ⟨e, s1, h, hf⟩ | h)
    · obtain ⟨rfl, rfl⟩ := pure_ok'.mp hf
      exact Or.inl ⟨t, h, rfl⟩
    · cases e with
      | fail =>
        replace hf := bind_ok.mp hf
        obtain ⟨u, s3, h3, h4⟩ := hf
        obtain ⟨w, e, h5, h6, rfl, rfl⟩ := newErr_ok.mp h3
        obtain ⟨h41, rfl⟩ := pure_ok'.mp h4
        exact Or.inr (Or.inl ⟨w, s1, e, h, h5, h6, rfl, h41⟩)
      | error e =>
        obtain ⟨rfl, rfl⟩ := pure_ok'.mp hf
        exact Or.inr (Or.inr (Or.inl ⟨e, h, rfl⟩))
    · exact Or.inr (Or.inr (Or.inr h))
  · rintro (⟨t, h, rfl⟩ | ⟨w, s1, e, h, h2, h3, rfl, rfl⟩ | ⟨e, h, rfl⟩ | h)
    · exact Or.inl ⟨t, s', h, rfl⟩
    · exact Or.inr (Or.inl ⟨_, s1, h, bind_ok.mpr ⟨_, _, newErr_ok.mpr ⟨w, e, h2, h3, rfl, rfl⟩, rfl⟩⟩)
    · exact Or.inr (Or.inl ⟨_, s', h, rfl⟩)
    · exact Or.inr (Or.inr h)

/-- **C42.**  `Error!(msg)` returns an empty error token at the current position. -/
theorem C42_error (hm : T m = .error msg) :
    Runs T cfg m c sc s r s' ↔
      ∃ w e, c.errorString msg ⟨c.offset.start, c.offset.start⟩ = some w ∧
        Complains c.parser ⟨c.offset.start, c.offset.start⟩ w e ∧ s' = { s with toks := s.toks ++ [e] } ∧
        r = .ok (.token s.toks.length) := by
  rw [runs_own (k := execError msg c) (by intro f; rw [hm]; rfl)]
  have : entered T m sc s = s := by unfold entered; rw [hm]; rfl
  rw [this]
  unfold execError
  rw [bind_ok]
  constructor
  · rintro ⟨t, s1, h1, h2⟩
    obtain ⟨w, e, h5, h6, rfl, rfl⟩ := newErr_ok.mp h1
    obtain ⟨h4, rfl⟩ := pure_ok'.mp h2
    exact ⟨w, e, h5, h6, rfl, h4⟩
  · rintro ⟨w, e, h2, h3, rfl, rfl⟩
    exact ⟨_, _, newErr_ok.mpr ⟨w, e, h2, h3, rfl, rfl⟩, rfl⟩

/-- **C42.**  `Panic!(msg)` raises an error; its range runs from the start of the token
on top of the stack, if there is one, to the current position.  (Inside a program that
token is still empty, so the range then starts at 0: `C42_panic_range_counterexample`.) -/
theorem C42_panic (hm : T m = .panic msg) :
    Runs T cfg m c sc s r s' ↔
      ∃ a w, (c.stack = [] ∧ a = c.offset.start ∨
          ∃ t ts k, c.stack = t :: ts ∧ s.toks[t]? = some k ∧ a = k.matched.start) ∧
        c.errorString msg ⟨a, c.offset.start⟩ = some w ∧ s' = s ∧
        r = .err (.error ⟨w, some ⟨a, c.offset.start⟩⟩) := by
  rw [runs_own (k := execPanic msg c) (by intro f; rw [hm]; rfl)]
  have : entered T m sc s = s := by unfold entered; rw [hm]; rfl
  rw [this]
  unfold execPanic
  rw [bind_ok]
  have hr : ∀ q s1, panicRange c s = .ok q s1 ↔ s1 = s ∧ q.stop = c.offset.start ∧
      (c.stack = [] ∧ q.start = c.offset.start ∨
          ∃ t ts k, c.stack = t :: ts ∧ s.toks[t]? = some k ∧ q.start = k.matched.start) := by
    intro q s1
    unfold panicRange
    cases hst : c.stack with
    | nil =>
      dsimp only
      rw [pure_ok']
      constructor
      · rintro ⟨rfl, rfl⟩; exact ⟨rfl, rfl, Or.inl ⟨rfl, rfl⟩⟩
      · rintro ⟨rfl, h1, ⟨_, h2⟩ | ⟨t, ts, k, h, _⟩⟩
        · cases q; simp only at h1 h2; subst h1 h2; exact ⟨rfl, rfl⟩
        · simp at h
    | cons t ts =>
      dsimp only
      rw [bind_ok]
      constructor
      · rintro ⟨k, s2, h1, h2⟩
        obtain ⟨h11, rfl⟩ := getTok_ok.mp h1
        obtain ⟨rfl, rfl⟩ := pure_ok'.mp h2
        exact ⟨rfl, rfl, Or.inr ⟨t, ts, k, rfl, h11, rfl⟩⟩
      · rintro ⟨rfl, h1, ⟨h, _⟩ | ⟨t', ts', k, h, hk, h2⟩⟩
        · simp at h
        · cases h
          refine ⟨k, s1, getTok_ok.mpr ⟨hk, rfl⟩, ?_⟩
          cases q; simp only at h1 h2; subst h1 h2; rfl
  constructor
  · rintro ⟨q, s1, h1, h2⟩
    obtain ⟨rfl, h3, h4⟩ := (hr q s1).mp h1
    replace h2 := bind_ok.mp h2
    obtain ⟨w, s2, h5, h6⟩ := h2
    obtain ⟨h51, rfl⟩ := ofOpt_ok.mp h5
    obtain ⟨rfl, rfl⟩ := pure_ok'.mp h6
    have : q = ⟨q.start, c.offset.start⟩ := by cases q; simp only at h3; subst h3; rfl
    rw [this] at h51 ⊢
    exact ⟨q.start, w, h4, h51, rfl, rfl⟩
  · rintro ⟨a, w, h1, h2, rfl, rfl⟩
    exact ⟨⟨a, c.offset.start⟩, s', (hr _ _).mpr ⟨rfl, rfl, h1⟩, bind_ok.mpr ⟨w, s', ofOpt_ok.mpr ⟨h2, rfl⟩, rfl⟩⟩

/-- C42: in a program, the range that `Panic` reports starts at 0, not where the program
started. -/
theorem C42_panic_range_counterexample :
    let T : Table := fun
      | 0 => .program [1, 2] "P".toList false none false
      | 1 => .equals "E".toList false (.str "b".toList)
      | _ => .panic "m".toList
    let c : Ctx := { Ctx.new ⟨"aab".toList, "f".toList⟩ 0 [] with offset := ⟨2, 3⟩ }
    (exec T ⟨true⟩ 9 0 c 0 ⟨[], [], [[]]⟩).holds (fun r _ =>
      r == .err (.error ⟨"Error: f@[1:1-4]: m".toList, some ⟨0, 3⟩⟩)) := by
  decide +kernel

/-- C42: a failing `AssertIfNot` after some text, and the message of its token. -/
example : let T : Table := fun
      | 0 => .program [1, 2] "P".toList false none false
      | 1 => .equals "E".toList false (.str "a\n".toList)
      | 2 => .map 3 successIsFine (assertIfNotErr "m".toList)
      | _ => .equals "E".toList false (.str "x".toList)
    (exec T ⟨true⟩ 9 0 (Ctx.new ⟨"a\nb".toList, "f".toList⟩ 0 []) 0 ⟨[], [], [[]]⟩).holds (fun r s' =>
      r == .ok (.token 0) && s'.toks.map (fun k => (k.matched.start, k.matched.stop, k.children)) ==
        [(0, 2, [1, 2]), (0, 2, []), (0, 2, [])] &&
      (s'.toks[2]?.bind (fun k => k.getAttribute "__message".toList)) == some "Error: f@[2:1]: m".toList) := by
  decide +kernel

/-- C42: where the asserted matcher matches, nothing is consumed. -/
theorem C42_assert_if_not_consumes_nothing :
    let T : Table := fun
      | 0 => .program [2, 1] "P".toList false none false
      | 1 => .equals "E".toList false (.str "ab".toList)
      | 2 => .map 3 successIsFine (assertIfNotErr "m".toList)
      | _ => .equals "E".toList false (.str "a".toList)
    (exec T ⟨true⟩ 9 0 (Ctx.new ⟨"ab".toList, []⟩ 0 []) 0 ⟨[], [], [[]]⟩).holds (fun r s' =>
      r == .ok (.token 0) && s'.toks.map (fun k => (k.matched.start, k.matched.stop, k.children)) ==
        [(0, 2, [2]), (0, 1, []), (0, 2, [])]) := by
  decide +kernel

/-! ### C43: loop ranges -/

/-- **C43.**  A Rust range `lo..hi`, `lo..`, `..hi` or `..` becomes a pair of numbers
that contains the same counts below `usize::MAX`. -/
theorem C43_loop_range {lo hi : Bound} (hlo : ∀ n, lo ≠ .excluded n) (hhi : ∀ n, hi ≠ .included n) (n : Nat)
    (hn : n < usizeMax) :
    ((getRange lo hi).1 ≤ n ∧ n < (getRange lo hi).2) ↔ lo.Below n ∧ hi.Above n := by
  cases lo with
  | excluded m => exact absurd rfl (hlo m)
  | included m =>
    cases hi with
    | included m => exact absurd rfl (hhi m)
    | excluded m => exact Iff.rfl
    | unbounded => exact ⟨fun h => ⟨h.1, trivial⟩, fun h => ⟨h.1, hn⟩⟩
  | unbounded =>
    cases hi with
    | included m => exact absurd rfl (hhi m)
    | excluded m => exact ⟨fun h => ⟨trivial, h.2⟩, fun h => ⟨Nat.zero_le _, h.2⟩⟩
    | unbounded => exact ⟨fun _ => ⟨trivial, trivial⟩, fun _ => ⟨Nat.zero_le _, hn⟩⟩

/-- C43, falsified part: an inclusive end `lo..=hi` is read as no end at all. -/
theorem C43_inclusive_end (lo : Bound) (hi : Nat) :
    getRange lo (.included hi) = getRange lo .unbounded := rfl

example : getRange (.included 2) (.excluded 5) = (2, 5) := rfl

/-- C43, falsified part: `Loop!(0..=1; a)` takes three `a`s. -/
theorem C43_inclusive_counterexample :
    let T : Table := fun
      | 0 => .program [1] "Loop".toList false (some (getRange (.included 0) (.included 1))) false
      | _ => .equals "E".toList false (.str "a".toList)
    (exec T ⟨true⟩ 9 0 (Ctx.new ⟨"aaa".toList, []⟩ 0 []) 0 ⟨[], [], [[]]⟩).holds (fun r s' =>
      r == .ok (.token 0) && s'.toks.map (fun k => (k.matched.start, k.matched.stop, k.children)) ==
        [(0, 3, [1, 2, 3]), (0, 1, []), (1, 2, []), (2, 3, [])]) := by
  decide +kernel

end Adx
