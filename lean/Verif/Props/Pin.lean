import Verif.Proofs.Offset
import Verif.Props.Vars
/-
  C29: the offsets of `Pin`.
-/
namespace Adx

variable {T : Table} {cfg : Cfg} {m b : MatcherId} {c : Ctx} {sc : SCtxId} {s s' : State} {r : R}
variable {off : Fetchable} {name txt : Str} {cu : Bool} {oa ob : Off}

theorem Off.Denotes.lt {o : Off} {base old v : Nat} (h : o.Denotes cfg base old v) (hb : base < 2 ^ 64)
    (ho : old < 2 ^ 64) : v < 2 ^ 64 := by
  cases h with
  | same => exact ho
  | abs h => exact h
  | plus _ h => exact h
  | minus => omega
  | plusWraps => omega
  | minusWraps => omega

/-- The value that a bound denotes is unique. -/
theorem Off.Denotes.unique {o : Off} {base old v v' : Nat} (h : o.Denotes cfg base old v)
    (h' : o.Denotes cfg base old v') : v = v' := by
  cases h <;> cases h' <;> omega

/-- How a `Pin` text is read, with the window it gives. -/
theorem pin_window {w : Range} (hs : c.offset.start < 2 ^ 64) (ht : PinText txt oa ob) :
    (∃ v, parseOffset cfg c.offset.start c.offset.start ((splitDotDot txt).headD []) s = .ok v s ∧
      ∃ e, pinEnd cfg v c.offset.stop (splitDotDot txt) s = .ok e s ∧ w = ⟨v, e⟩) ↔
    Selects cfg oa ob c.offset w := by
  cases ht with
  | start ha =>
    rw [splitDotDot_nodot ha.nodot]
    constructor
    · rintro ⟨v, h1, e, h2, rfl⟩
      refine ⟨((parseOffset_spelled hs ha).mp h1).2, ?_⟩
      cases h2
      exact .same
    · rintro ⟨h1, h2⟩
      refine ⟨w.start, (parseOffset_spelled hs ha).mpr ⟨rfl, h1⟩, w.stop, ?_, rfl⟩
      generalize w.stop = e at h2
      cases h2
      rfl
  | both ha hb =>
    have hsplit : ∀ a b : Str, a ++ "..".toList ++ b = a ++ '.' :: '.' :: b := by
      intro a b
      simp
    rw [hsplit, splitDotDot_two ha.nodot hb.nodot]
    constructor
    · rintro ⟨v, h1, e, h2, rfl⟩
      have hv := ((parseOffset_spelled hs ha).mp h1).2
      exact ⟨hv, ((parseOffset_spelled (hv.lt hs hs) hb).mp h2).2⟩
    · rintro ⟨h1, h2⟩
      exact ⟨w.start, (parseOffset_spelled hs ha).mpr ⟨rfl, h1⟩, w.stop,
        (parseOffset_spelled (h1.lt hs hs) hb).mpr ⟨rfl, h2⟩, rfl⟩

theorem pin_exec {o : Option MatcherId} (hm : T m = .pin o off name cu) (f : ExecFn) :
    execNode T cfg f (T m) c sc = execPin cfg f o off name c sc := by
  rw [hm]
  rfl

/-- C29: a `Pin` around a matcher runs it in exactly the window that the offset text
selects from the current window. -/
theorem C29_pin (hm : T m = .pin (some b) off name cu) (hs : c.offset.start < 2 ^ 64)
    (hf : fetchValue off sc (entered T m sc s) = .ok (.inl txt) (entered T m sc s))
    (ht : PinText txt oa ob) :
    Runs T cfg m c sc s r s' ↔
      ∃ w, Selects cfg oa ob c.offset w ∧
        Runs T cfg b { c with offset := w } sc (entered T m sc s) r s' := by
  have hname : ∀ w, (Runs T cfg b { c.withName name with offset := w } sc (entered T m sc s) r s' ↔
      Runs T cfg b { c with offset := w } sc (entered T m sc s) r s') :=
    fun w => runs_name (c := { c with offset := w }) name
  constructor
  · rintro ⟨n, h⟩
    cases n with
    | zero => cases h
    | succ n =>
      rw [exec_succ, pin_exec hm] at h
      unfold execPin at h
      replace h := bind_ok.mp h
      obtain ⟨v, s1, h1, h⟩ := h
      rw [hf] at h1
      cases h1
      replace h := bind_ok.mp h
      obtain ⟨a, s1, h1, h⟩ := h
      have e1 := parseOffset_state h1
      subst e1
      replace h := bind_ok.mp h
      obtain ⟨e, s2, h2, h⟩ := h
      have e2 := pinEnd_state h2
      subst e2
      exact ⟨⟨a, e⟩, (pin_window hs ht).mp ⟨a, h1, e, h2, rfl⟩, (hname _).mp ⟨n, h⟩⟩
  · rintro ⟨w, hw, h⟩
    obtain ⟨n, h⟩ := (hname _).mpr h
    obtain ⟨a, h1, e, h2, rfl⟩ := (pin_window (s := entered T m sc s) hs ht).mpr hw
    refine ⟨n + 1, ?_⟩
    rw [exec_succ, pin_exec hm]
    unfold execPin
    exact bind_ok.mpr ⟨_, _, hf, bind_ok.mpr ⟨_, _, h1, bind_ok.mpr ⟨_, _, h2, h⟩⟩⟩

/-- C29: an empty `Pin` returns a fresh `Pin` token with exactly the selected window as
its ranges. -/
theorem C29_empty_pin (hm : T m = .pin none off name cu) (hs : c.offset.start < 2 ^ 64)
    (hf : fetchValue off sc (entered T m sc s) = .ok (.inl txt) (entered T m sc s))
    (ht : PinText txt oa ob) :
    Runs T cfg m c sc s r s' ↔
      ∃ w, Selects cfg oa ob c.offset w ∧ r = .ok (.token s.toks.length) ∧
        s' = { entered T m sc s with toks := s.toks ++ [Token.mkPin c.parser name w w] } := by
  rw [runs_own (k := execPin cfg (fun _ _ _ => M.diverge) none off name c sc) (fun f => by
    rw [pin_exec hm]; rfl)]
  unfold execPin
  constructor
  · intro h
    replace h := bind_ok.mp h
    obtain ⟨v, s1, h1, h⟩ := h
    rw [hf] at h1
    cases h1
    replace h := bind_ok.mp h
    obtain ⟨a, s1, h1, h⟩ := h
    have e1 := parseOffset_state h1
    subst e1
    replace h := bind_ok.mp h
    obtain ⟨e, s2, h2, h⟩ := h
    have e2 := pinEnd_state h2
    subst e2
    refine ⟨⟨a, e⟩, (pin_window hs ht).mp ⟨a, h1, e, h2, rfl⟩, ?_⟩
    replace h := bind_ok.mp h
    obtain ⟨t, s3, h3, h⟩ := h
    cases h3
    cases h
    simp [Ctx.withName]
  · rintro ⟨w, hw, rfl, rfl⟩
    obtain ⟨a, h1, e, h2, rfl⟩ := (pin_window (s := entered T m sc s) hs ht).mpr hw
    refine bind_ok.mpr ⟨_, _, hf, bind_ok.mpr ⟨_, _, h1, bind_ok.mpr ⟨_, _, h2, ?_⟩⟩⟩
    refine bind_ok.mpr ⟨s.toks.length, { entered T m sc s with
      toks := s.toks ++ [Token.mkPin c.parser name ⟨a, e⟩ ⟨a, e⟩] }, ?_, rfl⟩
    unfold newTok
    simp [Ctx.withName]

/-- C29: if the offset text is spelled correctly but selects nothing (a start before the
beginning of the source, or a number that is too big), the `Pin` panics. -/
theorem C29_out_of_range {o : Option MatcherId} (hm : T m = .pin o off name cu)
    (hs : c.offset.start < 2 ^ 64)
    (hf : fetchValue off sc (entered T m sc s) = .ok (.inl txt) (entered T m sc s))
    (ht : PinText txt oa ob) (hn : ∀ w, ¬ Selects cfg oa ob c.offset w) : Panics T cfg m c sc s := by
  refine ⟨1, ?_⟩
  rw [exec_succ, pin_exec hm]
  unfold execPin
  generalize hs0 : entered T m sc s = s0 at hf
  cases h1 : parseOffset cfg c.offset.start c.offset.start ((splitDotDot txt).headD []) s0 with
  | panic e =>
    exact ⟨e, bind_panic.mpr (Or.inr ⟨_, _, hf, bind_panic.mpr (Or.inl h1)⟩)⟩
  | diverge => exact (parseOffset_total h1).elim
  | ok a s1 =>
    have e1 := parseOffset_state h1
    subst e1
    cases h2 : pinEnd cfg a c.offset.stop (splitDotDot txt) s1 with
    | panic e =>
      exact ⟨e, bind_panic.mpr (Or.inr ⟨_, _, hf, bind_panic.mpr (Or.inr ⟨_, _, h1,
        bind_panic.mpr (Or.inl h2)⟩)⟩)⟩
    | diverge =>
      unfold pinEnd at h2
      generalize splitDotDot txt = l at h2
      rcases l with _ | ⟨x, _ | ⟨y, l⟩⟩
      · cases h2
      · cases h2
      · exact (parseOffset_total h2).elim
    | ok e s2 =>
      have e2 := pinEnd_state h2
      subst e2
      exact (hn ⟨a, e⟩ ((pin_window hs ht).mp ⟨a, h1, e, h2, rfl⟩)).elim

/-- C29: an offset before the start of the source panics under overflow checks. -/
theorem C29_before_start {o : Option MatcherId} {n : Nat} (hm : T m = .pin o off name cu)
    (hs : c.offset.start < 2 ^ 64)
    (hf : fetchValue off sc (entered T m sc s) = .ok (.inl txt) (entered T m sc s))
    (ht : PinText txt (.minus n) ob) (ho : cfg.overflowChecks = true) (hn : c.offset.start < n) :
    Panics T cfg m c sc s := by
  refine C29_out_of_range hm hs hf ht (fun w hw => ?_)
  have h1 := hw.1
  generalize w.start = v at h1
  cases h1 with
  | minus _ h => omega
  | minusWraps h => rw [h] at ho; cases ho

/-- The text of a range. -/
theorem pinText_range (w : Range) :
    PinText (natStr w.start ++ "..".toList ++ natStr w.stop) (.abs w.start) (.abs w.stop) :=
  .both (.abs (numeral_natStr _)) (.abs (numeral_natStr _))

theorem selects_abs {old w w' : Range} (h1 : w.start < 2 ^ 64) (h2 : w.stop < 2 ^ 64) :
    Selects cfg (.abs w.start) (.abs w.stop) old w' ↔ w' = w := by
  constructor
  · rintro ⟨h3, h4⟩
    obtain ⟨a, e⟩ := w
    obtain ⟨a', e'⟩ := w'
    cases h3
    cases h4
    rfl
  · rintro rfl
    exact ⟨.abs h1, .abs h2⟩

/-- C29: a printed range, used as an offset, selects exactly that range, whatever the
current window is. -/
theorem C29_printed_range {w : Range} (hm : T m = .pin (some b) off name cu)
    (hs : c.offset.start < 2 ^ 64) (h1 : w.start < 2 ^ 64) (h2 : w.stop < 2 ^ 64)
    (hf : fetchValue off sc (entered T m sc s) =
      .ok (.inl (natStr w.start ++ "..".toList ++ natStr w.stop)) (entered T m sc s)) :
    Runs T cfg m c sc s r s' ↔ Runs T cfg b { c with offset := w } sc (entered T m sc s) r s' := by
  rw [C29_pin hm hs hf (pinText_range w)]
  constructor
  · rintro ⟨w', hw, h⟩
    rw [(selects_abs h1 h2).mp hw] at h
    exact h
  · intro h
    exact ⟨w, (selects_abs h1 h2).mpr rfl, h⟩

/-- C29: re-parsing a stored token: a `Pin` at `x.range`, where the variable `x` holds a
token, runs its body exactly on the text that the token matched. -/
theorem C29_stored_range {x : Str} {t : TokId} {k : Token}
    (hm : T m = .pin (some b) (.fetch (x ++ ".range".toList)) name cu) (hs : c.offset.start < 2 ^ 64)
    (hx : '.' ∉ x) (hl : (entered T m sc s).lookup sc x = some (.token t)) (hk : s.toks[t]? = some k)
    (h1 : k.matched.start < 2 ^ 64) (h2 : k.matched.stop < 2 ^ 64) :
    Runs T cfg m c sc s r s' ↔
      Runs T cfg b { c with offset := k.matched } sc (entered T m sc s) r s' := by
  refine C29_printed_range hm hs h1 h2 ?_
  exact fetch_token_property (p := "range") hx hl (by simpa using hk) rfl

/-- The spellings, one by one: absolute, forward, backward, unchanged; and the forms
with an end. -/
theorem C29_spellings (n e : Nat) (hn : n ≠ 0) :
    PinText (natStr n) (.abs n) .same ∧
    PinText ('+' :: natStr n) (.plus n) .same ∧
    PinText ('-' :: natStr n) (.minus n) .same ∧
    PinText [] .same .same ∧
    PinText (natStr n ++ "..".toList ++ natStr e) (.abs n) (.abs e) ∧
    PinText ("+".toList ++ "..".toList ++ '+' :: natStr n) .same (.plus n) ∧
    PinText ([] ++ "..".toList ++ natStr e) .same (.abs e) ∧
    PinText ("+".toList ++ natStr n ++ "..".toList ++ []) (.plus n) .same := by
  have h0 : natStr n ≠ ['0'] := by
    intro h
    have := (numeral_natStr n).digits.2.2
    rw [h] at this
    exact hn this.symm
  have hp := numeral_natStr n
  have he := numeral_natStr e
  exact ⟨.start (.abs hp), .start (.plus hp h0), .start (.minus hp h0), .start .empty,
    .both (.abs hp) (.abs he), .both .plusOnly (.plus hp h0), .both .empty (.abs he),
    .both (.plus hp h0) .empty⟩

/-- Non-vacuity: from position 2 of a text of length 6, the window `-1..+3`. -/
example : Selects ⟨true⟩ (.minus 1) (.plus 3) ⟨2, 6⟩ ⟨1, 4⟩ :=
  ⟨.minus (by decide) rfl, .plus (by decide) (by decide) rfl⟩

/-- The same, run: the token of `bcd` matched there. -/
example :
    let T : Table := fun
      | 0 => .pin (some 1) (.str "-1..+3".toList) "Pin".toList false
      | 1 => .regex "M".toList false ⟨[], fun chunk => some (0, blen chunk)⟩
      | _ => .null
    (exec T ⟨true⟩ 9 0 ((Ctx.new ⟨"abcdef".toList, []⟩ 0 []).setStart 2) 0 ⟨[], [], [[]]⟩).holds
      (fun r s' => r = .ok (.token 0) ∧ s'.toks.map (fun k => (k.matched, k.matchedValue)) =
        [(⟨1, 4⟩, "bcd".toList)]) := by
  decide +kernel

/-- An end of `+0` keeps the end of the window, it does not give the empty window at
the start. -/
theorem C29_plus_zero_counterexample :
    PinText ("1".toList ++ "..".toList ++ "+0".toList) (.abs 1) .same ∧
    ∃ w, Selects ⟨true⟩ (.abs 1) .same ⟨0, 6⟩ w ∧ w = ⟨1, 6⟩ :=
  ⟨.both (.abs (.digit (ch := '1') rfl)) .plusZero, ⟨1, 6⟩, ⟨.abs (by decide), .same⟩, rfl⟩

end Adx
