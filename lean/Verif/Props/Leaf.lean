import Verif.Proofs.Step
import Verif.Proofs.Text
import Verif.Model.Regex
/-
  C10, C11: `Equals` and `Matches`.
-/
namespace Adx

variable {T : Table} {cfg : Cfg} {m : MatcherId} {c : Ctx} {sc : SCtxId} {s s' : State} {r : R}
  {name : Str} {cu : Bool}

/-- A token that has just been made by a matcher of the given name and covers
exactly the bytes `a..b`. -/
structure FreshToken (p : Parser) (name : Str) (a b : Nat) (t : Token) : Prop where
  kind : t.kind = .standard
  parser : t.parser = p
  name : t.name = name
  matched : t.matched = ⟨a, b⟩
  captured : t.captured = ⟨a, b⟩
  value : t.value = none
  parent : t.parent = none
  children : t.children = []
  attributes : t.attributes = []
  flags : t.flags = 0

theorem mk'_fresh (p : Parser) (name : Str) (a b : Nat) :
    FreshToken p name a b (Token.mk' p name ⟨a, b⟩) := ⟨rfl, rfl, rfl, rfl, rfl, rfl, rfl, rfl, rfl, rfl⟩

theorem FreshToken.ext {p : Parser} {name : Str} {a b : Nat} {t : Token}
    (h : FreshToken p name a b t) (w : Str) (hw : TextAt p.src a b w) (ha : Ascii p.src)
    (h1 : t.capturedValue = w) (h2 : t.matchedValue = w) : t = Token.mk' p name ⟨a, b⟩ := by
  have ht : Range.text ⟨a, b⟩ p = w := substring_textAt hw ha
  cases t
  obtain ⟨rfl, rfl, rfl, rfl, rfl, rfl, rfl, rfl, rfl, rfl⟩ := h
  simp only at h1 h2
  subst h1 h2
  simp [Token.mk', Token.mkMatched, ht]

theorem chunk_unread {w : Str} (hw : c.Unread w) : c.chunk = some w := bslice_iff.mpr hw

/-- One result of `Equals` is determined by whether the literal is next in the text. -/
def EqualsSpec (lit w : Str) (p : Parser) (name : Str) (a : Nat) (s : State) (r : R) (s' : State) :
    Prop :=
  (lit ≠ [] ∧ lit <+: w ∧ ∃ tk, FreshToken p name a (a + blen lit) tk ∧
      (Ascii p.src → tk.capturedValue = lit ∧ tk.matchedValue = lit ∧ tk.getValue = lit) ∧
      r = .ok (.token s.toks.length) ∧ s' = { s with toks := s.toks ++ [tk] }) ∨
  (¬ (lit ≠ [] ∧ lit <+: w) ∧ r = .err .fail ∧ s' = s)

theorem equals_token {lit w : Str} {p : Parser} {a e : Nat} (hw : TextAt p.src a e w)
    (hl : lit <+: w) (name : Str) : FreshToken p name a (a + blen lit) (Token.mk' p name ⟨a, a + blen lit⟩) ∧
      (Ascii p.src → (Token.mk' p name ⟨a, a + blen lit⟩).capturedValue = lit ∧
        (Token.mk' p name ⟨a, a + blen lit⟩).matchedValue = lit ∧
        (Token.mk' p name ⟨a, a + blen lit⟩).getValue = lit) := by
  refine ⟨mk'_fresh p name _ _, fun ha => ?_⟩
  obtain ⟨post, rfl⟩ := hl
  have : Range.text ⟨a, a + blen lit⟩ p = lit := substring_textAt hw.prefix ha
  exact ⟨this, this, this⟩

/-- C10 (any debug mode): whatever a literal `Equals` returns is what the
specification says, and its only other effect is to register its own name. -/
theorem C10_equals_sound {lit w : Str} (hm : T m = .equals name cu (.str lit)) (hw : c.Unread w)
    (h : Runs T cfg m c sc s r s') :
    EqualsSpec lit w c.parser name c.offset.start (entered T m sc s) r s' := by
  have hk : ∀ f, execNode T cfg f (T m) c sc = execEquals name (.str lit) c sc := by
    intro f; rw [hm]; rfl
  rw [runs_own hk] at h
  unfold execEquals at h
  obtain ⟨v, s1, h1, h⟩ := bind_ok.mp h
  obtain ⟨rfl, rfl⟩ := pure_ok'.mp h1
  obtain ⟨o, s2, h2, h⟩ := bind_ok.mp h
  obtain ⟨h2, rfl⟩ := ofOpt_ok.mp h2
  have hch : (c.withName name).chunk = some w := chunk_unread hw
  unfold Ctx.matchesStr at h2
  rw [hch] at h2
  by_cases hl : lit = []
  · rw [if_pos hl] at h2
    cases h2
    obtain ⟨_, s3, h3, h⟩ := bind_ok.mp h
    have := dbg_ok h3
    subst this
    obtain ⟨rfl, rfl⟩ := pure_ok'.mp h
    exact Or.inr ⟨fun hh => hh.1 hl, rfl, rfl⟩
  · rw [if_neg hl] at h2
    dsimp only at h2
    by_cases hp : lit <+: w
    · rw [if_pos (List.isPrefixOf_iff_prefix.mpr hp)] at h2
      cases h2
      obtain ⟨_, s3, h3, h⟩ := bind_ok.mp h
      have := dbg_ok h3
      subst this
      obtain ⟨i, s4, h4, h⟩ := bind_ok.mp h
      obtain ⟨rfl, rfl⟩ := newTok_ok.mp h4
      obtain ⟨rfl, rfl⟩ := pure_ok'.mp h
      have := equals_token hw hp name
      exact Or.inl ⟨hl, hp, _, this.1, this.2, rfl, rfl⟩
    · rw [if_neg (fun hh => hp (List.isPrefixOf_iff_prefix.mp hh))] at h2
      cases h2
      obtain ⟨_, s3, h3, h⟩ := bind_ok.mp h
      have := dbg_ok h3
      subst this
      obtain ⟨rfl, rfl⟩ := pure_ok'.mp h
      exact Or.inr ⟨fun hh => hp hh.2, rfl, rfl⟩

/-- C10: outside debug mode a literal `Equals` always returns: a token if its
non-empty literal is next in the text, a plain failure otherwise; it never panics. -/
theorem C10_equals_total {lit w : Str} (hm : T m = .equals name cu (.str lit)) (hw : c.Unread w)
    (hd : c.debug = 0) :
    (∃ r s', Runs T cfg m c sc s r s') ∧ ¬ Panics T cfg m c sc s := by
  have hk : ∀ f, execNode T cfg f (T m) c sc = execEquals name (.str lit) c sc := by
    intro f; rw [hm]; rfl
  have key : ∃ r s', execEquals name (.str lit) c sc (entered T m sc s) = .ok r s' := by
    have hch : (c.withName name).chunk = some w := chunk_unread hw
    have hd' : (c.withName name).debug = 0 := hd
    obtain ⟨o, ho⟩ : ∃ o, (c.withName name).matchesStr lit = some o := by
      unfold Ctx.matchesStr
      rw [hch]
      dsimp only
      split
      · exact ⟨_, rfl⟩
      · split <;> exact ⟨_, rfl⟩
    unfold execEquals
    cases o with
    | none =>
      exact ⟨_, _, bind_ok.mpr ⟨_, _, rfl, bind_ok.mpr ⟨_, _, ofOpt_ok.mpr ⟨ho, rfl⟩,
        bind_ok.mpr ⟨_, _, dbg_off hd', rfl⟩⟩⟩⟩
    | some rr =>
      exact ⟨_, _, bind_ok.mpr ⟨_, _, rfl, bind_ok.mpr ⟨_, _, ofOpt_ok.mpr ⟨ho, rfl⟩,
        bind_ok.mpr ⟨_, _, dbg_off hd', bind_ok.mpr ⟨_, _, rfl, rfl⟩⟩⟩⟩⟩
  obtain ⟨r, s', hr⟩ := key
  refine ⟨⟨r, s', (runs_own hk).mpr hr⟩, fun hp => ?_⟩
  obtain ⟨e, he⟩ := (panics_own hk).mp hp
  rw [hr] at he
  cases he

/-- C10: a literal `Equals` succeeds if and only if its non-empty literal is a prefix
of the unread text. -/
theorem C10_equals {lit w : Str} (hm : T m = .equals name cu (.str lit)) (hw : c.Unread w)
    (hd : c.debug = 0) :
    (∃ t s', Runs T cfg m c sc s (.ok (.token t)) s') ↔ lit ≠ [] ∧ lit <+: w := by
  constructor
  · rintro ⟨t, s', h⟩
    rcases C10_equals_sound hm hw h with ⟨h1, h2, _⟩ | ⟨_, h2, _⟩
    · exact ⟨h1, h2⟩
    · cases h2
  · intro hl
    obtain ⟨⟨r, s', h⟩, _⟩ := C10_equals_total (cfg := cfg) (sc := sc) (s := s) hm hw hd
    rcases C10_equals_sound hm hw h with ⟨_, _, tk, _, _, rfl, _⟩ | ⟨h1, _⟩
    · exact ⟨_, _, h⟩
    · exact (h1 hl).elim

/-- Non-vacuity of C10: in the middle of a non-ASCII text, with a name. -/
example :
    let T : Table := fun _ => .equals "A".toList true (.str "bc".toList)
    let c : Ctx := { Ctx.new ⟨"äbcd".toList, []⟩ 0 [] with offset := ⟨2, 5⟩ }
    c.Unread "bcd".toList ∧
    (exec T ⟨true⟩ 1 0 c 0 ⟨[], [], [[]]⟩).holds
      (fun r s => r = .ok (.token 0) ∧ s.toks.map (·.matched) = [⟨2, 4⟩] ∧
        s.lookup 0 "A".toList = some (.matcher 0)) := by
  refine ⟨⟨"ä".toList, [], by decide, by decide, by decide⟩, by decide +kernel⟩

/-- What the specification of `Matches` says, `find` being the regular expression's
leftmost match in the unread text. -/
def MatchesSpec (re : Regex) (w : Str) (p : Parser) (name : Str) (a : Nat) (s : State) (r : R)
    (s' : State) : Prop :=
  (∃ b tk, re.find w = some (0, b) ∧ 0 < b ∧ FreshToken p name a (a + b) tk ∧
      (Ascii p.src → ∀ x, TextAt w 0 b x → tk.getValue = x ∧ tk.matchedValue = x) ∧
      r = .ok (.token s.toks.length) ∧ s' = { s with toks := s.toks ++ [tk] }) ∨
  (re.find w = some (0, 0) ∧ r = .ok (.skip 0) ∧ s' = s) ∨
  ((∀ b, re.find w ≠ some (0, b)) ∧ r = .err .fail ∧ s' = s)

theorem textAt_inside {src w x : Str} {a e b : Nat} (hw : TextAt src a e w) (hx : TextAt w 0 b x) :
    TextAt src a (a + b) x := by
  obtain ⟨pre, post, rfl, h1, rfl⟩ := hx
  have := blen_eq_zero.mp h1.symm
  subst this
  have := hw.prefix (x := x) (y := post)
  simpa [blen] using this

/-- C11 (any debug mode): `Matches` matches only at the current position, and
covers exactly the regular expression's match there. -/
theorem C11_matches_sound {re : Regex} {w : Str} (hm : T m = .regex name cu re) (hw : c.Unread w)
    (h : Runs T cfg m c sc s r s') :
    MatchesSpec re w c.parser name c.offset.start (entered T m sc s) r s' := by
  have hk : ∀ f, execNode T cfg f (T m) c sc = execMatches name re c := by
    intro f; rw [hm]; rfl
  rw [runs_own hk] at h
  unfold execMatches at h
  obtain ⟨o, s2, h2, h⟩ := bind_ok.mp h
  obtain ⟨h2, rfl⟩ := ofOpt_ok.mp h2
  have hch : (c.withName name).chunk = some w := chunk_unread hw
  unfold Ctx.matchesRegexp at h2
  rw [hch] at h2
  dsimp only at h2
  cases hf : re.find w with
  | none =>
    rw [hf] at h2
    cases h2
    obtain ⟨_, s3, h3, h⟩ := bind_ok.mp h
    have := dbg_ok h3
    subst this
    obtain ⟨rfl, rfl⟩ := pure_ok'.mp h
    exact Or.inr (Or.inr ⟨fun b hb => (by cases hf.symm.trans hb), rfl, rfl⟩)
  | some ab =>
    obtain ⟨a, b⟩ := ab
    rw [hf] at h2
    dsimp only at h2
    by_cases ha : a = 0
    · subst ha
      have hz : 0 + (c.withName name).offset.start = (c.withName name).offset.start := Nat.zero_add _
      rw [hz, if_neg (fun hh => hh rfl)] at h2
      cases h2
      dsimp only at h
      by_cases hb : b = 0
      · subst hb
        rw [hz, if_pos rfl] at h
        obtain ⟨_, s3, h3, h⟩ := bind_ok.mp h
        have := dbg_ok h3
        subst this
        obtain ⟨rfl, rfl⟩ := pure_ok'.mp h
        exact Or.inr (Or.inl ⟨hf, rfl, rfl⟩)
      · have hne : ¬ (c.withName name).offset.start = b + (c.withName name).offset.start := by omega
        rw [if_neg hne] at h
        obtain ⟨i, s4, h4, h⟩ := bind_ok.mp h
        obtain ⟨rfl, rfl⟩ := newTok_ok.mp h4
        obtain ⟨rfl, rfl⟩ := pure_ok'.mp h
        have hc : (⟨(c.withName name).offset.start, b + (c.withName name).offset.start⟩ : Range) =
            ⟨c.offset.start, c.offset.start + b⟩ := by rw [Nat.add_comm]; rfl
        rw [hc]
        refine Or.inl ⟨b, _, hf, Nat.pos_of_ne_zero hb, mk'_fresh _ _ _ _, ?_, rfl, rfl⟩
        intro hasc x hx
        have : Range.text ⟨c.offset.start, c.offset.start + b⟩ c.parser = x :=
          substring_textAt (textAt_inside hw hx) hasc
        exact ⟨this, this⟩
    · have hne : a + (c.withName name).offset.start ≠ (c.withName name).offset.start := by omega
      rw [if_pos hne] at h2
      cases h2
      obtain ⟨_, s3, h3, h⟩ := bind_ok.mp h
      have := dbg_ok h3
      subst this
      obtain ⟨rfl, rfl⟩ := pure_ok'.mp h
      exact Or.inr (Or.inr ⟨fun b' hb => ha (by rw [hf] at hb; cases hb; rfl), rfl, rfl⟩)

/-- C11: outside debug mode a `Matches` always returns, whatever the regular
expression engine answers. -/
theorem C11_matches_total {re : Regex} {w : Str} (hm : T m = .regex name cu re) (hw : c.Unread w)
    (hd : c.debug = 0) :
    (∃ r s', Runs T cfg m c sc s r s') ∧ ¬ Panics T cfg m c sc s := by
  have hk : ∀ f, execNode T cfg f (T m) c sc = execMatches name re c := by
    intro f; rw [hm]; rfl
  have key : ∃ r s', execMatches name re c (entered T m sc s) = .ok r s' := by
    have hch : (c.withName name).chunk = some w := chunk_unread hw
    have hd' : (c.withName name).debug = 0 := hd
    obtain ⟨o, ho⟩ : ∃ o, (c.withName name).matchesRegexp re = some o := by
      unfold Ctx.matchesRegexp
      rw [hch]
      dsimp only
      split
      · split <;> exact ⟨_, rfl⟩
      · exact ⟨_, rfl⟩
    unfold execMatches
    cases o with
    | none =>
      exact ⟨_, _, bind_ok.mpr ⟨_, _, ofOpt_ok.mpr ⟨ho, rfl⟩,
        bind_ok.mpr ⟨_, _, dbg_off hd', rfl⟩⟩⟩
    | some rr =>
      by_cases hr : rr.start = rr.stop
      · exact ⟨_, _, bind_ok.mpr ⟨_, _, ofOpt_ok.mpr ⟨ho, rfl⟩, by
          dsimp only; rw [if_pos hr]; exact bind_ok.mpr ⟨_, _, dbg_off hd', rfl⟩⟩⟩
      · exact ⟨_, _, bind_ok.mpr ⟨_, _, ofOpt_ok.mpr ⟨ho, rfl⟩, by
          dsimp only; rw [if_neg hr]; exact bind_ok.mpr ⟨_, _, rfl, rfl⟩⟩⟩
  obtain ⟨r, s', hr⟩ := key
  refine ⟨⟨r, s', (runs_own hk).mpr hr⟩, fun hp => ?_⟩
  obtain ⟨e, he⟩ := (panics_own hk).mp hp
  rw [hr] at he
  cases he

/-- C11: `Matches` returns a token if and only if the regular expression's leftmost
match in the unread text is non-empty and starts at the current position. -/
theorem C11_matches {re : Regex} {w : Str} (hm : T m = .regex name cu re) (hw : c.Unread w)
    (hd : c.debug = 0) :
    (∃ t s', Runs T cfg m c sc s (.ok (.token t)) s') ↔ ∃ b, 0 < b ∧ re.find w = some (0, b) := by
  constructor
  · rintro ⟨t, s', h⟩
    rcases C11_matches_sound hm hw h with ⟨b, tk, h1, h2, _⟩ | ⟨_, h2, _⟩ | ⟨_, h2, _⟩
    · exact ⟨b, h2, h1⟩
    · cases h2
    · cases h2
  · rintro ⟨b, hb, hf⟩
    obtain ⟨⟨r, s', h⟩, _⟩ := C11_matches_total (cfg := cfg) (sc := sc) (s := s) hm hw hd
    rcases C11_matches_sound hm hw h with ⟨_, tk, _, _, _, _, rfl, _⟩ | ⟨h1, _⟩ | ⟨h1, _⟩
    · exact ⟨_, _, h⟩
    · rw [hf] at h1; cases h1; cases hb
    · exact (h1 b hf).elim

/-- Non-vacuity of C11: a match at the position, an empty one, and one that comes
later in the text. -/
example :
    let T : Table := fun
      | 0 => .regex "D".toList true (mkRx "\\d+" [Rx.plus Rx.isDigit])
      | _ => .regex "D".toList true (mkRx "\\d*" [[.star Rx.isDigit]])
    let run (m : MatcherId) (src : String) :=
      exec T ⟨true⟩ 5 m (Ctx.new ⟨src.toList, []⟩ 0 []) 0 ⟨[], [], [[]]⟩
    (run 0 "12a").holds (fun r s => r = .ok (.token 0) ∧ s.toks.map (·.getValue) = ["12".toList]) ∧
    (run 0 "a12").holds (fun r s => r = .err .fail ∧ s.toks = []) ∧
    (run 1 "a12").holds (fun r s => r = .ok (.skip 0) ∧ s.toks = []) := by
  decide +kernel

end Adx
