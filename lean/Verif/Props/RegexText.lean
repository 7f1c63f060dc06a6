import Verif.Proofs.RegexText
import Verif.Proofs.Compile
/-
  C66: the regular expressions of the grammar of scripts do what their texts say.
-/
namespace Adx

section classes

variable {u : Uni} {c : Char}

theorem inCls_lit {d : Char} : InCls u c (.lit d) ↔ c = d :=
  ⟨fun h => by cases h; rfl, fun h => h ▸ .lit⟩

theorem inCls_dot : InCls u c .dot ↔ c ≠ '\n' := ⟨fun h => by cases h; assumption, .dot⟩

theorem inCls_range {a b : Char} : InCls u c (.range a b) ↔ a ≤ c ∧ c ≤ b :=
  ⟨fun h => by cases h; exact ⟨by assumption, by assumption⟩, fun h => .range h.1 h.2⟩

theorem inCls_space : InCls u c .space ↔ c.toNat ∈ whiteSpace := ⟨fun h => by cases h; assumption, .space⟩

theorem inCls_digit : InCls u c .digit ↔ u.digit c = true := ⟨fun h => by cases h; assumption, .digit⟩

theorem inCls_word : InCls u c .word ↔ u.word c = true := ⟨fun h => by cases h; assumption, .word⟩

theorem inCls_any {cs : List Cls} : InCls u c (.any cs) ↔ ∃ x ∈ cs, InCls u c x :=
  ⟨fun h => by cases h; exact ⟨_, by assumption, by assumption⟩, fun ⟨_, h, h'⟩ => .any h h'⟩

theorem inCls_notLit {d : Char} : InCls u c (.not (.lit d)) ↔ c ≠ d := ⟨fun h => by cases h; assumption, .notLit⟩

theorem inCls_notSpace : InCls u c (.not .space) ↔ c.toNat ∉ whiteSpace := ⟨fun h => by cases h; assumption, .notSpace⟩

theorem inCls_notNot {x : Cls} : InCls u c (.not (.not x)) ↔ InCls u c x := ⟨fun h => by cases h; assumption, .notNot⟩

theorem inCls_notAny {cs : List Cls} : InCls u c (.not (.any cs)) ↔ ∀ x ∈ cs, InCls u c (.not x) :=
  ⟨fun h => by cases h; assumption, .notAny⟩

theorem isSpace_iff : Rx.isSpace c = true ↔ c.toNat ∈ whiteSpace := by
  simp only [Rx.isSpace, whiteSpace, List.mem_cons, List.not_mem_nil, or_false, Bool.or_eq_true, Bool.and_eq_true,
    decide_eq_true_eq, beq_iff_eq]
  omega

theorem isSpace_false : Rx.isSpace c = false ↔ c.toNat ∉ whiteSpace := by
  rw [← isSpace_iff, Bool.not_eq_true]

end classes

/-- Decide a set of characters. -/
syntax "decides" : tactic

macro_rules
  | `(tactic| decides) => `(tactic| (intro c; simp [inCls_lit, inCls_dot, inCls_range, inCls_space, inCls_digit, inCls_word,
      inCls_any, inCls_notLit, inCls_notSpace, inCls_notNot, inCls_notAny, isSpace_iff, isSpace_false, Char.isAlpha, Char.isUpper,
      Char.isLower, Char.isDigit, Char.le_def, Script.isBlank, Script.isAttr, Rx.lit, and_assoc, or_assoc]))

section

variable {u : Uni}

theorem Regex.Faithful.of {pattern : String} {as : List (List RxItem)} {x : RxText}
    (hr : RxText.read (pattern.toList.length + 1) pattern.toList = some x) (h : SameAlts u as x) :
    (mkRx pattern as).Faithful u :=
  ⟨x, hr, find_text h⟩

theorem true_WS0 : Script.rxWS0.Faithful u :=
  .of (x := [[(.not (.any [.not .space, .lit '\n', .lit '\r']), .star)]]) rfl (.cons (.star (by decides) .nil) .nil)

theorem true_WSN0 : Script.rxWSN0.Faithful u :=
  .of (x := [[(.space, .star)]]) rfl (.cons (.star (by decides) .nil) .nil)

theorem true_identifier : Script.rxIdentifier.Faithful u :=
  .of (x := [[(.any [.range 'a' 'z', .range 'A' 'Z', .lit '$', .lit '_'], .once),
    (.any [.range 'a' 'z', .range 'A' 'Z', .range '0' '9', .lit '$', .lit '_'], .star)]]) rfl
    (.cons (.once (by decides; grind) (.star (by decides; grind) .nil)) .nil)

theorem true_comment : Script.rxComment.Faithful u :=
  .of (x := [[(.lit '#', .once), (.not (.any [.lit '\r', .lit '\n']), .star)]]) rfl
    (.cons (.once (by decides) (.star (by decides) .nil)) .nil)

theorem true_digits : (Script.rxDigits u).Faithful u :=
  .of (x := [[(.digit, .plus)]]) rfl (.cons (.plus (by decides) .nil) .nil)

theorem true_attrName : (Script.rxAttrName u).Faithful u :=
  .of (x := [[(.any [.word, .lit '+', .lit '_'], .plus)]]) rfl (.cons (.plus (by decides) .nil) .nil)

theorem true_attrUnderscore : (Script.rxAttrUnderscore u).Faithful u :=
  .of (x := [[(.lit '_', .once), (.any [.word, .lit '+', .lit '_'], .plus)]]) rfl
    (.cons (.once (by decides) (.plus (by decides) .nil)) .nil)

theorem true_notQuote : Script.rxNotQuote.Faithful u :=
  .of (x := [[(.not (.any [.lit '\'', .space]), .plus)]]) rfl (.cons (.plus (by decides) .nil) .nil)

theorem true_bothModifiers : Script.rxBothModifiers.Faithful u :=
  .of (as := [[Rx.lit '?', Rx.lit '!'], [Rx.lit '!', Rx.lit '?']]) (x := [[(.lit '?', .once), (.lit '!', .once)], [(.lit '!', .once), (.lit '?', .once)]]) rfl
    (.cons (.once (by decides) (.once (by decides) .nil)) (.cons (.once (by decides) (.once (by decides) .nil)) .nil))

theorem true_plainPart : Script.rxPlainPart.Faithful u :=
  .of (x := [[(.not (.any [.lit '/', .lit '\\', .lit '[']), .star)]]) rfl (.cons (.star (by decides) .nil) .nil)

theorem true_escape : Script.rxEscape.Faithful u :=
  .of (x := [[(.lit '\\', .once), (.dot, .once)]]) rfl (.cons (.once (by decides) (.once (by decides) .nil)) .nil)

theorem true_flags : Script.rxFlags.Faithful u :=
  .of (x := [[(.any [.lit 'i', .lit 'm', .lit 's', .lit 'U'], .star)]]) rfl (.cons (.star (by decides) .nil) .nil)

theorem true_percent : Script.rxPercent.Faithful u :=
  .of (x := [[(.lit '%', .once), (.space, .star)]]) rfl (.cons (.once (by decides) (.star (by decides) .nil)) .nil)

theorem true_comma : Script.rxComma.Faithful u :=
  .of (x := [[(.space, .star), (.lit ',', .once), (.space, .star)]]) rfl
    (.cons (.star (by decides) (.once (by decides) (.star (by decides) .nil))) .nil)

theorem true_as : Script.rxAs.Faithful u :=
  .of (as := [Rx.plus Rx.isSpace ++ [Rx.lit 'a', Rx.lit 's'] ++ Rx.plus Rx.isSpace]) (x := [[(.space, .plus), (.lit 'a', .once), (.lit 's', .once), (.space, .plus)]]) rfl
    (.cons (.plus (by decides) (.once (by decides) (.once (by decides) (.plus (by decides) .nil)))) .nil)

theorem same_lits (s : Str) : SameSeq u (s.map Rx.lit) (s.map fun c => (Cls.lit c, Often.once)) := by
  induction s with
  | nil => exact .nil
  | cons c s ih => exact .once (by intro d; simp [inCls_lit]) ih

theorem true_adextopa : Script.rxAdextopa.Faithful u :=
  .of (x := ["<!--[adextopa".toList.map fun c => (.lit c, .once)]) rfl (.cons (same_lits _) .nil)

/-- The name and the regular expression of a matcher. -/
def Node.regex? : Node → Option (Str × Regex)
  | .regex name _ re => some (name, re)
  | _ => none

/-- The regular expressions of the grammar of scripts and their names. -/
def Script.regexes (u : Uni) : List (Str × Regex) :=
  [("Whitespace".toList, rxWS0), ("Whitespace".toList, rxWSN0), ("Identifier".toList, rxIdentifier),
   ("ImportName".toList, rxIdentifier), ("ImportAsName".toList, rxIdentifier), ("Comment".toList, rxComment),
   ("Minimum".toList, rxDigits u), ("Maximum".toList, rxDigits u), ("Name".toList, rxAttrName u),
   ("Matches".toList, rxAttrUnderscore u), ("Matches".toList, rxNotQuote), ("Matches".toList, rxBothModifiers),
   ("Part".toList, rxPlainPart), ("Part".toList, rxEscape), ("Flags".toList, rxFlags), ("Matches".toList, rxPercent),
   ("Matches".toList, rxComma), ("Matches".toList, rxAs), ("Matches".toList, rxAdextopa)]

theorem Script.regexes_true : ∀ re ∈ Script.regexes u, re.2.Faithful u := by
  simp only [Script.regexes, List.forall_mem_cons]
  exact ⟨true_WS0, true_WSN0, true_identifier, true_identifier, true_identifier, true_comment, true_digits, true_digits,
    true_attrName, true_attrUnderscore, true_notQuote, true_bothModifiers, true_plainPart, true_escape, true_flags,
    true_percent, true_comma, true_as, true_adextopa, by simp⟩

/-! ### The grammar uses only these -/

/-- A builder whose regular expressions are all among these. -/
def UsesRx (u : Uni) (x : B MatcherId) : Prop :=
  BGo 0 (fun nd => ∀ re, nd.regex? = some re → re ∈ Script.regexes u) (fun _ => True) x

/-- A list of such builders. -/
def UseRx (u : Uni) (xs : List (B MatcherId)) : Prop := ∀ x ∈ xs, UsesRx u x

namespace UsesRx

theorem node {nd : Node} (h : nd.regex? = none) : UsesRx u (B.mk nd) :=
  fun ns _ => ⟨trivial, [nd], rfl, by
    intro nd' h' re hr
    rw [List.mem_singleton.mp h', h] at hr
    cases hr⟩

theorem rx {name : Str} {custom : Bool} {re : Regex} (h : (name, re) ∈ Script.regexes u) : UsesRx u (B.mk (.regex name custom re)) :=
  fun ns _ => ⟨trivial, [.regex name custom re], rfl, by
    intro nd h' re' hr
    rw [List.mem_singleton.mp h'] at hr
    cases hr
    exact h⟩

theorem bind {x : B MatcherId} {f : MatcherId → B MatcherId} (h : UsesRx u x) (hf : ∀ a, UsesRx u (f a)) :
    UsesRx u (x >>= f) :=
  BGo.bind h fun a _ => hf a

theorem list {xs : List (B MatcherId)} {f : List MatcherId → B MatcherId} (h : UseRx u xs)
    (hf : ∀ a, UsesRx u (f a)) : UsesRx u (xs.mapM id >>= f) :=
  BGo.bind (BGo.mapM h) fun a _ => hf a

theorem nil : UseRx u [] := by simp [UseRx]

theorem cons {p : B MatcherId} {ps : List (B MatcherId)} (hp : UsesRx u p) (hs : UseRx u ps) : UseRx u (p :: ps) := by
  intro q hq
  rcases List.mem_cons.mp hq with rfl | hq
  · exact hp
  · exact hs q hq

theorem programN {n : String} {ps : List (B MatcherId)} (hp : UseRx u ps) : UsesRx u (B.programN n ps) :=
  list hp fun _ => node rfl

theorem program {ps : List (B MatcherId)} (hp : UseRx u ps) : UsesRx u (B.program ps) := list hp fun _ => node rfl

theorem switchN {n : String} {ps : List (B MatcherId)} (hp : UseRx u ps) : UsesRx u (B.switchN n ps) :=
  list hp fun _ => node rfl

theorem switch {ps : List (B MatcherId)} (hp : UseRx u ps) : UsesRx u (B.switch ps) := list hp fun _ => node rfl

theorem loopN {n : String} {ps : List (B MatcherId)} {a b : Bound} (hp : UseRx u ps) : UsesRx u (B.loopN n ps a b) :=
  list hp fun _ => node rfl

theorem loop {ps : List (B MatcherId)} {a b : Bound} (hp : UseRx u ps) : UsesRx u (B.loop ps a b) :=
  list hp fun _ => node rfl

theorem optional {m : B MatcherId} (hm : UsesRx u m) : UsesRx u (B.optional m) := bind hm fun _ => node rfl

theorem discard {m : B MatcherId} (hm : UsesRx u m) : UsesRx u (B.discard m) := bind hm fun _ => node rfl

theorem proxyChildren {m : B MatcherId} (hm : UsesRx u m) : UsesRx u (B.proxyChildren m) := bind hm fun _ => node rfl

theorem store {n : String} {m : B MatcherId} (hm : UsesRx u m) : UsesRx u (B.store n m) := bind hm fun _ => node rfl

theorem pinN {n : String} {f : Fetchable} {m : B MatcherId} (hm : UsesRx u m) : UsesRx u (B.pinN n f m) :=
  bind hm fun _ => node rfl

theorem fatalIf {msg : String} {m : B MatcherId} (hm : UsesRx u m) : UsesRx u (B.fatalIf m msg) :=
  bind hm fun _ => node rfl

theorem assertIf {msg : String} {m : B MatcherId} (hm : UsesRx u m) : UsesRx u (B.assertIf m msg) :=
  bind hm fun _ => node rfl

theorem map {f : TokId → Ctx → SCtxId → M R} {m : B MatcherId} (hm : UsesRx u m) : UsesRx u (B.map m f) :=
  bind hm fun _ => node rfl

theorem regexN {n : String} {re : Regex} (h : (n.toList, re) ∈ Script.regexes u) : UsesRx u (B.regexN n re) := rx h

theorem regex {re : Regex} (h : ("Matches".toList, re) ∈ Script.regexes u) : UsesRx u (B.regex re) := rx h

/-- Walk through a builder. -/
local macro "rwalk" : tactic => `(tactic| repeat' first
  | with_reducible assumption
  | with_reducible exact nil
  | with_reducible apply cons
  | with_reducible apply programN
  | with_reducible apply program
  | with_reducible apply switchN
  | with_reducible apply switch
  | with_reducible apply loopN
  | with_reducible apply loop
  | with_reducible apply optional
  | with_reducible apply discard
  | with_reducible apply proxyChildren
  | with_reducible apply store
  | with_reducible apply pinN
  | with_reducible apply fatalIf
  | with_reducible apply assertIf
  | with_reducible apply map
  | with_reducible exact regexN (by simp [Script.regexes])
  | with_reducible exact regex (by simp [Script.regexes])
  | exact node rfl)

theorem repeatSpecifier : UsesRx u (Script.repeatSpecifier u) := by
  unfold Script.repeatSpecifier Script.repeatRange Script.repeatZeroOrMore Script.repeatOneOrMore Script.ws0
  rwalk

theorem matcher : UsesRx u Script.matcher := by
  unfold Script.matcher Script.regexMatcher Script.equalsMatcher Script.sequenceMatcher Script.customMatcher
    Script.identifier Script.string
  rwalk

theorem attributes : UsesRx u (Script.attributes u) := by
  unfold Script.attributes Script.attribute_ Script.ws0 Script.wsn0 Script.string
  rwalk

theorem patternDefinition : UsesRx u (Script.patternDefinition u) := by
  have h1 := matcher (u := u)
  have h2 := attributes (u := u)
  have h3 := repeatSpecifier (u := u)
  unfold Script.patternDefinition Script.wsn0
  rwalk

theorem pattern : UsesRx u (Script.pattern u) := by
  have h1 := patternDefinition (u := u)
  unfold Script.pattern Script.matcherName Script.wsn0 Script.string
  rwalk

theorem programMatcher : UsesRx u (Script.programMatcher u) := by
  have h1 := pattern (u := u)
  unfold Script.programMatcher Script.wsn0
  rwalk

theorem switchMatcher : UsesRx u (Script.switchMatcher u) := by
  have h1 := pattern (u := u)
  unfold Script.switchMatcher Script.wsn0
  rwalk

theorem script : UsesRx u (Script.script u) := by
  have h1 := pattern (u := u)
  have h2 := patternDefinition (u := u)
  have h3 := attributes (u := u)
  have h4 : UsesRx u (do B.mk (.pin (some (← B.equals "-->")) (.str []) "Pin".toList false)) :=
    bind (node rfl) fun _ => node rfl
  unfold Script.script Script.adextopaScope Script.patternScope Script.importStatement Script.assignmentExpression
    Script.ws0 Script.wsn0 Script.comment Script.identifier Script.string
  rwalk

end UsesRx

end

/-! ### What the regular expressions of the grammar find -/

section

attribute [local irreducible] Script.switchMatcher Script.programMatcher Script.script

theorem Script.regexes_source {u : Uni} : ∀ re ∈ Script.regexes u, ∃ n t, (n, t) ∈ sourcePatterns ∧
    re.1 = n.toList ∧ re.2.pattern = t.toList := by
  intro re h
  have he : (Script.regexes u).map (fun re => (re.1, re.2.pattern)) =
    sourcePatterns.map fun p => (p.1.toList, p.2.toList) := rfl
  have := List.mem_map_of_mem (f := fun re => (re.1, re.2.pattern)) h
  rw [he] at this
  obtain ⟨⟨n, t⟩, h1, h2⟩ := List.mem_map.mp this
  obtain ⟨h3, h4⟩ := Prod.mk.inj h2
  exact ⟨n, t, h1, h3.symm, h4.symm⟩

/-- C66: every regular expression of the grammar of scripts is one of the source, with the
name it has there, and finds what its text says: the leftmost match, with the first alternative that matches, in which each
repetition takes as much as it can. -/
theorem C66_grammar (env : Env) (parser : Parser) (name : Str) (w : World) :
    ∃ ys, (setup env parser name w).nodes = w.nodes ++ ys ∧
      ∀ nd ∈ ys, ∀ name custom re, nd = .regex name custom re →
        (∃ n t, (n, t) ∈ sourcePatterns ∧ name = n.toList ∧ re.pattern = t.toList) ∧ re.Faithful env.uni := by
  obtain ⟨-, y1, h1, g1⟩ := UsesRx.switchMatcher (u := env.uni) w.nodes (Nat.zero_le _)
  obtain ⟨-, y2, h2, g2⟩ := UsesRx.programMatcher (u := env.uni) ((Script.switchMatcher env.uni).run w.nodes).2 (Nat.zero_le _)
  obtain ⟨-, y3, h3, g3⟩ := UsesRx.script (u := env.uni)
    ((Script.programMatcher env.uni).run ((Script.switchMatcher env.uni).run w.nodes).2).2 (Nat.zero_le _)
  refine ⟨y1 ++ (y2 ++ y3), ?_, ?_⟩
  · show ((Script.script env.uni).run _).2 = _
    rw [h3, h2, h1]
    simp
  · intro nd hnd name custom re hn
    have hr : nd.regex? = some (name, re) := by rw [hn]; rfl
    have hin : (name, re) ∈ Script.regexes env.uni := by
      rcases List.mem_append.mp hnd with h | h
      · exact g1 nd h _ hr
      · rcases List.mem_append.mp h with h | h
        · exact g2 nd h _ hr
        · exact g3 nd h _ hr
    exact ⟨Script.regexes_source _ hin, Script.regexes_true _ hin⟩

end

theorem blen_zero {s : Str} (h : 0 = blen s) : s = [] := by
  cases s with
  | nil => rfl
  | cons c s =>
    have := c.utf8Size_pos
    simp [blen] at h
    omega

/-- A character and as many others as there are. -/
theorem found_word {u : Uni} {x y : Cls} {p q : Char → Bool} (hp : Decides u p x) (hq : Decides u q y)
    {re : Regex} (hre : ∀ s a b, re.find s = some (a, b) ↔ RxFound u [[(x, .once), (y, .star)]] s a b) (s : Str) (b : Nat) :
    re.find s = some (0, b) ↔ ∃ c t rest, s = c :: t ++ rest ∧ p c = true ∧ (∀ d ∈ t, q d = true) ∧
      (∀ d ∈ rest.head?, q d = false) ∧ b = blen (c :: t) := by
  rw [hre]
  have hb : ∀ s : Str, RxBegins u [] s s := fun _ => .nil
  constructor
  · rintro ⟨pre, mid, rest, rfl, h0, rfl, ⟨before, is, after, he, -, hpr⟩, -⟩
    obtain rfl := blen_zero h0
    cases before with
    | cons _ before => cases before <;> simp at he
    | nil =>
      obtain ⟨rfl, rfl⟩ : is = [(x, .once), (y, .star)] ∧ after = [] := by simpa [eq_comm] using he
      generalize hg : mid ++ rest = g at hpr
      cases hpr with
      | @once _ _ c s' _ hc h =>
        cases h with
        | @star _ _ t s'' _ ht h hm =>
          cases h
          have : mid = c :: t := List.append_cancel_right (by rw [hg]; rfl)
          subst this
          refine ⟨c, t, rest, rfl, (hp c).mpr hc, fun d hd => (hq d).mpr (ht d hd), ?_, by simp [blen]⟩
          intro d hd
          cases rest with
          | nil => cases hd
          | cons e rest =>
            cases hd
            cases hqd : q d with
            | false => rfl
            | true =>
              refine absurd (hb rest) (hm (t ++ [d]) rest (by simp) (by simp) ?_ rest)
              intro e he
              rcases List.mem_append.mp he with he | he
              · exact ht e he
              · rw [List.mem_singleton.mp he]
                exact (hq d).mp hqd
  · rintro ⟨c, t, rest, rfl, hc, ht, hr, rfl⟩
    refine ⟨[], c :: t, rest, rfl, rfl, by simp [blen], ⟨[], _, [], rfl, by simp, ?_⟩, fun _ _ _ h => nomatch h⟩
    refine .once ((hp c).mp hc) (.star (fun d hd => (hq d).mp (ht d hd)) .nil ?_)
    intro t' s' he hl ht' r' _
    -- the next character is not in the set
    have : t <+: t' := List.prefix_of_prefix_length_le ⟨rest, rfl⟩ ⟨s', he.symm⟩ (Nat.le_of_lt hl)
    obtain ⟨v, rfl⟩ := this
    cases v with
    | nil => simp at hl
    | cons e v =>
      rw [List.append_assoc] at he
      have he := List.append_cancel_left he
      subst he
      have h1 := hr e rfl
      have h2 := (hq e).mpr (ht' e (by simp))
      rw [h1] at h2
      cases h2

/-- C66: a comment is a `#` and all that follows it on its line. -/
theorem C66_comment (s : Str) (b : Nat) :
    Script.rxComment.find s = some (0, b) ↔ ∃ t rest, s = '#' :: t ++ rest ∧ ('\r' ∉ t ∧ '\n' ∉ t) ∧
      (rest.head? = none ∨ rest.head? = some '\r' ∨ rest.head? = some '\n') ∧ b = 1 + blen t := by
  have h1 : Decides Uni.ascii (fun c => c == '#') (.lit '#') := by decides
  have h2 : Decides Uni.ascii (fun c => c != '\r' && c != '\n') (.not (.any [.lit '\r', .lit '\n'])) := by decides
  have := found_word h1 h2 (re := Script.rxComment) (find_text (.cons (.once h1 (.star h2 .nil)) .nil)) s b
  rw [this]
  constructor
  · rintro ⟨c, t, rest, rfl, hc, ht, hr, rfl⟩
    obtain rfl : c = '#' := by simpa using hc
    refine ⟨t, rest, rfl, ⟨fun h => ?_, fun h => ?_⟩, ?_, by simp [blen]; rfl⟩
    · simpa using ht _ h
    · simpa using ht _ h
    · cases rest with
      | nil => exact .inl rfl
      | cons d rest =>
        have := hr d rfl
        simp only [Bool.and_eq_false_iff, bne_eq_false_iff_eq] at this
        rcases this with rfl | rfl
        · exact .inr (.inl rfl)
        · exact .inr (.inr rfl)
  · rintro ⟨t, rest, rfl, ht, hr, rfl⟩
    refine ⟨'#', t, rest, rfl, by simp, ?_, ?_, by simp [blen]; rfl⟩
    · intro d hd
      simp only [Bool.and_eq_true, bne_iff_ne]
      exact ⟨fun h => ht.1 (h ▸ hd), fun h => ht.2 (h ▸ hd)⟩
    · intro d hd
      rcases hr with hr | hr | hr <;> rw [hr] at hd <;> cases hd <;> rfl

/-- Two tests agree on all characters if they do on ASCII and fail for all others. -/
theorem same_ascii {p q : Char → Bool} (h : ∀ n < 128, p (Char.ofNat n) = q (Char.ofNat n))
    (hp : ∀ c, p c = true → c.toNat < 128) (hq : ∀ c, q c = true → c.toNat < 128) (c : Char) : p c = q c := by
  by_cases hc : c.toNat < 128
  · have := h _ hc
    rwa [Char.ofNat_toNat] at this
  · rw [Bool.eq_false_iff.mpr (fun h => hc (hp c h)), Bool.eq_false_iff.mpr (fun h => hc (hq c h))]

theorem alpha_ascii {c : Char} (h : c.isAlpha = true) : c.toNat < 128 := by
  simp only [Char.isAlpha, Char.isUpper, Char.isLower, Bool.or_eq_true, Bool.and_eq_true, decide_eq_true_eq] at h
  show c.val.toNat < 128
  rcases h with ⟨_, h⟩ | ⟨_, h⟩
  · exact Nat.lt_of_le_of_lt (UInt32.le_iff_toNat_le.mp h) (by decide)
  · exact Nat.lt_of_le_of_lt (UInt32.le_iff_toNat_le.mp h) (by decide)

theorem digit_ascii {c : Char} (h : c.isDigit = true) : c.toNat < 128 := by
  simp only [Char.isDigit, Bool.and_eq_true, decide_eq_true_eq] at h
  exact Nat.lt_of_le_of_lt (UInt32.le_iff_toNat_le.mp h.2) (by decide)

theorem letter_iff (c : Char) : (c.isAlpha || c == '$' || c == '_') =
    "abcdefghijklmnopqrstuvwxyzABCDEFGHIJKLMNOPQRSTUVWXYZ$_".toList.contains c := by
  refine same_ascii (p := fun c => c.isAlpha || c == '$' || c == '_') (q := fun c =>
    "abcdefghijklmnopqrstuvwxyzABCDEFGHIJKLMNOPQRSTUVWXYZ$_".toList.contains c) (by decide +kernel) ?_ ?_ c
  · intro c h
    simp only [Bool.or_eq_true, beq_iff_eq] at h
    rcases h with (h | rfl) | rfl
    · exact alpha_ascii h
    · decide
    · decide
  · intro c h
    have : ∀ d ∈ "abcdefghijklmnopqrstuvwxyzABCDEFGHIJKLMNOPQRSTUVWXYZ$_".toList, d.toNat < 128 := by decide +kernel
    exact this c (by simpa using h)

theorem letterOrDigit_iff (c : Char) : (c.isAlpha || c.isDigit || c == '$' || c == '_') =
    "abcdefghijklmnopqrstuvwxyzABCDEFGHIJKLMNOPQRSTUVWXYZ0123456789$_".toList.contains c := by
  refine same_ascii (p := fun c => c.isAlpha || c.isDigit || c == '$' || c == '_') (q := fun c =>
    "abcdefghijklmnopqrstuvwxyzABCDEFGHIJKLMNOPQRSTUVWXYZ0123456789$_".toList.contains c) (by decide +kernel) ?_ ?_ c
  · intro c h
    simp only [Bool.or_eq_true, beq_iff_eq] at h
    rcases h with ((h | h) | rfl) | rfl
    · exact alpha_ascii h
    · exact digit_ascii h
    · decide
    · decide
  · intro c h
    have : ∀ d ∈ "abcdefghijklmnopqrstuvwxyzABCDEFGHIJKLMNOPQRSTUVWXYZ0123456789$_".toList, d.toNat < 128 := by
      decide +kernel
    exact this c (by simpa using h)

/-- C66: an identifier begins with a letter of the alphabet, `$` or `_`, and goes on as long
as there are these or digits. -/
theorem C66_identifier (s : Str) (b : Nat) :
    Script.rxIdentifier.find s = some (0, b) ↔ ∃ c t rest, s = c :: t ++ rest ∧ b = blen (c :: t) ∧
      c ∈ "abcdefghijklmnopqrstuvwxyzABCDEFGHIJKLMNOPQRSTUVWXYZ$_".toList ∧
      (∀ d ∈ t, d ∈ "abcdefghijklmnopqrstuvwxyzABCDEFGHIJKLMNOPQRSTUVWXYZ0123456789$_".toList) ∧
      ∀ d ∈ rest.head?, d ∉ "abcdefghijklmnopqrstuvwxyzABCDEFGHIJKLMNOPQRSTUVWXYZ0123456789$_".toList := by
  have h1 : Decides Uni.ascii (fun c => c.isAlpha || c == '$' || c == '_')
      (.any [.range 'a' 'z', .range 'A' 'Z', .lit '$', .lit '_']) := by decides; grind
  have h2 : Decides Uni.ascii (fun c => c.isAlpha || c.isDigit || c == '$' || c == '_')
      (.any [.range 'a' 'z', .range 'A' 'Z', .range '0' '9', .lit '$', .lit '_']) := by decides; grind
  have := found_word h1 h2 (re := Script.rxIdentifier) (find_text (.cons (.once h1 (.star h2 .nil)) .nil)) s b
  rw [this]
  simp only [letter_iff, letterOrDigit_iff, List.contains_iff_mem, ← Bool.not_eq_true]
  constructor
  · rintro ⟨c, t, rest, g1, g2, g3, g4, g5⟩
    exact ⟨c, t, rest, g1, g5, g2, g3, g4⟩
  · rintro ⟨c, t, rest, g1, g5, g2, g3, g4⟩
    exact ⟨c, t, rest, g1, g2, g3, g4, g5⟩

/-! ### Examples -/

namespace RegexTextExample

/-- What is found. -/
example : Script.rxComment.find "#a\nb".toList = some (0, 2) ∧ Script.rxIdentifier.find "a1-b".toList = some (0, 2) ∧
    Script.rxIdentifier.find "1a".toList = some (1, 2) ∧ Script.rxAs.find " as  b".toList = some (0, 5) ∧
    Script.rxBothModifiers.find "x!?".toList = some (1, 3) := by decide +kernel

/-- The texts are read as they should be. -/
example : RxText.read 99 "a|[^b-d\\s]+.*".toList =
    some [[(.lit 'a', .once)], [(.not (.any [.range 'b' 'd', .space]), .plus), (.dot, .star)]] := rfl

/-- Other syntax is not read. -/
example : RxText.read 99 "(a)".toList = none ∧ RxText.read 99 "a?".toList = none := ⟨rfl, rfl⟩

/-- The grammar has regular expressions. -/
example : ((Script.attributes Uni.ascii).run []).2.filterMap (fun nd => nd.regex?.map fun re => re.2.pattern) =
    ["[\\w+_]+", "[^\\S\\n\\r]*", "[^\\S\\n\\r]*", "[^'\\s]+", "_[\\w+_]+", "\\s*"].map String.toList := by
  decide +kernel

end RegexTextExample

end Adx
