import Verif.Proofs.ScriptParts
/-
  The parts of pattern definitions that do not contain definitions themselves.
-/
namespace Adx.Read

open Syntax (Munch Gap Blanks Identifier Number Quoted Comment Comma Repeat Attr AttrList)
open B

/-! ### The builders of the grammar only add -/

instance : Adds Script.ws0 := by unfold Script.ws0; infer_instance
instance : Adds Script.wsn0 := by unfold Script.wsn0; infer_instance
instance {n : String} : Adds (Script.identifier n) := by unfold Script.identifier; infer_instance
instance {n : String} : Adds (Script.string n) := by unfold Script.string; infer_instance
instance : Adds Script.comment := by unfold Script.comment; infer_instance
instance : Adds Script.repeatZeroOrMore := by unfold Script.repeatZeroOrMore; infer_instance
instance : Adds Script.repeatOneOrMore := by unfold Script.repeatOneOrMore; infer_instance
instance {u : Uni} : Adds (Script.repeatRange u) := by unfold Script.repeatRange; infer_instance
instance {u : Uni} : Adds (Script.repeatSpecifier u) := by unfold Script.repeatSpecifier; infer_instance
instance : Adds Script.equalsMatcher := by unfold Script.equalsMatcher; infer_instance
instance : Adds Script.customMatcher := by unfold Script.customMatcher; infer_instance
instance : Adds Script.matcherName := by unfold Script.matcherName; infer_instance
instance : Adds Script.sequenceMatcher := by unfold Script.sequenceMatcher; infer_instance
instance : Adds Script.regexMatcher := by unfold Script.regexMatcher; infer_instance
instance : Adds Script.matcher := by unfold Script.matcher; infer_instance
instance {u : Uni} : Adds (Script.attribute_ u) := by unfold Script.attribute_; infer_instance
instance {u : Uni} : Adds (Script.attributes u) := by unfold Script.attributes; infer_instance
instance {u : Uni} : Adds (Script.patternDefinition u) := by unfold Script.patternDefinition; infer_instance
instance {u : Uni} : Adds (Script.pattern u) := by unfold Script.pattern; infer_instance
instance {u : Uni} : Adds (Script.programMatcher u) := by unfold Script.programMatcher; infer_instance
instance {u : Uni} : Adds (Script.switchMatcher u) := by unfold Script.switchMatcher; infer_instance
instance {u : Uni} : Adds (Script.patternScope u) := by unfold Script.patternScope; infer_instance
instance {u : Uni} : Adds (Script.assignmentExpression u) := by unfold Script.assignmentExpression; infer_instance
instance : Adds Script.importStatement := by unfold Script.importStatement; infer_instance
instance {u : Uni} : Adds (Script.adextopaScope u) := by unfold Script.adextopaScope; infer_instance
instance {u : Uni} : Adds (Script.script u) := by unfold Script.script; infer_instance

/-- In every heap with the tree, its token is as `Q` says. -/
def Desc (E : Setting) (t : Tr) (Q : List Token → TokId → Prop) : Prop :=
  ∀ toks lo i, Reps E toks lo [i] [t] → Q toks i

theorem adv {w w' : Str} (h : w' <:+ w) (c : Char) : w' <:+ c :: w := h.trans (List.suffix_cons ..)

section
variable {E : Setting} {K K' : Option Nat} {w w' rest : Str} {uni : Uni}

/-! ### Suffixes -/

theorem _root_.Adx.Syntax.Identifier.suffix {n : Str} (h : Identifier w n rest) : rest <:+ w := h.munch.suffix

theorem _root_.Adx.Syntax.Number.suffix {n : Nat} (h : Number w n rest) : rest <:+ w := by
  obtain ⟨ds, h, -⟩ := h
  exact h.suffix

theorem _root_.Adx.Syntax.Comma.suffix (h : Comma w rest) : rest <:+ w := by
  obtain ⟨w1, h1, h2⟩ := h
  exact (adv h2.suffix _).trans h1.suffix

theorem _root_.Adx.Syntax.Repeat.suffix {r : Option (Nat × Nat)} (h : Repeat w r rest) : rest <:+ w := by
  cases h with
  | once => exact List.suffix_refl _
  | any => exact List.suffix_cons ..
  | some => exact List.suffix_cons ..
  | upTo h1 h2 h3 => exact adv ((((List.suffix_cons _ _).trans h3.suffix).trans h2.suffix).trans h1.suffix) _
  | atLeast h1 h2 h3 h4 =>
    exact adv (((((List.suffix_cons _ _).trans (adv h4.suffix _)).trans h3.suffix).trans h2.suffix).trans h1.suffix) _
  | between h1 h2 h3 h4 h5 h6 =>
    exact adv ((((adv (((((List.suffix_cons _ _).trans h6.suffix).trans h5.suffix).trans h4.suffix)) _).trans h3.suffix).trans
      h2.suffix).trans h1.suffix) _

/-! ### Repeats -/

theorem Desc.number {n : Nat} {name : String} {ds : Str} (hw : E.Has w) (hs : w = ds ++ rest) (hp : parseUsize ds = some n) :
    Desc E (leafT E name.toList w rest) fun toks i => ∃ k, toks[i]? = some k ∧ parseUsize k.getCapturedValue = some n := by
  intro toks lo i h
  obtain ⟨k, h1, -, -, h2⟩ := h.leaf
  subst hs
  exact ⟨k, h1, by rw [h2, hw.range, hp]⟩

theorem digit_close {ds : Str} : ∀ c, ('}' :: ds).head? = some c → Char.isDigit c = false := by
  intro c h
  cases h
  rfl

theorem reads_number_fail {name : String} (h : ∀ c, w.head? = some c → Char.isDigit c = false) (hn : Free name) :
    BReads E K K (B.regexN name (Script.rxDigits uni)) w .fail :=
  reads_plus_fail h (fun c hc => uni.digit_ascii c hc) hn

theorem head_ne {c d : Char} (h : c ≠ d) : (c :: w).head? ≠ some d := by
  intro hh
  cases hh
  exact h rfl

/-- `{..}` -/
theorem reads_range {r : Option (Nat × Nat)} (h : Repeat ('{' :: w) r rest) (hw : E.Has ('{' :: w)) :
    ∃ lo hi ts, r = some (lo, hi) ∧
      BReads E K K (Script.repeatRange uni) ('{' :: w) (.tok rest (nodeT E "RepeatRange".toList ('{' :: w) rest ts)) ∧
      (∀ t ∈ ts, Quiet t) ∧
      Desc E (nodeT E "RepeatRange".toList ('{' :: w) rest ts) fun toks i => Repeats toks i lo hi := by
  have hsfx := h.suffix
  cases h with
  | once h => exact absurd rfl (h '{' rfl).2.2
  | @upTo _ w1 w2 _ n h1 h2 h3 =>
    have hw1 : E.Has w1 := hw.tail (adv h1.suffix _)
    obtain ⟨ds, hs, hp, hr⟩ := reads_number (E := E) (K := K) (uni := uni) (name := "Minimum") h2 (by decide)
    refine ⟨0, n, [leafT E "Minimum".toList w1 w2], rfl, ?_, ?_, ?_⟩
    · refine Parts.programN ?_ (by simp) hsfx
      exact .past (reads_char) <| .past (reads_blanks h1) <| .tok hr <| .past (reads_blanks h3) <|
        .past (.optional (.equalsN_fail (l := [',']) (head_prefix (head_ne (by decide))))) <| .past (reads_blanks h3.again) <|
        .past (.optional (reads_number_fail digit_close (by decide))) <| .past (reads_blanks h3.again) <|
        .past reads_char .nil
    · intro t ht
      rw [List.mem_singleton.mp ht]
      exact quiet_leaf
    · intro toks lo i h
      obtain ⟨k, hk, -, hn, hc, -⟩ := h.node
      obtain ⟨a, h4, h5⟩ := hc.first (pre := []) (t := leafT E "Minimum".toList w1 w2) (names := ["Minimum"])
        (fun _ h => by cases h) ⟨_, List.mem_cons_self .., rfl⟩
      obtain ⟨ak, h6, h7⟩ := Desc.number hw1 hs hp _ _ _ h5
      refine .upTo hk hn h4 h6 (hc.absent ?_) h7
      intro t ht n hn
      rw [List.mem_singleton.mp ht, List.mem_singleton.mp hn]
      exact toList_ne (by decide)
  | @atLeast _ w1 w2 w3 _ n h1 h2 h3 h4 =>
    have hw1 : E.Has w1 := hw.tail (adv h1.suffix _)
    obtain ⟨ds, hs, hp, hr⟩ := reads_number (E := E) (K := K) (uni := uni) (name := "Minimum") h2 (by decide)
    refine ⟨n, usizeMax, [leafT E "Minimum".toList w1 w2, leafT E "Seperator".toList (',' :: w3) w3], rfl, ?_, ?_, ?_⟩
    · refine Parts.programN ?_ (by simp) hsfx
      exact .past (reads_char) <| .past (reads_blanks h1) <| .tok hr <| .past (reads_blanks h3) <|
        .tok (.optional (.equalsN (l := [',']))) <| .past (reads_blanks h4) <|
        .past (.optional (reads_number_fail digit_close (by decide))) <| .past (reads_blanks h4.again) <|
        .past reads_char .nil
    · intro t ht
      simp only [List.mem_cons, List.not_mem_nil, or_false] at ht
      rcases ht with rfl | rfl <;> exact quiet_leaf
    · intro toks lo i h
      obtain ⟨k, hk, -, hn, hc, -⟩ := h.node
      obtain ⟨a, h5, h6⟩ := hc.first (pre := []) (t := leafT E "Minimum".toList w1 w2) (names := ["Minimum"])
        (fun _ h => by cases h) ⟨_, List.mem_cons_self .., rfl⟩
      obtain ⟨ak, h7, h8⟩ := Desc.number hw1 hs hp _ _ _ h6
      obtain ⟨b, h9, -⟩ := hc.first (pre := [leafT E "Minimum".toList w1 w2]) (names := ["Seperator"])
        (fun t ht n hn => by
          rw [List.mem_singleton.mp ht, List.mem_singleton.mp hn]
          exact toList_ne (by decide)) ⟨_, List.mem_cons_self .., rfl⟩
      refine .atLeast hk hn h5 h7 (First.present h9) (hc.absent ?_) h8
      intro t ht n hn
      simp only [List.mem_cons, List.not_mem_nil, or_false] at ht
      rw [List.mem_singleton.mp hn]
      rcases ht with rfl | rfl <;> exact toList_ne (by decide)
  | @between _ w1 w2 w3 w4 w5 _ n m h1 h2 h3 h4 h5 h6 hle =>
    have hw1 : E.Has w1 := hw.tail (adv h1.suffix _)
    have hw4 : E.Has w4 := hw1.tail ((adv h4.suffix _).trans (h3.suffix.trans h2.suffix))
    obtain ⟨ds, hs, hp, hr⟩ := reads_number (E := E) (K := K) (uni := uni) (name := "Minimum") h2 (by decide)
    obtain ⟨ds', hs', hp', hr'⟩ := reads_number (E := E) (K := K) (uni := uni) (name := "Maximum") h5 (by decide)
    refine ⟨n, m, [leafT E "Minimum".toList w1 w2, leafT E "Seperator".toList (',' :: w3) w3, leafT E "Maximum".toList w4 w5], rfl, ?_, ?_, ?_⟩
    · refine Parts.programN ?_ (by simp) hsfx
      exact .past (reads_char) <| .past (reads_blanks h1) <| .tok hr <| .past (reads_blanks h3) <|
        .tok (.optional (.equalsN (l := [',']))) <| .past (reads_blanks h4) <|
        .tok (.optional hr') <| .past (reads_blanks h6) <|
        .past reads_char .nil
    · intro t ht
      simp only [List.mem_cons, List.not_mem_nil, or_false] at ht
      rcases ht with rfl | rfl | rfl <;> exact quiet_leaf
    · intro toks lo i h
      obtain ⟨k, hk, -, hn, hc, -⟩ := h.node
      obtain ⟨a, h7, h8⟩ := hc.first (pre := []) (t := leafT E "Minimum".toList w1 w2) (names := ["Minimum"])
        (fun _ h => by cases h) ⟨_, List.mem_cons_self .., rfl⟩
      obtain ⟨ak, h9, h10⟩ := Desc.number hw1 hs hp _ _ _ h8
      obtain ⟨b, h11, -⟩ := hc.first (pre := [leafT E "Minimum".toList w1 w2]) (names := ["Seperator"])
        (fun t ht n hn => by
          rw [List.mem_singleton.mp ht, List.mem_singleton.mp hn]
          exact toList_ne (by decide)) ⟨_, List.mem_cons_self .., rfl⟩
      obtain ⟨d, h12, h13⟩ := hc.first (pre := [leafT E "Minimum".toList w1 w2, leafT E "Seperator".toList (',' :: w3) w3]) (names := ["Maximum"])
        (fun t ht n hn => by
          simp only [List.mem_cons, List.not_mem_nil, or_false] at ht
          rw [List.mem_singleton.mp hn]
          rcases ht with rfl | rfl <;> exact toList_ne (by decide)) ⟨_, List.mem_cons_self .., rfl⟩
      obtain ⟨dk, h14, h15⟩ := Desc.number hw4 hs' hp' _ _ _ h13
      exact .between hk hn h7 h9 (First.present h11) h12 h14 h10 h15 hle

/-- A repeat specifier. -/
theorem reads_repeat {r : Option (Nat × Nat)} (h : Repeat w r rest) (hw : E.Has w) :
    (r = none ∧ rest = w ∧ BReads E K K (optional (Script.repeatSpecifier uni)) w (.past w)) ∨
    ∃ lo hi t, r = some (lo, hi) ∧ BReads E K K (optional (Script.repeatSpecifier uni)) w (.tok rest t) ∧ Quiet t ∧
      (∃ n ∈ repeatSpecifierNames, t.name = n.toList) ∧ Desc E t fun toks i => Repeats toks i lo hi := by
  have hrange : ∀ {w' : Str}, w = '{' :: w' → ∃ lo hi t, r = some (lo, hi) ∧
      BReads E K K (optional (Script.repeatSpecifier uni)) w (.tok rest t) ∧ Quiet t ∧
      (∃ n ∈ repeatSpecifierNames, t.name = n.toList) ∧ Desc E t fun toks i => Repeats toks i lo hi := by
    rintro w' rfl
    obtain ⟨lo, hi, ts, rfl, h1, h2, h3⟩ := reads_range (K := K) (uni := uni) h hw
    refine ⟨lo, hi, _, rfl, .optional (g := .tok _ _) (.switchN ?_), quiet_node h2, ⟨"RepeatRange", by decide, rfl⟩, h3⟩
    exact .next (.equalsN_fail (l := ['*']) (head_prefix (head_ne (by decide)))) <|
      .next (.equalsN_fail (l := ['+']) (head_prefix (head_ne (by decide)))) <| .here h1 trivial
  cases h with
  | once h =>
    refine Or.inl ⟨rfl, rfl, ?_⟩
    have ne : ∀ d, (d = '*' ∨ d = '+' ∨ d = '{') → w.head? ≠ some d := by
      intro d hd hh
      obtain ⟨h1, h2, h3⟩ := h d hh
      rcases hd with rfl | rfl | rfl
      · exact h1 rfl
      · exact h2 rfl
      · exact h3 rfl
    refine .optional (g := .fail) (.switchN ?_)
    exact .next (.equalsN_fail (l := ['*']) (head_prefix (ne _ (by simp)))) <|
      .next (.equalsN_fail (l := ['+']) (head_prefix (ne _ (by simp)))) <|
      .next (.programN (.fail (reads_char_fail (ne '{' (by simp)))) .fails) .nil
  | any =>
    refine Or.inr ⟨_, _, leafT E "RepeatZeroOrMore".toList ('*' :: rest) rest, rfl, .optional (g := .tok _ _) (.switchN ?_), quiet_leaf,
      ⟨"RepeatZeroOrMore", by decide, rfl⟩, ?_⟩
    · exact .here (.equalsN (l := ['*'])) trivial
    · intro toks lo i h
      obtain ⟨k, h1, h2, -⟩ := h.leaf
      exact .any h1 h2
  | some =>
    refine Or.inr ⟨_, _, leafT E "RepeatOneOrMore".toList ('+' :: rest) rest, rfl, .optional (g := .tok _ _) (.switchN ?_), quiet_leaf,
      ⟨"RepeatOneOrMore", by decide, rfl⟩, ?_⟩
    · exact .next (.equalsN_fail (l := ['*']) (head_prefix (head_ne (by decide)))) <| .here (.equalsN (l := ['+'])) trivial
    · intro toks lo i h
      obtain ⟨k, h1, h2, -⟩ := h.leaf
      exact .some h1 h2
  | upTo => exact Or.inr (hrange rfl)
  | atLeast => exact Or.inr (hrange rfl)
  | between => exact Or.inr (hrange rfl)

/-! ### Simple matchers -/

theorem reads_equalsMatcher {env : Env} {raw val : Str} (h : Quoted w raw val rest) (hv : val ≠ []) :
    ∃ ts, BReads E K K Script.equalsMatcher ('=' :: w) (.tok rest (nodeT E "EqualsMatcher".toList ('=' :: w) rest ts)) ∧
      (∀ t ∈ ts, Quiet t) ∧ Desc E (nodeT E "EqualsMatcher".toList ('=' :: w) rest ts) fun toks i =>
        DescribesMatcher env toks i (.equals "Equals".toList false val) := by
  obtain ⟨w1, hw1, -, hr⟩ := reads_string (E := E) (K := K) (name := "String") h (by decide)
  refine ⟨[_], Parts.programN (.past reads_char <| .tok hr .nil) (by simp) (adv h.suffix _), ?_, ?_⟩
  · intro t ht
    rw [List.mem_singleton.mp ht]
    exact quiet_delim
  · intro toks lo i hi
    obtain ⟨k, hk, -, hn, hc, -⟩ := hi.node
    obtain ⟨j, h1, h2⟩ := hc.get (j := 0) rfl
    obtain ⟨ck, h3, -, h4, -⟩ := h2.delim
    have := DescribesMatcher.equals (env := env) hk hn h1 h3 (by rw [h4]; exact hv)
    rwa [h4] at this

theorem reads_customMatcher {env : Env} {n : Str} (h : Identifier w n rest) (hw : E.Has w) :
    ∃ ts, BReads E K K Script.customMatcher w (.tok rest (nodeT E "CustomMatcher".toList w rest ts)) ∧
      (∀ t ∈ ts, Quiet t) ∧ Desc E (nodeT E "CustomMatcher".toList w rest ts) fun toks i =>
        DescribesMatcher env toks i (.ref "Ref".toList false n) := by
  refine ⟨[_], Parts.programN (.tok (reads_identifier (name := "Identifier") h (by decide)) .nil) (by simp) h.suffix, ?_, ?_⟩
  · intro t ht
    rw [List.mem_singleton.mp ht]
    exact quiet_leaf
  · intro toks lo i hi
    obtain ⟨k, hk, -, hn, hc, -⟩ := hi.node
    obtain ⟨j, h1, h2⟩ := hc.get (j := 0) rfl
    obtain ⟨ck, h3, -, h4, -⟩ := h2.leaf
    have hs := h.munch.split
    have hv : ck.getValue = n := by
      rw [h4]
      subst hs
      exact hw.range
    have := DescribesMatcher.custom (env := env) hk hn h1 h3 (by rw [hv]; exact h.ne)
    rwa [hv] at this

theorem reads_sequenceMatcher {env : Env} {w1 raw1 a w2 w3 raw2 b w4 w5 raw3 e : Str} (h1 : Gap w w1) (h2 : Quoted w1 raw1 a w2) (h3 : Comma w2 w3)
    (h4 : Quoted w3 raw2 b w4) (h5 : Comma w4 w5) (h6 : Quoted w5 raw3 e rest) (ha : a ≠ []) (hb : b ≠ []) :
    ∃ ts, BReads E K K Script.sequenceMatcher ('%' :: w) (.tok rest (nodeT E "SequenceMatcher".toList ('%' :: w) rest ts)) ∧
      (∀ t ∈ ts, Quiet t) ∧ Desc E (nodeT E "SequenceMatcher".toList ('%' :: w) rest ts) fun toks i =>
        DescribesMatcher env toks i (.sequence "Sequence".toList false a b e) := by
  obtain ⟨x1, -, -, r1⟩ := reads_string (E := E) (K := K) (name := "StartPattern") h2 (by decide)
  obtain ⟨x2, -, -, r2⟩ := reads_string (E := E) (K := K) (name := "EndPattern") h4 (by decide)
  obtain ⟨x3, -, -, r3⟩ := reads_string (E := E) (K := K) (name := "EscapePattern") h6 (by decide)
  refine ⟨[_, _, _], Parts.programN (.past (reads_percent h1) <| .tok r1 <| .past (reads_comma h3) <| .tok r2 <|
    .past (reads_comma h5) <| .tok r3 .nil) (by simp) ?_, ?_, ?_⟩
  · exact adv (h6.suffix.trans <| h5.suffix.trans <| h4.suffix.trans <| h3.suffix.trans <| h2.suffix.trans h1.suffix) _
  · intro t ht
    simp only [List.mem_cons, List.not_mem_nil, or_false] at ht
    rcases ht with rfl | rfl | rfl <;> exact quiet_delim
  · intro toks lo i hi
    obtain ⟨k, hk, -, hn, hc, -⟩ := hi.node
    obtain ⟨j1, a1, a2⟩ := hc.get (j := 0) rfl
    obtain ⟨j2, b1, b2⟩ := hc.get (j := 1) rfl
    obtain ⟨j3, c1, c2⟩ := hc.get (j := 2) rfl
    obtain ⟨ak, a3, -, a4, -⟩ := a2.delim
    obtain ⟨bk, b3, -, b4, -⟩ := b2.delim
    obtain ⟨ck, c3, -, c4, -⟩ := c2.delim
    have := DescribesMatcher.sequence (env := env) hk hn a1 a3 b1 b3 c1 c3 (by rw [a4]; exact ha) (by rw [b4]; exact hb)
    rwa [a4, b4, c4] at this

theorem reads_matcherName {raw val : Str} (h : Quoted w raw val rest) :
    ∃ t, BReads E K K Script.matcherName ('?' :: w) (.tok rest (nodeT E "MatcherName".toList ('?' :: w) rest [t])) ∧
      Quiet t ∧ t.name = "Name".toList := by
  obtain ⟨w1, hw1, -, hr⟩ := reads_string (E := E) (K := K) (name := "Name") h (by decide)
  exact ⟨_, Parts.programN (.past reads_char <| .tok hr .nil) (by simp) (adv h.suffix _), quiet_delim, rfl⟩

/-! ### Failures -/

theorem fails_regexMatcher (h : w.head? ≠ some '/') : BReads E K K Script.regexMatcher w .fail :=
  .map_fail (.programN (.fail (.equalsN_fail (l := ['/']) (head_prefix h))) .fails)

theorem fails_equalsMatcher (h : w.head? ≠ some '=') : BReads E K K Script.equalsMatcher w .fail :=
  .programN (.fail (reads_char_fail h)) .fails

theorem fails_sequenceMatcher (h : w.head? ≠ some '%') : BReads E K K Script.sequenceMatcher w .fail :=
  .programN (.fail (reads_percent_fail h)) .fails

theorem fails_customMatcher (h : ∀ c, w.head? = some c → Syntax.idStart c = false) : BReads E K K Script.customMatcher w .fail :=
  .programN (.fail (reads_identifier_fail h (by decide))) .fails

theorem fails_matcherName (h : w.head? ≠ some '?') : BReads E K K Script.matcherName w .fail :=
  .programN (.fail (reads_char_fail h)) .fails

/-! ### Attributes -/

theorem _root_.Adx.Syntax.AttrList.suffix {as : List Attr} (h : AttrList w as rest) : rest <:+ w := by
  induction h with
  | nil => exact List.suffix_refl _
  | cons h1 _ _ h4 h5 h6 h7 _ ih =>
    exact ih.trans (h7.suffix.trans (h6.suffix.trans ((adv h5.suffix _).trans (h4.suffix.trans h1.suffix))))

/-- The token of an attribute, its name and its value. -/
def AttrT (E : Setting) (t : Tr) (a : Attr) : Prop :=
  ∃ i n v, t = .node i [n, v] ∧ Quiet t ∧
    (Desc E n fun toks i => ∃ k, toks[i]? = some k ∧ k.getCapturedValue = a.name ∧ k.getValue = a.name) ∧
    (Desc E v fun toks i => ∃ k, toks[i]? = some k ∧ k.getCapturedValue = a.raw ∧ k.getValue = a.val)

theorem reads_attribute {n w1 w2 w3 raw val w4 : Str} (h1 : Munch Syntax.attrChar w n w1) (h2 : n ≠ [])
    (h3 : n.head? = some '_' → n = ['_']) (h4 : Blanks w1 ('=' :: w2)) (h5 : Blanks w2 w3) (h6 : Quoted w3 raw val w4) (hw : E.Has w) :
    ∃ t, BReads E none none (Script.attribute_ uni) w (.tok w4 t) ∧ AttrT E t ⟨n, raw, val⟩ := by
  have hw3 : E.Has w3 := hw.tail ((adv h5.suffix _).trans (h4.suffix.trans h1.suffix))
  obtain ⟨x1, e1, e2, r1⟩ := reads_string (E := E) (K := some (E.at_ w)) (name := "Value") h6 (by decide)
  refine ⟨nodeT E "Attribute".toList w w4 [leafT E "Name".toList w w1, delimT E "Value".toList w3 x1 ('\'' :: w4) w4 val], ?_, ?_⟩
  · refine Parts.programN ?_ (by simp) (h6.suffix.trans ((adv h5.suffix _).trans (h4.suffix.trans h1.suffix)))
    exact .pin .mark <| .tok (reads_plus h1 h2 (fun _ => attr_ascii) (by decide)) <| .past (reads_blanks h4) <|
      .past reads_char <| .past (reads_blanks h5) <| .past (reads_quote h6.head) <| .tok r1 <|
      .past (.forget (.look hw (reads_underscore h1 h3))) .nil
  · refine ⟨_, _, _, rfl, quiet_node ?_, ?_, ?_⟩
    · intro t ht
      simp only [List.mem_cons, List.not_mem_nil, or_false] at ht
      rcases ht with rfl | rfl
      · exact quiet_leaf
      · exact quiet_delim
    · intro toks lo i hi
      obtain ⟨k, hk, -, h7, h8⟩ := hi.leaf
      have hs := h1.split
      subst hs
      rw [hw.range] at h7 h8
      exact ⟨k, hk, h8, h7⟩
    · intro toks lo i hi
      obtain ⟨k, hk, -, h7, h8⟩ := hi.delim
      refine ⟨k, hk, ?_, h7⟩
      rw [h8, e2]
      rw [e1, e2] at hw3
      exact (hw3.tail (List.suffix_cons ..)).range

theorem fails_attribute (h : ∀ c, w.head? = some c → Syntax.attrChar c = false) :
    BReads E none none (Script.attribute_ uni) w .fail := by
  refine BReads.programN (xs := [_, _, _, _, _, _, _, _]) (o := .fails none (.start E w)) ?_ .fails
  refine Pass.cons (K1 := none) (g := .pin) (.forget .mark) (.fail ?_)
  exact reads_plus_fail h (fun _ => attr_ascii) (by decide)

/-- The tokens of attributes. -/
inductive AttrTs (E : Setting) : List Tr → List Attr → Prop
  | nil : AttrTs E [] []
  | cons {t : Tr} {ts : List Tr} {a : Attr} {as : List Attr} (h : AttrT E t a) (h' : AttrTs E ts as) : AttrTs E (t :: ts) (a :: as)

theorem AttrTs.quiet {ts : List Tr} {as : List Attr} (h : AttrTs E ts as) : ∀ t ∈ ts, Quiet t := by
  induction h with
  | nil => intro _ h; cases h
  | cons h _ ih =>
    intro t ht
    rcases List.mem_cons.mp ht with rfl | ht
    · obtain ⟨_, _, _, -, hq, -⟩ := h
      exact hq
    · exact ih t ht

theorem AttrTs.nil_iff {ts : List Tr} {as : List Attr} (h : AttrTs E ts as) : ts = [] ↔ as = [] := by
  cases h <;> simp

theorem blen_lt {w w' : Str} (h : w' <:+ w) (hn : w' ≠ w) : blen w' < blen w := suffix_lt h hn

theorem attr_rounds {as : List Attr} (h : AttrList w as rest) (hw : E.Has w) :
    ∀ (k : List Tr) (c : List Range) (l : Bool), ∃ ts, AttrTs E ts as ∧
      Rounds E [Script.attribute_ uni, Script.wsn0] none ⟨w, E.at_ w, k, c, l⟩ none
        ⟨rest, E.at_ rest, k ++ ts, c ++ ts.map Tr.captured, l⟩ ∧
      BReads E none none (Script.attribute_ uni) rest .fail := by
  induction h with
  | nil h =>
    intro k c l
    refine ⟨[], .nil, ?_, fails_attribute h⟩
    rw [List.map_nil, List.append_nil, List.append_nil]
    exact .zero
  | @cons w n w1 w2 w3 raw val w4 w5 rest as h1 h2 h3 h4 h5 h6 h7 h ih =>
    intro k c l
    obtain ⟨t, hr, ht⟩ := reads_attribute (uni := uni) h1 h2 h3 h4 h5 h6 hw
    have hs3 : w3 <:+ w1 := (adv h5.suffix _).trans h4.suffix
    have hs5 : w5 <:+ w := h7.suffix.trans (h6.suffix.trans (hs3.trans h1.suffix))
    have hlt : blen w5 < blen w := by
      have a1 := suffix_blen (h7.suffix.trans (h6.suffix.trans hs3))
      have a2 : blen w1 < blen w := by
        refine blen_lt h1.suffix fun he => ?_
        have := h1.split
        rw [he] at this
        have := congrArg List.length this
        rw [List.length_append] at this
        exact h2 (List.length_eq_zero_iff.mp (by omega))
      omega
    obtain ⟨ts, h8, h9, h10⟩ := ih (hw.tail hs5) (k ++ [t]) (c ++ [t.captured]) l
    refine ⟨t :: ts, .cons ht h8, ?_, h10⟩
    refine .next (Pass.cons hr (Pass.cons (reads_gap h7) .nil)) hlt ?_
    simpa [Run.take] using h9

/-- Attributes. -/
theorem reads_attributes {as : List Attr} (h : AttrList w as rest) (hw : E.Has w) :
    (as = [] ∧ rest = w ∧ BReads E none none (Script.attributes uni) w (.past w)) ∨
    ∃ ts, as ≠ [] ∧ AttrTs E ts as ∧
      BReads E none none (Script.attributes uni) w (.tok rest (nodeT E "Attributes".toList w rest ts)) := by
  obtain ⟨ts, h1, h2, h3⟩ := attr_rounds (uni := uni) h hw [] [] false
  by_cases ha : as = []
  · subst ha
    cases h with
    | nil h =>
      cases h1
      refine Or.inl ⟨rfl, rfl, .optional (g := .fail) ?_⟩
      exact .loopN h2 (.fail h3) (.fails (.nothing (Or.inl rfl)))
  · have hts : ts ≠ [] := fun he => ha (h1.nil_iff.mp he)
    refine Or.inr ⟨ts, ha, h1, .optional (g := .tok _ _) ?_⟩
    exact .loopN h2 (.fail h3) (.fails (.tok (by simpa [Run.start] using hts) (by simpa [Run.start] using hts) rfl h.suffix rfl))

end

end Adx.Read
