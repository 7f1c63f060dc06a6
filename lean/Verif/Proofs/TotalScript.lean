import Verif.Proofs.Total
import Verif.Proofs.ScriptPatterns
/-
  Reading any text with the matchers of the grammar of scripts: definitions and patterns.
-/
namespace Adx.Read

open B

/-- At least `m` tokens that are no errors. -/
def Big (m : Nat) (N : List Tr → Prop) : Prop := ∀ l, N l → m ≤ (solid l).length

/-- A token of this name that is no error. -/
def Holds (n : String) (N : List Tr → Prop) : Prop := ∀ l, N l → ∃ k ∈ solid l, k.name = n.toList

/-- A token that is no error, or none. -/
def Maybe (N : List Tr → Prop) (l : List Tr) : Prop := l = [] ∨ N l

/-- An error token, or none. -/
def Oops (l : List Tr) : Prop := ∀ k ∈ l, k.name = errorName

section
variable {E : Setting} {K : Option Nat} {w w' : Str} {x : B MatcherId} {xs : List (B MatcherId)} {N M : List Tr → Prop} {strict : Bool}
  {n : String} {a b : Nat} {u : Uni}

theorem solid_append (l l' : List Tr) : solid (l ++ l') = solid l ++ solid l' := List.filter_append ..

theorem Big.zero : Big 0 N := fun _ _ => Nat.zero_le _

theorem Big.one : Big 1 (One n N) := by
  rintro l ⟨t, rfl, -, h, -⟩
  simp [solid, h]

theorem Big.join (h : Big a N) (h' : Big b M) : Big (a + b) (Join N M) := by
  rintro l ⟨l1, l2, rfl, h1, h2⟩
  rw [solid_append, List.length_append]
  have := h _ h1
  have := h' _ h2
  omega

theorem Big.skip (h : Big a M) : Big a (Join N M) := by
  have := Big.join (Big.zero (N := N)) h
  rwa [Nat.zero_add] at this

theorem Big.next (h : Big a M) : Big (a + 1) (Join (One n N) M) := by
  have := Big.join (Big.one (n := n) (N := N)) h
  rwa [Nat.add_comm] at this

theorem Holds.here : Holds n (Join (One n N) M) := by
  rintro l ⟨l1, l2, rfl, ⟨t, rfl, h1, h2, -⟩, -⟩
  refine ⟨t, ?_, h1⟩
  rw [solid_append]
  exact List.mem_append_left _ (by simp [solid, h2])

theorem Holds.skip (h : Holds n M) : Holds n (Join N M) := by
  rintro l ⟨l1, l2, rfl, -, h2⟩
  obtain ⟨k, h3, h4⟩ := h _ h2
  refine ⟨k, ?_, h4⟩
  rw [solid_append]
  exact List.mem_append_right _ h3

/-! ### Simple parts -/

theorem tot_ws0 (hw : E.Has w) : Tot E K false Script.ws0 w Nil := Tot.skipRegexN hw

theorem tot_wsn0 (hw : E.Has w) : Tot E K false Script.wsn0 w Nil := Tot.skipRegexN hw

theorem leads_plus {p : Char → Bool} : Leads [Rx.plus p] := by
  intro is his
  rw [List.mem_singleton.mp his]
  exact ⟨_, _, rfl⟩

theorem leads_one {p : Char → Bool} {is : List RxItem} : Leads [.one p :: is] := by
  intro is his
  rw [List.mem_singleton.mp his]
  exact ⟨_, _, rfl⟩

theorem tot_identifier (hw : E.Has w) (hn : Free n := by decide) (hl : Loose n := by decide) :
    Tot E K true (Script.identifier n) w (One n Nil) := Tot.regexN_one hw leads_one hn hl

theorem tot_string (hw : E.Has w) (hn : Free n := by decide) (hl : Loose n := by decide) :
    Tot E K true (Script.string n) w (One n Nil) := Tot.sequenceN hw hn hl

theorem tot_comment (hw : E.Has w) : Tot E K true Script.comment w (One "Comment" Nil) := Tot.regexN_one hw leads_one

/-- The parts are total everywhere. -/
theorem Line.free {n : Nat} (h : ∀ w, E.Has w → Tot E K false x w N) (h' : Line E K n xs M) : Line E K n (x :: xs) (Join N M) :=
  .cons (fun w hw _ => h w hw) h'

theorem Line.sure {n : Nat} (h : ∀ w, E.Has w → Tot E K true x w N) (h' : Line E K n xs M) : Line E K n (x :: xs) (Join N M) :=
  .cons (fun w hw _ => (h w hw).slack) h'

theorem tot_digits (hw : E.Has w) (hn : Free n := by decide) (hl : Loose n := by decide) :
    Tot E K true (regexN n (Script.rxDigits u)) w (One n Nil) := Tot.regexN_one hw leads_plus hn hl

theorem tot_percent (hw : E.Has w) : Tot E K false (discard (regex Script.rxPercent)) w Nil := Tot.skipRegex hw

theorem tot_comma (hw : E.Has w) : Tot E K false (discard (regex Script.rxComma)) w Nil := Tot.skipRegex hw

theorem tot_repeatRange (hw : E.Has w) : Tot E K true (Script.repeatRange u) w Any := by
  have hl : Line E K (blen w + 1) _ _ :=
    .sure (fun _ hw => Tot.skip (s := "{") hw) <| .free (fun _ => tot_ws0) <|
    .sure (fun _ hw => tot_digits (u := u) (n := "Minimum") hw) <| .free (fun _ => tot_ws0) <|
    .free (N := Any) (fun _ hw => (Tot.equalsN (n := "Seperator") (s := ",") hw).mono (M := Any) (fun _ _ => trivial) |>.optional trivial) <|
    .free (fun _ => tot_ws0) <|
    .free (N := Any) (fun _ hw => (tot_digits (u := u) (n := "Maximum") hw).mono (M := Any) (fun _ _ => trivial) |>.optional trivial) <|
    .free (fun _ => tot_ws0) <| .sure (fun _ hw => Tot.skip (s := "}") hw) .nil
  refine (Tot.programN (n := "RepeatRange") hl hw (by omega) ?_).mono fun _ _ => trivial
  intro i l hM hn hf
  exact fit_at 8 rfl hn ((Holds.skip <| .skip .here) _ hM)

theorem tot_repeatSpecifier (hw : E.Has w) : Tot E K true (Script.repeatSpecifier u) w Any := by
  refine Tot.switchN hw ?_
  intro x hx
  simp only [List.mem_cons, List.not_mem_nil, or_false] at hx
  rcases hx with rfl | rfl | rfl
  · exact (Tot.equalsN hw).mono fun _ _ => trivial
  · exact (Tot.equalsN hw).mono fun _ _ => trivial
  · exact tot_repeatRange hw

theorem tot_equalsMatcher (hw : E.Has w) : Tot E K true Script.equalsMatcher w Any := by
  have hl : Line E K (blen w + 1) _ _ := .sure (fun _ hw => Tot.skip (s := "=") hw) <| .sure (fun _ hw => tot_string (n := "String") hw) .nil
  refine (Tot.programN (n := "EqualsMatcher") hl hw (by omega) ?_).mono fun _ _ => trivial
  intro i l hM hn hf
  exact fit_at 1 rfl hn ((Big.skip <| .next .zero) _ hM)

theorem tot_customMatcher (hw : E.Has w) : Tot E K true Script.customMatcher w Any := by
  have hl : Line E K (blen w + 1) _ _ := .sure (fun _ hw => tot_identifier (n := "Identifier") hw) .nil
  refine (Tot.programN (n := "CustomMatcher") hl hw (by omega) ?_).mono fun _ _ => trivial
  intro i l hM hn hf
  exact fit_at 2 rfl hn ((Big.next .zero) _ hM)

theorem tot_matcherName (hw : E.Has w) : Tot E K true Script.matcherName w (One "MatcherName" Any) := by
  have hl : Line E K (blen w + 1) _ _ := .sure (fun _ hw => Tot.skip (s := "?") hw) <| .sure (fun _ hw => tot_string (n := "Name") hw) .nil
  refine (Tot.programN (n := "MatcherName") hl hw (by omega) ?_).mono ?_
  · intro i l hM hn hf
    exact fit_at 3 rfl hn ((Big.skip <| .next .zero) _ hM)
  · rintro l ⟨t, h1, h2, h3, -⟩
    exact ⟨t, h1, h2, h3, trivial⟩

theorem tot_sequenceMatcher (hw : E.Has w) : Tot E K true Script.sequenceMatcher w Any := by
  have hl : Line E K (blen w + 1) _ _ :=
    .free (fun _ => tot_percent) <| .sure (fun _ hw => tot_string (n := "StartPattern") hw) <|
    .free (fun _ => tot_comma) <| .sure (fun _ hw => tot_string (n := "EndPattern") hw) <|
    .free (fun _ => tot_comma) <| .sure (fun _ hw => tot_string (n := "EscapePattern") hw) .nil
  refine (Tot.programN (n := "SequenceMatcher") (xs := [discard (regex Script.rxPercent), Script.string "StartPattern", discard (regex Script.rxComma),
    Script.string "EndPattern", discard (regex Script.rxComma), Script.string "EscapePattern"]) hl hw (by omega) ?_).mono fun _ _ => trivial
  intro i l hM hn hf
  exact fit_at 4 rfl hn ((Big.skip <| .next <| .skip <| .next <| .skip <| .next .zero) _ hM)

/-! ### Errors -/

theorem well_error {msg : Str} {r : Range} : Well (errorT E msg r) := by
  refine .node ?_ (fun _ h => by cases h)
  exact fit_at 0 rfl rfl (show IS_ERROR ≠ 0 by decide)

theorem Tot.assertIf (hE : E.errs = true) {pattern msg : String} {as : List (List RxItem)} (hw : E.Has w) :
    Tot E K false (assertIf (regex (mkRx pattern as)) msg) w Oops := by
  rcases rx_cases (pattern := pattern) (as := as) w with h | h | ⟨u, w', rfl, hu, h⟩
  · exact ⟨_, .assertIf (.regex_fail h), List.suffix_refl _, .past (fun _ h => by cases h) (fun h => by cases h)⟩
  · exact ⟨_, .assertIf_past (.regex_empty h), List.suffix_refl _, .past (fun _ h => by cases h) (fun h => by cases h)⟩
  · obtain ⟨g1, g2, g3⟩ := leaf_good (name := "Matches".toList) hw hu
    obtain ⟨f1, f2, f3, f4, f5⟩ := g3.facts
    rw [g2] at f2 f3
    refine ⟨_, .assertIf_hit hE (.regex hu h) g1 g2, ⟨g1, rfl, .node (Nat.le_refl _) f2 f3 (Nat.le_of_lt f2) (fun _ h => by cases h)⟩, .tok well_error ?_⟩
    intro k hk
    rw [List.mem_singleton.mp hk]
    rfl

theorem Tot.fatalIf {pattern msg : String} {as : List (List RxItem)} (hw : E.Has w) :
    Tot E K false (fatalIf (regex (mkRx pattern as)) msg) w Nil := by
  rcases rx_cases (pattern := pattern) (as := as) w with h | h | ⟨u, w', rfl, hu, h⟩
  · exact ⟨_, .fatalIf (.regex_fail h), List.suffix_refl _, .past rfl (fun h => by cases h)⟩
  · exact ⟨_, .fatalIf_past (.regex_empty h), List.suffix_refl _, .past rfl (fun h => by cases h)⟩
  · obtain ⟨g1, g2, g3⟩ := leaf_good (name := "Matches".toList) hw hu
    exact ⟨_, .fatalIf_hit (.regex hu h) g2, trivial, .fatal⟩

/-! ### Regular expressions -/

/-- No error token. -/
def NotError (k : Tr) : Prop := k.name ≠ errorName

theorem one_notError {n : String} (hn : n.toList ≠ errorName) : ∀ l, One n N l → ∀ k ∈ l, NotError k := by
  rintro l ⟨t, rfl, h, -⟩ k hk
  rw [List.mem_singleton.mp hk, NotError, h]
  exact hn

theorem nil_notError : ∀ l, Nil l → ∀ k ∈ l, NotError k := by
  rintro l rfl k hk
  cases hk

theorem error_ne {n : String} (h : n ≠ "Error" := by decide) : n.toList ≠ errorName := toList_ne h

theorem tot_flags (hw : E.Has w) : Tot E K false (regexN "Flags" Script.rxFlags) w (fun l => l = [] ∨ One "Flags" Nil l) := Tot.regexN hw

theorem turn_end (hw : E.Has w) : TotB E K true "RegexCaptureLoop".toList NotError
    (proxyChildren (program [equalsN "RegexEnd" "/", regexN "Flags" Script.rxFlags, brk "RegexCaptureLoop"])) w := by
  by_cases h : ['/'] <+: w
  · obtain ⟨rest, rfl⟩ := h
    have hi := Inv.start hw
    have g1 : (Got.tok rest (leafT E "RegexEnd".toList (['/'] ++ rest) rest)).Good E (['/'] ++ rest) := leaf_good hw (by simp)
    obtain ⟨hi1, -⟩ := hi.tok hw g1 (well_leaf (n := "RegexEnd"))
    obtain ⟨g, h1, h2, h3⟩ := tot_flags (K := K) (hw.tail (List.suffix_append ['/'] rest))
    rcases hi1.nice hw (show g.Good E ((Run.start E (['/'] ++ rest)).take E (.tok rest (leafT E "RegexEnd".toList (['/'] ++ rest) rest))).rest from h2)
      h3 with rfl | rfl | ⟨ht, hi2, hs, -, l, hl, hN, -⟩
    · exact ⟨_, .proxyChildren (.program (.cons (.equalsN (l := ['/'])) <| .fail h1) .fails) .fail, trivial, Or.inl .fail⟩
    · exact ⟨_, .proxyChildren (.program (.cons (.equalsN (l := ['/'])) <| .fatal h1) .fatal) .fatal, trivial, Or.inl .fatal⟩
    · have hk : (((Run.start E (['/'] ++ rest)).take E (.tok rest (leafT E "RegexEnd".toList (['/'] ++ rest) rest))).take E g).kids =
          [leafT E "RegexEnd".toList (['/'] ++ rest) rest] ++ l := hl
      have hne : ∀ k ∈ (((Run.start E (['/'] ++ rest)).take E (.tok rest (leafT E "RegexEnd".toList (['/'] ++ rest) rest))).take E g).kids, NotError k := by
        intro k hk'
        rw [hk] at hk'
        rcases List.mem_append.mp hk' with hk' | hk'
        · rw [List.mem_singleton.mp hk']
          exact error_ne
        · rcases hN with rfl | hN
          · cases hk'
          · exact one_notError error_ne _ hN _ hk'
      have hnn : (((Run.start E (['/'] ++ rest)).take E (.tok rest (leafT E "RegexEnd".toList (['/'] ++ rest) rest))).take E g).kids ≠ [] := by
        rw [hk]
        simp
      rcases gives_any hw hi2.ok hi2.tight (name := "Program".toList) with h8 | ⟨w', h8, h9, h10, -, h11⟩
      · exact ⟨_, .proxyChildren (.program (.cons (.equalsN (l := ['/'])) <| .cons h1 (.brk .brk rfl hi2.sync) ht) (.breaks h8)) .fail, trivial, Or.inl .fail⟩
      · have hg := h11.good hi2.ok
        obtain ⟨w'', k, b1, b2, b3, b4⟩ := kids_end hw hg hnn hne
        exact ⟨_, .proxyChildren (.program (.cons (.equalsN (l := ['/'])) <| .cons h1 (.brk .brk rfl hi2.sync) ht) (.breaks h11)) (.brk b1 b2 b3 b4 hne),
          splice_good hw hg b1 b2 b3 b4 hne, Or.inr (.splice (Or.inl rfl) fun k hk => ⟨hi2.well k hk, hne k hk⟩)⟩
  · exact ⟨_, .proxyChildren (.program (.fail (.equalsN_fail h)) .fails) .fail, trivial, Or.inl .fail⟩

theorem tot_plainPart (hw : E.Has w) : Tot E K false (regexN "Part" Script.rxPlainPart) w (fun l => l = [] ∨ One "Part" Nil l) := Tot.regexN hw

theorem tot_escape (hw : E.Has w) : Tot E K true (regexN "Part" Script.rxEscape) w (One "Part" Nil) := Tot.regexN_one hw leads_one

theorem regex_turn {b : Nat} : Turn E K b "RegexCaptureLoop".toList NotError true regexRound := by
  refine .cons (s := false) (fun w hw _ => (tot_plainPart hw).turn ?_) (.cons (s := true) (fun w hw _ => .switch ?_) .nil)
  · rintro l (rfl | h)
    · intro _ h
      cases h
    · exact one_notError error_ne _ h
  · intro x hx
    simp only [List.mem_cons, List.not_mem_nil, or_false] at hx
    rcases hx with rfl | rfl | rfl
    · exact (tot_escape hw).turn (one_notError error_ne)
    · exact turn_end hw
    · exact (Tot.sequenceN (n := "Part") hw).turn (one_notError error_ne)

/-- The hull of the parts, from the trees. -/
def hullOf : List Tr → Range → Range
  | [], r => r
  | k :: ks, r =>
    if k.name = "Part".toList then
      hullOf ks ⟨if r.start = usizeMax ∨ k.matched.start < r.start then k.matched.start else r.start,
        if r.stop = usizeMax ∨ k.matched.stop > r.stop then k.matched.stop else r.stop⟩
    else hullOf ks r

theorem partsRange_any {toks : List TokId} {trees : List Tr} {s : State} {lo : Nat} (h : Reps E s.toks lo toks trees) (r : Range) :
    Script.partsRange toks r s = .ok (hullOf trees r) s := by
  generalize hS : s.toks = S at h
  induction h generalizing r with
  | nil => rfl
  | @cons lo t k ts cs trees hl hk hp hc hr _ ih =>
    unfold Script.partsRange hullOf
    rw [← hS] at hk
    rw [bind_run (getTok_ok.mpr ⟨hk, rfl⟩)]
    by_cases hn : k.name = "Part".toList
    · rw [if_pos hn, if_pos (show (Tr.node k.info cs).name = _ from hn)]
      exact ih _
    · rw [if_neg hn, if_neg (show (Tr.node k.info cs).name ≠ _ from hn)]
      exact ih _

theorem regex_marks {t : Tr} : Marks E Script.regexMatcherDone t := by
  refine ⟨if ((hullOf t.kids ⟨usizeMax, usizeMax⟩).text E.p) = [] then none else some ((hullOf t.kids ⟨usizeMax, usizeMax⟩).text E.p),
    t.info.attributes, fun c sc s i k hk hi hp hr => ?_⟩
  unfold Script.regexMatcherDone
  rw [bind_run (getTok_ok.mpr ⟨hk, rfl⟩), bind_run (partsRange_any hr _), bind_run (modTok_ok (u := ()) |>.mpr ⟨k, hk, rfl⟩), ← hp.parser]
  unfold Token.setValue
  rw [← hi]
  by_cases he : (hullOf t.kids ⟨usizeMax, usizeMax⟩).text k.parser = []
  · rw [if_pos he, if_pos he]
    rfl
  · rw [if_neg he, if_neg he]
    rfl

theorem tot_regexMatcher (hw : E.Has w) : Tot E K true Script.regexMatcher w Any := by
  have : AddsAll regexRound := by unfold regexRound; infer_instance
  obtain ⟨o, g, h1, h2, h3, h4⟩ := Tot.group (K := K) (n := "RegexMatcher") (y := proxyChildren (loopN "RegexCaptureLoop" regexRound))
    (Q := NotError) hw (Tot.equalsN (n := "RegexStart") (s := "/") hw) (fun w' hw' _ => by
      obtain ⟨g, b1, b2, b3⟩ := (regex_turn (E := E) (K := K) (b := blen w' + 1)).round.loopN (lo := .unbounded) hw' (by omega)
      exact b3.splice hw' b1 b2 fun _ h => h) (fun i l _ hn _ => Loose.fit (n := "RegexMatcher") (by decide) hn)
  have h5 : Tot1 E K (programN "RegexMatcher" [equalsN "RegexStart" "/", proxyChildren (loopN "RegexCaptureLoop" regexRound)]) w "RegexMatcher" _ :=
    ⟨g, .programN h1 h2, h3, h4⟩
  exact (h5.map error_ne fun _ _ _ _ => regex_marks).tot.mono fun _ _ => trivial

/-! ### Attributes -/

theorem Pass.then {ys : List (B MatcherId)} {r r1 : Run} {o : End} {K1 : Option Nat} (h : Pass E K xs r (.done K1 r1)) (h' : Pass E K1 ys r1 o) :
    Pass E K (xs ++ ys) r o := by
  generalize ho : End.done K1 r1 = o1 at h
  induction h with
  | nil =>
    cases ho
    exact h'
  | cons h1 _ ht hr ih => exact .cons h1 (ih ho) ht hr
  | fail => cases ho
  | brk => cases ho
  | fatal => cases ho

theorem Pass.stop {ys : List (B MatcherId)} {r : Run} {o : End} (h : Pass E K xs r o) (ho : ∀ K1 r1, o ≠ .done K1 r1) : Pass E K (xs ++ ys) r o := by
  induction h with
  | nil => exact (ho _ _ rfl).elim
  | cons h1 _ ht hr ih => exact .cons h1 (ih ho) ht hr
  | fail h1 => exact .fail h1
  | brk h1 ht hr => exact .brk h1 ht hr
  | fatal h1 => exact .fatal h1

theorem tot_attrName (hw : E.Has w) : Tot E K true (regexN "Name" (Script.rxAttrName u)) w (One "Name" Nil) := Tot.regexN_one hw leads_plus

theorem tot_notQuote {msg : String} (hw : E.Has w) : Tot E K false (fatalIf (regex Script.rxNotQuote) msg) w Nil := Tot.fatalIf hw

theorem underscore_cases {msg : String} (hE : E.errs = true) (hw : E.Has w) :
    BReads E K K (assertIf (regex (Script.rxAttrUnderscore u)) msg) w (.past w) ∨
    ∃ w' r, BReads E K K (assertIf (regex (Script.rxAttrUnderscore u)) msg) w (.tok w' (errorT E msg.toList r)) := by
  unfold Script.rxAttrUnderscore
  rcases rx_cases (pattern := "_[\\w+_]+") (as := [Rx.lit '_' :: Rx.plus (Script.isAttr u)]) w with h | h | ⟨u, w', rfl, hu, h⟩
  · exact Or.inl (.assertIf (.regex_fail h))
  · exact Or.inl (.assertIf_past (.regex_empty h))
  · obtain ⟨g1, g2, g3⟩ := leaf_good (name := "Matches".toList) hw hu
    exact Or.inr ⟨_, _, .assertIf_hit hE (.regex hu h) g1 g2⟩

theorem tot_attribute (hE : E.errs = true) (hw : E.Has w) : Tot1 E none (Script.attribute_ u) w "Attribute" Any := by
  have hl : Line E (some (E.at_ w)) (blen w + 1) [_, _, _, _, _, _] _ :=
    .sure (fun _ hw => tot_attrName (u := u) hw) <| .free (fun _ => tot_ws0) <| .sure (fun _ hw => Tot.skip (s := "=") hw) <|
    .free (fun _ => tot_ws0) <| .free (fun _ hw => tot_notQuote
      (msg := "Malformed attribute detected. Attribute value is not single-quoted. The proper format for an attribute is: name='value'") hw) <|
    .sure (fun _ hw => tot_string (n := "Value") hw) .nil
  obtain ⟨o, h1, h2⟩ := hl.go hw (.start hw) (Nat.lt_succ_self _)
  have hm : ∀ {o : End}, Pass E (some (E.at_ w)) ([regexN "Name" (Script.rxAttrName u), Script.ws0, discard (equals "="), Script.ws0,
      fatalIf (regex Script.rxNotQuote) "Malformed attribute detected. Attribute value is not single-quoted. The proper format for an attribute is: name='value'",
      Script.string "Value"] ++ [pinN "Pin" (.fetch "AttributeStartOffset.range".toList)
      (assertIf (regex (Script.rxAttrUnderscore u)) "Attribute names can not start with an underscore")]) (.start E w) o →
      ∀ {K' g}, ProgramGives E w "Attribute".toList o K' g → BReads E none none (Script.attribute_ u) w g := by
    intro o hp K' g hg
    exact .forget (.programN (.cons .mark hp) hg)
  cases o with
  | done K' a =>
    obtain ⟨rfl, h3, h4, l, h5, h6, h7⟩ := h2
    have hbig : 2 ≤ (solid a.kids).length := by
      rw [h5]
      exact (Big.next <| .skip <| .skip <| .skip <| .skip <| .next .zero) l h6
    have key : ∀ r : Run, Inv E w r → 2 ≤ (solid r.kids).length → ∃ g, Gives E w "Attribute".toList r g ∧ g.Good E w ∧ Solo "Attribute" Any g := by
      intro r hr hb
      rcases gives_any hw hr.ok hr.tight (name := "Attribute".toList) with h8 | ⟨w', h8, h9, -, -, h10⟩
      · exact ⟨_, h8, trivial, .fail⟩
      · exact ⟨_, h10, h10.good hr.ok, .tok (.node (fit_at 6 rfl rfl hb) hr.well) rfl rfl trivial⟩
    rcases underscore_cases (u := u) (K := some (E.at_ w)) (msg := "Attribute names can not start with an underscore") hE hw with hu | ⟨w', r, hu⟩
    · obtain ⟨g, k1, k2, k3⟩ := key (a.take E (.past a.rest)) (h3.past hw (List.suffix_refl _)) hbig
      exact ⟨g, hm (h1.then (.cons (.look hw hu) .nil rfl h3.sync)) (.done k1), k2, k3⟩
    · have hok : RunOk E w (a.take E (.note (errorT E "Attribute names can not start with an underscore".toList r))) := by
        have := h3.ok.grow (w1 := a.rest) (f := a.far) (ks := [errorT E "Attribute names can not start with an underscore".toList r]) (cs := []) h3.ok.sfx
          (Nat.le_refl _) h3.ok.le h3.ok.far (fun k hk hn => by
            rw [List.mem_singleton.mp hk] at hn
            exact (hn rfl).elim) (fun _ h => by cases h) (fun h => (h rfl).elim)
        rw [List.append_nil] at this
        exact this
      have hwell : ∀ k ∈ (a.take E (.note (errorT E "Attribute names can not start with an underscore".toList r))).kids, Well k := by
        intro k hk
        rcases List.mem_append.mp hk with hk | hk
        · exact h3.well k hk
        · rw [List.mem_singleton.mp hk]
          exact well_error
      have hb : 2 ≤ (solid (a.take E (.note (errorT E "Attribute names can not start with an underscore".toList r))).kids).length := by
        show 2 ≤ (solid (a.kids ++ _)).length
        rw [solid_append, List.length_append]
        omega
      obtain ⟨g, k1, k2, k3⟩ := key _ ⟨hok, h3.sync, h3.tight, hwell⟩ hb
      exact ⟨g, hm (h1.then (.cons (.look_note hw hu rfl) .nil rfl h3.sync)) (.done k1), k2, k3⟩
  | fails K' a => exact ⟨_, hm (h1.stop fun _ _ h => by cases h) .fails, trivial, .fail⟩
  | breaks => exact h2.elim
  | fatal K' => exact ⟨_, hm (h1.stop fun _ _ h => by cases h) .fatal, trivial, .fatal⟩

/-- The names of tokens. -/
def Named (n : String) (k : Tr) : Prop := k.name = n.toList

theorem tot_attributes (hE : E.errs = true) (hw : E.Has w) : Tot E none false (Script.attributes u) w (Maybe (One "Attributes" Any)) := by
  have ht : Turn E none (blen w + 1) "Attributes".toList (Named "Attribute") true [Script.attribute_ u, Script.wsn0] := by
    refine .cons (s := true) (s' := false) (fun w hw _ => (tot_attribute hE hw).tot.turn ?_) (.cons (s := false) (fun w hw _ => (tot_wsn0 hw).turn ?_) .nil)
    · rintro l ⟨t, rfl, h, -⟩ k hk
      rw [List.mem_singleton.mp hk]
      exact h
    · rintro l rfl k hk
      cases hk
  obtain ⟨g, h1, h2, h3⟩ := ht.round.loopN (lo := .included 1) hw (Nat.lt_succ_self _)
  have h4 := h3.solo fun i l hq hn _ => fit_at 7 rfl hn hq
  exact Tot.optional (strict := true) ⟨g, h1, h2, h4.nice.mono fun l h => Or.inr (by
    obtain ⟨t, b1, b2, b3, -⟩ := h
    exact ⟨t, b1, b2, b3, trivial⟩)⟩ (Or.inl rfl)

/-! ### The callback of definitions -/

/-- The value of a token. -/
def valueOf (E : Setting) (i : Info) : Str := match i.attributes.get "__value".toList with
  | some v => v
  | none => match i.value with
    | some v => v
    | none => i.captured.text E.p

/-- The attributes that the tokens of attributes add. -/
def attrsOf (E : Setting) : List Tr → AMap Str → AMap Str
  | .node _ (n :: v :: _) :: ts, m => attrsOf E ts (m.insert (valueOf E n.info) (valueOf E v.info))
  | _, m => m

/-- The last attribute of the name `version`. -/
def verOf (E : Setting) : List Tr → Option Tr
  | .node i (n :: v :: ks) :: ts =>
    (verOf E ts).or (if valueOf E n.info = "version".toList then some (.node i (n :: v :: ks)) else none)
  | _ => none

theorem verOf_mem {ts : List Tr} {t : Tr} (h : verOf E ts = some t) : t ∈ ts := by
  induction ts with
  | nil => cases h
  | cons t' ts ih =>
    rcases t' with ⟨i, - | ⟨n, - | ⟨v, ks⟩⟩⟩
    · cases h
    · cases h
    · unfold verOf at h
      cases hv : verOf E ts with
      | some t' =>
        rw [hv] at h
        cases h
        exact List.mem_cons_of_mem _ (ih hv)
      | none =>
        rw [hv] at h
        replace h : (if valueOf E n.info = "version".toList then some (Tr.node i (n :: v :: ks)) else none) = some t := h
        split at h
        · cases h
          exact List.mem_cons_self ..
        · cases h

theorem copy_any {ts : List Tr} (h : ∀ t ∈ ts, 2 ≤ t.kids.length) :
    ∀ {l : List TokId} {s : State} {i : TokId} {k : Token} (ver : Option TokId) {lo : Nat} (_ : i < lo), Reps E s.toks lo l ts →
      s.toks[i]? = some k →
      ∃ ver', Script.copyAttributes i l ver s = .ok ver' (s.put i { k with attributes := attrsOf E ts k.attributes }) ∧
        ((ver' = ver ∧ verOf E ts = none ∧ ∀ m, (attrsOf E ts m).get "version".toList = m.get "version".toList) ∨
          ∃ j t, ver' = some j ∧ verOf E ts = some t ∧ Reps E s.toks lo [j] [t]) := by
  induction ts with
  | nil =>
    intro l s i k ver lo hlo hr hk
    cases hr
    refine ⟨ver, ?_, Or.inl ⟨rfl, rfl, fun m => rfl⟩⟩
    have : s.put i { k with attributes := attrsOf E [] k.attributes } = s := put_same hk
    rw [this]
    rfl
  | cons t ts ih =>
    intro l s i k ver lo hlo hr hk
    have h2 := h t (by simp)
    cases t with
    | node inf ks =>
      obtain ⟨n, v, ks, rfl⟩ : ∃ n v ks', ks = n :: v :: ks' := by
        rcases ks with - | ⟨n, - | ⟨v, ks⟩⟩
        · exact absurd h2 (by simp [Tr.kids])
        · exact absurd h2 (by simp [Tr.kids])
        · exact ⟨n, v, ks, rfl⟩
      cases hr with
      | @cons _ j jk l' cs trees hl hjk hp hc hr =>
        obtain ⟨a1, b1, b2⟩ := hc.get (j := 0) rfl
        obtain ⟨a2, b3, b4⟩ := hc.get (j := 1) rfl
        obtain ⟨nk, -, c1, c1', c2, -⟩ := b2.root
        obtain ⟨vk, -, c3, c3', c4, -⟩ := b4.root
        have e1 : nk.getValue = valueOf E n.info := by
          rw [info_value c1', c2]
          rfl
        have e2 : vk.getValue = valueOf E v.info := by
          rw [info_value c3', c4]
          rfl
        obtain ⟨ver', hih, hv⟩ := ih (fun t ht => h t (List.mem_cons_of_mem _ ht)) (l := l')
          (s := s.put i { k with attributes := k.attributes.insert (valueOf E n.info) (valueOf E v.info) })
          (k := { k with attributes := k.attributes.insert (valueOf E n.info) (valueOf E v.info) })
          (if valueOf E n.info = "version".toList then some j else ver) hlo (hr.beneath hlo) (put_get hk)
        refine ⟨ver', ?_, ?_⟩
        · unfold Script.copyAttributes
          rw [bind_run (getTok_ok.mpr ⟨hjk, rfl⟩), bind_run (ofOpt_ok.mpr ⟨b1, rfl⟩), bind_run (ofOpt_ok.mpr ⟨b3, rfl⟩),
            bind_run (getTok_ok.mpr ⟨c1, rfl⟩), bind_run (getTok_ok.mpr ⟨c3, rfl⟩), e1, e2]
          have e : modTok i (fun x => x.setAttribute (valueOf E n.info) (valueOf E v.info)) s
              = .ok () (s.put i { k with attributes := k.attributes.insert (valueOf E n.info) (valueOf E v.info) }) :=
            modTok_ok.mpr ⟨k, hk, rfl⟩
          rw [bind_run e, hih, put_put]
          rfl
        · rcases hv with ⟨rfl, hv0, hm⟩ | ⟨j', t', rfl, ht, hR⟩
          · by_cases hver : valueOf E n.info = "version".toList
            · rw [if_pos hver]
              refine Or.inr ⟨j, _, rfl, ?_, .cons hl hjk hp hc .nil⟩
              unfold verOf
              rw [hv0, if_pos hver]
              rfl
            · rw [if_neg hver]
              refine Or.inl ⟨rfl, by unfold verOf; rw [hv0, if_neg hver]; rfl, fun m => ?_⟩
              show (attrsOf E ts (m.insert _ _)).get _ = _
              rw [hm, AMap.get_insert, if_neg (fun h => hver h.symm)]
          · refine Or.inr ⟨j', t', rfl, by unfold verOf; rw [ht]; rfl, ?_⟩
            have := hR.beneath (i := i) (k' := k) hlo
            rw [put_put, put_same hk] at this
            exact this

theorem tree_split (n : Str) (ts : List Tr) : (∀ t ∈ ts, t.name ≠ n) ∨ ∃ pre t post, ts = pre ++ t :: post ∧ (∀ t ∈ pre, t.name ≠ n) ∧ t.name = n := by
  induction ts with
  | nil => exact Or.inl (fun _ h => by cases h)
  | cons t ts ih =>
    by_cases ht : t.name = n
    · exact Or.inr ⟨[], t, ts, rfl, (fun _ h => by cases h), ht⟩
    · rcases ih with ih | ⟨pre, t', post, rfl, h1, h2⟩
      · refine Or.inl fun t' h => ?_
        rcases List.mem_cons.mp h with rfl | h
        · exact ht
        · exact ih t' h
      · refine Or.inr ⟨t :: pre, t', post, rfl, fun t' h => ?_, h2⟩
        rcases List.mem_cons.mp h with rfl | h
        · exact ht
        · exact h1 t' h

theorem attrsOf_version {ts : List Tr} (h : ∀ t ∈ ts, 2 ≤ t.kids.length) (hv : verOf E ts = none) :
    ∀ m, (attrsOf E ts m).get "version".toList = m.get "version".toList := by
  induction ts with
  | nil => exact fun _ => rfl
  | cons t ts ih =>
    have h2 := h t (by simp)
    rcases t with ⟨i, - | ⟨n, - | ⟨v, ks⟩⟩⟩
    · exact absurd h2 (by simp [Tr.kids])
    · exact absurd h2 (by simp [Tr.kids])
    · intro m
      unfold verOf at hv
      obtain ⟨h3, h4⟩ := Option.or_eq_none_iff.mp hv
      have hne : valueOf E n.info ≠ "version".toList := by
        intro he
        rw [if_pos he] at h4
        cases h4
      show (attrsOf E ts (m.insert _ _)).get _ = _
      rw [ih (fun t ht => h t (List.mem_cons_of_mem _ ht)) h3, AMap.get_insert, if_neg (fun h => hne h.symm)]

theorem copyAll_any {t : Tr} (h : Well t) : ∃ (f : AMap Str → AMap Str) (o : Option Tr),
    (∀ t', o = some t' → ∃ a ∈ t.kids, a.name = "Attributes".toList ∧ t' ∈ a.kids ∧ t'.name = "Attribute".toList) ∧
    (o = none → ∀ m, (f m).get "version".toList = m.get "version".toList) ∧
    ∀ {s : State} {i : TokId} {k : Token}, s.toks[i]? = some k → Reps E s.toks (i + 1) k.children t.kids →
      ∃ ver, Script.copyAllAttributes i s = .ok ver (s.put i { k with attributes := f k.attributes }) ∧
        ∀ t', o = some t' → ∃ j, ver = some j ∧ Reps E s.toks (i + 1) [j] [t'] := by
  rcases tree_split "Attributes".toList t.kids with hn | ⟨pre, a, post, hsp, hpre, ha⟩
  · refine ⟨fun m => m, none, (fun _ h => by cases h), (fun _ _ => rfl), fun {s i k} hk hr => ⟨none, ?_, fun _ h => by cases h⟩⟩
    unfold Script.copyAllAttributes
    rw [bind_run (getTok_ok.mpr ⟨hk, rfl⟩), bind_run (findChild_none hr hn)]
    show Res.ok _ s = Res.ok _ (s.put i k)
    rw [put_same hk]
  · have haw : Well a := h.kids a (by rw [hsp]; simp)
    have hat : ∀ t ∈ a.kids, t.name = "Attribute".toList := haw.fit _ (show shapeRules[7] ∈ shapeRules from List.getElem_mem _) ha
    have h2 : ∀ t ∈ a.kids, 2 ≤ t.kids.length := by
      intro t ht
      have := (haw.kids t ht).fit _ (show shapeRules[6] ∈ shapeRules from List.getElem_mem _) (hat t ht)
      exact Nat.le_trans this (List.length_filter_le ..)
    refine ⟨attrsOf E a.kids, verOf E a.kids, fun t' ht' => ⟨a, by rw [hsp]; simp, ha, verOf_mem ht', hat _ (verOf_mem ht')⟩,
      attrsOf_version h2, fun {s i k} hk hr => ?_⟩
    rw [hsp] at hr
    obtain ⟨j, h3, h4⟩ := findChild_first hr hpre ha
    obtain ⟨jk, hl, h5, -, -, h6⟩ := h4.root
    have hij : i < j + 1 := Nat.lt_succ_of_lt hl
    obtain ⟨ver, h7, h8⟩ := copy_any h2 none hij h6 hk
    refine ⟨ver, ?_, ?_⟩
    · unfold Script.copyAllAttributes
      rw [bind_run (getTok_ok.mpr ⟨hk, rfl⟩), bind_run h3]
      show (getTok j >>= fun ak => Script.copyAttributes i ak.children none) s = _
      rw [bind_run (getTok_ok.mpr ⟨h5, rfl⟩), h7]
    · intro t' ht'
      rcases h8 with ⟨-, h8, -⟩ | ⟨j', t2, rfl, ht, hR⟩
      · rw [h8] at ht'
        cases ht'
      · rw [ht] at ht'
        cases ht'
        exact ⟨j', rfl, hR.lower (Nat.succ_le_succ (Nat.le_of_lt hl))⟩

theorem definition_marks {t : Tr} (h : Well t) : Marks E Script.patternDefinitionDone t := by
  obtain ⟨f, o, -, -, hf⟩ := copyAll_any (E := E) h
  refine ⟨t.info.value, f t.info.attributes, fun c sc s i k hk hi hp hr => ?_⟩
  obtain ⟨ver, h1, -⟩ := hf hk hr
  unfold Script.patternDefinitionDone
  rw [bind_run h1, ← hi]
  rfl

/-! ### Groups -/

/-- Patterns, on all rests of less than `n` bytes. -/
def Patterns (E : Setting) (u : Uni) (n : Nat) : Prop :=
  ∀ w, E.Has w → blen w < n → Tot E none true (Script.pattern u) w fun l => ∀ k ∈ l, NotError k

theorem turn_close {b s : String} {c : Char} {name : Str} {Q : Tr → Prop} (hb : b.toList = name ∨ b.toList = []) (hw : E.Has w)
    (hs : s.toList = [c] := by rfl) : TotB E K true name Q (discard (program [equals s, brk b])) w := by
  by_cases h : w.head? = some c
  · cases w with
    | nil => cases h
    | cons d w =>
      cases h
      have h1 : BReads E K K (program [equals s, brk b]) (c :: w) (Got.onward b.toList (.tok w (nodeT E "Program".toList (c :: w) w
          [leafT E "Equals".toList (c :: w) w]))) :=
        .program (.cons (.equals (l := [c]) hs) <| .brk .brk)
          (.breaks (.tok (by simp [Run.take, Run.start]) (by simp [Run.take, Run.start]) rfl (List.suffix_cons ..) rfl))
      exact ⟨_, .discard (g := .brk b.toList (.tok _ _)) h1, List.suffix_cons .., Or.inr (.past hb)⟩
  · exact ⟨_, .discard (g := .fail) (.program (.fail (.equals_fail (head_prefix h) hs)) .fails), trivial, Or.inl .fail⟩

theorem wsn0_turn {name : Str} (hw : E.Has w) : TotB E K false name NotError Script.wsn0 w := (tot_wsn0 hw).turn nil_notError

theorem program_turn {n : Nat} (hP : Patterns E u n) : Turn E none n "Loop".toList NotError true (programRound u) := by
  refine .cons (s := false) (fun w hw _ => wsn0_turn hw) <| .cons (s := true) (s' := false) (fun w hw hn => (hP w hw hn).turn fun _ h => h) <|
    .cons (s := false) (s' := false) (fun w hw _ => wsn0_turn hw) <| .cons (s := false) (fun w hw _ => ?_) .nil
  by_cases h : w.head? = some '}'
  · cases w with
    | nil => cases h
    | cons d w =>
      cases h
      exact ⟨_, .discard (g := .brk [] (.tok _ _)) (.optional (g := .brk [] (.tok _ _)) reads_close), List.suffix_cons .., Or.inr (.past (Or.inr rfl))⟩
  · exact ⟨_, .discard (g := .past w) (.optional (g := .fail) (fails_close h)), List.suffix_refl _,
      Or.inl (.past (fun _ h => by cases h) (fun h => by cases h))⟩

theorem switch_turn {n : Nat} (hP : Patterns E u n) : Turn E none n "Loop".toList NotError true (switchRound u) := by
  refine .cons (s := false) (fun w hw _ => wsn0_turn hw) <| .cons (s := true) (s' := false) (fun w hw hn => .switch ?_) <|
    .cons (s := false) (s' := false) (fun w hw _ => wsn0_turn hw) <| .cons (s := false) (fun w hw _ => ?_) .nil
  · intro x hx
    simp only [List.mem_cons, List.not_mem_nil, or_false] at hx
    rcases hx with rfl | rfl
    · exact turn_close (Or.inr rfl) hw
    · exact (hP w hw hn).turn fun _ h => h
  · by_cases h1 : ['|'] <+: w
    · obtain ⟨w', rfl⟩ := h1
      exact ⟨_, .discard (g := .tok w' _) (.switch (.here (.equals (l := ['|'])) trivial)), List.suffix_append _ _,
        Or.inl (.past (fun _ h => by cases h) (fun h => by cases h))⟩
    · by_cases h : w.head? = some ']'
      · cases w with
        | nil => cases h
        | cons d w =>
          cases h
          exact ⟨_, .discard (g := .brk [] (.tok _ _)) (.switch (.next (.equals_fail h1) (.here reads_close trivial))), List.suffix_cons ..,
            Or.inr (.past (Or.inr rfl))⟩
      · exact ⟨_, .discard (g := .fail) (.switch (.next (.equals_fail h1) (.next (fails_close h) .nil))), trivial, Or.inl .fail⟩

theorem group_reads {s n : String} {m : MatcherId} [AddsAll xs] (ht : Turn E none (blen w) "Loop".toList NotError true xs) (hw : E.Has w)
    (hm : Is E (programN n [discard (equals s), proxyChildren (loop xs)]) m) (hN : E.Names m n.toList) (hs : s.toList ≠ [] := by simp)
    (hl : Loose n := by decide) : ∃ g, Reads E none none m w g ∧ g.Good E w ∧ Solo n Any g := by
  obtain ⟨o, g, h1, h2, h3, h4⟩ := Tot.group (K := none) (n := n) (y := proxyChildren (loop xs)) (Q := NotError) hw (Tot.skip (s := s) hw hs)
    (fun w' hw' hlt => by
      obtain ⟨g, b1, b2, b3⟩ := ht.round.loop hw' hlt
      exact b3.splice hw' b1 b2 fun _ h => h) (fun i l _ hn _ => hl.fit hn)
  obtain ⟨ms, h5, h6⟩ := Is.prog hm
  refine ⟨g, reads_program h6 (fun _ => hN) h5 h1 h2, h3, ?_⟩
  cases h4 with
  | fail => exact .fail
  | fatal => exact .fatal
  | tok a b c d => exact .tok a b c trivial

theorem Solo.eager {g : Got} (h : Solo n N g) : g.eager = true := by
  cases h <;> rfl

theorem tot_matcher (hS : Scripts E u) (hw : E.Has w) (hP : Patterns E u (blen w)) : Tot E none true Script.matcher w Any := by
  refine Tot.switchN hw ?_
  intro x hx
  simp only [List.mem_cons, List.not_mem_nil, or_false] at hx
  rcases hx with rfl | rfl | rfl | rfl | rfl | rfl
  · exact tot_regexMatcher hw
  · exact tot_equalsMatcher hw
  · exact tot_sequenceMatcher hw
  · exact tot_customMatcher hw
  · have : AddsAll (switchRound u) := by unfold switchRound; infer_instance
    obtain ⟨g, h1, h2, h3⟩ := group_reads (s := "[") (switch_turn hP) hw hS.sw Scripts.names_sw
    exact ⟨g, ref_sw h1 h3.eager, h2, h3.nice.mono fun _ _ => trivial⟩
  · have : AddsAll (programRound u) := by unfold programRound; infer_instance
    obtain ⟨g, h1, h2, h3⟩ := group_reads (s := "{") (program_turn hP) hw hS.pm Scripts.names_pm
    exact ⟨g, ref_pm h1 h3.eager, h2, h3.nice.mono fun _ _ => trivial⟩

/-! ### Definitions and patterns -/

theorem tot_bothModifiers {msg : String} (hE : E.errs = true) (hw : E.Has w) : Tot E K false (assertIf (regex Script.rxBothModifiers) msg) w Oops :=
  Tot.assertIf hE hw

theorem tot_modifier {n1 n2 : String} (hw : E.Has w) (f1 : Free n1 := by decide) (f2 : Free n2 := by decide) (l1 : Loose n1 := by decide)
    (l2 : Loose n2 := by decide) : Tot E K false (optional (switch [equalsN n1 "?", equalsN n2 "!"])) w Any := by
  refine Tot.optional (Tot.switch hw ?_) trivial
  intro x hx
  simp only [List.mem_cons, List.not_mem_nil, or_false] at hx
  rcases hx with rfl | rfl
  · exact (Tot.equalsN hw f1 l1).mono fun _ _ => trivial
  · exact (Tot.equalsN hw f2 l2).mono fun _ _ => trivial

theorem tot_definition (hE : E.errs = true) (hS : Scripts E u) {b : Nat} (hP : Patterns E u b) (hw : E.Has w) (hb : blen w < b + 1) :
    Tot1 E none (Script.patternDefinition u) w "PatternDefinition" Any := by
  have hl : Line E none (b + 1) _ _ :=
    .free (fun _ hw => tot_bothModifiers (msg := Script.bothModifiersMsg) hE hw) <|
    .free (fun _ hw => tot_modifier (n1 := "OuterOptionalModifier") (n2 := "OuterNotModifier") hw) <|
    .eat (fun _ hw _ => Tot.skip (s := "<") hw) <|
    .free (fun _ hw => tot_bothModifiers (msg := Script.bothModifiersMsg) hE hw) <|
    .free (fun _ hw => tot_modifier (n1 := "InnerOptionalModifier") (n2 := "InnerNotModifier") hw) <|
    .free (fun _ => tot_wsn0) <|
    .cons (fun _ hw hb => (tot_matcher hS hw fun w' hw' hlt => hP w' hw' (Nat.lt_trans hlt hb)).slack) <|
    .free (fun _ => tot_wsn0) <|
    .free (fun _ hw => tot_attributes (u := u) hE hw) <|
    .sure (fun _ hw => Tot.skip (s := ">") hw) <|
    .free (fun _ hw => (tot_repeatSpecifier (u := u) hw).optional trivial) .nil
  have h1 : Tot1 E none _ w "PatternDefinition" _ :=
    (Tot1.programN (n := "PatternDefinition") hl hw hb fun i l _ hn _ => Loose.fit (n := "PatternDefinition") (by decide) hn)
  have h2 := h1.map (sf := Script.patternDefinitionDone) error_ne fun t ht _ _ => definition_marks ht
  obtain ⟨g, a1, a2, a3⟩ := h2
  refine ⟨g, a1, a2, ?_⟩
  cases a3 with
  | fail => exact .fail
  | fatal => exact .fatal
  | tok a b c d => exact .tok a b c trivial

/-- One of these tokens, or none. -/
theorem Big.rest (h : Big a N) : Big a (Join N M) := by
  have := Big.join h (Big.zero (N := M))
  rwa [Nat.add_zero] at this

theorem one_any : ∀ l, One n N l → One n Any l := by
  rintro l ⟨t, h1, h2, h3, -⟩
  exact ⟨t, h1, h2, h3, trivial⟩

theorem tot_pattern (hE : E.errs = true) (hS : Scripts E u) (hP : Patterns E u b) (hw : E.Has w) (hb : blen w < b + 1) :
    Tot E none true (Script.pattern u) w fun l => ∀ k ∈ l, NotError k := by
  refine Tot.switchN hw ?_
  intro x hx
  simp only [List.mem_cons, List.not_mem_nil, or_false] at hx
  rcases hx with rfl | rfl
  · have hl : Line E none (b + 1) _ _ :=
      .eat (fun _ hw _ => Tot.skip (s := "(") hw) <| .free (fun _ => tot_wsn0) <|
      .free (N := Maybe (One "MatcherName" Any)) (fun _ hw => ((tot_matcherName hw).mono fun _ h => Or.inr h).optional (Or.inl rfl)) <|
      .free (fun _ => tot_wsn0) <|
      .cons (fun _ hw hb => (tot_definition hE hS hP hw (Nat.lt_succ_of_lt hb)).tot.slack) <| .free (fun _ => tot_wsn0) <|
      .sure (fun _ hw => Tot.skip (s := ")") hw) .nil
    refine (Tot.programN (n := "PatternDefinitionCaptured") hl hw hb ?_).mono (one_notError error_ne)
    intro i l hM hn hf
    refine fit_at 5 rfl hn ⟨(Big.skip <| .skip <| .skip <| .skip <| .next .zero) _ hM, ?_⟩
    obtain ⟨l1, l2, rfl, rfl, l3, l4, rfl, rfl, l5, l6, rfl, h5, hR⟩ := hM
    rintro ⟨k, hk, hkn⟩
    have hbig : 1 ≤ (solid l6).length := (Big.skip <| .next .zero) _ hR
    have h1 : 1 ≤ (solid l5).length := by
      rcases h5 with rfl | h5
      · obtain ⟨l7, l8, rfl, rfl, l9, l10, rfl, ⟨t, rfl, ht, -⟩, l11, l12, rfl, rfl, l13, l14, rfl, rfl, rfl⟩ := hR
        simp only [List.nil_append, List.append_nil, List.mem_singleton] at hk
        rw [hk, ht] at hkn
        exact absurd (String.toList_inj.mp hkn) (by decide)
      · exact Big.one _ h5
    show 2 ≤ (solid ([] ++ ([] ++ (l5 ++ l6)))).length
    rw [List.nil_append, List.nil_append, solid_append, List.length_append]
    omega
  · exact (tot_definition hE hS hP hw hb).tot.mono (one_notError error_ne)

/-- Something comes out of the matcher of patterns, on any text. -/
theorem Patterns.all (hE : E.errs = true) (hS : Scripts E u) : ∀ b, Patterns E u b
  | 0 => fun _ _ h => (Nat.not_lt_zero _ h).elim
  | b + 1 => fun _ hw hb => tot_pattern hE hS (Patterns.all hE hS b) hw hb

end

end Adx.Read
