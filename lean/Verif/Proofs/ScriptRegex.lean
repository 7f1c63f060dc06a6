import Verif.Proofs.ScriptLeaves
/-
  Regular expressions in scripts.
-/
namespace Adx.Read

open Syntax (Munch Regular)
open B

/-- Parts of a regular expression, one directly behind the other. -/
inductive Chain (E : Setting) : Str → Str → List Tr → Prop
  | nil {w : Str} : Chain E w w []
  | cons {w w1 w2 : Str} {t : Tr} {ts : List Tr} (hn : t.name = "Part".toList) (hq : Quiet t) (hm : t.matched = ⟨E.at_ w, E.at_ w1⟩)
      (hs : w1 <:+ w) (h : Chain E w1 w2 ts) : Chain E w w2 (t :: ts)

/-- The parts of the loop. -/
def regexRound : List (B MatcherId) := [
  regexN "Part" Script.rxPlainPart,
  switch [
    regexN "Part" Script.rxEscape,
    proxyChildren (program [
      equalsN "RegexEnd" "/",
      regexN "Flags" Script.rxFlags,
      brk "RegexCaptureLoop"]),
    sequenceN "Part" "[" "]" "\\"]]

section
variable {E : Setting} {K : Option Nat} {w rest rest' text flags : Str}

theorem Chain.suffix {w' : Str} {ts : List Tr} (h : Chain E w w' ts) : w' <:+ w := by
  induction h with
  | nil => exact List.suffix_refl _
  | cons _ _ _ hs _ ih => exact ih.trans hs

theorem Chain.append {w1 w2 : Str} {ts ts' : List Tr} (h : Chain E w w1 ts) (h' : Chain E w1 w2 ts') : Chain E w w2 (ts ++ ts') := by
  induction h with
  | nil => exact h'
  | cons hn hq hm hs _ ih => exact .cons hn hq hm hs (ih h')

theorem _root_.Adx.Syntax.Regular.split (h : Regular w text rest) : w = text ++ '/' :: rest := by
  induction h with
  | done => rfl
  | char _ _ ih => rw [ih]; rfl
  | escape _ _ ih => rw [ih]; rfl
  | bracket hb _ ih =>
    rw [hb.split, ih]
    simp

theorem munch_plain {u : Str} (hu : ∀ c ∈ u, plainPart c = true) (h : ∀ c, w.head? = some c → plainPart c = false) :
    Munch plainPart (u ++ w) u w := ⟨rfl, hu, h⟩

/-- The characters without meaning, as a list of at most one part. -/
theorem reads_plain {u : Str} (hm : Munch plainPart (u ++ w) u w) :
    ∃ ts, Chain E (u ++ w) w ts ∧ Part E K K (regexN "Part" Script.rxPlainPart) (u ++ w) w ts := by
  rcases reads_plainPart (E := E) (K := K) hm with ⟨hu, -, h⟩ | ⟨hu, h⟩
  · subst hu
    exact ⟨[], .nil, .past h⟩
  · exact ⟨_, .cons rfl quiet_leaf rfl (List.suffix_append ..) .nil, .tok h⟩

/-- The last round. -/
theorem regex_end (hf : Munch Syntax.flagChar rest flags rest') :
    ∃ ends t, ends = leafT E "RegexEnd".toList ('/' :: rest) rest :: (if flags = [] then [] else [leafT E "Flags".toList rest rest']) ∧
      t.kids = ends ∧ t.matched = ⟨E.at_ ('/' :: rest), E.at_ rest'⟩ ∧
      BReads E K K (proxyChildren (program [equalsN "RegexEnd" "/", regexN "Flags" Script.rxFlags, brk "RegexCaptureLoop"]))
        ('/' :: rest) (.brk "RegexCaptureLoop".toList (.splice rest' t)) := by
  have hs : rest' <:+ '/' :: rest := adv hf.suffix _
  rcases reads_flags (E := E) (K := K) hf with ⟨hu, he, h⟩ | ⟨hu, h⟩
  · subst he
    refine ⟨_, _, rfl, ?_, ?_, .proxyChildren (.program (.cons (.equalsN (l := ['/'])) <| .cons h <| .brk .brk)
      (.breaks (.tok (by simp [Run.take, Run.start]) (by simp [Run.take, Run.start]) rfl hs rfl)))
      (.brk (List.suffix_refl _) hs rfl rfl (clean_names rfl))⟩
    · rw [if_pos hu]
      rfl
    · rfl
  · refine ⟨_, _, rfl, ?_, ?_, .proxyChildren (.program (.cons (.equalsN (l := ['/'])) <| .cons h <| .brk .brk)
      (.breaks (.tok (by simp [Run.take, Run.start]) (by simp [Run.take, Run.start]) rfl hs rfl)))
      (.brk (List.suffix_refl _) hs rfl rfl (clean_names rfl))⟩
    · rw [if_neg hu]
      rfl
    · rfl

/-- One more round. -/
theorem regex_round {u w1 : Str} {t : Tr} (hu : ∀ c ∈ u, plainPart c = true) (h : ∀ c, w.head? = some c → plainPart c = false)
    (hr : ∀ K, BReads E K K (switch [
      regexN "Part" Script.rxEscape,
      proxyChildren (program [
        equalsN "RegexEnd" "/",
        regexN "Flags" Script.rxFlags,
        brk "RegexCaptureLoop"]),
      sequenceN "Part" "[" "]" "\\"]) w (.tok w1 t)) (hn : t.name = "Part".toList) (hq : Quiet t) (hm : t.matched = ⟨E.at_ w, E.at_ w1⟩)
    (hs : w1 <:+ w) (hlt : blen w1 < blen w) (k : List Tr) (c : List Range) :
    ∃ ts c', Chain E (u ++ w) w1 ts ∧ ∀ r, Rounds E regexRound K ⟨w1, E.at_ w1, k ++ ts, c', false⟩ K r →
      Rounds E regexRound K ⟨u ++ w, E.at_ (u ++ w), k, c, false⟩ K r := by
  obtain ⟨ts, h1, h2⟩ := reads_plain (E := E) (K := K) (munch_plain hu h)
  refine ⟨ts ++ [t], c ++ (ts ++ [t]).map Tr.captured, h1.append (.cons hn hq hm hs .nil), fun r hR => ?_⟩
  refine .next (r1 := ⟨w1, E.at_ w1, k ++ (ts ++ [t]), c ++ (ts ++ [t]).map Tr.captured, false⟩) ?_ ?_ hR
  · have := Parts.then (ys := []) (E := E) (K := K) (K1 := K) (xs := regexRound) (w := u ++ w) (rest := w1) (ts := ts ++ [t])
      (.cons h2 (.cons (.tok (hr K)) .nil)) (a := ⟨u ++ w, E.at_ (u ++ w), k, c, false⟩) rfl rfl .nil
    rwa [List.append_nil] at this
  · have := suffix_blen (List.suffix_append u w)
    show blen w1 < blen (u ++ w)
    omega

theorem regex_rounds (h : Regular w text rest) (hf : Munch Syntax.flagChar rest flags rest') :
    ∀ (u : Str) (_ : ∀ c ∈ u, plainPart c = true) (k : List Tr) (c : List Range),
    ∃ parts ends caps r g a, Chain E (u ++ w) ('/' :: rest) parts ∧
      ends = leafT E "RegexEnd".toList ('/' :: rest) rest :: (if flags = [] then [] else [leafT E "Flags".toList rest rest']) ∧
      Rounds E regexRound K ⟨u ++ w, E.at_ (u ++ w), k, c, false⟩ K r ∧
      Pass E K regexRound r (.breaks K "RegexCaptureLoop".toList g a) ∧
      a.take E g = ⟨rest', E.at_ rest', k ++ (parts ++ ends), caps, false⟩ ∧ caps ≠ [] := by
  induction h with
  | @done rest =>
    intro u hu k c
    obtain ⟨ts, h1, h2⟩ := reads_plain (E := E) (K := K) (munch_plain (w := '/' :: rest) hu (by
      intro c hc
      cases hc
      rfl))
    obtain ⟨ends, t, he, hk, hm, h3⟩ := regex_end (E := E) (K := K) hf
    have hp : Pass E K regexRound ⟨u ++ '/' :: rest, E.at_ (u ++ '/' :: rest), k, c, false⟩
        (.breaks K "RegexCaptureLoop".toList (.splice rest' t)
          ⟨'/' :: rest, E.at_ ('/' :: rest), k ++ ts, c ++ ts.map Tr.captured, false⟩) := by
      refine Parts.then (E := E) (K := K) (K1 := K) (xs := [_]) (w := u ++ '/' :: rest) (rest := '/' :: rest) (ts := ts ++ [])
        (.cons h2 .nil) (a := ⟨u ++ '/' :: rest, E.at_ (u ++ '/' :: rest), k, c, false⟩) rfl rfl ?_
      rw [List.append_nil]
      refine .brk (.switch ?_)
      exact .next (reads_escape_fail (head_ne (by decide))) <| .here h3 trivial
    refine ⟨ts, ends, (c ++ ts.map Tr.captured) ++ t.captured :: t.kids.map Tr.captured, _, _, _, h1, he, .zero, hp, ?_, ?_⟩
    · show (⟨rest', t.matched.stop, (k ++ ts) ++ t.kids, _, false⟩ : Run) = _
      rw [hm, hk, List.append_assoc]
    · simp
  | @char d w text rest hc h ih =>
    intro u hu k c
    have := ih hf (u ++ [d]) (by
      intro x hx
      rcases List.mem_append.mp hx with hx | hx
      · exact hu x hx
      · rw [List.mem_singleton.mp hx]
        simp [plainPart, hc.1, hc.2.1, hc.2.2]) k c
    rwa [List.append_assoc] at this
  | @escape d w text rest hc h ih =>
    intro u hu k c
    obtain ⟨ts, c', h1, h2⟩ := regex_round (E := E) (K := K) (u := u) (w := '\\' :: d :: w) (w1 := w) hu (by
      intro c hc
      cases hc
      rfl) (fun K => .switch (.here (reads_escape hc) trivial)) rfl quiet_leaf rfl
      ((List.suffix_cons ..).trans (List.suffix_cons ..)) (blen_lt ((List.suffix_cons ..).trans (List.suffix_cons ..)) (by
        intro h
        have := congrArg List.length h
        rw [List.length_cons, List.length_cons] at this
        omega)) k c
    obtain ⟨parts, ends, caps, r, g, a, h3, h4, h5, h6, h7, h8⟩ := ih hf [] (fun _ h => by cases h) (k ++ ts) c'
    refine ⟨ts ++ parts, ends, caps, r, g, a, h1.append h3, h4, h2 _ h5, h6, ?_, h8⟩
    rw [h7]
    simp
  | @bracket w raw val w' text rest hb h ih =>
    intro u hu k c
    have hs : w' <:+ '[' :: w := by
      rw [hb.split]
      exact adv ((List.suffix_append _ _).trans (List.suffix_refl _)) _
    obtain ⟨ts, c', h1, h2⟩ := regex_round (E := E) (K := K) (u := u) (w := '[' :: w) (w1 := w') hu (by
      intro c hc
      cases hc
      rfl) (fun K => .switch (.next (reads_escape_fail (head_ne (by decide))) <|
        .next (.proxyChildren (.program (.fail (.equalsN_fail (l := ['/']) (head_prefix (head_ne (by decide))))) .fails) .fail) <|
        .here (.sequenceN (a := ['[']) hb) trivial)) rfl quiet_delim rfl
      hs (blen_lt hs (by
        intro h
        have := congrArg List.length h
        rw [hb.split] at this
        simp at this
        omega)) k c
    obtain ⟨parts, ends, caps, r, g, a, h3, h4, h5, h6, h7, h8⟩ := ih hf [] (fun _ h => by cases h) (k ++ ts) c'
    refine ⟨ts ++ parts, ends, caps, r, g, a, h1.append h3, h4, h2 _ h5, h6, ?_, h8⟩
    rw [h7]
    simp

/-! ### The callback -/

/-- A callback that gives the token a value and attributes. -/
theorem Calls.retag {sf : TokId → Ctx → SCtxId → M R} {t : Tr} {w' : Str} {v : Option Str} {as : AMap Str} (hs : w' <:+ w)
    (hm : t.matched = ⟨E.at_ w, E.at_ w'⟩) (hnm : t.name ≠ errorName)
    (h : ∀ (c : Ctx) (sc : SCtxId) (s : State) (i : TokId) (k : Token), E.Has w → s.toks[i]? = some k → k.info = t.info → Plain E k →
      Reps E s.toks (i + 1) k.children t.kids →
      sf i c sc s = .ok (.ok (.token i)) (s.put i { k with value := v, attributes := as })) :
    Calls E K K sf w t (.tok w' (.node { t.info with value := v, attributes := as } t.kids)) := by
  intro c sc s lo i hw hc hS hr hok
  obtain ⟨k, hl, hk, hp, hi, hch⟩ := hr.root
  refine ⟨⟨hs, hm, ?_⟩, _, _, h c sc s i k hw hk hi hp hch, .ok (.tok ?_), hS.put hk hp.kind⟩
  · cases hok with
    | node h1 h2 h3 h4 h5 => exact .node h1 h2 h3 h4 h5
  · refine Reps.of_root hl (put_get hk) ⟨hp.kind, Or.inl (hp.unflagged (Or.inr ?_)), hp.parser, hp.cap, hp.mat, hp.inside⟩ ?_ ?_
    · rw [show k.name = t.name from congrArg Info.name hi]
      exact hnm
    · rw [← hi]
      rfl
    · refine hch.change fun j k' hj hk' => ⟨k'.parent, ?_⟩
      show (s.toks.set i _)[j]? = _
      rw [List.getElem?_set_ne (by
        intro he
        rw [he] at hj
        exact absurd hj (Nat.not_succ_le_self _)), hk']

theorem partsRange_append (l1 l2 : List TokId) (r : Range) (s : State) {r' : Range} (h : Script.partsRange l1 r s = .ok r' s) :
    Script.partsRange (l1 ++ l2) r s = Script.partsRange l2 r' s := by
  induction l1 generalizing r with
  | nil =>
    cases h
    rfl
  | cons c cs ih =>
    rw [List.cons_append]
    unfold Script.partsRange at h
    conv => lhs; unfold Script.partsRange
    obtain ⟨k, s1, h1, h2⟩ := bind_ok.mp h
    obtain ⟨h3, rfl⟩ := getTok_ok.mp h1
    rw [bind_run h1]
    split at h2
    · rw [if_pos (by assumption)]
      exact ih _ h2
    · rw [if_neg (by assumption)]
      exact ih _ h2

theorem partsRange_skip {toks : List TokId} {trees : List Tr} {s : State} {lo : Nat} (h : Reps E s.toks lo toks trees)
    (hn : ∀ t ∈ trees, t.name ≠ "Part".toList) (r : Range) : Script.partsRange toks r s = .ok r s := by
  generalize hS : s.toks = S at h
  induction h with
  | nil => rfl
  | @cons lo t k ts cs trees hl hk hp hc hr _ ih =>
    unfold Script.partsRange
    rw [← hS] at hk
    rw [bind_run (getTok_ok.mpr ⟨hk, rfl⟩), if_neg (show k.name ≠ _ from hn _ (List.mem_cons_self ..))]
    exact ih (fun t ht => hn t (List.mem_cons_of_mem _ ht))

theorem partsRange_chain {w' : Str} {parts : List Tr} (hch : Chain E w w' parts) (hw : E.Has w) {toks : List TokId} {s : State} {lo : Nat}
    (h : Reps E s.toks lo toks parts) {w0 : Str} (h0 : w <:+ w0) (hw0 : E.Has w0) (r : Range)
    (hr : r = ⟨E.at_ w0, E.at_ w⟩ ∨ (r = ⟨usizeMax, usizeMax⟩ ∧ w0 = w ∧ parts ≠ [])) :
    Script.partsRange toks r s = .ok ⟨E.at_ w0, E.at_ w'⟩ s := by
  induction hch generalizing toks r with
  | nil =>
    rcases hr with rfl | ⟨-, -, h⟩
    · cases h
      rfl
    · exact absurd rfl h
  | @cons w w1 w2 t ts hn hq hm hs hch ih =>
    cases h with
    | @cons _ i k ts' cs _ hl hk hp hc hr' =>
      unfold Script.partsRange
      rw [bind_run (getTok_ok.mpr ⟨hk, rfl⟩), if_pos (show k.name = _ from hn)]
      have hm' : k.matched = ⟨E.at_ w, E.at_ w1⟩ := hm
      rw [hm']
      have h1 := hw.mono hs
      have h2 := hw0.mono h0
      have h3 := hw.le
      have h4 := E.small
      have h5 := usz
      have h6 := (hw.tail hs).le
      rcases hr with rfl | ⟨rfl, rfl, -⟩
      · have e : (⟨if E.at_ w0 = usizeMax ∨ E.at_ w < E.at_ w0 then E.at_ w else E.at_ w0,
            if E.at_ w = usizeMax ∨ E.at_ w1 > E.at_ w then E.at_ w1 else E.at_ w⟩ : Range) = ⟨E.at_ w0, E.at_ w1⟩ := by
          have : 0 < isizeMax := by decide
          rw [if_neg (by omega)]
          by_cases he : E.at_ w1 > E.at_ w
          · rw [if_pos (Or.inr he)]
          · rw [if_neg (by omega)]
            congr 1
            omega
        show Script.partsRange ts' ⟨if E.at_ w0 = usizeMax ∨ E.at_ w < E.at_ w0 then E.at_ w else E.at_ w0,
            if E.at_ w = usizeMax ∨ E.at_ w1 > E.at_ w then E.at_ w1 else E.at_ w⟩ s = _
        rw [e]
        exact ih (hw.tail hs) hr' (hs.trans h0) _ (Or.inl rfl)
      · show Script.partsRange ts' ⟨if usizeMax = usizeMax ∨ E.at_ w0 < usizeMax then E.at_ w0 else usizeMax,
            if usizeMax = usizeMax ∨ E.at_ w1 > usizeMax then E.at_ w1 else usizeMax⟩ s = _
        rw [if_pos (Or.inl rfl), if_pos (Or.inl rfl)]
        exact ih (hw.tail hs) hr' (hs.trans h0) _ (Or.inl rfl)

theorem Chain.names {w' : Str} {ts : List Tr} (h : Chain E w w' ts) : ∀ t ∈ ts, t.name = "Part".toList ∧ Quiet t := by
  induction h with
  | nil => intro _ h; cases h
  | cons hn hq _ _ _ ih =>
    intro t ht
    rcases List.mem_cons.mp ht with rfl | ht
    · exact ⟨hn, hq⟩
    · exact ih t ht

/-- A regular expression. -/
theorem reads_regexMatcher {env : Env} {re : Regex} (h : Regular w text rest) (ht : text ≠ []) (hf : Munch Syntax.flagChar rest flags rest')
    (hr : env.regex (Syntax.flagged flags text) = some re) (hw : E.Has ('/' :: w)) :
    ∃ t, BReads E K K Script.regexMatcher ('/' :: w) (.tok rest' t) ∧ t.name = "RegexMatcher".toList ∧ Quiet t ∧
      Desc E t fun toks i => DescribesMatcher env toks i (.regex "Matches".toList false re) := by
  obtain ⟨parts, ends, caps, r, g, a, h1, h2, h3, h4, h5, h6⟩ := regex_rounds (E := E) (K := K) h hf [] (fun _ h => by cases h) [] []
  rw [List.nil_append] at h1 h3
  rw [List.nil_append] at h5
  have hsp := h.split
  have hs : rest' <:+ w := by
    rw [hsp]
    exact (adv hf.suffix _).trans (List.suffix_append ..)
  have hends : ∀ t ∈ ends, Quiet t ∧ t.name ≠ "Part".toList := by
    intro t ht
    rw [h2] at ht
    rcases List.mem_cons.mp ht with rfl | ht
    · exact ⟨quiet_leaf, toList_ne (by decide)⟩
    · split at ht
      · cases ht
      · rw [List.mem_singleton.mp ht]
        exact ⟨quiet_leaf, toList_ne (by decide)⟩
  have hne : ends ≠ [] := by
    rw [h2]
    simp
  have hlast : ∃ k, (parts ++ ends).getLast? = some k ∧ k.matched.stop = E.at_ rest' := by
    rw [h2]
    by_cases hfl : flags = []
    · rw [if_pos hfl]
      have : rest = rest' := by
        have := hf.split
        rw [hfl] at this
        exact this
      subst this
      exact ⟨_, List.getLast?_concat .., rfl⟩
    · rw [if_neg hfl]
      refine ⟨leafT E "Flags".toList rest rest', ?_, rfl⟩
      rw [show parts ++ [leafT E "RegexEnd".toList ('/' :: rest) rest, leafT E "Flags".toList rest rest']
        = (parts ++ [leafT E "RegexEnd".toList ('/' :: rest) rest]) ++ [leafT E "Flags".toList rest rest'] by simp]
      exact List.getLast?_concat ..
  obtain ⟨k, hk1, hk2⟩ := hlast
  -- the loop
  have hloop : BReads E K K (proxyChildren (loopN "RegexCaptureLoop" regexRound)) w
      (.splice rest' (Run.tree E "RegexCaptureLoop".toList w ⟨rest', E.at_ rest', parts ++ ends, caps, false⟩)) := by
    have : AddsAll regexRound := by unfold regexRound; infer_instance
    refine .proxyChildren (g := .tok rest' (Run.tree E "RegexCaptureLoop".toList w ⟨rest', E.at_ rest', parts ++ ends, caps, false⟩))
      (.loopN h3 h4 (.breaks (Or.inl rfl) ?_)) (.tok (List.suffix_refl _) hs hk1 hk2 ?_)
    · rw [h5]
      exact .tok (by simp [hne]) h6 rfl hs rfl
    · intro t ht
      rcases List.mem_append.mp ht with ht | ht
      · exact (h1.names t ht).2.name "Error" (by decide)
      · exact (hends t ht).1.name "Error" (by decide)
  -- the program
  obtain ⟨cp, hprog⟩ : ∃ cp, BReads E K K (programN "RegexMatcher" [equalsN "RegexStart" "/", proxyChildren (loopN "RegexCaptureLoop" regexRound)])
      ('/' :: w) (.tok rest' (.node ⟨"RegexMatcher".toList, cp, ⟨E.at_ ('/' :: w), E.at_ rest'⟩, none, [], 0⟩
        (leafT E "RegexStart".toList ('/' :: w) w :: (parts ++ ends)))) := by
    have : AddsAll regexRound := by unfold regexRound; infer_instance
    exact ⟨_, .programN (.cons (.equalsN (l := ['/'])) <| .cons hloop .nil)
      (.done (.tok (by simp [Run.take, Run.start]) (by simp [Run.take, Run.start]) rfl (adv hs _) rfl))⟩
  have hpne : parts ≠ [] := by
    rintro rfl
    cases h1
    have := congrArg List.length hsp
    rw [List.length_append] at this
    exact ht (List.length_eq_zero_iff.mp (by omega))
  have hw' : E.Has w := hw.tail (List.suffix_cons ..)
  refine ⟨_, .map (g := .tok rest' _) hprog (Calls.retag (v := some text) (as := []) (adv hs _) rfl (toList_ne (by decide)) ?_) (by trivial), rfl, ?_, ?_⟩
  · intro c sc s i k _ hk hi hp hch
    unfold Script.regexMatcherDone
    rw [bind_run (getTok_ok.mpr ⟨hk, rfl⟩)]
    have hch' : Reps E s.toks (i + 1) k.children ([leafT E "RegexStart".toList ('/' :: w) w] ++ (parts ++ ends)) := hch
    obtain ⟨l1, l2, e1, a1, a2⟩ := hch'.split
    obtain ⟨l3, l4, e2, a3, a4⟩ := a2.split
    have e3 : Script.partsRange k.children ⟨usizeMax, usizeMax⟩ s = .ok ⟨E.at_ w, E.at_ ('/' :: rest)⟩ s := by
      rw [e1, partsRange_append l1 l2 _ s (partsRange_skip a1 (by
        intro t ht
        rw [List.mem_singleton.mp ht]
        exact toList_ne (by decide)) _), e2, partsRange_append l3 l4 _ s
        (partsRange_chain h1 hw' a3 (List.suffix_refl _) hw' _ (Or.inr ⟨rfl, rfl, hpne⟩))]
      exact partsRange_skip a4 (fun t ht => (hends t ht).2) _
    have e4 : (⟨E.at_ w, E.at_ ('/' :: rest)⟩ : Range).text k.parser = text := by
      rw [hp.parser, hsp]
      rw [hsp] at hw'
      exact hw'.range
    rw [bind_run e3, e4]
    have e5 : k.setValue text = { k with value := some text, attributes := [] } := by
      have : k.attributes = [] := congrArg Info.attributes hi
      unfold Token.setValue
      rw [if_neg ht]
      rw [← this]
    rw [bind_run (modTok_ok (u := ()) |>.mpr ⟨k, hk, rfl⟩), e5]
    rfl
  · refine .node (Cold.names (n := "RegexMatcher") (by decide)) ?_
    intro t ht
    rcases List.mem_cons.mp ht with rfl | ht
    · exact quiet_leaf
    · rcases List.mem_append.mp ht with ht | ht
      · exact (h1.names t ht).2
      · exact (hends t ht).1
  · intro toks lo i hi
    obtain ⟨k, -, hk, hp, hinf, hch⟩ := hi.root
    have hv : k.getValue = text := by
      rw [info_value hp, hinf]
      rfl
    refine .regex hk (congrArg Info.name hinf) (by rw [hv]; exact ht) ?_ hr
    unfold Syntax.flagged
    have hpre : ∀ t ∈ leafT E "RegexStart".toList ('/' :: w) w :: (parts ++ [leafT E "RegexEnd".toList ('/' :: rest) rest]),
        ∀ n ∈ ["Flags"], t.name ≠ n.toList := by
      intro t ht n hn
      rw [List.mem_singleton.mp hn]
      rcases List.mem_cons.mp ht with rfl | ht
      · exact toList_ne (by decide)
      · rcases List.mem_append.mp ht with ht | ht
        · rw [(h1.names t ht).1]
          exact toList_ne (by decide)
        · rw [List.mem_singleton.mp ht]
          exact toList_ne (by decide)
    have hch' : Reps E toks (i + 1) k.children (leafT E "RegexStart".toList ('/' :: w) w :: (parts ++ ends)) := hch
    rw [h2] at hch'
    by_cases hfl : flags = []
    · rw [if_pos hfl, ← hv]
      rw [if_pos hfl] at hch'
      exact .plain (hch'.absent hpre)
    · rw [if_neg hfl, ← hv]
      rw [if_neg hfl, show leafT E "RegexStart".toList ('/' :: w) w :: (parts ++ [leafT E "RegexEnd".toList ('/' :: rest) rest, leafT E "Flags".toList rest rest'])
        = (leafT E "RegexStart".toList ('/' :: w) w :: (parts ++ [leafT E "RegexEnd".toList ('/' :: rest) rest])) ++ leafT E "Flags".toList rest rest' :: [] by simp] at hch'
      obtain ⟨f, b1, b2⟩ := hch'.first hpre ⟨"Flags", List.mem_singleton.mpr rfl, rfl⟩
      obtain ⟨fk, b3, -, -, b4⟩ := b2.leaf
      have b5 : fk.getCapturedValue = flags := by
        rw [b4]
        have hwr : E.Has rest := hw'.tail (by rw [hsp]; exact (List.suffix_cons ..).trans (List.suffix_append ..))
        have := hf.split
        subst this
        exact hwr.range
      rw [← b5]
      exact .flags b1 b3

end

end Adx.Read
