import Verif.Proofs.LaxLeaves
/-
  Reading any text: regular expressions and attributes.
-/
namespace Adx.Read

open Syntax (Munch Gap Blanks Quoted Regular Attr)
open B

section
variable {E : Setting} {K : Option Nat} {w w' : Str} {n : String} {uni : Uni}

/-! ### Regular expressions -/

/-- A rest on which no regular expression can go on. -/
def Stuck (w : Str) : Prop := ∀ c, w.head? = some c → c = '\\' ∨ c = '['

/-- Parts, none of them an error. -/
def PartsR (E : Setting) (w w' : Str) (l : List Tr) : Prop := Chain E w w' l ∧ ∀ t ∈ l, Bare t

theorem plain_yields (hw : E.Has w) : Yields E K false (regexN "Part" Script.rxPlainPart) w
    (fun w' l => PartsR E w w' l ∧ ∃ u, Munch plainPart w u w') False := by
  obtain ⟨u, rest, hm⟩ := munch_any plainPart w
  rcases reads_plainPart (E := E) (K := K) hm with ⟨hu, rfl, h⟩ | ⟨hu, h⟩
  · exact ⟨_, h, List.suffix_refl _, .past ⟨⟨.nil, fun _ h => by cases h⟩, u, hm⟩ (fun h => by cases h)⟩
  · refine ⟨_, h, munch_good hw hm hu, .tok ⟨⟨.cons rfl quiet_leaf rfl hm.suffix .nil, fun t ht => ?_⟩, u, hm⟩⟩
    rw [List.mem_singleton.mp ht]
    exact bare_leaf

/-- A part with a meaning. -/
def SpecialR (E : Setting) : Rel := fun w w' l => PartsR E w w' l ∧
  ((∃ c, c ≠ '\n' ∧ w = '\\' :: c :: w') ∨ ∃ w1 raw val, w = '[' :: w1 ∧ Body [']'] ['\\'] w1 raw val w')

theorem escape_yields (hw : E.Has w) : Yields E K true (regexN "Part" Script.rxEscape) w (SpecialR E w) True := by
  by_cases h : ∃ c w', c ≠ '\n' ∧ w = '\\' :: c :: w'
  · obtain ⟨c, w', hc, rfl⟩ := h
    refine ⟨_, reads_escape hc, leaf_good (u := ['\\', c]) hw (by simp), .tok ⟨⟨.cons rfl quiet_leaf rfl ?_ .nil, fun t ht => ?_⟩, Or.inl ⟨c, hc, rfl⟩⟩⟩
    · exact (List.suffix_cons ..).trans (List.suffix_cons ..)
    · rw [List.mem_singleton.mp ht]
      exact bare_leaf
  · refine ⟨_, .regexN_fail (find_none ?_), trivial, .fail trivial⟩
    have : rxSeq [Rx.lit '\\', .one (· != '\n')] w = none := by
      unfold Rx.lit rxSeq
      cases w with
      | nil => rfl
      | cons c w =>
        dsimp only
        split
        · rename_i hc
          rw [beq_iff_eq] at hc
          subst hc
          unfold rxSeq
          cases w with
          | nil => rfl
          | cons d w =>
            dsimp only
            split
            · rename_i hd
              exact (h ⟨d, w, by simpa using hd, rfl⟩).elim
            · rfl
        · rfl
    unfold rxAlt
    rw [this]
    rfl

theorem bracket_yields (hw : E.Has w) : Yields E K true (sequenceN "Part" "[" "]" "\\") w (SpecialR E w) True := by
  by_cases h : ∃ w1 raw val w', w = '[' :: w1 ∧ Body [']'] ['\\'] w1 raw val w'
  · obtain ⟨w1, raw, val, w', rfl, hb⟩ := h
    have hg : (Got.tok w' (delimT E "Part".toList ('[' :: w1) w1 (']' :: w') w' val)).Good E ('[' :: w1) := body_good (a := ['[']) (z := [']']) hw (by simp) hb
    refine ⟨_, .sequenceN (a := ['[']) hb, hg, .tok ⟨⟨.cons rfl quiet_delim rfl hg.1 .nil, fun t ht => ?_⟩, Or.inr ⟨w1, raw, val, rfl, hb⟩⟩⟩
    rw [List.mem_singleton.mp ht]
    exact bare_delim
  · exact ⟨_, .sequenceN_fail (a := ['[']) (z := [']']) (e := ['\\']) (fun w1 raw val rest h1 h2 => h ⟨w1, raw, val, rest, h1, h2⟩), trivial, .fail trivial⟩

/-- The end of the expression. -/
def EndR (E : Setting) : Rel := fun w w' l => ∃ rest flags, w = '/' :: rest ∧ Munch Syntax.flagChar rest flags w' ∧
  l = leafT E "RegexEnd".toList w rest :: (if flags = [] then [] else [leafT E "Flags".toList rest w'])

theorem end_yields (hw : E.Has w) : YieldsB E K true "RegexCaptureLoop".toList
    (proxyChildren (program [equalsN "RegexEnd" "/", regexN "Flags" Script.rxFlags, brk "RegexCaptureLoop"])) w (SpecialR E w) (EndR E w) (¬ ['/'] <+: w) := by
  by_cases h : ['/'] <+: w
  · obtain ⟨rest, rfl⟩ := h
    obtain ⟨flags, w', hf⟩ := munch_any Syntax.flagChar rest
    have hi := Neat.start hw
    have g1 : (Got.tok rest (leafT E "RegexEnd".toList (['/'] ++ rest) rest)).Good E (['/'] ++ rest) := leaf_good hw (by simp)
    obtain ⟨hi1, -⟩ := hi.tok hw g1
    have hr := hw.tail (List.suffix_append ['/'] rest)
    have hs : w' <:+ ['/'] ++ rest := hf.suffix.trans (List.suffix_append ..)
    rcases reads_flags (E := E) (K := K) hf with ⟨hu, rfl, h⟩ | ⟨hu, h⟩
    · obtain ⟨a, b1, b2, b3⟩ : ∃ a : Run, a = ((Run.start E (['/'] ++ w')).take E (.tok w' (leafT E "RegexEnd".toList (['/'] ++ w') w'))).take E (.past w') ∧
          Neat E (['/'] ++ w') a ∧ a.kids = [leafT E "RegexEnd".toList (['/'] ++ w') w'] := ⟨_, rfl, hi1.past hw (List.suffix_refl _), rfl⟩
      rcases b2.gives (name := "Program".toList) with ⟨h8, -⟩ | ⟨-, h9, h10⟩
      · rw [b3] at h8
        cases h8
      · have hne : ∀ k ∈ a.kids, NotError k := by
          rw [b3]
          intro k hk
          rw [List.mem_singleton.mp hk]
          exact error_ne
        have hlast : (nodeT E "Program".toList (['/'] ++ w') a.rest a.kids).kids.getLast? = some (leafT E "RegexEnd".toList (['/'] ++ w') w') := by
          show a.kids.getLast? = _
          rw [b3]
          rfl
        have hrest : a.rest = w' := by rw [b1]; rfl
        rw [hrest] at h9 h10 hlast
        refine ⟨_, .proxyChildren (g := .brk _ (.tok w' _)) (.program (.cons (.equalsN (l := ['/'])) <| .cons h <| .brk .brk rfl (by rw [← b1]; exact b2.sync))
          (.breaks (g' := .tok w' _) (by rw [← b1]; exact h9))) (.brk (List.suffix_refl _) hs hlast rfl hne), splice_good hw h10 (List.suffix_refl _) hs hlast rfl hne,
          Or.inr (.splice (Or.inl rfl) ⟨w', flags, rfl, hf, ?_⟩ rfl)⟩
        rw [if_pos hu]
        exact b3
    · obtain ⟨hi2, -⟩ := hi1.tok hw (show (Got.tok w' (leafT E "Flags".toList rest w')).Good E rest from munch_good hr hf hu)
      obtain ⟨a, b1, b2, b3⟩ : ∃ a : Run, a = ((Run.start E (['/'] ++ rest)).take E (.tok rest (leafT E "RegexEnd".toList (['/'] ++ rest) rest))).take E
          (.tok w' (leafT E "Flags".toList rest w')) ∧
          Neat E (['/'] ++ rest) a ∧ a.kids = [leafT E "RegexEnd".toList (['/'] ++ rest) rest, leafT E "Flags".toList rest w'] :=
        ⟨_, rfl, hi2, rfl⟩
      rcases b2.gives (name := "Program".toList) with ⟨h8, -⟩ | ⟨-, h9, h10⟩
      · rw [b3] at h8
        cases h8
      · have hne : ∀ k ∈ a.kids, NotError k := by
          rw [b3]
          intro k hk
          simp only [List.mem_cons, List.not_mem_nil, or_false] at hk
          rcases hk with rfl | rfl
          · exact error_ne (n := "RegexEnd")
          · exact error_ne (n := "Flags")
        have hlast : (nodeT E "Program".toList (['/'] ++ rest) a.rest a.kids).kids.getLast? = some (leafT E "Flags".toList rest w') := by
          show a.kids.getLast? = _
          rw [b3]
          rfl
        have hrest : a.rest = w' := by rw [b1]; rfl
        rw [hrest] at h9 h10 hlast
        refine ⟨_, .proxyChildren (g := .brk _ (.tok w' _)) (.program (.cons (.equalsN (l := ['/'])) <| .cons h <| .brk .brk rfl (by rw [← b1]; exact b2.sync))
          (.breaks (g' := .tok w' _) (by rw [← b1]; exact h9))) (.brk (List.suffix_refl _) hs hlast rfl hne), splice_good hw h10 (List.suffix_refl _) hs hlast rfl hne,
          Or.inr (.splice (Or.inl rfl) ⟨rest, flags, rfl, hf, ?_⟩ rfl)⟩
        rw [if_neg hu]
        exact b3
  · exact ⟨_, .proxyChildren (.program (.fail (.equalsN_fail h)) .fails) .fail, trivial, Or.inl (.fail h)⟩

theorem regular_plain {u text rest : Str} (hu : ∀ c ∈ u, plainPart c = true) (h : Regular w text rest) : Regular (u ++ w) (u ++ text) rest := by
  induction u with
  | nil => exact h
  | cons c u ih =>
    refine .char ?_ (ih fun d hd => hu d (List.mem_cons_of_mem _ hd))
    have := hu c (by simp)
    simpa [plainPart, and_assoc] using this

theorem regex_lap {b : Nat} : ∃ D F L, Lap E K b "RegexCaptureLoop".toList true regexRound D F L ∧
    (∀ w w' l, D w w' l → PartsR E w w' l ∧ ∀ text rest, Regular w' text rest → ∃ text', Regular w text' rest) ∧
    (∀ w w' l, F w w' l → (∀ t ∈ l, Bare t) ∧ Stuck w') ∧
    (∀ w w' l, L w w' l → ∃ text rest flags parts ends, Regular w text rest ∧ Munch Syntax.flagChar rest flags w' ∧ PartsR E w ('/' :: rest) parts ∧
      l = parts ++ ends ∧ ends = leafT E "RegexEnd".toList ('/' :: rest) rest :: (if flags = [] then [] else [leafT E "Flags".toList rest w'])) := by
  have hl : Lap E K b "RegexCaptureLoop".toList (false || (true || false)) regexRound _ _ _ :=
    .cons (s := false) (N := fun w w' l => PartsR E w w' l ∧ ∃ u, Munch plainPart w u w') (L := fun _ => Never) (X := fun _ => False)
      (fun w hw _ => (plain_yields hw).turn) <|
    .cons (s := true) (N := SpecialR E) (L := EndR E) (X := fun w => True ∧ ¬ ['/'] <+: w ∧ True ∧ True)
      (fun w hw _ => YieldsP.switchB (.cons (escape_yields hw).turn <| .cons (end_yields hw) <| .cons (bracket_yields hw).turn .nil)) .nil
  refine ⟨_, _, _, hl, ?_, ?_, ?_⟩
  · rintro w w' l ⟨w1, l1, l2, rfl, ⟨⟨h1, h1'⟩, u, hm⟩, w2, l3, l4, rfl, ⟨⟨h2, h2'⟩, h3⟩, rfl, rfl⟩
    rw [List.append_nil]
    refine ⟨⟨h1.append h2, ?_⟩, fun text rest hr => ?_⟩
    · intro t ht
      rcases List.mem_append.mp ht with ht | ht
      · exact h1' t ht
      · exact h2' t ht
    · have := hm.split
      subst this
      rcases h3 with ⟨c, hc, rfl⟩ | ⟨w1, raw, val, rfl, hb⟩
      · exact ⟨_, regular_plain hm.all (.escape hc hr)⟩
      · exact ⟨_, regular_plain hm.all (.bracket hb hr)⟩
  · rintro w w' l (⟨h, -⟩ | ⟨w1, l1, l2, rfl, ⟨⟨h1, h1'⟩, u, hm⟩, ⟨⟨-, hx, -⟩, rfl, rfl⟩ | ⟨w2, l3, l4, -, -, h⟩⟩)
    · exact h.elim
    · refine ⟨by simpa using h1', fun c hc => ?_⟩
      have := hm.most c hc
      have hne : c ≠ '/' := by
        rintro rfl
        refine hx ?_
        cases w' with
        | nil => cases hc
        | cons d v => cases hc; exact ⟨v, rfl⟩
      rw [plainPart] at this
      by_cases h1 : c = '\\'
      · exact Or.inl h1
      · by_cases h2 : c = '['
        · exact Or.inr h2
        · simp [hne, h1, h2] at this
    · exact h.elim
  · rintro w w' l (h | ⟨w1, l1, l2, rfl, ⟨⟨h1, h1'⟩, u, hm⟩, ⟨rest, flags, rfl, hf, rfl⟩ | ⟨w2, l3, l4, -, -, h⟩⟩)
    · exact h.elim
    · have := hm.split
      subst this
      exact ⟨u ++ [], rest, flags, l1, _, regular_plain hm.all .done, hf, ⟨h1, h1'⟩, rfl, rfl⟩
    · exact h.elim

/-- What the loop reads. -/
def RegexR (E : Setting) : Rel := fun w w' l => (∀ t ∈ l, Bare t) ∧
  (Stuck w' ∨ ∃ text rest flags parts ends, Regular w text rest ∧ Munch Syntax.flagChar rest flags w' ∧ PartsR E w ('/' :: rest) parts ∧
      l = parts ++ ends ∧ ends = leafT E "RegexEnd".toList ('/' :: rest) rest :: (if flags = [] then [] else [leafT E "Flags".toList rest w']))

theorem ends_bare {flags rest : Str} {ends : List Tr}
    (h : ends = leafT E "RegexEnd".toList ('/' :: rest) rest :: (if flags = [] then [] else [leafT E "Flags".toList rest w'])) :
    ∀ t ∈ ends, Bare t ∧ t.name ≠ "Part".toList := by
  intro t ht
  rw [h] at ht
  rcases List.mem_cons.mp ht with rfl | ht
  · exact ⟨bare_leaf, toList_ne (by decide)⟩
  · split at ht
    · cases ht
    · rw [List.mem_singleton.mp ht]
      exact ⟨bare_leaf, toList_ne (by decide)⟩

theorem regex_laps {D F L : Rel} (hD : ∀ w w' l, D w w' l → PartsR E w w' l ∧ ∀ text rest, Regular w' text rest → ∃ text', Regular w text' rest)
    (hF : ∀ w w' l, F w w' l → (∀ t ∈ l, Bare t) ∧ Stuck w')
    (hL : ∀ w w' l, L w w' l → ∃ text rest flags parts ends, Regular w text rest ∧ Munch Syntax.flagChar rest flags w' ∧ PartsR E w ('/' :: rest) parts ∧
      l = parts ++ ends ∧ ends = leafT E "RegexEnd".toList ('/' :: rest) rest :: (if flags = [] then [] else [leafT E "Flags".toList rest w']))
    {l : List Tr} (h : Laps D F L w w' l) : RegexR E w w' l := by
  induction h with
  | fail h => exact ⟨(hF _ _ _ h).1, Or.inl (hF _ _ _ h).2⟩
  | brk h =>
    obtain ⟨text, rest, flags, parts, ends, h1, h2, h3, rfl, h5⟩ := hL _ _ _ h
    refine ⟨fun t ht => ?_, Or.inr ⟨text, rest, flags, parts, ends, h1, h2, h3, rfl, h5⟩⟩
    rcases List.mem_append.mp ht with ht | ht
    · exact h3.2 t ht
    · exact (ends_bare h5 t ht).1
  | next h _ _ ih =>
    obtain ⟨⟨h1, h1'⟩, h2⟩ := hD _ _ _ h
    refine ⟨fun t ht => ?_, ih.2.imp id ?_⟩
    · rcases List.mem_append.mp ht with ht | ht
      · exact h1' t ht
      · exact ih.1 t ht
    · rintro ⟨text, rest, flags, parts, ends, h3, h4, h5, rfl, h6⟩
      obtain ⟨text', h7⟩ := h2 _ _ h3
      refine ⟨text', rest, flags, _ ++ parts, ends, h7, h4, ⟨h1.append h5.1, fun t ht => ?_⟩, by rw [List.append_assoc], h6⟩
      rcases List.mem_append.mp ht with ht | ht
      · exact h1' t ht
      · exact h5.2 t ht

theorem bare_block {c : Range} {l : List Tr} (hl : ∀ t ∈ l, Bare t) (h : Cold n := by decide) : Bare (blockT E n.toList c w w' l) := by
  refine ⟨rfl, ?_, .node (Cold.names h) fun t ht => (hl t ht).quiet⟩
  unfold blockT
  rw [purge_node, purges_bare hl]

theorem span_eq {l : List Range} {a b : Nat} (h : ∀ r ∈ l, a ≤ r.start ∧ r.stop ≤ b) (ha : ∃ r ∈ l, r.start = a) (hb : ∃ r ∈ l, r.stop = b)
    (hm : a ≤ usizeMax) : span l = ⟨a, b⟩ := by
  have h1 : a ≤ lowest l ∧ highest l ≤ b := by
    clear ha hb
    induction l with
    | nil => exact ⟨hm, Nat.zero_le _⟩
    | cons r l ih =>
      have h1 := h r (by simp)
      have h2 := ih fun r hr => h r (List.mem_cons_of_mem _ hr)
      unfold lowest highest
      omega
  have h2 : lowest l ≤ a := by
    obtain ⟨r, hr, rfl⟩ := ha
    clear hb h h1 hm
    induction hr with
    | head => unfold lowest; omega
    | tail _ _ ih => unfold lowest; omega
  have h3 : b ≤ highest l := by
    obtain ⟨r, hr, rfl⟩ := hb
    clear ha h h1 h2 hm
    induction hr with
    | head => unfold highest; omega
    | tail _ _ ih => unfold highest; omega
  unfold span
  rw [Nat.le_antisymm h2 h1.1, Nat.le_antisymm h1.2 h3]

theorem first_absent {toks : List Token} {names : List String} {l : List TokId} {f : TokId} (h : First toks names l f) (h' : Absent toks names l) : False := by
  obtain ⟨pre, post, rfl, ⟨n, hn, hi⟩, -⟩ := h
  exact h' f (by simp) n hn hi

theorem regexText_only {toks : List Token} {k : Token} {lo : Nat} {v flags rest : Str} {parts ends : List Tr} {v0 : Str} (hv : k.getValue = v0)
    (hwr : E.Has rest) (hf : Munch Syntax.flagChar rest flags w')
    (hch : Reps E toks lo k.children (parts ++ ends)) (hp : ∀ t ∈ parts, t.name ≠ "Flags".toList)
    (he : ends = leafT E "RegexEnd".toList ('/' :: rest) rest :: (if flags = [] then [] else [leafT E "Flags".toList rest w']))
    (h : RegexText toks k v) : v = Syntax.flagged flags v0 := by
  have hpre : ∀ t ∈ parts ++ [leafT E "RegexEnd".toList ('/' :: rest) rest], ∀ n ∈ ["Flags"], t.name ≠ n.toList := by
    intro t ht n hn
    rw [List.mem_singleton.mp hn]
    rcases List.mem_append.mp ht with ht | ht
    · exact hp t ht
    · rw [List.mem_singleton.mp ht]
      exact toList_ne (by decide)
  rw [he] at hch
  unfold Syntax.flagged
  by_cases hfl : flags = []
  · rw [if_pos hfl]
    rw [if_pos hfl] at hch
    cases h with
    | plain h => exact hv
    | flags h hf => exact (first_absent h (hch.absent hpre)).elim
  · rw [if_neg hfl]
    rw [if_neg hfl, show parts ++ leafT E "RegexEnd".toList ('/' :: rest) rest :: [leafT E "Flags".toList rest w']
      = (parts ++ [leafT E "RegexEnd".toList ('/' :: rest) rest]) ++ leafT E "Flags".toList rest w' :: [] by simp] at hch
    obtain ⟨f, b1, b2⟩ := hch.first hpre ⟨"Flags", List.mem_singleton.mpr rfl, rfl⟩
    obtain ⟨fk, b3, -, -, b4⟩ := b2.leaf
    cases h with
    | plain h => exact (first_absent b1 h).elim
    | @flags f' fk' h hf' =>
      obtain rfl := first_only h b1
      rw [b3] at hf'
      cases hf'
      have b5 : fk.getCapturedValue = flags := by
        rw [b4]
        have := hf.split
        subst this
        exact hwr.range
      rw [b5, hv]

theorem empty_reads {rest flags : Str} (hf : Munch Syntax.flagChar rest flags w') (hw : E.Has ('/' :: '/' :: rest)) :
    ∃ ends, ends = leafT E "RegexEnd".toList ('/' :: rest) rest :: (if flags = [] then [] else [leafT E "Flags".toList rest w']) ∧
      BReads E K K (programN "RegexMatcher" [equalsN "RegexStart" "/", proxyChildren (loopN "RegexCaptureLoop" regexRound)]) ('/' :: '/' :: rest)
        (.tok w' (blockT E "RegexMatcher".toList ⟨E.at_ ('/' :: '/' :: rest), E.at_ w'⟩ ('/' :: '/' :: rest) w'
          (leafT E "RegexStart".toList ('/' :: '/' :: rest) ('/' :: rest) :: ends))) := by
  have : AddsAll regexRound := by unfold regexRound; infer_instance
  have hi := Neat.start hw
  have hw1 : E.Has ('/' :: rest) := hw.tail (List.suffix_cons ..)
  have hwr : E.Has rest := hw1.tail (List.suffix_cons ..)
  have hs : w' <:+ '/' :: rest := adv hf.suffix _
  have m1 := hw.mono (List.suffix_cons ..)
  have m2 := hw1.mono (List.suffix_cons ..)
  have m3 := hwr.mono hf.suffix
  have m4 := (hwr.tail hf.suffix).le
  have m5 := E.small
  have m6 : isizeMax ≤ usizeMax := by decide
  have hplain : ∀ K, BReads E K K (regexN "Part" Script.rxPlainPart) ('/' :: rest) (.past ('/' :: rest)) := by
    intro K
    have hm : Munch plainPart ('/' :: rest) [] ('/' :: rest) := ⟨rfl, (fun _ h => by cases h), (fun c hc => by cases hc; rfl)⟩
    rcases reads_plainPart (E := E) (K := K) hm with ⟨-, -, h⟩ | ⟨h, -⟩
    · exact h
    · exact (h rfl).elim
  obtain ⟨ends, he, hne, hcaps, t, hk, hm, hc, hend⟩ : ∃ ends, ends = leafT E "RegexEnd".toList ('/' :: rest) rest :: (if flags = [] then [] else [leafT E "Flags".toList rest w']) ∧
      (∃ k, ends.getLast? = some k ∧ k.matched.stop = E.at_ w') ∧ span (ends.map Tr.captured) = ⟨E.at_ ('/' :: rest), E.at_ w'⟩ ∧
      ∃ t : Tr, t.kids = ends ∧ t.matched = ⟨E.at_ ('/' :: rest), E.at_ w'⟩ ∧ t.captured = span (ends.map Tr.captured) ∧
      BReads E K K (proxyChildren (program [equalsN "RegexEnd" "/", regexN "Flags" Script.rxFlags, brk "RegexCaptureLoop"]))
        ('/' :: rest) (.brk "RegexCaptureLoop".toList (.splice w' t)) := by
    rcases reads_flags (E := E) (K := K) hf with ⟨hu, he, h⟩ | ⟨hu, h⟩
    · obtain rfl := he
      rw [if_pos hu]
      refine ⟨_, rfl, ⟨_, rfl, rfl⟩, ?_, nodeT E "Program".toList ('/' :: w') w' [leafT E "RegexEnd".toList ('/' :: w') w'], rfl, rfl, rfl, ?_⟩
      · refine span_eq ?_ ⟨_, List.mem_cons_self .., rfl⟩ ⟨_, List.mem_cons_self .., rfl⟩ (by omega)
        intro r hr
        simp only [List.map_cons, List.map_nil, List.mem_singleton] at hr
        subst hr
        exact ⟨Nat.le_refl _, Nat.le_refl _⟩
      · exact .proxyChildren (.program (.cons (.equalsN (l := ['/'])) <| .cons h <| .brk .brk)
          (.breaks (.tok (by simp [Run.take, Run.start]) (by simp [Run.take, Run.start]) rfl hs rfl)))
          (.brk (List.suffix_refl _) hs rfl rfl (clean_names rfl))
    · rw [if_neg hu]
      refine ⟨_, rfl, ⟨_, rfl, rfl⟩, ?_, nodeT E "Program".toList ('/' :: rest) w' [leafT E "RegexEnd".toList ('/' :: rest) rest, leafT E "Flags".toList rest w'], rfl, rfl, rfl, ?_⟩
      · refine span_eq ?_ ⟨_, List.mem_cons_self .., rfl⟩ ⟨_, List.mem_cons_of_mem _ (List.mem_cons_self ..), rfl⟩ (by omega)
        intro r hr
        simp only [List.map_cons, List.map_nil, List.mem_cons, List.not_mem_nil, or_false] at hr
        rcases hr with rfl | rfl
        · exact ⟨Nat.le_refl _, m3⟩
        · exact ⟨m2, Nat.le_refl _⟩
      · exact .proxyChildren (.program (.cons (.equalsN (l := ['/'])) <| .cons h <| .brk .brk)
          (.breaks (.tok (by simp [Run.take, Run.start]) (by simp [Run.take, Run.start]) rfl hs rfl)))
          (.brk (List.suffix_refl _) hs rfl rfl (clean_names rfl))
  refine ⟨ends, he, ?_⟩
  obtain ⟨k, hk1, hk2⟩ := hne
  have hnn : ends ≠ [] := by
    rintro rfl
    cases hk1
  -- the loop
  have hpass : Pass E K regexRound (.start E ('/' :: rest)) (.breaks K "RegexCaptureLoop".toList (.splice w' t) (.start E ('/' :: rest))) :=
    .cons (hplain K) <| .brk (.switch (.next (reads_escape_fail (head_ne (by decide))) <| .here hend trivial))
  have hcap2 : span (t.captured :: t.kids.map Tr.captured) = ⟨E.at_ ('/' :: rest), E.at_ w'⟩ := by
    rw [hk, hc, hcaps]
    refine span_eq ?_ ⟨_, List.mem_cons_self .., rfl⟩ ⟨_, List.mem_cons_self .., rfl⟩ (by omega)
    intro r hr
    rcases List.mem_cons.mp hr with rfl | hr
    · exact ⟨Nat.le_refl _, Nat.le_refl _⟩
    · rw [he] at hr
      rw [List.map_cons] at hr
      rcases List.mem_cons.mp hr with rfl | hr
      · exact ⟨Nat.le_refl _, m3⟩
      · split at hr
        · cases hr
        · rw [List.map_cons, List.map_nil, List.mem_singleton] at hr
          subst hr
          exact ⟨m2, Nat.le_refl _⟩
  have hloop : BReads E K K (proxyChildren (loopN "RegexCaptureLoop" regexRound)) ('/' :: rest)
      (.splice w' (blockT E "RegexCaptureLoop".toList ⟨E.at_ ('/' :: rest), E.at_ w'⟩ ('/' :: rest) w' ends)) := by
    refine .proxyChildren (g := .tok w' (blockT E "RegexCaptureLoop".toList ⟨E.at_ ('/' :: rest), E.at_ w'⟩ ('/' :: rest) w' ends))
      (.loopN .zero hpass (.breaks (Or.inl rfl) ?_)) (.tok (List.suffix_refl _) hs hk1 hk2 ?_)
    · have := Gives.tok (E := E) (name := "RegexCaptureLoop".toList) (w := '/' :: rest) (w' := w')
        (r := (Run.start E ('/' :: rest)).take E (.splice w' t)) (by rw [show ((Run.start E ('/' :: rest)).take E (.splice w' t)).kids = t.kids from rfl, hk]; exact hnn)
        (by simp [Run.take]) rfl hs (show t.matched.stop = _ by rw [hm])
      have e : ((Run.start E ('/' :: rest)).take E (.splice w' t)).tree E "RegexCaptureLoop".toList ('/' :: rest)
          = blockT E "RegexCaptureLoop".toList ⟨E.at_ ('/' :: rest), E.at_ w'⟩ ('/' :: rest) w' ends := by
        show Tr.node ⟨_, span (t.captured :: t.kids.map Tr.captured), ⟨E.at_ ('/' :: rest), t.matched.stop⟩, _, _, _⟩ t.kids = _
        rw [hcap2, hm, hk]
        rfl
      rwa [e] at this
    · intro t ht
      exact (ends_bare he t ht).1.quiet.name "Error" (by decide)
  have hgive := Gives.tok (E := E) (name := "RegexMatcher".toList) (w := '/' :: '/' :: rest) (w' := w')
    (r := ((Run.start E ('/' :: '/' :: rest)).take E (.tok ('/' :: rest) (leafT E "RegexStart".toList (['/'] ++ '/' :: rest) ('/' :: rest)))).take E
      (.splice w' (blockT E "RegexCaptureLoop".toList ⟨E.at_ ('/' :: rest), E.at_ w'⟩ ('/' :: rest) w' ends)))
    (by simp [Run.take]) (by simp [Run.take]) rfl (adv hs _) rfl
  have e : (((Run.start E ('/' :: '/' :: rest)).take E (.tok ('/' :: rest) (leafT E "RegexStart".toList (['/'] ++ '/' :: rest) ('/' :: rest)))).take E
      (.splice w' (blockT E "RegexCaptureLoop".toList ⟨E.at_ ('/' :: rest), E.at_ w'⟩ ('/' :: rest) w' ends))).tree E "RegexMatcher".toList ('/' :: '/' :: rest)
      = blockT E "RegexMatcher".toList ⟨E.at_ ('/' :: '/' :: rest), E.at_ w'⟩ ('/' :: '/' :: rest) w'
          (leafT E "RegexStart".toList ('/' :: '/' :: rest) ('/' :: rest) :: ends) := by
    show Tr.node ⟨_, span (⟨E.at_ ('/' :: '/' :: rest), E.at_ ('/' :: rest)⟩ :: ⟨E.at_ ('/' :: rest), E.at_ w'⟩ :: ends.map Tr.captured), _, _, _, _⟩ _ = _
    rw [span_eq (a := E.at_ ('/' :: '/' :: rest)) (b := E.at_ w') ?_ ⟨_, List.mem_cons_self .., rfl⟩ ⟨_, List.mem_cons_of_mem _ (List.mem_cons_self ..), rfl⟩ (by omega)]
    · rfl
    · intro r hr
      rcases List.mem_cons.mp hr with rfl | hr
      · exact ⟨Nat.le_refl _, by dsimp only; omega⟩
      · rcases List.mem_cons.mp hr with rfl | hr
        · exact ⟨m1, Nat.le_refl _⟩
        · rw [he, List.map_cons] at hr
          rcases List.mem_cons.mp hr with rfl | hr
          · exact ⟨m1, m3⟩
          · split at hr
            · cases hr
            · rw [List.map_cons, List.map_nil, List.mem_singleton] at hr
              subst hr
              exact ⟨Nat.le_trans m1 m2, Nat.le_refl _⟩
  rw [e] at hgive
  exact .programN (.cons (.equalsN (l := ['/'])) <| .cons hloop .nil) (.done hgive)

/-- What the program reads. -/
def RegexTR (E : Setting) : Rel := fun w w' l => ∃ c ks, l = [blockT E "RegexMatcher".toList c w w' ks] ∧
  (∃ w1 l2, w = '/' :: w1 ∧ ks = [leafT E "RegexStart".toList w w1] ++ l2 ∧ RegexR E w1 w' l2) ∧
  ∀ rest, w = '/' :: '/' :: rest → c = ⟨E.at_ w, E.at_ w'⟩

theorem regex_program (hw : E.Has w) :
    Yields E K true (programN "RegexMatcher" [equalsN "RegexStart" "/", proxyChildren (loopN "RegexCaptureLoop" regexRound)]) w (RegexTR E w) True := by
  have : AddsAll regexRound := by unfold regexRound; infer_instance
  by_cases hd : ∃ rest, w = '/' :: '/' :: rest
  · obtain ⟨rest, rfl⟩ := hd
    obtain ⟨flags, w', hf⟩ := munch_any Syntax.flagChar rest
    obtain ⟨ends, he, h⟩ := empty_reads (K := K) hf hw
    have hb := ends_bare he
    have hw1 : E.Has ('/' :: rest) := hw.tail (List.suffix_cons ..)
    have hwr : E.Has rest := hw1.tail (List.suffix_cons ..)
    have hs : w' <:+ '/' :: '/' :: rest := adv (adv hf.suffix _) _
    have m1 := hw.lt (List.suffix_cons ..) (suffix_lt (List.suffix_cons ..) (by simp))
    have m2 := hw1.lt (List.suffix_cons ..) (suffix_lt (List.suffix_cons ..) (by simp))
    have m3 := hwr.mono hf.suffix
    have m4 := (hwr.tail hf.suffix).le
    refine ⟨_, h, ⟨hs, rfl, .node (Nat.le_refl _) (by dsimp only; omega) m4 (by dsimp only; omega) fun k hk _ => ?_⟩,
      .tok ⟨_, _, rfl, ⟨'/' :: rest, ends, rfl, rfl, fun t ht => (hb t ht).1, Or.inr ⟨[], rest, flags, [], ends, .done, hf, ⟨.nil, fun _ h => by cases h⟩, rfl, he⟩⟩,
        fun _ _ => rfl⟩⟩
    rcases List.mem_cons.mp hk with rfl | hk
    · exact .node (Nat.le_refl _) m1 (by show E.at_ ('/' :: rest) ≤ E.at_ w'; omega) (Nat.le_of_lt m1) (fun _ h => by cases h)
    · rw [he] at hk
      rcases List.mem_cons.mp hk with rfl | hk
      · exact .node (Nat.le_of_lt m1) m2 m3 (Nat.le_of_lt m2) (fun _ h => by cases h)
      · split at hk
        · cases hk
        · rename_i hfl
          rw [List.mem_singleton.mp hk]
          have m5 := hwr.lt hf.suffix (suffix_lt hf.suffix (by
            intro e
            have := hf.split
            rw [← e] at this
            exact hfl (List.append_left_eq_self.mp this.symm)))
          exact .node (by show E.at_ _ ≤ E.at_ rest; omega) m5 (Nat.le_refl _) (Nat.le_of_lt m5) (fun _ h => by cases h)
  · obtain ⟨o, g, h1, h2, h3, h4⟩ := Yields.group (K := K) (n := "RegexMatcher".toList) (y := proxyChildren (loopN "RegexCaptureLoop" regexRound))
      (M := RegexR E) hw (yields_equalsN (n := "RegexStart") (s := "/") hw) (fun w' hw' _ => by
        obtain ⟨D, F, L, b1, b2, b3, b4⟩ := regex_lap (E := E) (K := K) (b := blen w' + 1)
        obtain ⟨g, c1, c2, c3⟩ := b1.loopN (lo := .unbounded) hw' (by omega)
        obtain ⟨g', d1, d2, d3⟩ := c3.splice hw' c1 c2 fun w'' l hl t ht => by
          exact ((regex_laps b2 b3 b4 hl).1 t ht).quiet.name "Error" (by decide)
        refine ⟨g', d1, d2, ?_⟩
        cases d3 with
        | fail => exact .fail
        | fatal => exact .fatal
        | splice h hne hs hw => exact .splice (regex_laps b2 b3 b4 h) hne hs hw)
    refine ⟨g, .programN h1 h2, h3, h4.mono ?_ id⟩
    rintro w' l ⟨c, ks, rfl, w1, l1, l2, rfl, ⟨rfl, rfl⟩, hR⟩
    exact ⟨c, _, rfl, ⟨w1, l2, rfl, rfl, hR⟩, fun rest h => (hd ⟨rest, h⟩).elim⟩

theorem regex_yields {env : Env} (hw : E.Has w) : Yields E K true Script.regexMatcher w
    (MatcherR E env (fun w g w' => Lax.Matcher env w g w' ∨ Stuck w') w) True := by
  refine (Yields.map (P := fun w' t v as => v = (if (hullOf t.kids ⟨usizeMax, usizeMax⟩).text E.p = [] then none else some ((hullOf t.kids ⟨usizeMax, usizeMax⟩).text E.p)) ∧
      as = t.info.attributes) (regex_program hw) ?_ ?_).mono ?_
  · rintro w' ⟨c, ks, h, -⟩
    cases h
  · rintro w' t ⟨c, ks, ht, -⟩
    obtain rfl := (List.cons.inj ht).1
    refine ⟨toList_ne (by decide), _, _, ⟨rfl, rfl⟩, fun c' sc s i k _ hk hi hp hr => ?_⟩
    unfold Script.regexMatcherDone
    rw [bind_run (getTok_ok.mpr ⟨hk, rfl⟩), bind_run (partsRange_any hr _), bind_run (modTok_ok (u := ()) |>.mpr ⟨k, hk, rfl⟩), ← hp.parser]
    unfold Token.setValue
    rw [← hi]
    split <;> rfl
  · rintro w' l ⟨t, v, as, rfl, ⟨c, ks, ht, ⟨w1, l2, rfl, rfl, hall, hR⟩, hcap⟩, hv, rfl⟩
    obtain rfl := (List.cons.inj ht).1
    have hbk : ∀ t ∈ [leafT E "RegexStart".toList ('/' :: w1) w1] ++ l2, Bare t := by
      intro t ht
      rcases List.mem_append.mp ht with ht | ht
      · rw [List.mem_singleton.mp ht]
        exact bare_leaf
      · exact hall t ht
    refine ⟨_, rfl, rfl, ?_, ⟨"RegexMatcher", by decide, rfl⟩, ?_⟩
    · rw [purge_node]
      refine .node (Cold.names (n := "RegexMatcher") (by decide)) fun t ht => ?_
      rw [show (blockT E "RegexMatcher".toList c ('/' :: w1) w' ([leafT E "RegexStart".toList ('/' :: w1) w1] ++ l2)).kids
        = [leafT E "RegexStart".toList ('/' :: w1) w1] ++ l2 from rfl, purges_bare hbk] at ht
      exact (hbk t ht).quiet
    · rw [purge_node, show (blockT E "RegexMatcher".toList c ('/' :: w1) w' ([leafT E "RegexStart".toList ('/' :: w1) w1] ++ l2)).kids
        = [leafT E "RegexStart".toList ('/' :: w1) w1] ++ l2 from rfl, purges_bare hbk]
      intro toks lo i hr g hg
      rcases hR with hR | ⟨text, rest, flags, parts, ends, r1, r2, ⟨r3, r3'⟩, rfl, r5⟩
      · exact Or.inr hR
      · refine Or.inl ?_
        obtain ⟨k, -, hk, hp, hinf, hch⟩ := hr.root
        replace hch : Reps E toks (i + 1) k.children ([leafT E "RegexStart".toList ('/' :: w1) w1] ++ (parts ++ ends)) := hch
        have hn : k.name = "RegexMatcher".toList := congrArg Info.name hinf
        have hw1 : E.Has w1 := hw.tail (List.suffix_cons ..)
        have hsp := r1.split
        have hwr : E.Has rest := hw1.tail (by rw [hsp]; exact (List.suffix_cons ..).trans (List.suffix_append ..))
        -- the value of the token
        obtain ⟨l1, l2, e1, a1, a2⟩ := hch.split
        obtain ⟨l3, l4, e2, a3, a4⟩ := a2.split
        have hull : hullOf ([leafT E "RegexStart".toList ('/' :: w1) w1] ++ (parts ++ ends)) ⟨usizeMax, usizeMax⟩ =
            if parts = [] then ⟨usizeMax, usizeMax⟩ else ⟨E.at_ w1, E.at_ ('/' :: rest)⟩ := by
          have e4 := partsRange_any (s := ⟨toks, [], []⟩) hch ⟨usizeMax, usizeMax⟩
          rw [e1, partsRange_append l1 l2 _ _ (partsRange_skip (s := ⟨toks, [], []⟩) a1 (by
                intro t ht
                rw [List.mem_singleton.mp ht]
                exact toList_ne (by decide)) _), e2] at e4
          by_cases hpe : parts = []
          · rw [if_pos hpe]
            subst hpe
            cases a3
            rw [List.nil_append, partsRange_skip (s := ⟨toks, [], []⟩) a4 (fun t ht => (ends_bare r5 t ht).2) _] at e4
            exact (Res.ok.inj e4).1.symm
          · rw [if_neg hpe]
            rw [partsRange_append l3 l4 _ _ (partsRange_chain (s := ⟨toks, [], []⟩) r3 hw1 a3 (List.suffix_refl _) hw1 _ (Or.inr ⟨rfl, rfl, hpe⟩)),
              partsRange_skip (s := ⟨toks, [], []⟩) a4 (fun t ht => (ends_bare r5 t ht).2) _] at e4
            exact (Res.ok.inj e4).1.symm
        have htx : (⟨E.at_ w1, E.at_ ('/' :: rest)⟩ : Range).text E.p = text := by
          rw [hsp]
          rw [hsp] at hw1
          exact hw1.range
        have hval : k.getValue = if text = [] then '/' :: '/' :: flags else text := by
          rw [info_value hp, hinf]
          show (match v with | some v => v | none => c.text E.p) = _
          rw [hv]
          show (match (if (hullOf ([leafT E "RegexStart".toList ('/' :: w1) w1] ++ (parts ++ ends)) _).text E.p = [] then none else
            some ((hullOf ([leafT E "RegexStart".toList ('/' :: w1) w1] ++ (parts ++ ends)) _).text E.p)) with | some v => v | none => c.text E.p) = _
          rw [hull]
          by_cases hte : text = []
          · rw [if_pos hte]
            subst hte
            have hw1e : w1 = '/' :: rest := hsp
            have hct : c.text E.p = '/' :: '/' :: flags := by
              rw [hcap rest (by rw [hw1e]), hw1e]
              have := r2.split
              rw [hw1e, this] at hw
              rw [this]
              exact Setting.Has.range (u := '/' :: '/' :: flags) hw
            have hz : (⟨usizeMax, usizeMax⟩ : Range).text E.p = [] := by
              unfold Range.text substring
              rw [if_pos (Nat.le_refl _)]
            by_cases hpe : parts = []
            · rw [if_pos hpe, if_pos hz]
              exact hct
            · rw [if_neg hpe, if_pos htx]
              exact hct
          · rw [if_neg hte]
            have hpe : parts ≠ [] := by
              rintro rfl
              cases r3
              have := congrArg List.length hsp
              rw [List.length_append] at this
              exact hte (List.length_eq_zero_iff.mp (by omega))
            rw [if_neg hpe, htx, if_neg hte]
        have bad : ∀ {n : String} {k' : Token}, toks[i]? = some k' → k'.name = n.toList → n ≠ "RegexMatcher" → False := by
          intro n k' h1 h2 h3
          rw [hk] at h1
          cases h1
          rw [hn] at h2
          exact h3 (String.toList_inj.mp h2).symm
        cases hg with
        | equals h1 h2 => exact (bad h1 h2 (by decide)).elim
        | @regex _ k' v' re hk' hn' hv' ht' hr' =>
          rw [hk] at hk'
          cases hk'
          rw [← List.append_assoc] at hch
          rw [regexText_only hval hwr r2 hch (by
            intro t ht
            rcases List.mem_append.mp ht with ht | ht
            · rw [List.mem_singleton.mp ht]
              exact toList_ne (by decide)
            · rw [(r3.names t ht).1]
              exact toList_ne (by decide)) r5 ht'] at hr'
          by_cases hte : text = []
          · rw [if_pos hte] at hr'
            subst hte
            have hw1e : w1 = '/' :: rest := hsp
            subst hw1e
            exact .slashes r2 hr'
          · rw [if_neg hte] at hr'
            exact .regex r1 hte r2 hr'
        | sequence h1 h2 => exact (bad h1 h2 (by decide)).elim
        | custom h1 h2 => exact (bad h1 h2 (by decide)).elim
        | empty h1 h2 =>
          rcases h2 with h2 | h2
          · exact (bad h1 h2 (by decide)).elim
          · exact (bad h1 h2 (by decide)).elim
        | switch h1 h2 => exact (bad h1 h2 (by decide)).elim
        | program h1 h2 => exact (bad h1 h2 (by decide)).elim

end

end Adx.Read
