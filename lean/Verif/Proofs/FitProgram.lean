import Verif.Proofs.Fit
/-
  `Program` and `Switch` keep the heap tidy and return placed results.
-/
namespace Adx

variable {p : Prop} {P : Parser} {T : Table} {cfg : Cfg}

/-- The variables of a program that was entered at `a` in a window ending at `e`; its
children end at `q`. -/
structure PSFit (p : Prop) (P : Parser) (a e : Nat) (prog : TokId) (s : State) (q : Nat) (ps : PS) : Prop where
  parser : ps.ctx.parser = P
  stop : ps.ctx.offset.stop = e
  stop_le : e ≤ blen P.src
  stack : ∀ t ∈ ps.ctx.stack, t < s.toks.length
  prog : ∃ k, s.toks[prog]? = some k ∧ k.matched = ⟨0, 0⟩
  kids : InOrder s.toks a ps.children q
  q_le : q ≤ ps.ctx.offset.start
  off_le : ps.ctx.offset.start ≤ e
  matched : ps.matched = ⟨usizeMax, 0⟩ ∧ ps.captured = ⟨usizeMax, 0⟩ ∧ ps.children = [] ∧
      ps.ctx.offset.start = a ∨
    ps.matched.start = a ∧ ps.ctx.offset.start ≤ ps.matched.stop ∧ ps.matched.stop ≤ e ∧
      (ps.captured = ⟨usizeMax, 0⟩ ∧ ps.children = [] ∨ a ≤ ps.captured.start ∧
        ps.captured.start ≤ ps.captured.stop ∧ ps.captured.stop ≤ ps.matched.stop)
  chars : OnChar P.src a ∧ OnChar P.src e ∧ OnChar P.src ps.ctx.offset.start ∧ OnChar P.src ps.matched.stop ∧
    (ps.captured.start = usizeMax ∨ OnChar P.src ps.captured.start) ∧ OnChar P.src ps.captured.stop
  quiet : p ∨ Ascii P.src ∨ ps.ctx.debug = 0

theorem PSFit.a_le {a e q : Nat} {prog : TokId} {s : State} {ps : PS} (h : PSFit p P a e prog s q ps) :
    a ≤ ps.ctx.offset.start := Nat.le_trans h.kids.le h.q_le

theorem PSFit.keep {a e q : Nat} {prog : TokId} {s s' : State} {ps : PS} (h : PSFit p P a e prog s q ps)
    (hk : KeepsRanges s.toks.length s s') : PSFit p P a e prog s' q ps := by
  obtain ⟨k, h1, h2⟩ := h.prog
  obtain ⟨k', h1', h2'⟩ := hk.all _ _ h1
  exact ⟨h.parser, h.stop, h.stop_le, fun t ht => Nat.lt_of_lt_of_le (h.stack t ht) hk.1, ⟨k', h1', h2'.trans h2⟩,
    h.kids.congr (fun t k ht _ => hk.all t k ht), h.q_le, h.off_le, h.matched, h.chars, h.quiet⟩

theorem PSFit.fits {a e q : Nat} {prog : TokId} {s : State} {ps : PS} (h : PSFit p P a e prog s q ps) :
    ({ ps.ctx with stack := prog :: ps.ctx.stack } : Ctx).Fits p P s := by
  refine ⟨h.parser, ?_, ?_, fun t ht => ?_, ⟨h.chars.2.2.1, ?_⟩, h.quiet⟩
  · exact Nat.le_trans h.off_le (Nat.le_of_eq h.stop.symm)
  · exact Nat.le_trans (Nat.le_of_eq h.stop) h.stop_le
  · rcases List.mem_cons.mp ht with ht | ht
    · obtain ⟨k, hk, _⟩ := h.prog
      rw [ht]
      exact (List.getElem?_eq_some_iff.mp hk).1
    · exact h.stack t ht
  · show OnChar P.src ps.ctx.offset.stop
    rw [h.stop]
    exact h.chars.2.1

/-- The step of the ranges and the read position over a token inside the window. -/
theorem PSFit.cover {a e q : Nat} {prog : TokId} {s : State} {ps : PS} (hm : blen P.src ≤ isizeMax)
    (h : PSFit p P a e prog s q ps) {tk : Token} {toks : List Token} (htk : tk.Tidy P.src toks)
    (hq : q ≤ tk.matched.start) (he : tk.matched.stop ≤ e) (hne : tk.matched.start < tk.matched.stop)
    (h0 : ps.matched.start = a ∨ tk.matched.start = a) : PSFit p P a e prog s q (ps.cover tk) := by
  have hmax : isizeMax < usizeMax := by decide
  have hkle := h.kids.le
  obtain ⟨h1, h2, h3⟩ := And.intro htk.start_le (And.intro htk.captured_le htk.stop_le)
  have h4 := h.stop_le
  have h5 := h.off_le
  refine ⟨h.parser, h.stop, h.stop_le, h.stack, h.prog, h.kids, ?_, he, Or.inr ?_,
    ⟨h.chars.1, h.chars.2.1, htk.chars.1.2, ?_, ?_, ?_⟩, h.quiet⟩
  · show q ≤ tk.matched.stop
    omega
  · show (if tk.matched.start < ps.matched.start then tk.matched.start else ps.matched.start) = a ∧
      tk.matched.stop ≤ (if tk.matched.stop > ps.matched.stop then tk.matched.stop else ps.matched.stop) ∧
      (if tk.matched.stop > ps.matched.stop then tk.matched.stop else ps.matched.stop) ≤ e ∧
      (_ ∨ a ≤ (if tk.captured.start < ps.captured.start then tk.captured.start else ps.captured.start) ∧
        (if tk.captured.start < ps.captured.start then tk.captured.start else ps.captured.start) ≤
          (if tk.captured.stop > ps.captured.stop then tk.captured.stop else ps.captured.stop) ∧
        (if tk.captured.stop > ps.captured.stop then tk.captured.stop else ps.captured.stop) ≤
          (if tk.matched.stop > ps.matched.stop then tk.matched.stop else ps.matched.stop))
    rcases h.matched with ⟨m1, m2, m3, m4⟩ | ⟨m1, m2, m3, m4⟩
    · rw [m1, m2]
      rw [m1] at h0
      dsimp only at h0 ⊢
      refine ⟨?_, ?_, ?_, Or.inr ⟨?_, ?_, ?_⟩⟩
      · split <;> omega
      · split <;> omega
      · split <;> omega
      · split <;> omega
      · split <;> split <;> omega
      · split <;> split <;> omega
    · rcases m4 with ⟨m4, m5⟩ | ⟨m4, m5, m6⟩
      · rw [m4]
        dsimp only
        refine ⟨?_, ?_, ?_, Or.inr ⟨?_, ?_, ?_⟩⟩
        · split <;> omega
        · split <;> omega
        · split <;> omega
        · split <;> omega
        · split <;> split <;> omega
        · split <;> split <;> omega
      · refine ⟨?_, ?_, ?_, Or.inr ⟨?_, ?_, ?_⟩⟩
        · split <;> omega
        · split <;> omega
        · split <;> omega
        · split <;> omega
        · split <;> split <;> omega
        · split <;> split <;> omega
  · show OnChar P.src (if tk.matched.stop > ps.matched.stop then tk.matched.stop else ps.matched.stop)
    split
    · exact htk.chars.1.2
    · exact h.chars.2.2.2.1
  · show (if tk.captured.start < ps.captured.start then tk.captured.start else ps.captured.start) = _ ∨
      OnChar P.src (if tk.captured.start < ps.captured.start then tk.captured.start else ps.captured.start)
    split
    · exact Or.inr htk.chars.2.1
    · exact h.chars.2.2.2.2.1
  · show OnChar P.src (if tk.captured.stop > ps.captured.stop then tk.captured.stop else ps.captured.stop)
    split
    · exact htk.chars.2.2
    · exact h.chars.2.2.2.2.2

theorem noError_flags {src : Str} {toks : List Token} {k : Token} (h : k.Tidy src toks) :
    k.flagsEnabled IS_ERROR = false := by
  unfold Token.flagsEnabled
  rw [h.noError]
  rfl

theorem noDiscard {src : Str} {toks : List Token} {k : Token} (h : k.Tidy src toks) :
    k.shouldDiscard = false := by
  unfold Token.shouldDiscard
  rw [h.standard]

/-- The heap step of `add_token_to_children`. -/
theorem parent_step {s : State} (hs : s.Tidy P.src) {t : TokId} {k : Token} (hk : s.toks[t]? = some k)
    {par : Option TokId} {n : Nat} :
    ({ s with toks := s.toks.set t { k with parent := par } } : State).Tidy P.src ∧
      KeepsRanges n s { s with toks := s.toks.set t { k with parent := par } } :=
  ⟨hs.set_same hk rfl rfl rfl rfl rfl, KeepsRanges.set hk (Or.inr rfl)⟩

/-- `add_token_to_children` with `update_offset`. -/
theorem addToken_fit (hm : blen P.src ≤ isizeMax) {a e q : Nat} {prog : TokId} {s : State} {ps : PS} {t : TokId}
    {k : Token} {fwd : Bool} (h : PSFit p P a e prog s q ps) (hs : s.Tidy P.src) (hk : s.toks[t]? = some k)
    (hq : q ≤ k.matched.start) (he : k.matched.stop ≤ e) (hne : k.matched.start < k.matched.stop)
    (h0 : ps.matched.start = a ∨ k.matched.start = a)
    (hf : fwd = true → k.matched.stop ≠ ps.ctx.offset.start) :
    Post p (addToken prog ps t fwd true) s (fun ps' s' => s'.Tidy P.src ∧ KeepsRanges s.toks.length s s' ∧
      PSFit p P a e prog s' k.matched.stop ps' ∧ ps'.matched.start = a) := by
  have htk := hs t k hk
  unfold addToken
  apply Post.bind
  unfold prepToken
  apply Post.bind
  apply Post.getTok
  · intro tk htk'
    rw [hk] at htk'
    cases htk'
    rw [noError_flags htk]
    dsimp only [Bool.false_eq_true, if_false]
    rw [if_neg (by decide)]
    split
    · rename_i hc
      simp only [Bool.and_true, Bool.and_eq_true, beq_iff_eq] at hc
      exact (hf hc.1 hc.2).elim
    · apply Post.pure
      apply Post.bind
      apply Post.getTok
      · intro tk htk'
        rw [hk] at htk'
        cases htk'
        apply Post.bind
        apply Post.modTok
        · intro k' hk'
          rw [hk] at hk'
          cases hk'
          obtain ⟨t1, t2⟩ := parent_step (n := s.toks.length) hs hk (par := some prog)
          have hc := (h.cover hm htk hq he hne h0).keep t2
          rw [if_pos rfl]
          apply Post.pure
          refine ⟨t1, t2, ⟨hc.parser, hc.stop, hc.stop_le, hc.stack, hc.prog, ?_, Nat.le_refl _, hc.off_le, ?_, hc.chars, hc.quiet⟩, ?_⟩
          · refine hc.kids.append (InOrder.cons (k := { k with parent := some prog }) ?_ hq hne (.nil (Nat.le_refl _)))
            exact List.getElem?_set_self (List.getElem?_eq_some_iff.mp hk).1
          · rcases hc.matched with ⟨m1, m2, m3, m4⟩ | ⟨m1, m2, m3, m4⟩
            · exfalso
              have hx : (if k.matched.stop > ps.matched.stop then k.matched.stop else ps.matched.stop) = 0 :=
                congrArg Range.stop m1
              split at hx <;> omega
            · refine Or.inr ⟨m1, m2, m3, ?_⟩
              rcases m4 with ⟨m4, m5⟩ | m4
              · exfalso
                have hx : (if k.captured.start < ps.captured.start then k.captured.start else ps.captured.start) =
                  usizeMax := congrArg Range.start m4
                have := htk.captured_le
                have := htk.stop_le
                have := htk.inside
                have hmax : isizeMax < usizeMax := by decide
                split at hx <;> omega
              · exact Or.inr m4
          · rcases hc.matched with ⟨m1, m2, m3, m4⟩ | ⟨m1, m2, m3, m4⟩
            · exfalso
              have hx : (if k.matched.stop > ps.matched.stop then k.matched.stop else ps.matched.stop) = 0 :=
                congrArg Range.stop m1
              split at hx <;> omega
            · exact m1
        · intro hn; rw [hk] at hn; simp at hn
      · intro hn; rw [hk] at hn; simp at hn
  · intro hn; rw [hk] at hn; simp at hn

theorem handleToken_fit (hm : blen P.src ≤ isizeMax) {a e q : Nat} {prog : TokId} {s : State} {ps : PS} {t : TokId}
    {fwd : Bool} (h : PSFit p P a e prog s q ps) (hs : s.Tidy P.src) (ht : TokenAt ps.ctx.offset.start e s t) :
    Post p (handleToken prog ps t fwd true) s (fun ps' s' => s'.Tidy P.src ∧ KeepsRanges s.toks.length s s' ∧
      ∃ q', PSFit p P a e prog s' q' ps') := by
  obtain ⟨k, hk, h1, h2, h3⟩ := ht
  unfold handleToken
  apply Post.bind
  apply Post.getTok
  · intro tk htk
    rw [hk] at htk
    cases htk
    rw [noDiscard (hs t k hk)]
    have h0 : ps.matched.start = a ∨ k.matched.start = a := by
      rcases h.matched with ⟨_, _, _, m⟩ | ⟨m, _⟩
      · exact Or.inr (h1.trans m)
      · exact Or.inl m
    have hq := h.q_le
    refine (addToken_fit hm h hs hk (by omega) h3 (by omega) h0 (fun _ => by omega)).mono ?_
    rintro ps' s' ⟨a1, a2, a3, _⟩
    exact ⟨a1, a2, _, a3⟩
  · intro hn; rw [hk] at hn; simp at hn

theorem extractLoop_fit (hm : blen P.src ≤ isizeMax) {a e : Nat} {prog : TokId} :
    ∀ (ts : List TokId) {s : State} {ps : PS} {q q0 b : Nat}, PSFit p P a e prog s q ps → s.Tidy P.src →
      InOrder s.toks q0 ts b → q ≤ q0 → b ≤ e → ps.matched.start = a →
      Post p (extractLoop prog true ts ps) s (fun ps' s' => s'.Tidy P.src ∧ KeepsRanges s.toks.length s s' ∧
        ∃ q', PSFit p P a e prog s' q' ps') := by
  intro ts
  induction ts with
  | nil =>
    intro s ps q q0 b h hs _ _ _ _
    exact Post.pure ⟨hs, KeepsRanges.refl _ _, q, h⟩
  | cons t ts ih =>
    intro s ps q q0 b h hs ho hq hb ha
    unfold extractLoop
    cases ho with
    | cons hk h1 h2 h3 =>
    rename_i k
    apply Post.bind
    apply Post.getTok
    · intro tk htk
      rw [hk] at htk
      cases htk
      rw [noDiscard (hs t k hk)]
      rw [if_neg (by decide)]
      apply Post.bind
      have hle := h3.le
      refine (addToken_fit hm h hs hk (by omega) (by omega) h2 (Or.inl ha) (fun hx => by simp at hx)).mono ?_
      rintro ps' s' ⟨a1, a2, a3, a4⟩
      refine (ih a3 a1 (h3.congr (fun t k ht _ => a2.all t k ht)) (Nat.le_refl _) hb a4).mono ?_
      rintro ps2 s2 ⟨b1, b2, b3⟩
      exact ⟨b1, a2.trans (b2.lift a2.1), b3⟩
    · intro hn; rw [hk] at hn; simp at hn

theorem handleExtract_fit (hm : blen P.src ≤ isizeMax) {a e q : Nat} {prog : TokId} {s : State} {ps : PS} {t : TokId}
    (h : PSFit p P a e prog s q ps) (hs : s.Tidy P.src) (ht : TokenAt ps.ctx.offset.start e s t) :
    Post p (handleExtract prog ps t true) s (fun ps' s' => s'.Tidy P.src ∧ KeepsRanges s.toks.length s s' ∧
      ∃ q', PSFit p P a e prog s' q' ps') := by
  obtain ⟨k, hk, h1, h2, h3⟩ := ht
  unfold handleExtract
  apply Post.bind
  apply Post.getTok
  · intro tk htk
    rw [hk] at htk
    cases htk
    have htk := hs t k hk
    rw [noDiscard htk]
    rw [show (true && !false) = true from rfl]
    dsimp only
    rw [if_pos rfl]
    have h0 : ps.matched.start = a ∨ k.matched.start = a := by
      rcases h.matched with ⟨_, _, _, m⟩ | ⟨m, _⟩
      · exact Or.inr (h1.trans m)
      · exact Or.inl m
    have hq := h.q_le
    have hc := h.cover hm htk (by omega) h3 (by omega) h0
    refine extractLoop_fit hm k.children hc hs htk.kids (by omega) h3 ?_
    rcases hc.matched with ⟨m1, m2, m3, m4⟩ | ⟨m1, m2, m3, m4⟩
    · exfalso
      have hx : (if k.matched.stop > ps.matched.stop then k.matched.stop else ps.matched.stop) = 0 :=
        congrArg Range.stop m1
      split at hx <;> omega
    · exact m1
  · intro hn; rw [hk] at hn; simp at hn

theorem handleSkip_fit (hm : blen P.src ≤ isizeMax) {a e q : Nat} {prog : TokId} {s : State} {ps : PS} {k : Int}
    (h : PSFit p P a e prog s q ps) (hs : s.Tidy P.src) (h1 : 0 ≤ k) (h2 : ps.ctx.offset.start + k ≤ e)
    (h3 : OnChar P.src (ps.ctx.offset.start + k).toNat) :
    Post p (handleSkip cfg ps a k) s (fun ps' s' => s'.Tidy P.src ∧ KeepsRanges s.toks.length s s' ∧
      (∃ q', PSFit p P a e prog s' q' ps') ∧ (k = 0 → ps'.ctx.offset.start = ps.ctx.offset.start)) := by
  obtain ⟨n, rfl⟩ := Int.eq_ofNat_of_zero_le h1
  have hmax : isizeMax < usizeMax := by decide
  have hle := h.stop_le
  have hn : ps.ctx.offset.start + n ≤ e := by omega
  have h3 : OnChar P.src (ps.ctx.offset.start + n) := h3
  unfold handleSkip
  apply Post.bind
  unfold addOffset
  have hmod : (((n : Int) % ((usizeMax : Int) + 1)).toNat) = n := by
    rw [Int.emod_eq_of_lt (by omega) (by omega)]
    rfl
  dsimp only
  rw [hmod, if_pos (by omega)]
  refine Post.pure (Post.pure ⟨hs, KeepsRanges.refl _ _, ⟨q, ?_⟩, ?_⟩)
  · have hal := h.a_le
    have hq := h.q_le
    refine ⟨h.parser, h.stop, h.stop_le, h.stack, h.prog, h.kids, ?_, hn, Or.inr ?_,
      ⟨h.chars.1, h.chars.2.1, h3, ?_, h.chars.2.2.2.2.1, h.chars.2.2.2.2.2⟩, h.quiet⟩
    · show q ≤ ps.ctx.offset.start + n
      omega
    · show (if a < ps.matched.start then a else ps.matched.start) = a ∧
        ps.ctx.offset.start + n ≤ (if ps.ctx.offset.start + n > ps.matched.stop then ps.ctx.offset.start + n
          else ps.matched.stop) ∧
        (if ps.ctx.offset.start + n > ps.matched.stop then ps.ctx.offset.start + n else ps.matched.stop) ≤ e ∧
        (ps.captured = _ ∧ ps.children = [] ∨ a ≤ ps.captured.start ∧ ps.captured.start ≤ ps.captured.stop ∧
          ps.captured.stop ≤ (if ps.ctx.offset.start + n > ps.matched.stop then ps.ctx.offset.start + n
            else ps.matched.stop))
      rcases h.matched with ⟨m1, m2, m3, m4⟩ | ⟨m1, m2, m3, m4⟩
      · rw [m1]
        dsimp only
        refine ⟨?_, ?_, ?_, Or.inl ⟨m2, m3⟩⟩
        · split <;> omega
        · split <;> omega
        · split <;> omega
      · refine ⟨?_, ?_, ?_, m4.imp id (fun m => ⟨m.1, m.2.1, ?_⟩)⟩
        · split <;> omega
        · split <;> omega
        · split <;> omega
        · split <;> omega
    · show OnChar P.src (if ps.ctx.offset.start + n > ps.matched.stop then ps.ctx.offset.start + n else ps.matched.stop)
      split
      · exact h3
      · exact h.chars.2.2.2.1
  · intro hk
    show ps.ctx.offset.start + n = _
    omega

theorem set_standard {k : Token} (h : k.kind = .standard) (cs : List TokId) (c m : Range) :
    let k' := (({ k with children := cs } : Token).setCaptured c).setMatched m
    k'.kind = .standard ∧ k'.flags = k.flags ∧ k'.captured = c ∧ k'.matched = m ∧ k'.children = cs := by
  obtain ⟨kind, _⟩ := k
  cases kind with
  | standard => exact ⟨rfl, rfl, rfl, rfl, rfl⟩
  | pin => simp at h

theorem finalize_fit {a e q n : Nat} {prog : TokId} {s : State} {ps : PS}
    {iter : Option (Nat × Nat)} {lc : Nat} {fm : Bool} (h : PSFit p P a e prog s q ps) (hs : s.Tidy P.src)
    (hn : n ≤ prog) :
    Post p (finalizeProgram prog ps iter lc fm) s (fun r s' => s'.Tidy P.src ∧ KeepsRanges n s s' ∧
      r.Placed P.src a e s' ∧ (fm = false → ∀ x, r = .ok x → x.Carries P.src a e s')) := by
  have hfin : Post (α := R) p (if ps.captured.start = usizeMax ∨ ps.matched.start = usizeMax then pure (.err .fail)
      else if ps.children = [] then pure (.err .fail)
      else do
        modTok prog (fun k =>
          ((({ k with children := ps.children } : Token).setCaptured ps.captured).setMatched
            ps.matched))
        pure (.ok (.token prog))) s (fun r s' => s'.Tidy P.src ∧ KeepsRanges n s s' ∧
      r.Placed P.src a e s' ∧ (fm = false → ∀ x, r = .ok x → x.Carries P.src a e s')) := by
    have herr : s.Tidy P.src ∧ KeepsRanges n s s ∧
        R.Placed P.src a e s (.err .fail) ∧ (fm = false → ∀ x, (.err .fail : R) = .ok x → x.Carries P.src a e s) :=
      ⟨hs, KeepsRanges.refl _ _, trivial, fun _ x hx => by cases hx⟩
    split
    · exact Post.pure herr
    · rename_i h1
      split
      · exact Post.pure herr
      · rename_i h2
        apply Post.bind
        apply Post.modTok
        · intro k hk
          obtain ⟨k', hk', hm⟩ := h.prog
          rw [hk] at hk'
          cases hk'
          have hst := (hs prog k hk).standard
          obtain ⟨e1, e2, e3, e4, e5⟩ := set_standard hst ps.children ps.captured ps.matched
          generalize ((({ k with children := ps.children } : Token).setCaptured ps.captured).setMatched
            ps.matched) = k2 at e1 e2 e3 e4 e5 ⊢
          have hempty : ¬ k.matched.start < k.matched.stop := by rw [hm]; exact Nat.lt_irrefl 0
          rcases h.matched with ⟨m1, m2, m3, m4⟩ | ⟨m1, m2, m3, m4⟩
          · exact (h2 m3).elim
          · rcases m4 with ⟨m4, m5⟩ | ⟨m4, m5, m6⟩
            · exact (h2 m5).elim
            · have hq := h.q_le
              have hb := h.stop_le
              have hlt : a < ps.matched.stop := by
                have hk := h.kids
                generalize ps.children = ts at h2 hk
                cases hk with
                | nil _ => exact (h2 rfl).elim
                | cons _ ha hb hc =>
                  have := hc.le
                  omega
              have hTA : TokenAt a e { s with toks := s.toks.set prog k2 } prog := by
                refine ⟨k2, List.getElem?_set_self (List.getElem?_eq_some_iff.mp hk).1, ?_, ?_, ?_⟩
                · rw [e4]; exact m1
                · rw [e4]; exact hlt
                · rw [e4]; exact m3
              refine Post.pure ⟨hs.set hk (Or.inr hempty) ⟨e1, ?_, ?_, ?_, ?_, ?_, ?_, ?_⟩,
                KeepsRanges.set hk (Or.inl hn), hTA, fun _ x hx => by cases hx; exact hTA⟩
              · rw [e2]; exact (hs prog k hk).noError
              · rw [e3, e4, m1]; exact m4
              · rw [e3]; exact m5
              · rw [e3, e4]; exact m6
              · rw [e4]; omega
              · rw [e4, e5, m1]
                exact (h.kids.mono (by omega)).congr (set_keeps hk (Or.inr hempty))
              · rw [e3, e4, m1]
                exact ⟨⟨h.chars.1, h.chars.2.2.2.1⟩, h.chars.2.2.2.2.1.resolve_left (fun hx => h1 (Or.inl hx)),
                  h.chars.2.2.2.2.2⟩
        · intro hn'
          obtain ⟨k', hk', _⟩ := h.prog
          rw [hk'] at hn'
          simp at hn'
  unfold finalizeProgram
  dsimp only
  have hae : a ≤ e := Nat.le_trans h.a_le h.off_le
  split
  · rename_i hfm
    subst hfm
    cases iter with
    | none => exact hfin
    | some lh =>
      obtain ⟨lo, hi⟩ := lh
      dsimp only
      split
      · exact Post.pure ⟨hs, KeepsRanges.refl _ _, ⟨Int.le_refl _, by simpa using hae, by simpa using h.chars.1⟩, fun hx => by simp at hx⟩
      · split
        · exact Post.pure ⟨hs, KeepsRanges.refl _ _, trivial, fun hx => by simp at hx⟩
        · exact hfin
  · exact hfin

/-- How one pass over the patterns may end. -/
def FlowFit (p : Prop) (P : Parser) (a e : Nat) (prog : TokId) (first : Bool) (s : State) : Flow → Prop
  | .next ps => ∃ q, PSFit p P a e prog s q ps ∧ (first = true → ps.ctx.offset.start = a)
  | .action x ps => (∃ q, PSFit p P a e prog s q ps ∧ (first = true → ps.ctx.offset.start = a)) ∧
      (match x with
        | .brk _ d => d.Carries P.src ps.ctx.offset.start e s
        | .cont _ d => d.Carries P.src ps.ctx.offset.start e s
        | .stop => True
        | _ => False)
  | .ret r => r.Placed P.src a e s

theorem runPatterns_fit (hm : blen P.src ≤ isizeMax) {rec_ : ExecFn} (hrec : RecFit p P T rec_)
    {a e n : Nat} {prog : TokId} {sc : SCtxId} {iter : Option (Nat × Nat)} {first : Bool} {lc : Nat} (hn : n ≤ prog) :
    ∀ (ms : List MatcherId) {s : State} {ps : PS} {q : Nat}, PSFit p P a e prog s q ps → s.Tidy P.src →
      (first = true → ps.ctx.offset.start = a) →
      Post p (runPatterns T cfg rec_ prog sc a iter first lc ms ps) s (fun f s' => s'.Tidy P.src ∧
        KeepsRanges n s s' ∧ FlowFit p P a e prog first s' f) := by
  intro ms
  induction ms with
  | nil =>
    intro s ps q h hs hf
    exact Post.pure ⟨hs, KeepsRanges.refl _ _, q, h, hf⟩
  | cons m ms ih =>
    intro s ps q h hs hf
    have hlen : n ≤ s.toks.length := by
      obtain ⟨k, hk, _⟩ := h.prog
      exact Nat.le_of_lt (Nat.lt_of_le_of_lt hn (List.getElem?_eq_some_iff.mp hk).1)
    unfold runPatterns
    dsimp only
    apply Post.bind
    refine (hrec m _ sc s h.fits hs).mono ?_
    rintro r s1 ⟨⟨t1, k1, pl⟩, hcons⟩
    have hpl : r.Placed P.src ps.ctx.offset.start e s1 := by rw [← h.stop]; exact pl
    have h' := h.keep k1
    have k1' : KeepsRanges n s s1 := k1.lift hlen
    have hlen1 : n ≤ s1.toks.length := Nat.le_trans hlen k1.1
    -- continue with the next pattern
    have go : ∀ {s2 : State} {ps2 : PS} {q2 : Nat}, KeepsRanges n s1 s2 → PSFit p P a e prog s2 q2 ps2 → s2.Tidy P.src →
        (first = true → ps2.ctx.offset.start = a) →
        Post p (runPatterns T cfg rec_ prog sc a iter first lc ms ps2) s2 (fun f s' => s'.Tidy P.src ∧
          KeepsRanges n s s' ∧ FlowFit p P a e prog first s' f) := by
      intro s2 ps2 q2 hk2 hp2 ht2 hf2
      refine (ih hp2 ht2 hf2).mono ?_
      rintro f s3 ⟨c1, c2, c3⟩
      exact ⟨c1, (k1'.trans hk2).trans c2, c3⟩
    cases r with
    | err f =>
      dsimp only
      apply Post.bind
      refine Post.dbg ?_ (fun h0 hd => debugRange_some (c := ps.ctx) (s := s1) ⟨h'.fits.parser, h'.fits.start_le,
        h'.fits.stop_le, h'.stack, h'.fits.chars, h'.fits.quiet⟩ h0 hd)
      cases f with
      | error e => exact Post.pure ⟨t1, k1', trivial⟩
      | fail =>
        dsimp only
        split
        · exact go (KeepsRanges.refl _ _) h' t1 hf
        · split
          · apply Post.bind
            refine (finalize_fit h' t1 hn).mono ?_
            rintro r s2 ⟨c1, c2, c3, _⟩
            exact Post.pure ⟨c1, k1'.trans c2, c3⟩
          · exact Post.pure ⟨t1, k1', trivial⟩
    | ok x =>
      cases x with
      | token t =>
        dsimp only
        have hTA : TokenAt ps.ctx.offset.start e s1 t := hpl
        have hcon : (T m).isConsuming = true := by
          cases hx : (T m).isConsuming with
          | true => rfl
          | false => cases hcons hx
        obtain ⟨k, hk, _⟩ := id hTA
        apply Post.bind
        apply Post.getTok
        · intro tk htk
          rw [noDiscard (t1 t tk htk), hcon]
          rw [if_neg (by decide)]
          split
          · rename_i hfirst
            refine Post.pure ⟨t1, k1', ?_⟩
            show TokenAt a e s1 t
            rw [← hf hfirst]
            exact hTA
          · rename_i hfirst
            apply Post.bind
            refine (handleToken_fit hm h' t1 hTA).mono ?_
            rintro ps2 s2 ⟨c1, c2, q2, c3⟩
            exact go (c2.lift hlen1) c3 c1 (fun hx => (hfirst hx).elim)
        · intro hx; rw [hk] at hx; simp at hx
      | proxyChildren t =>
        dsimp only
        have hTA : TokenAt ps.ctx.offset.start e s1 t := hpl
        have hcon : (T m).isConsuming = true := by
          cases hx : (T m).isConsuming with
          | true => rfl
          | false => cases hcons hx
        obtain ⟨k, hk, _⟩ := id hTA
        apply Post.bind
        apply Post.getTok
        · intro tk htk
          rw [noDiscard (t1 t tk htk), hcon]
          rw [if_neg (by decide)]
          split
          · rename_i hfirst
            refine Post.pure ⟨t1, k1', ?_⟩
            show TokenAt a e s1 t
            rw [← hf hfirst]
            exact hTA
          · rename_i hfirst
            apply Post.bind
            refine (handleExtract_fit hm h' t1 hTA).mono ?_
            rintro ps2 s2 ⟨c1, c2, q2, c3⟩
            exact go (c2.lift hlen1) c3 c1 (fun hx => (hfirst hx).elim)
        · intro hx; rw [hk] at hx; simp at hx
      | skip k =>
        dsimp only
        obtain ⟨hk0, hke, hkc⟩ : 0 ≤ k ∧ ps.ctx.offset.start + k ≤ e ∧ OnChar P.src (ps.ctx.offset.start + k).toNat := hpl
        split
        · rename_i hfirst
          refine Post.pure ⟨t1, k1', ?_⟩
          show 0 ≤ k ∧ a + k ≤ e ∧ OnChar P.src (a + k).toNat
          rw [← hf hfirst.2]
          exact ⟨hk0, hke, hkc⟩
        · rename_i hnf
          split
          · apply Post.bind
            refine (handleSkip_fit hm h' t1 hk0 hke hkc).mono ?_
            rintro ps2 s2 ⟨c1, c2, ⟨q2, c3⟩, c4⟩
            refine go (c2.lift hlen1) c3 c1 (fun hx => ?_)
            have : k = 0 := by
              rcases Int.lt_or_eq_of_le hk0 with h | h
              · exact (hnf ⟨h, hx⟩).elim
              · exact h.symm
            rw [c4 this]
            exact hf hx
          · exact go (KeepsRanges.refl _ _) h' t1 hf
      | brk nm d => exact Post.pure ⟨t1, k1', ⟨q, h', hf⟩, hpl⟩
      | cont nm d => exact Post.pure ⟨t1, k1', ⟨q, h', hf⟩, hpl⟩
      | stop => exact Post.pure ⟨t1, k1', ⟨q, h', hf⟩, trivial⟩
      | none => exact hpl.elim

theorem handlePayload_fit (hm : blen P.src ≤ isizeMax) {a e q : Nat} {prog : TokId} {s : State} {ps : PS} {d : Success}
    (h : PSFit p P a e prog s q ps) (hs : s.Tidy P.src) (hd : d.Carries P.src ps.ctx.offset.start e s) :
    Post p (handlePayload cfg prog ps a d) s (fun ps' s' => s'.Tidy P.src ∧ KeepsRanges s.toks.length s s' ∧
      ∃ q', PSFit p P a e prog s' q' ps') := by
  unfold handlePayload
  cases d with
  | token t => exact handleToken_fit hm h hs hd
  | proxyChildren t => exact handleExtract_fit hm h hs hd
  | skip k =>
    refine (handleSkip_fit hm h hs hd.1 hd.2.1 hd.2.2).mono ?_
    rintro ps2 s2 ⟨c1, c2, c3, _⟩
    exact ⟨c1, c2, c3⟩
  | brk _ _ => exact hd.elim
  | cont _ _ => exact hd.elim
  | none => exact Post.pure ⟨hs, KeepsRanges.refl _ _, q, h⟩
  | stop => exact Post.pure ⟨hs, KeepsRanges.refl _ _, q, h⟩

theorem runIterations_fit (hm : blen P.src ≤ isizeMax) {rec_ : ExecFn} (hrec : RecFit p P T rec_)
    {a e n : Nat} {prog : TokId} {sc : SCtxId} {self : Str} {ms : List MatcherId} {iter : Option (Nat × Nat)}
    {first : Bool} (hn : n ≤ prog) :
    ∀ (k lc : Nat) {s : State} {ps : PS} {q : Nat}, PSFit p P a e prog s q ps → s.Tidy P.src →
      (first = true → ps.ctx.offset.start = a) →
      Post p (runIterations T cfg rec_ prog sc a self ms iter first k lc ps) s (fun r s' => s'.Tidy P.src ∧
        KeepsRanges n s s' ∧ r.Placed P.src a e s') := by
  intro k
  induction k with
  | zero =>
    intro lc s ps q h hs _
    unfold runIterations
    refine (finalize_fit h hs hn).mono ?_
    rintro r s' ⟨c1, c2, c3, _⟩
    exact ⟨c1, c2, c3⟩
  | succ k ih =>
    intro lc s ps q h hs hf
    unfold runIterations
    dsimp only
    apply Post.bind
    refine (runPatterns_fit hm hrec hn ms h hs hf).mono ?_
    rintro f s1 ⟨t1, k1, hfl⟩
    have hlen1 : ∀ {q1 : Nat} {ps1 : PS}, PSFit p P a e prog s1 q1 ps1 → n ≤ s1.toks.length := by
      intro q1 ps1 h1
      obtain ⟨k, hk, _⟩ := h1.prog
      exact Nat.le_of_lt (Nat.lt_of_le_of_lt hn (List.getElem?_eq_some_iff.mp hk).1)
    cases f with
    | ret r => exact Post.pure ⟨t1, k1, hfl⟩
    | next ps1 =>
      obtain ⟨q1, h1, hf1⟩ := hfl
      refine (ih (lc + 1) h1 t1 hf1).mono ?_
      rintro r s2 ⟨c1, c2, c3⟩
      exact ⟨c1, k1.trans c2, c3⟩
    | action x ps1 =>
      obtain ⟨⟨q1, h1, hf1⟩, hx⟩ := hfl
      cases x with
      | token _ => exact hx.elim
      | proxyChildren _ => exact hx.elim
      | skip _ => exact hx.elim
      | none => exact hx.elim
      | stop =>
        dsimp only
        refine (finalize_fit h1 t1 hn).mono ?_
        rintro r s' ⟨c1, c2, c3, _⟩
        exact ⟨c1, k1.trans c2, c3⟩
      | brk nm d =>
        dsimp only at hx ⊢
        split
        · rename_i hfirst
          refine Post.pure ⟨t1, k1, ?_⟩
          show d.Carries P.src a e s1
          rw [← hf1 hfirst]
          exact hx
        · apply Post.bind
          refine (handlePayload_fit hm h1 t1 hx).mono ?_
          rintro ps2 s2 ⟨t2, k2, q2, h2⟩
          have k2' := k1.trans (k2.lift (hlen1 h1))
          apply Post.bind
          refine (finalize_fit h2 t2 hn).mono ?_
          rintro r s3 ⟨t3, k3, pl, hc⟩
          split
          · exact Post.pure ⟨t3, k2'.trans k3, pl⟩
          · cases r with
            | ok x => exact Post.pure ⟨t3, k2'.trans k3, hc rfl x rfl⟩
            | err f => exact Post.pure ⟨t3, k2'.trans k3, trivial⟩
      | cont nm d =>
        dsimp only at hx ⊢
        split
        · rename_i hfirst
          refine Post.pure ⟨t1, k1, ?_⟩
          show d.Carries P.src a e s1
          rw [← hf1 hfirst]
          exact hx
        · rename_i hfirst
          apply Post.bind
          refine (handlePayload_fit hm h1 t1 hx).mono ?_
          rintro ps2 s2 ⟨t2, k2, q2, h2⟩
          have k2' := k1.trans (k2.lift (hlen1 h1))
          split
          · refine (ih (lc + 1) h2 t2 (fun hx => (hfirst hx).elim)).mono ?_
            rintro r s3 ⟨c1, c2, c3⟩
            exact ⟨c1, k2'.trans c2, c3⟩
          · refine (finalize_fit h2 t2 hn).mono ?_
            rintro r s3 ⟨c1, c2, c3, _⟩
            exact ⟨c1, k2'.trans c2, c3⟩

theorem execProgram_fit (hm : blen P.src ≤ isizeMax) {rec_ : ExecFn} (hrec : RecFit p P T rec_)
    {ms : List MatcherId} {name : Str} {iter : Option (Nat × Nat)} {first : Bool} {c : Ctx} {sc : SCtxId}
    {s : State} (hc : c.Fits p P s) (hs : s.Tidy P.src) :
    Post p (execProgram T cfg rec_ ms name iter first c sc) s (FitQ P c.offset.start c.offset.stop s) := by
  unfold execProgram
  dsimp only
  apply Post.bind
  apply Post.newTok
  have ht : (Token.mk' (c.withName name).parser name Range.blank).Tidy P.src
      (s.toks ++ [Token.mk' (c.withName name).parser name Range.blank]) :=
    tidy_leaf (Nat.le_refl _) (OnChar.zero _) (OnChar.zero _)
  generalize hk : Token.mk' (c.withName name).parser name Range.blank = k at ht ⊢
  have hkm : k.matched = ⟨0, 0⟩ := by rw [← hk]; rfl
  have hfit : PSFit p P c.offset.start c.offset.stop s.toks.length { s with toks := s.toks ++ [k] } c.offset.start
      ⟨c.withName name, [], ⟨usizeMax, 0⟩, ⟨usizeMax, 0⟩⟩ := by
    refine ⟨hc.parser, rfl, hc.stop_le, fun t htk => ?_, ⟨k, List.getElem?_concat_length, hkm⟩, .nil (Nat.le_refl _),
      Nat.le_refl _, hc.start_le, Or.inl ⟨rfl, rfl, rfl, rfl⟩,
      ⟨hc.chars.1, hc.chars.2, hc.chars.1, OnChar.zero _, Or.inl rfl, OnChar.zero _⟩, hc.quiet⟩
    exact Nat.lt_of_lt_of_le (hc.stack t htk) (by simp)
  refine (runIterations_fit hm hrec (Nat.le_refl _) (iterCount iter) 0 hfit (hs.newTok ht) (fun _ => rfl)).mono ?_
  rintro r s' ⟨c1, c2, c3⟩
  exact ⟨c1, KeepsRanges.newTok.trans c2, c3⟩

end Adx
