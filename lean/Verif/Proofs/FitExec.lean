import Verif.Proofs.FitProgram
/-
  Every run of a plain grammar keeps the heap tidy and returns placed results.
-/
namespace Adx

variable {p : Prop} {P : Parser} {T : Table} {cfg : Cfg}

theorem InOrder.mem {toks : List Token} {a b : Nat} {ts : List TokId} (h : InOrder toks a ts b) {t : TokId}
    (ht : t ∈ ts) : ∃ k, toks[t]? = some k := by
  induction h with
  | nil _ => simp at ht
  | cons hk _ _ _ ih =>
    rcases List.mem_cons.mp ht with rfl | ht
    · exact ⟨_, hk⟩
    · exact ih ht

/-- In a heap without errors, `Discard` finds none. -/
theorem discardCollect_fit {s : State} (hs : s.Tidy P.src) {e : TokId} :
    ∀ (n : Nat) {w : TokId} {k : Token}, s.toks[w]? = some k →
      Post p (discardCollect n e w) s (fun _ s' => s' = s) := by
  intro n
  induction n with
  | zero => intro w k _; exact Post.diverge
  | succ n ih =>
    intro w k hk
    unfold discardCollect
    apply Post.bind
    apply Post.getTok
    · intro k' hk'
      rw [hk] at hk'
      cases hk'
      apply Post.bind
      unfold discardRecord
      rw [noError_flags (hs w k hk), if_neg (by decide)]
      apply Post.pure
      have hch : ∀ t ∈ k.children, ∃ k, s.toks[t]? = some k := fun t ht => (hs w k hk).kids.mem ht
      generalize k.children = cs at hch
      induction cs with
      | nil => exact Post.pure rfl
      | cons c cs ihc =>
        unfold forEach
        apply Post.bind
        obtain ⟨kc, hkc⟩ := hch c List.mem_cons_self
        refine (ih hkc).mono ?_
        rintro _ s' rfl
        exact ihc (fun t ht => hch t (List.mem_cons_of_mem _ ht))
    · intro hn; rw [hk] at hn; simp at hn

theorem skipToken_fit (hm : blen P.src ≤ isizeMax) {c : Ctx} {a e : Nat} {s : State} {t : TokId}
    (hs : s.Tidy P.src) (ht : TokenAt a e s t) :
    Post p (skipToken cfg c a t) s (fun x s' => s'.Tidy P.src ∧ KeepsRanges s.toks.length s s' ∧
      ∃ n : Int, x = .skip n ∧ 0 ≤ n ∧ a + n ≤ e ∧ OnChar P.src (a + n).toNat) := by
  obtain ⟨k, hk, h1, h2, h3⟩ := ht
  have hch0 := (hs t k hk).chars.1
  have hin := (hs t k hk).inside
  unfold skipToken
  apply Post.bind
  apply Post.getTok
  · intro k' hk'
    rw [hk] at hk'
    cases hk'
    apply Post.bind
    apply Post.newTok
    have htd : (Token.mk' c.parser "Error".toList ⟨a, k.matched.stop⟩).Tidy P.src
        (s.toks ++ [Token.mk' c.parser "Error".toList ⟨a, k.matched.stop⟩]) :=
      tidy_leaf (r := ⟨a, k.matched.stop⟩) (Nat.le_of_lt h2) (by rw [← h1]; exact hch0.1) hch0.2
    have hch : (Token.mk' c.parser "Error".toList ⟨a, k.matched.stop⟩).children = [] := rfl
    generalize Token.mk' c.parser "Error".toList ⟨a, k.matched.stop⟩ = ek at htd hch ⊢
    have hs1 := hs.newTok htd
    apply Post.bind
    apply Post.getState
    apply Post.bind
    refine (discardCollect_fit hs1 _ (get_append hk)).mono ?_
    rintro _ s2 rfl
    apply Post.bind
    apply Post.getTok
    · intro ek' hek
      have : ek' = ek := by
        have hx : (s.toks ++ [ek])[s.toks.length]? = some ek' := hek
        rw [List.getElem?_concat_length] at hx
        exact (Option.some.inj hx).symm
      subst this
      rw [hch, if_neg (by simp)]
      apply Post.bind
      unfold subOffset
      have hmax : k.matched.stop ≤ isizeMax := by omega
      have e1 : asIsize k.matched.stop = k.matched.stop := by unfold asIsize; rw [if_pos hmax]
      have e2 : asIsize a = a := by unfold asIsize; rw [if_pos (by omega)]
      dsimp only
      rw [e1, e2, if_pos (by omega)]
      apply Post.pure
      refine Post.pure ⟨hs1, KeepsRanges.newTok, _, rfl, by omega, by omega, ?_⟩
      rw [show ((a : Int) + (k.matched.stop - a)).toNat = k.matched.stop by omega]
      exact hch0.2
    · intro hn
      have hx : (s.toks ++ [ek])[s.toks.length]? = none := hn
      rw [List.getElem?_concat_length] at hx
      simp at hx
  · intro hn; rw [hk] at hn; simp at hn

theorem withName_fits {s : State} {c : Ctx} {n : Str} (h : c.Fits p P s) : (c.withName n).Fits p P s :=
  ⟨h.parser, h.start_le, h.stop_le, h.stack, h.chars, h.quiet⟩

theorem execDiscard_fit (hm : blen P.src ≤ isizeMax) {rec_ : ExecFn} (hrec : RecFit p P T rec_) {m : MatcherId}
    {c : Ctx} {sc : SCtxId} {s : State} (hc : c.Fits p P s) (hs : s.Tidy P.src) :
    Post p (execDiscard cfg rec_ m c sc) s (FitQ P c.offset.start c.offset.stop s) := by
  unfold execDiscard
  dsimp only
  apply Post.bind
  refine (hrec m _ sc s (withName_fits hc) hs).mono ?_
  rintro r s1 ⟨⟨t1, k1, pl⟩, _⟩
  have go : ∀ t, TokenAt c.offset.start c.offset.stop s1 t → ∀ (f : Success → Success),
      (∀ n s2, (.skip n : Success).Carries P.src c.offset.start c.offset.stop s2 →
        R.Placed P.src c.offset.start c.offset.stop s2 (.ok (f (.skip n)))) →
      Post p (do let x ← skipToken cfg (c.withName "Discard".toList) c.offset.start t; pure (R.ok (f x))) s1
        (FitQ P c.offset.start c.offset.stop s) := by
    intro t ht f hf
    apply Post.bind
    refine (skipToken_fit hm t1 ht).mono ?_
    rintro x s2 ⟨t2, k2, n, rfl, h1, h2, h3⟩
    exact Post.pure ⟨t2, k1.trans (k2.lift k1.1), hf n s2 ⟨h1, h2, h3⟩⟩
  cases r with
  | err f => exact Post.pure ⟨t1, k1, trivial⟩
  | ok x =>
    cases x with
    | token t => exact go t pl id (fun n s2 h => h)
    | proxyChildren t => exact go t pl id (fun n s2 h => h)
    | skip n => exact Post.pure ⟨t1, k1, pl⟩
    | none => exact pl.elim
    | stop => exact Post.pure ⟨t1, k1, pl⟩
    | brk nm d =>
      cases d with
      | token t => exact go t pl (fun x => .brk nm x) (fun n s2 h => h)
      | proxyChildren t => exact go t pl (fun x => .brk nm x) (fun n s2 h => h)
      | skip n => exact Post.pure ⟨t1, k1, pl⟩
      | none => exact Post.pure ⟨t1, k1, pl⟩
      | stop => exact Post.pure ⟨t1, k1, pl⟩
      | brk _ _ => exact False.elim pl
      | cont _ _ => exact False.elim pl
    | cont nm d =>
      cases d with
      | token t => exact go t pl (fun x => .cont nm x) (fun n s2 h => h)
      | proxyChildren t => exact go t pl (fun x => .cont nm x) (fun n s2 h => h)
      | skip n => exact Post.pure ⟨t1, k1, pl⟩
      | none => exact Post.pure ⟨t1, k1, pl⟩
      | stop => exact Post.pure ⟨t1, k1, pl⟩
      | brk _ _ => exact False.elim pl
      | cont _ _ => exact False.elim pl

theorem execOptional_fit {rec_ : ExecFn} (hrec : RecFit p P T rec_) {m : MatcherId}
    {c : Ctx} {sc : SCtxId} {s : State} (hc : c.Fits p P s) (hs : s.Tidy P.src) :
    Post p (execOptional rec_ m c sc) s (FitQ P c.offset.start c.offset.stop s) := by
  unfold execOptional
  apply Post.bind
  refine (hrec m _ sc s (withName_fits hc) hs).mono ?_
  rintro r s1 ⟨⟨t1, k1, pl⟩, _⟩
  have hle : (0 : Int) ≤ 0 ∧ (c.offset.start : Int) + 0 ≤ c.offset.stop ∧ OnChar P.src ((c.offset.start : Int) + 0).toNat :=
    ⟨Int.le_refl _, by simpa using hc.start_le, by simpa using hc.chars.1⟩
  cases r with
  | ok x => exact Post.pure ⟨t1, k1, pl⟩
  | err f =>
    cases f with
    | fail => exact Post.pure ⟨t1, k1, hle⟩
    | error e => exact Post.pure ⟨t1, k1, pl⟩

theorem execNot_fit {rec_ : ExecFn} (hrec : RecFit p P T rec_) {m : MatcherId}
    {c : Ctx} {sc : SCtxId} {s : State} (hc : c.Fits p P s) (hs : s.Tidy P.src) :
    Post p (execNot rec_ m c sc) s (FitQ P c.offset.start c.offset.stop s) := by
  unfold execNot
  apply Post.bind
  refine (hrec m _ sc s (withName_fits hc) hs).mono ?_
  rintro r s1 ⟨⟨t1, k1, pl⟩, _⟩
  have hle : (0 : Int) ≤ 0 ∧ (c.offset.start : Int) + 0 ≤ c.offset.stop ∧ OnChar P.src ((c.offset.start : Int) + 0).toNat :=
    ⟨Int.le_refl _, by simpa using hc.start_le, by simpa using hc.chars.1⟩
  cases r with
  | ok x =>
    cases x with
    | token t => exact Post.pure ⟨t1, k1, trivial⟩
    | proxyChildren t => exact Post.pure ⟨t1, k1, trivial⟩
    | skip n =>
      dsimp only
      split
      · exact Post.pure ⟨t1, k1, trivial⟩
      · exact Post.pure ⟨t1, k1, pl⟩
    | brk _ _ => exact Post.pure ⟨t1, k1, pl⟩
    | cont _ _ => exact Post.pure ⟨t1, k1, pl⟩
    | none => exact Post.pure ⟨t1, k1, pl⟩
    | stop => exact Post.pure ⟨t1, k1, pl⟩
  | err f =>
    cases f with
    | fail => exact Post.pure ⟨t1, k1, hle⟩
    | error e => exact Post.pure ⟨t1, k1, pl⟩

theorem execProxyChildren_fit {rec_ : ExecFn} (hrec : RecFit p P T rec_) {m : MatcherId} {name : Str}
    {c : Ctx} {sc : SCtxId} {s : State} (hc : c.Fits p P s) (hs : s.Tidy P.src) :
    Post p (execProxyChildren rec_ m name c sc) s (FitQ P c.offset.start c.offset.stop s) := by
  unfold execProxyChildren
  apply Post.bind
  refine (hrec m _ sc s (withName_fits hc) hs).mono ?_
  rintro r s1 ⟨⟨t1, k1, pl⟩, _⟩
  cases r with
  | err f => exact Post.pure ⟨t1, k1, pl⟩
  | ok x =>
    cases x with
    | brk _ d => cases d <;> exact Post.pure ⟨t1, k1, pl⟩
    | cont _ d => cases d <;> exact Post.pure ⟨t1, k1, pl⟩
    | _ => exact Post.pure ⟨t1, k1, pl⟩

theorem setCaptured_standard {k : Token} (h : k.kind = .standard) (c : Range) :
    (k.setCaptured c).kind = .standard ∧ (k.setCaptured c).flags = k.flags ∧ (k.setCaptured c).captured = c ∧
      (k.setCaptured c).matched = k.matched ∧ (k.setCaptured c).children = k.children := by
  obtain ⟨kind, _⟩ := k
  cases kind with
  | standard => exact ⟨rfl, rfl, rfl, rfl, rfl⟩
  | pin => simp at h

theorem execExpandRange_fit {rec_ : ExecFn} (hrec : RecFit p P T rec_) {m : MatcherId}
    {c : Ctx} {sc : SCtxId} {s : State} (hc : c.Fits p P s) (hs : s.Tidy P.src) :
    Post p (execExpandRange rec_ m c sc) s (FitQ P c.offset.start c.offset.stop s) := by
  unfold execExpandRange
  dsimp only
  apply Post.bind
  refine (hrec m _ sc s (withName_fits hc) hs).mono ?_
  rintro r s1 ⟨⟨t1, k1, pl⟩, _⟩
  cases r with
  | err f => exact Post.pure ⟨t1, k1, pl⟩
  | ok x =>
    cases x with
    | token t =>
      obtain ⟨k, hk, h1, h2, h3⟩ := pl
      have htk := t1 t k hk
      dsimp only
      apply Post.bind
      apply Post.getTok
      · intro k' hk'
        rw [hk] at hk'
        cases hk'
        apply Post.bind
        apply Post.newTok
        apply Post.bind
        apply Post.modTok
        · intro w hw
          have hw' : w = Token.mkMatched (c.withName "Catch".toList).parser "ExpandRange".toList k.matched k.matched := by
            have hx : (s1.toks ++ [Token.mkMatched (c.withName "Catch".toList).parser "ExpandRange".toList k.matched
              k.matched])[s1.toks.length]? = some w := hw
            rw [List.getElem?_concat_length] at hx
            exact (Option.some.inj hx).symm
          apply Post.pure
          have hle := Nat.le_of_lt h2
          have hb := hc.stop_le
          have hle' : k.matched.start ≤ k.matched.stop := by rw [h1]; exact hle
          have hin : k.matched.stop ≤ blen P.src := Nat.le_trans h3 hb
          have hs2 := t1.newTok (k := Token.mkMatched (c.withName "Catch".toList).parser "ExpandRange".toList k.matched
            k.matched) ⟨rfl, (by decide : (0 : Flags) &&& IS_ERROR = 0), Nat.le_refl _, hle', Nat.le_refl _, hin,
              .nil hle', htk.chars.1, htk.chars.1⟩
          have hwm : w.matched = k.matched := by rw [hw']; rfl
          have hwc : w.captured = k.matched := by rw [hw']; rfl
          have hwk : w.children = [] := by rw [hw']; rfl
          refine ⟨hs2.set hw (Or.inl rfl) ⟨?_, ?_, ?_, ?_, ?_, ?_, ?_, ?_⟩, ?_, ?_⟩
          · rw [hw']; rfl
          · rw [hw']; exact (by decide : (0 : Flags) &&& IS_ERROR = 0)
          · show w.matched.start ≤ w.captured.start
            rw [hwm, hwc]; exact Nat.le_refl _
          · show w.captured.start ≤ w.captured.stop
            rw [hwc]; exact hle'
          · show w.captured.stop ≤ w.matched.stop
            rw [hwm, hwc]; exact Nat.le_refl _
          · show w.matched.stop ≤ _
            rw [hwm]; exact hin
          · show InOrder _ w.matched.start (w.children ++ [t]) w.matched.stop
            have hset := set_keeps (s := { s1 with toks := s1.toks ++
              [Token.mkMatched (c.withName "Catch".toList).parser "ExpandRange".toList k.matched k.matched] })
                (k' := { w with children := w.children ++ [t] }) hw (Or.inl rfl)
            rw [show w.matched.start = k.matched.start by rw [hwm], show w.matched.stop = k.matched.stop by rw [hwm],
              show w.children ++ [t] = [t] by rw [hwk]; rfl] at *
            refine InOrder.congr (toks := s1.toks ++ [Token.mkMatched (c.withName "Catch".toList).parser
              "ExpandRange".toList k.matched k.matched]) ?_ hset
            exact .cons (get_append hk) (Nat.le_refl _) (by rw [h1]; exact h2) (.nil (Nat.le_refl _))
          · show (OnChar P.src w.matched.start ∧ OnChar P.src w.matched.stop) ∧ OnChar P.src w.captured.start ∧
              OnChar P.src w.captured.stop
            rw [hwm, hwc]
            exact ⟨htk.chars.1, htk.chars.1⟩
          · exact (k1.trans KeepsRanges.newTok).trans (KeepsRanges.set hw (Or.inr rfl))
          · refine ⟨_, List.getElem?_set_self (List.getElem?_eq_some_iff.mp hw).1, ?_, ?_, ?_⟩
            · show w.matched.start = _
              rw [hwm]; exact h1
            · show _ < w.matched.stop
              rw [hwm]; exact h2
            · show w.matched.stop ≤ _
              rw [hwm]; exact h3
        · intro hn
          have hx : (s1.toks ++ [Token.mkMatched (c.withName "Catch".toList).parser "ExpandRange".toList k.matched
              k.matched])[s1.toks.length]? = none := hn
          rw [List.getElem?_concat_length] at hx
          simp at hx
      · intro hn; rw [hk] at hn; simp at hn
    | proxyChildren t =>
      obtain ⟨k, hk, h1, h2, h3⟩ := pl
      have htk := t1 t k hk
      dsimp only
      apply Post.bind
      apply Post.modTok
      · intro k' hk'
        rw [hk] at hk'
        cases hk'
        obtain ⟨e1, e2, e3, e4, e5⟩ := setCaptured_standard htk.standard k.matched
        generalize k.setCaptured k.matched = k2 at e1 e2 e3 e4 e5 ⊢
        refine Post.pure ⟨t1.set hk (Or.inl e4) ⟨e1, ?_, ?_, ?_, ?_, ?_, ?_, ?_⟩, k1.trans (KeepsRanges.set hk (Or.inr e4)), ?_⟩
        · rw [e2]; exact htk.noError
        · rw [e3, e4]; exact Nat.le_refl _
        · rw [e3, h1]; exact Nat.le_of_lt h2
        · rw [e3, e4]; exact Nat.le_refl _
        · rw [e4]; exact htk.inside
        · rw [e4, e5]; exact htk.kids.congr (set_keeps hk (Or.inl e4))
        · rw [e3, e4]; exact ⟨htk.chars.1, htk.chars.1⟩
        · refine ⟨k2, List.getElem?_set_self (List.getElem?_eq_some_iff.mp hk).1, ?_, ?_, ?_⟩
          · rw [e4]; exact h1
          · rw [e4]; exact h2
          · rw [e4]; exact h3
      · intro hn; rw [hk] at hn; simp at hn
    | skip n => exact Post.pure ⟨t1, k1, pl⟩
    | brk _ _ => exact Post.pure ⟨t1, k1, pl⟩
    | cont _ _ => exact Post.pure ⟨t1, k1, pl⟩
    | none => exact Post.pure ⟨t1, k1, pl⟩
    | stop => exact Post.pure ⟨t1, k1, pl⟩

theorem disciplined_post {m : M R} {s : State} {Q : R → State → Prop}
    (h : match m s with
      | .ok r s' => Q r s'
      | .panic _ => p
      | .diverge => True) : Post p m s Q := by
  unfold Post
  cases hm : m s <;> rw [hm] at h <;> exact h

theorem execCatch_fit {rec_ : ExecFn} (hrec : RecFit p P T rec_) {m : MatcherId} {f : Ctx → Failure → M R}
    (hf : ∀ c e, Disciplined p P c (f c e))
    {c : Ctx} {sc : SCtxId} {s : State} (hc : c.Fits p P s) (hs : s.Tidy P.src) :
    Post p (execCatch rec_ m f c sc) s (FitQ P c.offset.start c.offset.stop s) := by
  unfold execCatch
  dsimp only
  apply Post.bind
  refine (hrec m _ sc s (withName_fits hc) hs).mono ?_
  rintro r s1 ⟨⟨t1, k1, pl⟩, _⟩
  cases r with
  | ok x => exact Post.pure ⟨t1, k1, pl⟩
  | err e =>
    have h := hf (c.withName "Catch".toList) e s1 ((withName_fits hc).keep k1.1) t1
    refine Post.mono (Q := fun r s' => s'.Tidy P.src ∧ KeepsRanges s1.toks.length s1 s' ∧
      r.Placed P.src c.offset.start c.offset.stop s') (disciplined_post h) ?_
    rintro r s2 ⟨a1, a2, a3⟩
    exact ⟨a1, k1.trans (a2.lift k1.1), a3⟩

theorem execMap_fit {rec_ : ExecFn} (hrec : RecFit p P T rec_) {m : MatcherId}
    {sf : TokId → Ctx → SCtxId → M R} {ff : Failure → Ctx → SCtxId → M R}
    (hf : (Node.map m sf ff).Plain p P)
    {c : Ctx} {sc : SCtxId} {s : State} (hc : c.Fits p P s) (hs : s.Tidy P.src) :
    Post p (execMap rec_ m sf ff c sc) s (FitQ P c.offset.start c.offset.stop s) := by
  obtain ⟨hf1, hf2⟩ := hf
  unfold execMap
  dsimp only
  apply Post.bind
  refine (hrec m _ sc s (withName_fits hc) hs).mono ?_
  rintro r s1 ⟨⟨t1, k1, pl⟩, _⟩
  have hc1 := (withName_fits (n := "Map".toList) hc).keep k1.1
  have tok : ∀ t, TokenAt c.offset.start c.offset.stop s1 t →
      Post p (sf t (c.withName "Map".toList) sc) s1 (FitQ P c.offset.start c.offset.stop s) := by
    intro t ht
    refine Post.mono (Q := fun r s' => s'.Tidy P.src ∧ KeepsRanges s1.toks.length s1 s' ∧
      r.Placed P.src c.offset.start c.offset.stop s') (disciplined_post (hf1 t _ sc s1 hc1 t1 ht)) ?_
    rintro r s2 ⟨a1, a2, a3⟩
    exact ⟨a1, k1.trans (a2.lift k1.1), a3⟩
  cases r with
  | ok x =>
    cases x with
    | token t => exact tok t pl
    | proxyChildren t => exact tok t pl
    | skip n => exact Post.pure ⟨t1, k1, pl⟩
    | brk _ _ => exact Post.pure ⟨t1, k1, pl⟩
    | cont _ _ => exact Post.pure ⟨t1, k1, pl⟩
    | none => exact Post.pure ⟨t1, k1, pl⟩
    | stop => exact Post.pure ⟨t1, k1, pl⟩
  | err e =>
    refine Post.mono (Q := fun r s' => s'.Tidy P.src ∧ KeepsRanges s1.toks.length s1 s' ∧
      r.Placed P.src c.offset.start c.offset.stop s') (disciplined_post (hf2 e _ sc s1 hc1 t1)) ?_
    rintro r s2 ⟨a1, a2, a3⟩
    exact ⟨a1, k1.trans (a2.lift k1.1), a3⟩

theorem execStore_fit {rec_ : ExecFn} (hrec : RecFit p P T rec_) {m : MatcherId} {name : Str}
    {c : Ctx} {sc : SCtxId} {s : State} (hc : c.Fits p P s) (hs : s.Tidy P.src) :
    Post p (execStore rec_ m name c sc) s (FitQ P c.offset.start c.offset.stop s) := by
  unfold execStore
  apply Post.bind
  refine (hrec m _ sc s (withName_fits hc) hs).mono ?_
  rintro r s1 ⟨⟨t1, k1, pl⟩, _⟩
  cases r with
  | err f => exact Post.pure ⟨t1, k1, pl⟩
  | ok x =>
    cases x with
    | token t =>
      dsimp only
      apply Post.bind
      apply Post.bindVar
      have hk := KeepsRanges.toks_eq (n := s1.toks.length) (State.bindVar_toks (s := s1) sc name (.token t))
      exact Post.pure ⟨t1.toks_eq (State.bindVar_toks ..), k1.trans (hk.lift k1.1), R.Placed.keep pl hk⟩
    | _ => exact Post.pure ⟨t1, k1, pl⟩

theorem execRegister_fit {ms : List MatcherId} {sc : SCtxId} {n : Nat} : ∀ {s : State}, s.Tidy P.src →
    Post p (execRegister T sc ms) s (fun r s' => s'.Tidy P.src ∧ KeepsRanges n s s' ∧ r = .ok (.skip 0)) := by
  induction ms with
  | nil => intro s hs; exact Post.pure ⟨hs, KeepsRanges.refl _ _, rfl⟩
  | cons m ms ih =>
    intro s hs
    unfold execRegister
    apply Post.bind
    apply Post.bindVar
    refine (ih (hs.toks_eq (State.bindVar_toks ..))).mono ?_
    rintro r s' ⟨a1, a2, a3⟩
    exact ⟨a1, (KeepsRanges.toks_eq (State.bindVar_toks ..)).trans a2, a3⟩

theorem execRef_fit {rec_ : ExecFn} (hrec : RecFit p P T rec_) {target : Fetchable} {name : Str}
    (ht : p ∨ target.Literal)
    {c : Ctx} {sc : SCtxId} {s : State} (hc : c.Fits p P s) (hs : s.Tidy P.src) :
    Post p (execRef rec_ target name c sc) s (FitQ P c.offset.start c.offset.stop s) := by
  unfold execRef
  dsimp only
  apply Post.bind
  apply fetchValue_lit ht
  intro v _
  have run : ∀ m, Post p (rec_ m (c.withName name) sc) s (FitQ P c.offset.start c.offset.stop s) :=
    fun m => (hrec m _ sc s (withName_fits hc) hs).mono (fun r s' h => h.1)
  cases v with
  | inr m => exact run m
  | inl n =>
    dsimp only
    apply Post.bind
    apply Post.lookupVar
    cases s.lookup sc n with
    | none => exact Post.pure (FitQ.err hs)
    | some v =>
      cases v with
      | matcher m => exact run m
      | str _ => exact Post.pure (FitQ.err hs)
      | token _ => exact Post.pure (FitQ.err hs)

theorem execSetScope_fit {rec_ : ExecFn} (hrec : RecFit p P T rec_) {scope : Option SCtxId} {m : MatcherId}
    {c : Ctx} {s : State} (hc : c.Fits p P s) (hs : s.Tidy P.src) :
    Post p (execSetScope rec_ scope m c) s (FitQ P c.offset.start c.offset.stop s) := by
  unfold execSetScope
  dsimp only
  cases scope with
  | some k => exact (hrec m _ k s (withName_fits hc) hs).mono (fun r s' h => h.1)
  | none =>
    dsimp only
    apply Post.bind
    apply Post.pushScope
    apply Post.bind
    have k0 : ∀ n, KeepsRanges n s (s.pushScope c.scope) := fun n => KeepsRanges.toks_eq (State.pushScope_toks ..)
    refine (hrec m _ c.scope _ ((withName_fits hc).keep (k0 0).1) (hs.toks_eq (State.pushScope_toks ..))).mono ?_
    rintro r s1 ⟨⟨t1, k1, pl⟩, _⟩
    apply Post.bind
    apply Post.popScope
    have k2 : ∀ n, KeepsRanges n s1 (s1.popScope c.scope) := fun n => KeepsRanges.toks_eq (State.popScope_toks ..)
    exact Post.pure ⟨t1.toks_eq (State.popScope_toks ..), ((k0 _).trans (k1.lift (k0 0).1)).trans (k2 _),
      R.Placed.keep pl (k2 _)⟩

theorem execDebug_fit (hA : p ∨ Ascii P.src) {rec_ : ExecFn} (hrec : RecFit p P T rec_) {m : Option MatcherId}
    {mode : Nat} {c : Ctx} {sc : SCtxId} {s : State} (hc : c.Fits p P s) (hs : s.Tidy P.src) :
    Post p (execDebug rec_ m mode c sc) s (FitQ P c.offset.start c.offset.stop s) := by
  unfold execDebug
  dsimp only
  have hc' : ({ c.withName "Debug".toList with debug := mode } : Ctx).Fits p P s :=
    ⟨hc.parser, hc.start_le, hc.stop_le, hc.stack, hc.chars, hA.imp id Or.inl⟩
  apply Post.bind
  apply Post.ofOpt
  · intro _ _
    cases m with
    | none => exact Post.pure (FitQ.skip0 hs hc.start_le hc.chars.1)
    | some m => exact (hrec m _ sc s hc' hs).mono (fun r s' h => h.1)
  · exact debugRange_ascii hA hc'

theorem execPanic_fit {msg : Str} {c : Ctx} {s : State} (hc : c.Fits p P s) (hs : s.Tidy P.src) :
    Post p (execPanic msg c) s (FitQ P c.offset.start c.offset.stop s) := by
  unfold execPanic
  apply Post.bind
  have fin : ∀ r : Range, OnChar P.src r.start → OnChar P.src r.stop →
      Post p (do let m ← M.ofOpt "get_error_as_string: slice" (c.errorString msg r)
                 pure (R.err (.error ⟨m, some r⟩))) s (FitQ P c.offset.start c.offset.stop s) := by
    intro r h3 h4
    apply Post.bind
    apply Post.ofOpt
    · intro _ _; exact Post.pure (FitQ.err hs)
    · exact errorString_some hc.parser h3 h4
  unfold panicRange
  have hst := hc.stack
  generalize c.stack = st at hst ⊢
  cases st with
  | nil => exact Post.pure (fin _ hc.chars.1 hc.chars.1)
  | cons t st =>
    dsimp only
    have ht := hst t List.mem_cons_self
    apply Post.bind
    apply Post.getTok
    · intro k hk
      exact Post.pure (fin _ (hs t k hk).chars.1.1 hc.chars.1)
    · intro hn
      rw [List.getElem?_eq_none_iff] at hn
      exact (Nat.not_lt.mpr hn ht).elim

theorem execNode_fit (hm : blen P.src ≤ isizeMax) {rec_ : ExecFn} (hrec : RecFit p P T rec_)
    {n : Node} (hn : n.Plain p P) {c : Ctx} {sc : SCtxId} {s : State} (hc : c.Fits p P s) (hs : s.Tidy P.src) :
    Post p (execNode T cfg rec_ n c sc) s (fun r s' => FitQ P c.offset.start c.offset.stop s r s' ∧
      (n.isConsuming = false → r = .ok (.skip 0))) := by
  have con : ∀ {m : M R}, n.isConsuming = true → Post p m s (FitQ P c.offset.start c.offset.stop s) →
      Post p m s (fun r s' => FitQ P c.offset.start c.offset.stop s r s' ∧
        (n.isConsuming = false → r = .ok (.skip 0))) := by
    intro m h hp
    exact hp.mono (fun r s' h' => ⟨h', fun hx => by rw [h] at hx; cases hx⟩)
  cases n with
  | equals name _ pat => exact con rfl (execEquals_fit hn hc hs)
  | regex name _ re => exact con rfl (execMatches_fit hn hc hs)
  | sequence name _ a b e => exact con rfl (execSequence_fit hn hc hs)
  | program ps name _ iter fs => exact con rfl (execProgram_fit hm hrec hc hs)
  | optional m => exact con rfl (execOptional_fit hrec hc hs)
  | not m => exact con rfl (execNot_fit hrec hc hs)
  | discard m => exact con rfl (execDiscard_fit hm hrec hc hs)
  | proxyChildren m name _ => exact con rfl (execProxyChildren_fit hrec hc hs)
  | expandRange m => exact con rfl (execExpandRange_fit hrec hc hs)
  | catch_ m f => exact con rfl (execCatch_fit hrec hn hc hs)
  | map m sf ff => exact con rfl (execMap_fit hrec hn hc hs)
  | store m name _ => exact con rfl (execStore_fit hrec hc hs)
  | storeStr v name _ =>
    have hb := State.bindVar_toks (s := s) sc name (.str v)
    exact ⟨⟨hs.toks_eq hb, KeepsRanges.toks_eq hb, Int.le_refl _, by simpa using hc.start_le, by simpa using hc.chars.1⟩, fun _ => rfl⟩
  | fetch _ => exact Post.pure ⟨FitQ.skip0 hs hc.start_le hc.chars.1, fun _ => rfl⟩
  | ref target name _ => exact con rfl (execRef_fit hrec hn hc hs)
  | register ps =>
    refine (execRegister_fit (n := s.toks.length) hs).mono ?_
    rintro r s' ⟨a1, a2, a3⟩
    subst a3
    exact ⟨⟨a1, a2, Int.le_refl _, by simpa using hc.start_le, by simpa using hc.chars.1⟩, fun _ => rfl⟩
  | setScope scope m => exact con rfl (execSetScope_fit hrec hc hs)
  | pin _ _ _ _ => exact hn.elim
  | debug m mode => exact con rfl (execDebug_fit hn hrec hc hs)
  | brk name => exact con rfl (Post.pure ⟨hs, KeepsRanges.refl _ _, trivial⟩)
  | null => exact Post.pure ⟨FitQ.skip0 hs hc.start_le hc.chars.1, fun _ => rfl⟩
  | panic msg => exact con rfl (execPanic_fit hc hs)
  | error msg => exact hn.elim

/-- Every run of a plain grammar. -/
theorem exec_fit (hT : ∀ m, (T m).Plain p P) (hm : blen P.src ≤ isizeMax) :
    ∀ n, RecFit p P T (exec T cfg n) := by
  intro n
  induction n with
  | zero => intro m c sc s _ _; exact Post.diverge
  | succ n ih =>
    intro m c sc s hc hs
    unfold exec
    apply Post.bind
    unfold beforeExec
    split
    · apply Post.bindVar
      have hb := State.bindVar_toks (s := s) sc (T m).name (.matcher m)
      refine (execNode_fit hm ih (hT m) (hc.keep (by rw [hb]; exact Nat.le_refl _)) (hs.toks_eq hb)).mono ?_
      rintro r s' ⟨⟨a1, a2, a3⟩, a4⟩
      refine ⟨⟨a1, (KeepsRanges.toks_eq hb).trans ?_, a3⟩, a4⟩
      rw [hb] at a2
      exact a2
    · apply Post.pure
      exact execNode_fit hm ih (hT m) hc hs

end Adx
