import Verif.Proofs.FitExec
import Verif.Spec.Runs
import Verif.Spec.Outcome
import Verif.Model.Regex
import Verif.Model.Build
import Verif.Proofs.Rx
/-
  C02: matched ranges start where the matcher was applied and stay inside the window.
  C03: children are ordered, disjoint and inside their parent.
  C04: parsing never panics on well-formed grammars over ASCII text.
-/
namespace Adx

variable {P : Parser} {T : Table} {cfg : Cfg} {m : MatcherId} {c : Ctx} {sc : SCtxId} {s s' : State} {r : R}

/-- A new context fits: its window is the whole source, and it prints nothing. -/
theorem fits_new {p : Prop} {name : Str} : (Ctx.new P sc name).Fits p P s :=
  ⟨rfl, Nat.zero_le _, Nat.le_refl _, fun t ht => by simp [Ctx.new] at ht, ⟨OnChar.zero _, OnChar.all _⟩,
    Or.inr (Or.inr rfl)⟩

theorem runs_fit (hT : ∀ m, (T m).Plain True P) (hl : blen P.src ≤ isizeMax) (hc : c.Fits True P s)
    (hs : s.Tidy P.src) (h : Runs T cfg m c sc s r s') :
    FitQ P c.offset.start c.offset.stop s r s' := by
  obtain ⟨n, hn⟩ := h
  exact ((exec_fit hT hl n m c sc s hc hs).of_ok hn).1

/-- **C02.**  Everything a matcher returns is placed where the matcher was applied. -/
theorem C02_placed (hT : ∀ m, (T m).Plain True P) (hl : blen P.src ≤ isizeMax) (hc : c.Fits True P s)
    (hs : s.Tidy P.src) (h : Runs T cfg m c sc s r s') :
    r.Placed P.src c.offset.start c.offset.stop s' := (runs_fit hT hl hc hs h).2.2

/-- **C02**, for the token of a result: its own, or the one that a `Break` or `Continue`
carries. -/
theorem C02_token (hT : ∀ m, (T m).Plain True P) (hl : blen P.src ≤ isizeMax) (hc : c.Fits True P s)
    (hs : s.Tidy P.src) (h : Runs T cfg m c sc s r s') {t : TokId} (ht : r.tok = some t) :
    ∃ k, s'.toks[t]? = some k ∧ k.matched.start = c.offset.start ∧
      k.matched.start < k.matched.stop ∧ k.matched.stop ≤ c.offset.stop ∧
      k.matched.start ≤ k.captured.start ∧ k.captured.start ≤ k.captured.stop ∧
      k.captured.stop ≤ k.matched.stop ∧ OnChar P.src k.matched.stop ∧ OnChar P.src k.captured.start ∧
      OnChar P.src k.captured.stop := by
  obtain ⟨h1, -, h2⟩ := runs_fit hT hl hc hs h
  have hTA : TokenAt c.offset.start c.offset.stop s' t := by
    cases r with
    | err f => simp [R.tok] at ht
    | ok x =>
      cases x with
      | token u => cases ht; exact h2
      | proxyChildren u => cases ht; exact h2
      | brk _ d =>
        cases d with
        | token u => cases ht; exact h2
        | proxyChildren u => cases ht; exact h2
        | brk _ _ => exact False.elim h2
        | cont _ _ => exact False.elim h2
        | skip _ => simp [R.tok, Success.tok] at ht
        | none => simp [R.tok, Success.tok] at ht
        | stop => simp [R.tok, Success.tok] at ht
      | cont _ d =>
        cases d with
        | token u => cases ht; exact h2
        | proxyChildren u => cases ht; exact h2
        | brk _ _ => exact False.elim h2
        | cont _ _ => exact False.elim h2
        | skip _ => simp [R.tok, Success.tok] at ht
        | none => simp [R.tok, Success.tok] at ht
        | stop => simp [R.tok, Success.tok] at ht
      | skip _ => simp [R.tok, Success.tok] at ht
      | none => simp [R.tok, Success.tok] at ht
      | stop => simp [R.tok, Success.tok] at ht
  obtain ⟨k, hk, e1, e2, e3⟩ := hTA
  have := h1 t k hk
  exact ⟨k, hk, e1, by rw [e1]; exact e2, e3, this.start_le, this.captured_le, this.stop_le, this.chars.1.2,
    this.chars.2⟩

/-- **C02**, for `Skip`. -/
theorem C02_skip (hT : ∀ m, (T m).Plain True P) (hl : blen P.src ≤ isizeMax) (hc : c.Fits True P s)
    (hs : s.Tidy P.src) {n : Int} (h : Runs T cfg m c sc s (.ok (.skip n)) s') :
    0 ≤ n ∧ c.offset.start + n ≤ c.offset.stop ∧ OnChar P.src (c.offset.start + n).toNat := C02_placed hT hl hc hs h

/-- Matchers that do not read anything do not move. -/
theorem C02_not_consuming (hT : ∀ m, (T m).Plain True P) (hl : blen P.src ≤ isizeMax) (hc : c.Fits True P s)
    (hs : s.Tidy P.src) (h : Runs T cfg m c sc s r s') (hm : (T m).isConsuming = false) : r = .ok (.skip 0) := by
  obtain ⟨n, hn⟩ := h
  exact ((exec_fit hT hl n m c sc s hc hs).of_ok hn).2 hm

theorem Reach.valid {src : Str} (hs : s.Tidy src) {t u : TokId} {k : Token} (hk : s.toks[t]? = some k)
    (h : Reach s.toks t u) : ∃ k, s.toks[u]? = some k := by
  induction h with
  | refl => exact ⟨k, hk⟩
  | @step a b j _ hj hc _ => exact (hs a j hj).kids.mem hc

theorem InOrder.inside {toks : List Token} {a b : Nat} {ts : List TokId} (h : InOrder toks a ts b) {t : TokId}
    (ht : t ∈ ts) : ∃ k, toks[t]? = some k ∧ a ≤ k.matched.start ∧ k.matched.start < k.matched.stop ∧
      k.matched.stop ≤ b := by
  induction h with
  | nil _ => simp at ht
  | @cons a b u k ts hk ha hn hs ih =>
    rcases List.mem_cons.mp ht with rfl | ht
    · exact ⟨k, hk, ha, hn, hs.le⟩
    · obtain ⟨k', h1, h2, h3, h4⟩ := ih ht
      exact ⟨k', h1, by omega, h3, h4⟩

theorem InOrder.disjoint {toks : List Token} {a b : Nat} {ts : List TokId} (h : InOrder toks a ts b) :
    ts.Pairwise (fun c d => ∀ kc kd, toks[c]? = some kc → toks[d]? = some kd →
      kc.matched.stop ≤ kd.matched.start) := by
  induction h with
  | nil _ => exact .nil
  | @cons a b u k ts hk ha hn hs ih =>
    refine .cons (fun d hd kc kd h1 h2 => ?_) ih
    rw [hk] at h1
    cases h1
    obtain ⟨k', e1, e2, _⟩ := hs.inside hd
    rw [h2] at e1
    cases e1
    exact e2

/-- **C03.**  In the tree below the token of a result, the children of every token lie
inside it, are not empty, and follow each other in source order without overlap. -/
theorem C03_children (hT : ∀ m, (T m).Plain True P) (hl : blen P.src ≤ isizeMax) (hc : c.Fits True P s)
    (hs : s.Tidy P.src) (h : Runs T cfg m c sc s r s') {t u : TokId} (ht : r.tok = some t)
    (hu : Reach s'.toks t u) :
    ∃ k, s'.toks[u]? = some k ∧
      (∀ d ∈ k.children, ∃ kd, s'.toks[d]? = some kd ∧ k.matched.start ≤ kd.matched.start ∧
        kd.matched.start < kd.matched.stop ∧ kd.matched.stop ≤ k.matched.stop) ∧
      k.children.Pairwise (fun d d' => ∀ kd kd', s'.toks[d]? = some kd → s'.toks[d']? = some kd' →
        kd.matched.stop ≤ kd'.matched.start) := by
  obtain ⟨k0, h0, -⟩ := C02_token hT hl hc hs h ht
  have htidy := (runs_fit hT hl hc hs h).1
  obtain ⟨k, hk⟩ := hu.valid htidy h0
  have hi := (htidy u k hk).kids
  exact ⟨k, hk, fun d hd => hi.inside hd, hi.disjoint⟩

/-- The children of a token of the result are pairwise different. -/
theorem C03_distinct (hT : ∀ m, (T m).Plain True P) (hl : blen P.src ≤ isizeMax) (hc : c.Fits True P s)
    (hs : s.Tidy P.src) (h : Runs T cfg m c sc s r s') {t u : TokId} (ht : r.tok = some t)
    (hu : Reach s'.toks t u) {k : Token} (hk : s'.toks[u]? = some k) : k.children.Nodup := by
  obtain ⟨k', hk', h1, h2⟩ := C03_children hT hl hc hs h ht hu
  rw [hk] at hk'
  cases hk'
  refine List.Pairwise.imp_of_mem ?_ h2
  intro a b ha hb hab heq
  subst heq
  obtain ⟨kd, e1, _, e2, _⟩ := h1 a ha
  have := hab kd kd e1 e1
  omega

/-- The whole tree lies inside the window. -/
theorem C03_window (hT : ∀ m, (T m).Plain True P) (hl : blen P.src ≤ isizeMax) (hc : c.Fits True P s)
    (hs : s.Tidy P.src) (h : Runs T cfg m c sc s r s') {t u : TokId} (ht : r.tok = some t)
    (hu : Reach s'.toks t u) {k : Token} (hk : s'.toks[u]? = some k) :
    c.offset.start ≤ k.matched.start ∧ k.matched.start < k.matched.stop ∧ k.matched.stop ≤ c.offset.stop := by
  obtain ⟨k0, h0, e1, e2, e3, _⟩ := C02_token hT hl hc hs h ht
  have htidy := (runs_fit hT hl hc hs h).1
  have : ∃ k, s'.toks[u]? = some k ∧ c.offset.start ≤ k.matched.start ∧ k.matched.start < k.matched.stop ∧
      k.matched.stop ≤ c.offset.stop := by
    induction hu generalizing k with
    | refl => exact ⟨k0, h0, by omega, e2, e3⟩
    | @step a b j _ hj hcj ih =>
      obtain ⟨j', hj', i1, i2, i3⟩ := ih hj
      rw [hj] at hj'
      cases hj'
      obtain ⟨kb, hb, b1, b2, b3⟩ := (htidy a j hj).kids.inside hcj
      exact ⟨kb, hb, by omega, b2, by omega⟩
  obtain ⟨k', hk', h1⟩ := this
  rw [hk] at hk'
  cases hk'
  exact h1

/-- **C04.** -/
theorem C04_no_panic (hT : ∀ m, (T m).Plain False P) (hl : blen P.src ≤ isizeMax)
    (hc : c.Fits False P s) (hs : s.Tidy P.src) : ¬ Panics T cfg m c sc s := by
  rintro ⟨n, e, hn⟩
  exact (exec_fit hT hl n m c sc s hc hs).of_panic hn

theorem splitErrors_fit {src : Str} {p : Prop} (hs : s.Tidy src) : ∀ {cs : List TokId},
    (∀ t ∈ cs, ∃ k, s.toks[t]? = some k) →
    Post p (splitErrors cs) s (fun ke s' => s' = s ∧ ke = (cs, [])) := by
  intro cs
  induction cs with
  | nil => intro _; exact Post.pure ⟨rfl, rfl⟩
  | cons t cs ih =>
    intro h
    obtain ⟨k, hk⟩ := h t List.mem_cons_self
    unfold splitErrors
    apply Post.bind
    apply Post.getTok
    · intro k' hk'
      apply Post.bind
      refine (ih (fun u hu => h u (List.mem_cons_of_mem _ hu))).mono ?_
      rintro ⟨keep, errs⟩ s' ⟨rfl, he⟩
      cases he
      rw [noError_flags (hs t k' hk')]
      exact Post.pure ⟨rfl, rfl⟩
    · intro hn; rw [hk] at hn; simp at hn

theorem set_self {i : TokId} {k : Token} (h : s.toks[i]? = some k) : s.toks.set i k = s.toks := by
  apply List.ext_getElem?
  intro j
  by_cases hj : j = i
  · subst hj
    rw [List.getElem?_set_self (List.getElem?_eq_some_iff.mp h).1, h]
  · rw [List.getElem?_set_ne (Ne.symm hj)]

/-- Gathering the errors of a heap without errors changes nothing. -/
theorem collectErrors_fit {src : Str} {p : Prop} (hs : s.Tidy src) {root : TokId}
    (hr : ∃ k, s.toks[root]? = some k) :
    ∀ (n : Nat) {t : TokId} {b : Bool}, (∃ k, s.toks[t]? = some k) →
      Post p (collectErrors n root t b) s (fun _ s' => s' = s) := by
  intro n
  induction n with
  | zero => intro t b _; exact Post.diverge
  | succ n ih =>
    intro t b ⟨k, hk⟩
    unfold collectErrors
    apply Post.bind
    apply Post.getTok
    · intro k' hk'
      rw [hk] at hk'
      cases hk'
      have hch : ∀ u ∈ k.children, ∃ k, s.toks[u]? = some k := fun u hu => (hs t k hk).kids.mem hu
      apply Post.bind
      have hloop : Post p (forEach (fun c => collectErrors n root c false) k.children) s (fun _ s' => s' = s) := by
        clear hk
        generalize k.children = cs at hch
        induction cs with
        | nil => exact Post.pure rfl
        | cons u us ihu =>
          unfold forEach
          apply Post.bind
          refine (ih (hch u List.mem_cons_self)).mono ?_
          rintro _ s1 rfl
          exact ihu (fun v hv => hch v (List.mem_cons_of_mem _ hv))
      refine hloop.mono ?_
      rintro _ s1 rfl
      split
      · exact Post.pure rfl
      · apply Post.bind
        apply Post.getTok
        · intro k' hk'
          rw [hk] at hk'
          cases hk'
          apply Post.bind
          refine (splitErrors_fit hs hch).mono ?_
          rintro ⟨keep, errs⟩ s2 ⟨rfl, he⟩
          cases he
          dsimp only
          apply Post.bind
          apply Post.modTok
          · intro k' hk'
            rw [hk] at hk'
            cases hk'
            have : ({ s2 with toks := s2.toks.set t { k with children := k.children } } : State) = s2 := by
              rw [show ({ k with children := k.children } : Token) = k from rfl, set_self hk]
            rw [this]
            apply Post.modTok
            · intro kr hkr
              show ({ s2 with toks := s2.toks.set root { kr with children := kr.children ++ [] } } : State) = s2
              rw [List.append_nil, show ({ kr with children := kr.children } : Token) = kr from rfl, set_self hkr]
            · intro hn
              obtain ⟨kr, hkr⟩ := hr
              rw [hkr] at hn
              simp at hn
          · intro hn; rw [hk] at hn; simp at hn
        · intro hn; rw [hk] at hn; simp at hn
    · intro hn; rw [hk] at hn; simp at hn

theorem tokenize_fit {p : Prop} (hT : ∀ m, (T m).Plain p P) (hl : blen P.src ≤ isizeMax)
    (hc : c.Fits p P s) (hs : s.Tidy P.src) (n : Nat) :
    Post p (tokenize T cfg n c m) s (fun r s' => s'.Tidy P.src ∧
      (∀ t, r = .ok t → TokenAt c.offset.start c.offset.stop s' t)) := by
  unfold tokenize
  apply Post.bind
  refine (exec_fit hT hl n m c c.scope s hc hs).mono ?_
  rintro r s1 ⟨⟨t1, k1, pl⟩, _⟩
  have tok : ∀ t, TokenAt c.offset.start c.offset.stop s1 t →
      Post p (do collectErrorsTop t; pure (.ok t)) s1 (fun (r : Except Failure TokId) s' => s'.Tidy P.src ∧
      (∀ t, r = .ok t → TokenAt c.offset.start c.offset.stop s' t)) := by
    intro t ht
    apply Post.bind
    unfold collectErrorsTop
    apply Post.bind
    apply Post.getState
    obtain ⟨k, hk, _⟩ := id ht
    refine (collectErrors_fit t1 ⟨k, hk⟩ _ ⟨k, hk⟩).mono ?_
    rintro _ s2 rfl
    exact Post.pure ⟨t1, fun t' h => by cases h; exact ht⟩
  have non : ∀ f : Failure, Post p (pure (.error f) : M (Except Failure TokId)) s1 (fun r s' => s'.Tidy P.src ∧
      (∀ t, r = .ok t → TokenAt c.offset.start c.offset.stop s' t)) :=
    fun f => Post.pure ⟨t1, fun t' h => by cases h⟩
  cases r with
  | err f => exact non f
  | ok x =>
    cases x with
    | token t => exact tok t pl
    | proxyChildren t => exact tok t pl
    | skip _ => exact non .fail
    | none => exact non .fail
    | stop => exact non .fail
    | brk _ d =>
      cases d with
      | token t => exact tok t pl
      | _ => exact non .fail
    | cont _ d =>
      cases d with
      | token t => exact tok t pl
      | _ => exact non .fail

/-- **C04**, for `tokenize`. -/
theorem C04_tokenize (hT : ∀ m, (T m).Plain False P) (hl : blen P.src ≤ isizeMax)
    (hc : c.Fits False P s) (hs : s.Tidy P.src) (n : Nat) (e : String) : tokenize T cfg n c m s ≠ .panic e :=
  fun h => (tokenize_fit hT hl hc hs n).of_panic h

/-- **C02**, for `tokenize` from the start of a source with an empty heap: the root starts
at 0, is not empty, and all tokens are inside the source with their children in order. -/
theorem C02_tokenize (hT : ∀ m, (T m).Plain True P) (hl : blen P.src ≤ isizeMax) {name : Str} {n : Nat} {t : TokId}
    {sc0 : State} (h0 : sc0.toks = []) (h : tokenize T cfg n (Ctx.new P sc name) m sc0 = .ok (.ok t) s') :
    s'.Tidy P.src ∧ TokenAt 0 (blen P.src) s' t := by
  have hc := fits_new (p := True) (P := P) (sc := sc) (name := name) (s := sc0)
  have hs : sc0.Tidy P.src := by
    intro t k hk
    rw [h0] at hk
    simp at hk
  obtain ⟨h1, h2⟩ := (tokenize_fit hT hl hc hs n).of_ok h
  exact ⟨h1, h2 t rfl⟩

/-! ### Who fulfils the conditions -/

/-- The macros `FatalIf!` and `FatalIfNot!` are plain. -/
theorem C04_fatal_if {msg : Str} : (Node.map m (fatalIfOk msg) failureIsFine).Plain False P := by
  refine ⟨fun t c sc s hc hs ⟨k, hk, h1, h2, h3⟩ => ?_, fun e c sc s hc hs => ?_⟩
  · have h4 := hc.stop_le
    have hq : Post False (fatalIfOk msg t c sc) s (FitQ P c.offset.start c.offset.stop s) := by
      unfold fatalIfOk
      apply Post.bind
      apply Post.getTok
      · intro k' hk'
        rw [hk] at hk'
        cases hk'
        apply Post.bind
        apply Post.ofOpt
        · intro _ _; exact Post.pure (FitQ.err hs)
        · exact errorString_some hc.parser (hs t k hk).chars.1.1 (hs t k hk).chars.1.2
      · intro hn; rw [hk] at hn; simp at hn
    unfold Post at hq
    cases hx : fatalIfOk msg t c sc s <;> rw [hx] at hq <;> exact hq
  · cases e with
    | fail => exact FitQ.skip0 hs hc.start_le hc.chars.1
    | error e => exact FitQ.err hs

@[inherit_doc C04_fatal_if]
theorem C04_fatal_if_not {msg : Str} :
    (Node.map m successIsFine (fatalIfNotErr msg)).Plain False P := by
  refine ⟨fun t c sc s hc hs _ => FitQ.skip0 hs hc.start_le hc.chars.1, fun e c sc s hc hs => ?_⟩
  have h1 := hc.start_le
  have h2 := hc.stop_le
  have hq : Post False (fatalIfNotErr msg e c sc) s (FitQ P c.offset.start c.offset.stop s) := by
    cases e with
    | error e => exact Post.pure (FitQ.err hs)
    | fail =>
      unfold fatalIfNotErr
      dsimp only
      apply Post.bind
      apply Post.ofOpt
      · intro _ _; exact Post.pure (FitQ.err hs)
      · exact errorString_some hc.parser hc.chars.1 hc.chars.2
  unfold Post at hq
  cases hx : fatalIfNotErr msg e c sc s <;> rw [hx] at hq <;> exact hq

/-- The regular expressions of the crate's own grammars keep the contract. -/
theorem C04_regex (pat : String) (as : List (List RxItem)) : (mkRx pat as).Ok := rx_cuts pat as

/-! ### Examples -/

theorem panics_of_check (n : Nat) (h : (exec T cfg n m c sc s).panics = true) : Panics T cfg m c sc s := by
  unfold Panics
  refine ⟨n, ?_⟩
  cases hx : exec T cfg n m c sc s with
  | panic e => exact ⟨e, rfl⟩
  | ok _ _ => rw [hx] at h; cases h
  | diverge => rw [hx] at h; cases h

theorem quote_nonEmpty : (Fetchable.str "\"".toList).NonEmpty := by
  show "\"".toList ≠ []
  decide

/-- A quoted string between two words; the captured range is inside. -/
example : let T : Table := fun
      | 0 => .program [1, 2, 1] "P".toList false none false
      | 1 => .regex "W".toList false (mkRx "\\w+" [Rx.plus Rx.isWord])
      | _ => .sequence "S".toList false (.str "\"".toList) (.str "\"".toList) (.str "\\".toList)
    (∀ m, (T m).Plain False ⟨"ab\"c\\\"d\"e".toList, []⟩) ∧
    (exec T ⟨true⟩ 9 0 (Ctx.new ⟨"ab\"c\\\"d\"e".toList, []⟩ 0 []) 0 ⟨[], [], [[]]⟩).holds (fun r s' =>
      r == .ok (.token 0) && s'.toks.map (fun k => (k.matched.start, k.matched.stop, k.captured.start, k.captured.stop,
        k.children)) == [(0, 9, 0, 9, [1, 2, 3]), (0, 2, 0, 2, []), (2, 8, 3, 7, []), (8, 9, 8, 9, [])]) := by
  refine ⟨fun m => ?_, by decide +kernel⟩
  match m with
  | 0 => trivial
  | 1 => exact C04_regex _ _
  | _ + 2 => exact Or.inr ⟨quote_nonEmpty, quote_nonEmpty, trivial, fun _ _ _ _ _ _ => asciiBetween_of_ascii (by unfold Ascii; decide)⟩

/-- A text in brackets is all right if it is ASCII, whatever is around it. -/
theorem C04_unicode_example : let T : Table := fun
      | 0 => .program [1, 2, 1] "P".toList false none false
      | 1 => .regex "W".toList false (mkRx "[éü]+" [Rx.plus (fun ch => ch == 'é' || ch == 'ü')])
      | _ => .sequence "S".toList false (.str "<".toList) (.str ">".toList) (.str "\\".toList)
    let P : Parser := ⟨"é<c>ü".toList, []⟩
    (∀ m, (T m).Plain False P) ∧ (∀ n e, tokenize T ⟨true⟩ n (Ctx.new P 0 []) 0 ⟨[], [], [[]]⟩ ≠ .panic e) ∧
    (exec T ⟨true⟩ 9 0 (Ctx.new P 0 []) 0 ⟨[], [], [[]]⟩).holds (fun r s' =>
      r == .ok (.token 0) && s'.toks.map (fun k => (k.matched.start, k.matched.stop, k.captured.start, k.captured.stop,
        k.children)) == [(0, 7, 0, 7, [1, 2, 3]), (0, 2, 0, 2, []), (2, 5, 3, 4, []), (5, 7, 5, 7, [])]) := by
  intro T P
  have hT : ∀ m, (T m).Plain False P := by
    intro m
    match m with
    | 0 => trivial
    | 1 => exact C04_regex _ _
    | _ + 2 =>
      refine Or.inr ⟨(by decide : "<".toList ≠ []), (by decide : ">".toList ≠ []), trivial, ?_⟩
      rintro start stop esc h1 h2 h3
      cases h1
      cases h2
      cases h3
      exact asciiBetween_of_check (by decide +kernel)
  exact ⟨hT, fun n e => C04_tokenize hT (by decide) fits_new (fun t k hk => by simp at hk) n e, by decide +kernel⟩

/-- On other text a quoted `Sequence` panics. -/
theorem C04_non_ascii_counterexample :
    let T : Table := fun _ => .sequence "S".toList false (.str "\"".toList) (.str "\"".toList) (.str "\\".toList)
    let P : Parser := ⟨"\"é\"".toList, []⟩
    ¬ (T 0).Plain False P ∧ Panics T ⟨true⟩ 0 (Ctx.new P 0 []) 0 ⟨[], [], [[]]⟩ := by
  refine ⟨fun h => ?_, panics_of_check 1 (by decide +kernel)⟩
  rcases h with h | ⟨_, _, _, h⟩
  · exact h
  · have := h _ _ _ rfl rfl rfl [] "é\"".toList [] ['é'] "\"".toList rfl
      (.plain (by decide) (Or.inr (by decide)) (.here _)) 'é' (by simp)
    revert this
    decide

/-- Without the condition on `Pin` a token may start elsewhere. -/
theorem C02_pin_counterexample :
    let T : Table := fun
      | 0 => .pin (some 1) (.str "1".toList) "Pin".toList false
      | _ => .equals "E".toList false (.str "b".toList)
    (exec T ⟨true⟩ 9 0 (Ctx.new ⟨"ab".toList, []⟩ 0 []) 0 ⟨[], [], [[]]⟩).holds (fun r s' =>
      r == .ok (.token 0) && s'.toks.map (fun k => (k.matched.start, k.matched.stop)) == [(1, 2)]) := by
  decide +kernel

/-- With `Error`, the program panics: it is not moving forward. -/
theorem C04_error_counterexample :
    let T : Table := fun
      | 0 => .program [1] "P".toList false none false
      | 1 => .program [2, 3] "Q".toList false none false
      | 2 => .optional 4
      | 3 => .error "m".toList
      | _ => .equals "E".toList false (.str "x".toList)
    Panics T ⟨true⟩ 0 (Ctx.new ⟨"ab".toList, []⟩ 0 []) 0 ⟨[], [], [[]]⟩ :=
  panics_of_check 9 (by decide +kernel)

end Adx
