import Verif.Spec.Shape
import Verif.Proofs.Post
import Verif.Proofs.Text
import Verif.Proofs.Skims
import Verif.Props.Lines
/-
  Every run of a plain grammar keeps the heap tidy, returns placed results, and panics
  only if allowed.
-/
namespace Adx

section heap
variable {src : Str} {toks toks' : List Token}

theorem InOrder.le {a b : Nat} {ts : List TokId} (h : InOrder toks a ts b) : a ≤ b := by
  induction h with
  | nil h => exact h
  | cons _ ha hn _ ih => omega

theorem InOrder.mono {a b b' : Nat} {ts : List TokId} (h : InOrder toks a ts b) (hb : b ≤ b') :
    InOrder toks a ts b' := by
  induction h with
  | nil h => exact .nil (by omega)
  | cons hk ha hn _ ih => exact .cons hk ha hn (ih hb)

theorem InOrder.append {a b c : Nat} {ts us : List TokId} (h : InOrder toks a ts b)
    (h' : InOrder toks b us c) : InOrder toks a (ts ++ us) c := by
  induction h with
  | nil h =>
    cases h' with
    | nil h2 => exact .nil (by omega)
    | cons hk ha hn hs => exact .cons hk (by omega) hn hs
  | cons hk ha hn _ ih => exact .cons hk ha hn (ih h')

theorem InOrder.congr {a b : Nat} {ts : List TokId} (h : InOrder toks a ts b)
    (he : ∀ (t : TokId) (k : Token), toks[t]? = some k → k.matched.start < k.matched.stop →
      ∃ k', toks'[t]? = some k' ∧ k'.matched = k.matched) : InOrder toks' a ts b := by
  induction h with
  | nil h => exact .nil h
  | cons hk ha hn _ ih =>
    obtain ⟨k', hk', hm⟩ := he _ _ hk hn
    refine .cons hk' (by rw [hm]; exact ha) (by rw [hm]; exact hn) ?_
    rw [hm]
    exact ih

theorem Token.Tidy.congr {k : Token} (h : k.Tidy src toks)
    (he : ∀ (t : TokId) (k : Token), toks[t]? = some k → k.matched.start < k.matched.stop →
      ∃ k', toks'[t]? = some k' ∧ k'.matched = k.matched) : k.Tidy src toks' :=
  ⟨h.standard, h.noError, h.start_le, h.captured_le, h.stop_le, h.inside, h.kids.congr he, h.chars⟩

/-- A token that differs only in what tidiness does not look at. -/
theorem Token.Tidy.of_same {k k' : Token} (h : k.Tidy src toks) (h1 : k'.kind = k.kind)
    (h2 : k'.flags = k.flags) (h3 : k'.matched = k.matched) (h4 : k'.captured = k.captured)
    (h5 : k'.children = k.children) : k'.Tidy src toks := by
  obtain ⟨a, b, c, d, e, f, g, i⟩ := h
  exact ⟨by rw [h1]; exact a, by rw [h2]; exact b, by rw [h3, h4]; exact c, by rw [h4]; exact d,
    by rw [h3, h4]; exact e, by rw [h3]; exact f, by rw [h3, h5]; exact g, by rw [h3, h4]; exact i⟩

variable {s : State}

theorem get_append {t : Token} {i : TokId} {k : Token} (h : s.toks[i]? = some k) :
    (s.toks ++ [t])[i]? = some k := by
  rw [List.getElem?_append_left (List.getElem?_eq_some_iff.mp h).1]
  exact h

theorem State.Tidy.newTok (h : s.Tidy src) {k : Token} (hk : k.Tidy src (s.toks ++ [k])) :
    ({ s with toks := s.toks ++ [k] } : State).Tidy src := by
  intro i ki hi
  by_cases hlt : i < s.toks.length
  · have : s.toks[i]? = some ki := by
      rw [← hi]
      exact (List.getElem?_append_left hlt).symm
    exact (h i ki this).congr (fun t k ht _ => ⟨k, get_append ht, rfl⟩)
  · have : i = s.toks.length := by
      have := (List.getElem?_eq_some_iff.mp hi).1
      have : i < (s.toks ++ [k]).length := this
      rw [List.length_append, List.length_singleton] at this
      exact Nat.le_antisymm (Nat.le_of_lt_succ this) (Nat.le_of_not_lt hlt)
    subst this
    have : ki = k := by
      have hi' : (s.toks ++ [k])[s.toks.length]? = some ki := hi
      rw [List.getElem?_concat_length] at hi'
      exact (Option.some.inj hi').symm
    rw [this]
    exact hk

theorem set_keeps {i : TokId} {k k' : Token} (hk : s.toks[i]? = some k)
    (hm : k'.matched = k.matched ∨ ¬ k.matched.start < k.matched.stop) :
    ∀ (t : TokId) (j : Token), s.toks[t]? = some j → j.matched.start < j.matched.stop →
      ∃ j', (s.toks.set i k')[t]? = some j' ∧ j'.matched = j.matched := by
  intro t j hj hn
  by_cases hti : t = i
  · subst hti
    rw [hk] at hj
    cases hj
    rw [List.getElem?_set_self (List.getElem?_eq_some_iff.mp hk).1]
    rcases hm with hm | hm
    · exact ⟨k', rfl, hm⟩
    · exact (hm hn).elim
  · rw [List.getElem?_set_ne (Ne.symm hti)]
    exact ⟨j, hj, rfl⟩

theorem State.Tidy.set (h : s.Tidy src) {i : TokId} {k k' : Token} (hk : s.toks[i]? = some k)
    (hm : k'.matched = k.matched ∨ ¬ k.matched.start < k.matched.stop)
    (hk' : k'.Tidy src (s.toks.set i k')) : ({ s with toks := s.toks.set i k' } : State).Tidy src := by
  intro t j hj
  by_cases hti : t = i
  · subst hti
    have hj' : (s.toks.set t k')[t]? = some j := hj
    rw [List.getElem?_set_self (List.getElem?_eq_some_iff.mp hk).1] at hj'
    cases hj'
    exact hk'
  · have hj' : (s.toks.set i k')[t]? = some j := hj
    rw [List.getElem?_set_ne (Ne.symm hti)] at hj'
    exact (h t j hj').congr (set_keeps hk hm)

/-- Replace a token by one that looks the same to tidiness. -/
theorem State.Tidy.set_same (h : s.Tidy src) {i : TokId} {k k' : Token} (hk : s.toks[i]? = some k)
    (h1 : k'.kind = k.kind) (h2 : k'.flags = k.flags) (h3 : k'.matched = k.matched)
    (h4 : k'.captured = k.captured) (h5 : k'.children = k.children) :
    ({ s with toks := s.toks.set i k' } : State).Tidy src :=
  h.set hk (Or.inl h3) (((h i k hk).of_same h1 h2 h3 h4 h5).congr (set_keeps hk (Or.inl h3)))

theorem State.Tidy.toks_eq {s' : State} (h : s.Tidy src) (he : s'.toks = s.toks) : s'.Tidy src := by
  intro t k hk
  rw [he] at hk ⊢
  exact h t k hk

theorem KeepsRanges.refl (n : Nat) (s : State) : KeepsRanges n s s :=
  ⟨Nat.le_refl _, fun _ _ k hk => ⟨k, hk, rfl⟩⟩

theorem KeepsRanges.trans {n : Nat} {s1 s2 : State} (h : KeepsRanges n s s1) (h' : KeepsRanges n s1 s2) :
    KeepsRanges n s s2 := by
  refine ⟨Nat.le_trans h.1 h'.1, fun i hi k hk => ?_⟩
  obtain ⟨k1, hk1, e1⟩ := h.2 i hi k hk
  obtain ⟨k2, hk2, e2⟩ := h'.2 i hi k1 hk1
  exact ⟨k2, hk2, e2.trans e1⟩

theorem KeepsRanges.lift {m n : Nat} {s' : State} (h : KeepsRanges m s s') (hn : n ≤ m) : KeepsRanges n s s' :=
  ⟨h.1, fun i hi => h.2 i (Nat.lt_of_lt_of_le hi hn)⟩

theorem KeepsRanges.toks_eq {n : Nat} {s' : State} (h : s'.toks = s.toks) : KeepsRanges n s s' := by
  refine ⟨by rw [h]; exact Nat.le_refl _, fun i _ k hk => ⟨k, by rw [h]; exact hk, rfl⟩⟩

theorem KeepsRanges.newTok {n : Nat} {k : Token} : KeepsRanges n s { s with toks := s.toks ++ [k] } :=
  ⟨by simp, fun _ _ j hj => ⟨j, get_append hj, rfl⟩⟩

theorem KeepsRanges.set {n : Nat} {i : TokId} {k k' : Token} (hk : s.toks[i]? = some k)
    (hm : n ≤ i ∨ k'.matched = k.matched) : KeepsRanges n s { s with toks := s.toks.set i k' } := by
  refine ⟨by simp, fun t ht j hj => ?_⟩
  by_cases hti : t = i
  · subst hti
    rw [hk] at hj
    cases hj
    refine ⟨k', ?_, ?_⟩
    · exact List.getElem?_set_self (List.getElem?_eq_some_iff.mp hk).1
    · rcases hm with hm | hm
      · exact (Nat.not_lt.mpr hm ht).elim
      · exact hm
  · refine ⟨j, ?_, rfl⟩
    show (s.toks.set i k')[t]? = _
    rw [List.getElem?_set_ne (Ne.symm hti), hj]

/-- All tokens of the heap keep their matched ranges. -/
theorem KeepsRanges.all {s' : State} (h : KeepsRanges s.toks.length s s') (t : TokId) (k : Token)
    (hk : s.toks[t]? = some k) : ∃ k', s'.toks[t]? = some k' ∧ k'.matched = k.matched :=
  h.2 t (List.getElem?_eq_some_iff.mp hk).1 k hk

theorem TokenAt.keep {a e : Nat} {s' : State} {t : TokId} (h : TokenAt a e s t)
    (hk : KeepsRanges s.toks.length s s') : TokenAt a e s' t := by
  obtain ⟨k, h1, h2, h3, h4⟩ := h
  obtain ⟨k', h1', hm⟩ := hk.all t k h1
  exact ⟨k', h1', by rw [hm]; exact h2, by rw [hm]; exact h3, by rw [hm]; exact h4⟩

theorem Success.Carries.keep {a e : Nat} {s' : State} {x : Success} (h : x.Carries src a e s)
    (hk : KeepsRanges s.toks.length s s') : x.Carries src a e s' := by
  cases x with
  | token t => exact TokenAt.keep h hk
  | proxyChildren t => exact TokenAt.keep h hk
  | skip n => exact h
  | brk _ _ => exact h
  | cont _ _ => exact h
  | none => trivial
  | stop => trivial

theorem R.Placed.keep {a e : Nat} {s' : State} {r : R} (h : r.Placed src a e s)
    (hk : KeepsRanges s.toks.length s s') : r.Placed src a e s' := by
  cases r with
  | err _ => trivial
  | ok x =>
    cases x with
    | token t => exact TokenAt.keep h hk
    | proxyChildren t => exact TokenAt.keep h hk
    | skip n => exact h
    | brk _ d => exact Success.Carries.keep (x := d) h hk
    | cont _ d => exact Success.Carries.keep (x := d) h hk
    | none => exact h
    | stop => trivial

theorem Ctx.Fits.keep {p : Prop} {P : Parser} {c : Ctx} {s' : State} (h : c.Fits p P s)
    (hl : s.toks.length ≤ s'.toks.length) : c.Fits p P s' :=
  ⟨h.parser, h.start_le, h.stop_le, fun t ht => Nat.lt_of_lt_of_le (h.stack t ht) hl, h.chars, h.quiet⟩

end heap

section
variable {p : Prop} {P : Parser} {T : Table} {cfg : Cfg}

/-- The postcondition of a run in the window `a..e` that began in heap `s`. -/
def FitQ (P : Parser) (a e : Nat) (s : State) (r : R) (s' : State) : Prop :=
  s'.Tidy P.src ∧ KeepsRanges s.toks.length s s' ∧ r.Placed P.src a e s'

/-- Runs of other matchers are as wanted. -/
def RecFit (p : Prop) (P : Parser) (T : Table) (f : ExecFn) : Prop :=
  ∀ m c sc s, c.Fits p P s → s.Tidy P.src →
    Post p (f m c sc) s (fun r s' => FitQ P c.offset.start c.offset.stop s r s' ∧
      ((T m).isConsuming = false → r = .ok (.skip 0)))

theorem FitQ.err {a e : Nat} {s : State} {f : Failure} (h : s.Tidy P.src) : FitQ P a e s (.err f) s :=
  ⟨h, KeepsRanges.refl _ _, trivial⟩

theorem FitQ.skip0 {a e : Nat} {s : State} (h : s.Tidy P.src) (hae : a ≤ e) (ha : OnChar P.src a) :
    FitQ P a e s (.ok (.skip 0)) s :=
  ⟨h, KeepsRanges.refl _ _, Int.le_refl _, by simpa using hae, by simpa using ha⟩

/-- Slices between characters exist. -/
theorem slice_some {src : Str} {a e : Nat} (h1 : a ≤ e) (ha : OnChar src a) (he : OnChar src e)
    (hn : bslice src a e = none) : p := by
  obtain ⟨w, hw⟩ := ha.text he h1
  rw [bslice_iff.mpr hw] at hn
  cases hn

theorem chunk_some {s : State} {c : Ctx} (hc : c.Fits p P s) (h : c.chunk = none) : p := by
  unfold Ctx.chunk at h
  rw [hc.parser] at h
  exact slice_some hc.start_le hc.chars.1 hc.chars.2 h

theorem slice_le {src w : Str} {a e : Nat} (h : bslice src a e = some w) : e = a + blen w :=
  (bslice_iff.mp h).le.1

theorem debugRange_ascii (hA : p ∨ Ascii P.src) {s : State} {c : Ctx} (hc : c.Fits p P s) {n : Nat}
    (h : c.debugRange n = none) : p := by
  rcases hA with hp | hA
  · exact hp
  unfold Ctx.debugRange at h
  rw [hc.parser] at h
  have h1 := hc.start_le
  have h2 := hc.stop_le
  refine slice_some ?_ hc.chars.1 (OnChar.of_ascii hA ?_) h
  · split <;> omega
  · split <;> omega

theorem debugRange_some {s : State} {c : Ctx} (hc : c.Fits p P s) {n : Nat} (hd : c.debug > 0)
    (h : c.debugRange n = none) : p := by
  rcases hc.quiet with hp | hA | h0
  · exact hp
  · exact debugRange_ascii (Or.inr hA) hc h
  · omega

theorem errorString_some {c : Ctx} (hc : c.parser = P) {msg : Str} {r : Range}
    (h1 : OnChar P.src r.start) (h2 : OnChar P.src r.stop) (h : c.errorString msg r = none) : p := by
  exfalso
  subst hc
  obtain ⟨w1, h1⟩ := h1.head
  obtain ⟨w2, h2⟩ := h2.head
  obtain ⟨_, _, h3⟩ := C30_total (c := c) (r := r) h1 h2
  obtain ⟨e, he⟩ := h3 msg
  rw [he] at h
  simp at h

theorem fetchValue_lit {f : Fetchable} {sc : SCtxId} {s : State} {Q : Str ⊕ MatcherId → State → Prop}
    (hf : p ∨ f.Literal) (h : ∀ v, (f.Literal → (∀ x, f = .str x → v = .inl x) ∧ (∀ x, v = .inl x → f = .str x)) → Q v s) :
    Post p (fetchValue f sc) s Q := by
  by_cases hl : f.Literal
  · cases f with
    | str x =>
      refine h (.inl x) (fun _ => ⟨fun y hy => by cases hy; rfl, fun y hy => by cases hy; rfl⟩)
    | matcher m =>
      refine h (.inr m) (fun _ => ⟨fun y hy => by simp at hy, fun y hy => by simp at hy⟩)
    | fetch _ => exact hl.elim
  · rcases hf with hp | hf
    · exact (Post.fetchValue (fun v => h v (fun hx => (hl hx).elim))).weaken (fun _ => hp)
    · exact (hl hf).elim

theorem tidy_leaf {toks : List Token} {name : Str} {r : Range} (h : r.start ≤ r.stop)
    (h1 : OnChar P.src r.start) (h2 : OnChar P.src r.stop)
    {p' : Parser} : (Token.mk' p' name r).Tidy P.src toks :=
  ⟨rfl, (by decide : (0 : Flags) &&& IS_ERROR = 0), Nat.le_refl _, h, Nat.le_refl _, h2.le, .nil h, ⟨h1, h2⟩, h1, h2⟩

/-- A new token is the result. -/
theorem newTok_fit {s : State} {k : Token} {a e : Nat} (hs : s.Tidy P.src) (hk : k.Tidy P.src (s.toks ++ [k]))
    (ha : k.matched.start = a) (hn : a < k.matched.stop) (he : k.matched.stop ≤ e) :
    FitQ P a e s (.ok (.token s.toks.length)) { s with toks := s.toks ++ [k] } :=
  ⟨hs.newTok hk, KeepsRanges.newTok, k, List.getElem?_concat_length, ha, hn, he⟩

theorem execEquals_fit {name : Str} {pat : Fetchable} (hp : p ∨ pat.Literal)
    {c : Ctx} {sc : SCtxId} {s : State} (hc : c.Fits p P s) (hs : s.Tidy P.src) :
    Post p (execEquals name pat c sc) s (FitQ P c.offset.start c.offset.stop s) := by
  unfold execEquals
  dsimp only
  have hc' : (c.withName name).Fits p P s := ⟨hc.parser, hc.start_le, hc.stop_le, hc.stack, hc.chars, hc.quiet⟩
  apply Post.bind
  apply fetchValue_lit hp
  intro v _
  cases v with
  | inr m => exact FitQ.err hs
  | inl w =>
    apply Post.bind
    apply Post.ofOpt
    · intro o ho
      cases o with
      | none =>
        apply Post.bind
        exact Post.dbg (FitQ.err hs) (fun hd h => debugRange_some hc' hd h)
      | some r =>
        apply Post.bind
        refine Post.dbg ?_ (fun hd h => debugRange_some hc' hd h)
        apply Post.bind
        apply Post.newTok
        unfold Ctx.matchesStr at ho
        split at ho
        · simp at ho
        · rename_i hne
          cases hch : (c.withName name).chunk with
          | none => rw [hch] at ho; simp at ho
          | some ch =>
            rw [hch] at ho
            dsimp only at ho
            split at ho
            · rename_i hpre
              have ho := Option.some.inj (Option.some.inj ho)
              subst ho
              have hle := slice_le hch
              have hw : 0 < blen w := Nat.pos_of_ne_zero (fun h => hne (blen_eq_zero.mp h))
              obtain ⟨t, ht⟩ := List.isPrefixOf_iff_prefix.mp hpre
              have hbl : blen w ≤ blen ch := by rw [← ht, blen_append]; omega
              have h1 := hc.stop_le
              have hle' : c.offset.stop = c.offset.start + blen ch := hle
              have hst : c.offset.start + blen w ≤ c.offset.stop := by omega
              have htx : TextAt P.src c.offset.start c.offset.stop ch := by
                rw [← hc.parser]
                exact bslice_iff.mp hch
              refine Post.pure (newTok_fit hs (tidy_leaf ?_ ?_ ?_) ?_ ?_ ?_)
              · show c.offset.start ≤ c.offset.start + blen w
                omega
              · exact hc.chars.1
              · exact htx.onChar_in ⟨w, t, ht.symm, rfl⟩
              · rfl
              · show c.offset.start < c.offset.start + blen w
                omega
              · exact hst
            · simp at ho
    · intro hn
      unfold Ctx.matchesStr at hn
      split at hn
      · simp at hn
      · cases hch : (c.withName name).chunk with
        | none => exact chunk_some hc' hch
        | some ch =>
          rw [hch] at hn
          dsimp only at hn
          split at hn <;> simp at hn

theorem execMatches_fit {name : Str} {re : Regex} (hr : re.Ok)
    {c : Ctx} {s : State} (hc : c.Fits p P s) (hs : s.Tidy P.src) :
    Post p (execMatches name re c) s (FitQ P c.offset.start c.offset.stop s) := by
  unfold execMatches
  dsimp only
  have hc' : (c.withName name).Fits p P s := ⟨hc.parser, hc.start_le, hc.stop_le, hc.stack, hc.chars, hc.quiet⟩
  apply Post.bind
  apply Post.ofOpt
  · intro o ho
    cases o with
    | none =>
      apply Post.bind
      exact Post.dbg (FitQ.err hs) (fun hd h => debugRange_some hc' hd h)
    | some r =>
      dsimp only
      split
      · apply Post.bind
        exact Post.dbg (FitQ.skip0 hs hc.start_le hc.chars.1) (fun hd h => debugRange_some hc' hd h)
      · rename_i hne
        apply Post.bind
        apply Post.newTok
        unfold Ctx.matchesRegexp at ho
        cases hch : (c.withName name).chunk with
        | none => rw [hch] at ho; simp at ho
        | some ch =>
          rw [hch] at ho
          dsimp only at ho
          cases hf : re.find ch with
          | none => rw [hf] at ho; simp at ho
          | some ab =>
            obtain ⟨a, b⟩ := ab
            rw [hf] at ho
            dsimp only at ho
            split at ho
            · simp at ho
            · rename_i ha
              have ha' : a + c.offset.start = c.offset.start := Decidable.of_not_not ha
              have ho := Option.some.inj (Option.some.inj ho)
              subst ho
              have hle' : c.offset.stop = c.offset.start + blen ch := slice_le hch
              obtain ⟨x, hx⟩ := hr ch a b hf
              obtain ⟨h4, h5⟩ := hx.onChar
              obtain ⟨h1, h2⟩ := hx.le
              have h3 := hc.stop_le
              have hne' : a + c.offset.start ≠ b + c.offset.start := hne
              have htx : TextAt P.src c.offset.start c.offset.stop ch := by
                rw [← hc.parser]
                exact bslice_iff.mp hch
              refine Post.pure (newTok_fit hs (tidy_leaf ?_ ?_ ?_) ?_ ?_ ?_)
              · show a + c.offset.start ≤ b + c.offset.start
                omega
              · show OnChar P.src (a + c.offset.start)
                rw [Nat.add_comm]
                exact htx.onChar_in h4
              · show OnChar P.src (b + c.offset.start)
                rw [Nat.add_comm]
                exact htx.onChar_in h5
              · exact ha'
              · show c.offset.start < b + c.offset.start
                omega
              · show b + c.offset.start ≤ c.offset.stop
                omega
  · intro hn
    unfold Ctx.matchesRegexp at hn
    cases hch : (c.withName name).chunk with
    | none => exact chunk_some hc' hch
    | some ch =>
      rw [hch] at hn
      dsimp only at hn
      cases hf : re.find ch with
      | none => rw [hf] at hn; simp at hn
      | some ab =>
        rw [hf] at hn
        dsimp only at hn
        split at hn <;> simp at hn

theorem matchesStrAt_some {c : Ctx} {w : Str} {off : Nat} {r : Range}
    (h : c.matchesStrAt w off = some (some r)) :
    w ≠ [] ∧ r.start = off ∧ r.stop = off + blen w ∧ off + blen w ≤ c.offset.stop ∧
      ∃ t, TextAt c.parser.src off c.offset.stop (w ++ t) := by
  unfold Ctx.matchesStrAt at h
  split at h
  · simp at h
  · rename_i hn
    cases hch : bslice c.parser.src off c.offset.stop with
    | none => rw [hch] at h; simp at h
    | some ch =>
      rw [hch] at h
      dsimp only at h
      split at h
      · rename_i hpre
        have h := Option.some.inj (Option.some.inj h)
        subst h
        have hle := slice_le hch
        obtain ⟨t, ht⟩ := List.isPrefixOf_iff_prefix.mp hpre
        have hbl : blen w ≤ blen ch := by rw [← ht, blen_append]; omega
        exact ⟨fun h => hn (Or.inr h), rfl, rfl, by omega, t, by rw [ht]; exact bslice_iff.mp hch⟩
      · simp at h

/-- What does not match is not there. -/
theorem matchesStrAt_not {c : Ctx} {x w : Str} {off : Nat} (hl : off < c.offset.stop)
    (hw : TextAt c.parser.src off c.offset.stop w) (h : c.matchesStrAt x off = some none) : x = [] ∨ ¬ x <+: w := by
  unfold Ctx.matchesStrAt at h
  by_cases hx : x = []
  · exact Or.inl hx
  · rw [if_neg (fun h' => h'.elim (fun h' => by omega) hx), bslice_iff.mpr hw] at h
    dsimp only at h
    split at h
    · simp at h
    · rename_i hp
      exact Or.inr fun hp' => hp (List.isPrefixOf_iff_prefix.mpr hp')

theorem matchesStrAt_none {s : State} {c : Ctx} (hc : c.Fits p P s) {w : Str} {off : Nat}
    (ho : p ∨ (off < c.offset.stop → OnChar P.src off)) (h : c.matchesStrAt w off = none) : p := by
  rcases ho with hp | ho
  · exact hp
  unfold Ctx.matchesStrAt at h
  split at h
  · simp at h
  · rename_i hn
    cases hch : bslice c.parser.src off c.offset.stop with
    | none =>
      rw [hc.parser] at hch
      have : ¬ off ≥ c.offset.stop := fun hx => hn (Or.inl hx)
      exact slice_some (by omega) (ho (by omega)) hc.chars.2 hch
    | some ch =>
      rw [hch] at h
      dsimp only at h
      split at h <;> simp at h

theorem seqPush_none {pr i : Nat} {parts : List Str} (ho : p ∨ OnChar P.src pr ∧ OnChar P.src i)
    (h : seqPush P.src pr i parts = none) : p := by
  rcases ho with hp | ⟨h1, h2⟩
  · exact hp
  unfold seqPush at h
  split at h
  · rename_i hlt
    cases hch : bslice P.src pr i with
    | none => exact slice_some (by omega) h1 h2 hch
    | some w => rw [hch] at h; simp at h
  · simp at h

/-- What the scanning loop, entered at `i`, may find. -/
def SeqFit (p : Prop) (src endP : Str) (lo hi : Nat) : SeqOut → Prop
  | .found j _ => lo ≤ j ∧ j ≤ hi ∧ OnChar src (j - blen endP) ∧ OnChar src j
  | .fail => True
  | .panic => p

theorem SeqFit.mono {src endP : Str} {lo lo' hi : Nat} {o : SeqOut} (h : SeqFit p src endP lo hi o) (hl : lo' ≤ lo) :
    SeqFit p src endP lo' hi o := by
  cases o with
  | found j _ => exact ⟨Nat.le_trans hl h.1, h.2⟩
  | fail => trivial
  | panic => exact h

/-- Only ASCII characters are passed over from `i` on. -/
def Passes (src endP escP : Str) (i stop : Nat) : Prop :=
  ∀ w, TextAt src i stop w → ∀ val rest, Skims endP escP w val rest → Ascii val

/-- Behind an ASCII character that is passed over. -/
theorem passes_next {src endP escP w : Str} {ch : Char} {i stop : Nat} (hw : TextAt src i stop (ch :: w))
    (h : ∀ val rest, Skims endP escP w val rest → Ascii (ch :: val)) :
    TextAt src (i + 1) stop w ∧ Passes src endP escP (i + 1) stop := by
  have h1 : ch.toNat < 128 := h [] w (.here w) ch (by simp)
  have h2 : blen [ch] = 1 := by
    show ch.utf8Size + 0 = 1
    rw [utf8Size_ascii h1]
  have h3 : TextAt src (i + 1) stop w := by
    have := hw.suffix (x := [ch]) (y := w)
    rwa [h2] at this
  refine ⟨h3, fun w' hw' val rest hv => ?_⟩
  rw [hw'.unique h3] at hv
  exact fun c hc => h val rest hv c (by simp [hc])

theorem seqLoop_fit {s : State} {c : Ctx} (hc : c.Fits p P s) {endP escP : Str} :
    ∀ (k i pr : Nat) (parts : List Str),
      (p ∨ endP ≠ [] ∧ OnChar P.src pr ∧ (i < c.offset.stop → OnChar P.src i) ∧ Passes P.src endP escP i c.offset.stop) →
      SeqFit p P.src endP (i + blen endP) c.offset.stop (seqLoop c endP escP k i pr parts) := by
  intro k
  induction k with
  | zero => intro i pr parts _; trivial
  | succ k ih =>
    intro i pr parts ho
    unfold seqLoop
    split
    · trivial
    · rename_i hlt
      have hlt : i < c.offset.stop := by omega
      have hmn : ∀ {w : Str}, c.matchesStrAt w i = none → p := fun h => matchesStrAt_none hc (ho.imp id (·.2.2.1)) h
      have hps : ∀ {parts}, seqPush P.src pr i parts = none → p := fun h => seqPush_none (ho.imp id fun x => ⟨x.2.1, x.2.2.1 hlt⟩) h
      cases h1 : c.matchesStrAt endP i with
      | none => exact hmn h1
      | some o =>
        cases o with
        | some r =>
          dsimp only
          rw [hc.parser]
          cases hsp : seqPush P.src pr i parts with
          | none => exact hps hsp
          | some parts' =>
            obtain ⟨_, _, e1, e2, t, e3⟩ := matchesStrAt_some h1
            rw [hc.parser] at e3
            refine ⟨?_, ?_, ?_, ?_⟩
            · omega
            · omega
            · rw [e1, Nat.add_sub_cancel]
              exact e3.onChar.1
            · rw [e1]
              exact e3.onChar_in ⟨endP, t, rfl, rfl⟩
        | none =>
          dsimp only
          cases h3 : c.matchesStrAt escP i with
          | none => exact hmn h3
          | some o =>
            have hend : ∀ {w}, TextAt P.src i c.offset.stop w → endP = [] ∨ ¬ endP <+: w := fun hw =>
              matchesStrAt_not hlt (by rw [hc.parser]; exact hw) h1
            cases o with
            | some r =>
              dsimp only
              rw [hc.parser]
              cases hsp : seqPush P.src pr i parts with
              | none => exact hps hsp
              | some parts' =>
                obtain ⟨hne, _, e1, e2, t, e3⟩ := matchesStrAt_some h3
                rw [hc.parser] at e3
                refine (ih (r.stop + 1) r.stop parts' (ho.imp id fun hx => ?_)).mono (by omega)
                have hon : OnChar P.src r.stop := by
                  rw [e1]
                  exact e3.onChar_in ⟨escP, t, rfl, rfl⟩
                have e4 := e3.suffix
                rw [← e1] at e4
                cases t with
                | nil =>
                  have := e4.le.1
                  simp only [blen] at this
                  refine ⟨hx.1, hon, fun h => by omega, fun w hw => ?_⟩
                  have := hw.le.1
                  omega
                | cons ch t =>
                  obtain ⟨h4, h5⟩ := passes_next (endP := endP) (escP := escP) e4 fun val rest hv =>
                    hx.2.2.2 _ e3 _ _ (.escaped ((hend e3).resolve_left hx.1) hne hv)
                  exact ⟨hx.1, hon, fun _ => h4.onChar.1, h5⟩
            | none =>
              refine (ih (i + 1) pr parts (ho.imp id fun hx => ?_)).mono (by omega)
              obtain ⟨w, hw⟩ := (hx.2.2.1 hlt).text hc.chars.2 (Nat.le_of_lt hlt)
              cases w with
              | nil =>
                have := hw.le.1
                simp only [blen] at this
                omega
              | cons ch w =>
                obtain ⟨h4, h5⟩ := passes_next (endP := endP) (escP := escP) hw fun val rest hv =>
                  hx.2.2.2 _ hw _ _ (.plain ((hend hw).resolve_left hx.1)
                    (matchesStrAt_not hlt (by rw [hc.parser]; exact hw) h3) hv)
                exact ⟨hx.1, hx.2.1, fun _ => h4.onChar.1, h5⟩

theorem matchesStr_some {c : Ctx} {w : Str} {r : Range} (h : c.matchesStr w = some (some r)) :
    w ≠ [] ∧ r.start = c.offset.start ∧ r.stop = c.offset.start + blen w ∧
      c.offset.start + blen w ≤ c.offset.stop ∧ ∃ t, TextAt c.parser.src c.offset.start c.offset.stop (w ++ t) := by
  unfold Ctx.matchesStr at h
  split at h
  · simp at h
  · rename_i hn
    cases hch : c.chunk with
    | none => rw [hch] at h; simp at h
    | some ch =>
      rw [hch] at h
      dsimp only at h
      split at h
      · rename_i hpre
        have h := Option.some.inj (Option.some.inj h)
        subst h
        have hle := slice_le hch
        obtain ⟨t, ht⟩ := List.isPrefixOf_iff_prefix.mp hpre
        have hbl : blen w ≤ blen ch := by rw [← ht, blen_append]; omega
        exact ⟨hn, rfl, rfl, by omega, t, by rw [ht]; exact bslice_iff.mp hch⟩
      · simp at h

theorem matchesStr_none {s : State} {c : Ctx} (hc : c.Fits p P s) {w : Str}
    (h : c.matchesStr w = none) : p := by
  unfold Ctx.matchesStr at h
  split at h
  · simp at h
  · cases hch : c.chunk with
    | none => exact chunk_some hc hch
    | some ch =>
      rw [hch] at h
      dsimp only at h
      split at h <;> simp at h

theorem nonEmpty_literal {f : Fetchable} (h : f.NonEmpty) : f.Literal := by
  cases f <;> first | trivial | exact h.elim

theorem execSequence_fit {name : Str} {cu : Bool} {f1 f2 f3 : Fetchable}
    (hf : (Node.sequence name cu f1 f2 f3).Plain p P)
    {c : Ctx} {sc : SCtxId} {s : State} (hc : c.Fits p P s) (hs : s.Tidy P.src) :
    Post p (execSequence name f1 f2 f3 c sc) s (FitQ P c.offset.start c.offset.stop s) := by
  have ne : ∀ {f : Fetchable} {v : Str ⊕ MatcherId}, p ∨ f.NonEmpty →
      (f.Literal → (∀ x, f = .str x → v = .inl x) ∧ (∀ x, v = .inl x → f = .str x)) → v = .inl [] → p := by
    intro f v h1 h2 h3
    rcases h1 with hp | h1
    · exact hp
    · have := (h2 (nonEmpty_literal h1)).2 [] h3
      subst this
      exact (h1 rfl).elim
  unfold execSequence
  dsimp only
  have hc' : (c.withName name).Fits p P s := ⟨hc.parser, hc.start_le, hc.stop_le, hc.stack, hc.chars, hc.quiet⟩
  apply Post.bind
  apply fetchValue_lit (hf.imp id (fun h => nonEmpty_literal h.1))
  intro v1 hv1
  cases v1 with
  | inr _ => exact FitQ.err hs
  | inl x1 =>
    dsimp only
    split
    · rename_i he
      subst he
      exact Post.panic (ne (hf.imp id (·.1)) hv1 rfl)
    · rename_i hx1
      apply Post.bind
      apply fetchValue_lit (hf.imp id (fun h => nonEmpty_literal h.2.1))
      intro v2 hv2
      cases v2 with
      | inr _ => exact FitQ.err hs
      | inl x2 =>
        dsimp only
        split
        · rename_i he
          subst he
          exact Post.panic (ne (hf.imp id (·.2.1)) hv2 rfl)
        · rename_i hx2
          apply Post.bind
          apply fetchValue_lit (hf.imp id (fun h => h.2.2.1))
          intro v3 hv3
          cases v3 with
          | inr _ => exact FitQ.err hs
          | inl x3 =>
            dsimp only
            apply Post.bind
            apply Post.ofOpt
            · intro o ho
              cases o with
              | none =>
                apply Post.bind
                exact Post.dbg (FitQ.err hs) (fun hd h => debugRange_some hc' hd h)
              | some r =>
                dsimp only
                obtain ⟨_, hr1, hr2, hr3, t, hr4⟩ := matchesStr_some ho
                rw [hc'.parser] at hr4
                have hon : OnChar P.src r.stop := by
                  rw [hr2]
                  exact hr4.onChar_in ⟨x1, t, rfl, rfl⟩
                have hloop := seqLoop_fit hc' (endP := x2) (escP := x3)
                  ((c.withName name).offset.stop - r.stop) r.stop r.stop [] (by
                    refine hf.imp id fun h => ⟨hx2, hon, fun _ => hon, fun w hw val rest hv => ?_⟩
                    have e1 := (hv1 (nonEmpty_literal h.1)).2 x1 rfl
                    have e2 := (hv2 (nonEmpty_literal h.2.1)).2 x2 rfl
                    have e3 := (hv3 h.2.2.1).2 x3 rfl
                    rw [hr2] at hw
                    obtain ⟨pre, post, h1, h2, h3⟩ := hr4
                    rw [← (TextAt.suffix (x := x1) (y := t) ⟨pre, post, h1, h2, h3⟩).unique hw] at hv
                    exact h.2.2.2 x1 x2 x3 e1 e2 e3 pre t post val rest (by rw [h1]; simp) hv)
                generalize seqLoop (c.withName name) x2 x3 ((c.withName name).offset.stop - r.stop) r.stop
                  r.stop [] = out at hloop ⊢
                cases out with
                | panic => exact Post.panic hloop
                | fail =>
                  dsimp only
                  apply Post.bind
                  exact Post.dbg (FitQ.err hs) (fun hd h => debugRange_some hc' hd h)
                | found j parts =>
                  dsimp only
                  obtain ⟨hj1, hj2, hj3, hj4⟩ := hloop
                  have hb1 : 0 < blen x1 := Nat.pos_of_ne_zero (fun h => hx1 (blen_eq_zero.mp h))
                  have hb2 : 0 < blen x2 := Nat.pos_of_ne_zero (fun h => hx2 (blen_eq_zero.mp h))
                  have hsb := hc.stop_le
                  have hr2' : r.stop = c.offset.start + blen x1 := hr2
                  have hj2' : j ≤ c.offset.stop := hj2
                  apply Post.bind
                  apply Post.newTok
                  apply Post.bind
                  refine Post.dbg ?_ (fun hd h => debugRange_some hc' hd h)
                  refine Post.pure (newTok_fit hs ⟨rfl, (by decide : (0 : Flags) &&& IS_ERROR = 0), ?_, ?_, ?_, ?_, .nil ?_,
                    ⟨?_, hj4⟩, ?_, hj3⟩ rfl ?_ hj2')
                  · show c.offset.start ≤ c.offset.start + blen x1
                    omega
                  · show c.offset.start + blen x1 ≤ j - blen x2
                    omega
                  · show j - blen x2 ≤ j
                    omega
                  · show j ≤ blen P.src
                    omega
                  · show c.offset.start ≤ j
                    omega
                  · exact hc.chars.1
                  · show OnChar P.src (c.offset.start + blen x1)
                    rw [← hr2']
                    exact hon
                  · show c.offset.start < j
                    omega
            · exact matchesStr_none hc'

end

end Adx
