import Verif.Proofs.Post
/-
  The frame invariant: running a matcher changes no token that existed before,
  and the tokens it returns are new.  All matchers, closures by contract.
-/
namespace Adx

/-- Every token at or above `n` has only children at or above `n` (and no dangling
children). -/
def Above (n : Nat) (s : State) : Prop :=
  ∀ i tk, n ≤ i → s.toks[i]? = some tk → ∀ c ∈ tk.children, n ≤ c ∧ c < s.toks.length

/-- `s'` comes from `s` without changing tokens below `n` and without making a
token at or above `n` point below `n`. -/
structure Frm (n : Nat) (s s' : State) : Prop where
  len : s.toks.length ≤ s'.toks.length
  same : ∀ i, i < n → s'.toks[i]? = s.toks[i]?
  above : Above n s → Above n s'

/-- All tokens mentioned in a result lie in `[n, len)`. -/
def Success.In (n len : Nat) : Success → Prop
  | .token t => n ≤ t ∧ t < len
  | .proxyChildren t => n ≤ t ∧ t < len
  | .brk _ d => d.In n len
  | .cont _ d => d.In n len
  | _ => True

@[inherit_doc Success.In]
def R.In (n len : Nat) : R → Prop
  | .ok s => s.In n len
  | .err _ => True

/-- Frame specification of a matcher run. -/
def FrameOK (f : ExecFn) : Prop :=
  ∀ m c sc s, Post True (f m c sc) s
    (fun r s' => Frm s.toks.length s s' ∧ r.In s.toks.length s'.toks.length)

/-- The contract for user callbacks: a success callback may change the token it
is given and anything created since, but nothing older, and returns nothing
older. -/
def FrameNode : Node → Prop
  | .catch_ _ f => ∀ c e s, Post True (f c e) s
      (fun r s' => Frm s.toks.length s s' ∧ r.In s.toks.length s'.toks.length)
  | .map _ sf ff =>
    (∀ n t c sc s, n ≤ t → t < s.toks.length → Above n s → Post True (sf t c sc) s
      (fun r s' => Frm n s s' ∧ r.In n s'.toks.length)) ∧
    (∀ e c sc s, Post True (ff e c sc) s
      (fun r s' => Frm s.toks.length s s' ∧ r.In s.toks.length s'.toks.length))
  | _ => True

theorem Above.top (s : State) : Above s.toks.length s := by
  intro i tk hi ht
  rw [List.getElem?_eq_none hi] at ht
  cases ht

theorem Frm.refl (n : Nat) (s : State) : Frm n s s := ⟨Nat.le_refl _, fun _ _ => rfl, id⟩

theorem Frm.trans {n : Nat} {s s' s'' : State} (h : Frm n s s') (h' : Frm n s' s'') :
    Frm n s s'' :=
  ⟨Nat.le_trans h.len h'.len, fun i hi => (h'.same i hi).trans (h.same i hi),
    fun ha => h'.above (h.above ha)⟩

/-- What is fresh with respect to the current heap is fresh with respect to an
earlier one. -/
theorem Frm.lift {n : Nat} {s s' : State} (h : Frm s.toks.length s s') (hn : n ≤ s.toks.length) :
    Frm n s s' := by
  refine ⟨h.len, fun i hi => h.same i (Nat.lt_of_lt_of_le hi hn), fun ha => ?_⟩
  intro i tk hi ht c hc
  by_cases hlt : i < s.toks.length
  · rw [h.same i hlt] at ht
    have := ha i tk hi ht c hc
    exact ⟨this.1, Nat.lt_of_lt_of_le this.2 h.len⟩
  · have := h.above (Above.top s) i tk (Nat.le_of_not_lt hlt) ht c hc
    exact ⟨Nat.le_trans hn this.1, this.2⟩

theorem Frm.toks_eq {n : Nat} {s s' : State} (h : s'.toks = s.toks) : Frm n s s' := by
  refine ⟨by rw [h]; exact Nat.le_refl _, fun i _ => by rw [h], fun ha => ?_⟩
  intro i tk hi ht c hc
  rw [h] at ht ⊢
  exact ha i tk hi ht c hc

theorem Frm.newTok {n : Nat} {s : State} {t : Token} (hn : n ≤ s.toks.length)
    (ht : ∀ c ∈ t.children, n ≤ c ∧ c < s.toks.length + 1) :
    Frm n s { s with toks := s.toks ++ [t] } := by
  refine ⟨by simp, fun i hi => ?_, fun ha => ?_⟩
  · simp only
    rw [List.getElem?_append_left (Nat.lt_of_lt_of_le hi hn)]
  · intro i tk hi hk c hc
    simp only [List.length_append, List.length_cons, List.length_nil] at hk ⊢
    by_cases hlt : i < s.toks.length
    · rw [List.getElem?_append_left hlt] at hk
      have := ha i tk hi hk c hc
      exact ⟨this.1, Nat.lt_succ_of_lt this.2⟩
    · rw [List.getElem?_append_right (Nat.le_of_not_lt hlt)] at hk
      cases hd : i - s.toks.length with
      | zero =>
        rw [hd] at hk
        simp at hk
        subst hk
        exact ht c hc
      | succ k =>
        rw [hd] at hk
        simp at hk

theorem Frm.setTok {n : Nat} {s : State} {i : TokId} {t : Token} (hi : n ≤ i)
    (ht : Above n s → ∀ c ∈ t.children, n ≤ c ∧ c < s.toks.length) :
    Frm n s { s with toks := s.toks.set i t } := by
  refine ⟨by simp, fun j hj => ?_, fun ha => ?_⟩
  · simp only
    rw [List.getElem?_set_ne (by omega)]
  · intro j tk hj hk c hc
    simp only [List.length_set] at hk ⊢
    rw [List.getElem?_set] at hk
    split at hk
    · split at hk
      · cases hk
        exact ht ha c hc
      · cases hk
    · exact ha j tk hj hk c hc

theorem Success.In.mono {n len n' len' : Nat} (hn : n' ≤ n) (hl : len ≤ len') {x : Success}
    (h : x.In n len) : x.In n' len' := by
  induction x with
  | token t => exact ⟨Nat.le_trans hn h.1, Nat.lt_of_lt_of_le h.2 hl⟩
  | proxyChildren t => exact ⟨Nat.le_trans hn h.1, Nat.lt_of_lt_of_le h.2 hl⟩
  | brk _ d ih => exact ih h
  | cont _ d ih => exact ih h
  | _ => trivial

theorem R.In.mono {n len n' len' : Nat} (hn : n' ≤ n) (hl : len ≤ len') {x : R}
    (h : x.In n len) : x.In n' len' := by
  cases x with
  | ok x => exact Success.In.mono hn hl h
  | err _ => trivial

variable {n : Nat} {s : State}

/-- A modification that leaves the children alone. -/
theorem modTok_frm {i : TokId} {f : Token → Token} (hi : n ≤ i)
    (hf : ∀ t, (f t).children = t.children) :
    Post True (modTok i f) s (fun _ s' => Frm n s s') := by
  apply Post.modTok _ (fun _ => trivial)
  intro t ht
  apply Frm.setTok hi
  intro ha c hc
  rw [hf] at hc
  exact ha i t hi ht c hc

@[simp] theorem Token.setCaptured_children (t : Token) (r : Range) :
    (t.setCaptured r).children = t.children := by
  unfold Token.setCaptured; cases t.kind <;> rfl

@[simp] theorem Token.setMatched_children (t : Token) (r : Range) :
    (t.setMatched r).children = t.children := by
  unfold Token.setMatched; cases t.kind <;> rfl

/-- The tokens collected by a running program. -/
def PS.In (n len : Nat) (ps : PS) : Prop := ∀ c ∈ ps.children, n ≤ c ∧ c < len

theorem PS.In.mono {len len' : Nat} (hl : len ≤ len') {ps : PS} (h : ps.In n len) :
    ps.In n len' := fun c hc => ⟨(h c hc).1, Nat.lt_of_lt_of_le (h c hc).2 hl⟩

theorem addToken_frame {prog : TokId} {ps : PS} {t : TokId} {a u : Bool}
    (ht : n ≤ t) (hl : t < s.toks.length) (hps : ps.In n s.toks.length) :
    Post True (addToken prog ps t a u) s
      (fun ps' s' => Frm n s s' ∧ ps'.In n s'.toks.length) := by
  unfold addToken
  apply Post.bind
  apply Post.mono (Q := fun _ s' => Frm n s s')
  · unfold prepToken
    apply Post.bind
    apply Post.getTok _ (fun _ => trivial)
    intro tk _
    split
    · split
      · exact modTok_frm ht (fun k => by simp)
      · exact Post.pure (Frm.refl _ _)
    · split
      · trivial
      · exact Post.pure (Frm.refl _ _)
  intro _ s1 h1
  apply Post.bind
  apply Post.getTok _ (fun _ => trivial)
  intro tk1 _
  apply Post.bind
  apply Post.mono (modTok_frm (n := n) (f := fun k => { k with parent := some prog }) ht
    (fun k => rfl))
  intro _ s2 h2
  apply Post.pure
  refine ⟨h1.trans h2, ?_⟩
  intro c hc
  have hlen := Nat.le_trans h1.len h2.len
  simp only [List.mem_append, List.mem_singleton] at hc
  rcases hc with hc | rfl
  · have : c ∈ ps.children := by split at hc <;> exact hc
    exact ⟨(hps c this).1, Nat.lt_of_lt_of_le (hps c this).2 hlen⟩
  · exact ⟨ht, Nat.lt_of_lt_of_le hl hlen⟩

theorem handleToken_frame {prog : TokId} {ps : PS} {t : TokId} {a u : Bool}
    (ht : n ≤ t) (hl : t < s.toks.length) (hps : ps.In n s.toks.length) :
    Post True (handleToken prog ps t a u) s
      (fun ps' s' => Frm n s s' ∧ ps'.In n s'.toks.length) := by
  unfold handleToken
  apply Post.bind
  apply Post.getTok _ (fun _ => trivial)
  intro tk _
  exact addToken_frame ht hl hps

theorem extractLoop_frame {prog : TokId} {u : Bool} (cs : List TokId) : ∀ {s : State} {ps : PS},
    (∀ c ∈ cs, n ≤ c ∧ c < s.toks.length) → ps.In n s.toks.length →
    Post True (extractLoop prog u cs ps) s
      (fun ps' s' => Frm n s s' ∧ ps'.In n s'.toks.length) := by
  induction cs with
  | nil => intro s ps _ hps; exact ⟨Frm.refl _ _, hps⟩
  | cons c cs ih =>
    intro s ps hcs hps
    unfold extractLoop
    apply Post.bind
    apply Post.getTok _ (fun _ => trivial)
    intro tk _
    have hc := hcs c (by simp)
    split
    · exact ih (fun c hc => hcs c (by simp [hc])) hps
    · apply Post.bind
      apply Post.mono (addToken_frame hc.1 hc.2 hps)
      rintro ps1 s1 ⟨h1, hps1⟩
      apply Post.mono (ih (fun c hc => ?_) hps1)
      · rintro ps2 s2 ⟨h2, hps2⟩
        exact ⟨h1.trans h2, hps2⟩
      · have := hcs c (by simp [hc])
        exact ⟨this.1, Nat.lt_of_lt_of_le this.2 h1.len⟩

theorem handleExtract_frame {prog : TokId} {ps : PS} {t : TokId} {u : Bool}
    (ht : n ≤ t) (ha : Above n s) (hps : ps.In n s.toks.length) :
    Post True (handleExtract prog ps t u) s
      (fun ps' s' => Frm n s s' ∧ ps'.In n s'.toks.length) := by
  unfold handleExtract
  apply Post.bind
  apply Post.getTok _ (fun _ => trivial)
  intro tk htk
  apply extractLoop_frame
  · exact ha t tk ht htk
  · intro c hc
    have : c ∈ ps.children := by revert hc; split <;> exact id
    exact hps c this

theorem handleSkip_frame {cfg : Cfg} {ps : PS} {so : Nat} {k : Int}
    (hps : ps.In n s.toks.length) :
    Post True (handleSkip cfg ps so k) s
      (fun ps' s' => Frm n s s' ∧ ps'.In n s'.toks.length) := by
  unfold handleSkip
  apply Post.bind
  unfold addOffset
  dsimp only
  repeat' split
  · exact ⟨Frm.refl _ _, hps⟩
  · trivial
  · exact ⟨Frm.refl _ _, hps⟩

theorem finalize_frame {prog : TokId} {ps : PS} {iter : Option (Nat × Nat)} {lc : Nat} {b : Bool}
    (hn : n ≤ prog) (hl : prog < s.toks.length) (hps : ps.In n s.toks.length) :
    Post True (finalizeProgram prog ps iter lc b) s
      (fun r s' => Frm n s s' ∧ r.In n s'.toks.length) := by
  have hfin : Post True (if ps.captured.start = usizeMax ∨ ps.matched.start = usizeMax then
        pure (.err .fail)
      else if ps.children = [] then pure (.err .fail)
      else do
        modTok prog (fun k =>
          ((({ k with children := ps.children } : Token).setCaptured ps.captured).setMatched
            ps.matched))
        pure (.ok (.token prog)) : M R) s
      (fun r s' => Frm n s s' ∧ r.In n s'.toks.length) := by
    split
    · exact ⟨Frm.refl _ _, trivial⟩
    split
    · exact ⟨Frm.refl _ _, trivial⟩
    apply Post.bind
    apply Post.modTok _ (fun _ => trivial)
    intro t _
    refine ⟨Frm.setTok hn (fun _ c hc => ?_), ⟨hn, by simpa using hl⟩⟩
    simp at hc
    exact hps c hc
  unfold finalizeProgram
  dsimp only
  split
  · split
    · split
      · exact ⟨Frm.refl _ _, trivial⟩
      split
      · exact ⟨Frm.refl _ _, trivial⟩
      exact hfin
    · exact hfin
  · exact hfin

/-- Tokens of a `Flow`. -/
def Flow.In (n len : Nat) : Flow → Prop
  | .next ps => ps.In n len
  | .action a ps => a.In n len ∧ ps.In n len
  | .ret r => r.In n len

theorem runPatterns_frame {T : Table} {cfg : Cfg} {rec_ : ExecFn} (hrec : FrameOK rec_)
    {prog : TokId} {sc : SCtxId} {so : Nat} {iter : Option (Nat × Nat)} {fs : Bool} {lc : Nat}
    (hn : n ≤ prog) (pats : List MatcherId) : ∀ {s : State} {ps : PS},
    prog < s.toks.length → Above n s → ps.In n s.toks.length →
    Post True (runPatterns T cfg rec_ prog sc so iter fs lc pats ps) s
      (fun f s' => Frm n s s' ∧ f.In n s'.toks.length) := by
  induction pats with
  | nil => intro s ps _ _ hps; exact ⟨Frm.refl _ _, hps⟩
  | cons p rest ih =>
    intro s ps hl ha hps
    unfold runPatterns
    dsimp only
    apply Post.bind
    apply Post.mono (hrec p _ sc s)
    rintro r s1 ⟨h1, hr⟩
    have h1 := h1.lift (Nat.le_trans hn (Nat.le_of_lt hl))
    have hr := R.In.mono (Nat.le_trans hn (Nat.le_of_lt hl)) (Nat.le_refl _) hr
    have ha1 := h1.above ha
    have hl1 := Nat.lt_of_lt_of_le hl h1.len
    have hps1 := hps.mono h1.len
    -- continuing after a step
    have next : ∀ {s2 : State} {ps2 : PS}, Frm n s s2 → ps2.In n s2.toks.length →
        Post True (runPatterns T cfg rec_ prog sc so iter fs lc rest ps2) s2
          (fun f s' => Frm n s s' ∧ f.In n s'.toks.length) := by
      intro s2 ps2 h2 hps2
      apply Post.mono (ih (Nat.lt_of_lt_of_le hl h2.len) (h2.above ha) hps2)
      rintro f s3 ⟨h3, hf⟩
      exact ⟨h2.trans h3, hf⟩
    cases r with
    | ok x =>
      cases x with
      | token t =>
        apply Post.bind
        apply Post.getTok _ (fun _ => trivial)
        intro tk _
        split
        · exact next h1 hps1
        split
        · exact ⟨h1, hr⟩
        apply Post.bind
        apply Post.mono (handleToken_frame hr.1 hr.2 hps1)
        rintro ps2 s2 ⟨h2, hps2⟩
        exact next (h1.trans h2) hps2
      | proxyChildren t =>
        apply Post.bind
        apply Post.getTok _ (fun _ => trivial)
        intro tk _
        split
        · exact next h1 hps1
        split
        · exact ⟨h1, hr⟩
        apply Post.bind
        apply Post.mono (handleExtract_frame hr.1 ha1 hps1)
        rintro ps2 s2 ⟨h2, hps2⟩
        exact next (h1.trans h2) hps2
      | skip k =>
        dsimp only
        split
        · exact ⟨h1, hr⟩
        split
        · apply Post.bind
          apply Post.mono (handleSkip_frame hps1)
          rintro ps2 s2 ⟨h2, hps2⟩
          exact next (h1.trans h2) hps2
        · exact next h1 hps1
      | brk _ _ => exact ⟨h1, hr, hps1⟩
      | cont _ _ => exact ⟨h1, hr, hps1⟩
      | none => exact ⟨h1, hr, hps1⟩
      | stop => exact ⟨h1, hr, hps1⟩
    | err f =>
      apply Post.bind
      apply Post.dbgT
      cases f with
      | error e => exact ⟨h1, trivial⟩
      | fail =>
        dsimp only
        split
        · exact next h1 hps1
        split
        · apply Post.bind
          apply Post.mono (finalize_frame hn hl1 hps1)
          rintro r s2 ⟨h2, hr2⟩
          exact ⟨h1.trans h2, hr2⟩
        · exact ⟨h1, trivial⟩

theorem handlePayload_frame {cfg : Cfg} {prog : TokId} {ps : PS} {so : Nat} {d : Success}
    (ha : Above n s) (hd : d.In n s.toks.length) (hps : ps.In n s.toks.length) :
    Post True (handlePayload cfg prog ps so d) s
      (fun ps' s' => Frm n s s' ∧ ps'.In n s'.toks.length) := by
  unfold handlePayload
  cases d with
  | token t => exact handleToken_frame hd.1 hd.2 hps
  | proxyChildren t => exact handleExtract_frame hd.1 ha hps
  | skip k => exact handleSkip_frame hps
  | brk _ _ => exact ⟨Frm.refl _ _, hps⟩
  | cont _ _ => exact ⟨Frm.refl _ _, hps⟩
  | none => exact ⟨Frm.refl _ _, hps⟩
  | stop => exact ⟨Frm.refl _ _, hps⟩

theorem runIterations_frame {T : Table} {cfg : Cfg} {rec_ : ExecFn} (hrec : FrameOK rec_)
    {prog : TokId} {sc : SCtxId} {so : Nat} {self : Str} {pats : List MatcherId}
    {iter : Option (Nat × Nat)} {fs : Bool} (hn : n ≤ prog) (k : Nat) :
    ∀ {s : State} {lc : Nat} {ps : PS}, prog < s.toks.length → Above n s →
    ps.In n s.toks.length →
    Post True (runIterations T cfg rec_ prog sc so self pats iter fs k lc ps) s
      (fun r s' => Frm n s s' ∧ r.In n s'.toks.length) := by
  induction k with
  | zero => intro s lc ps hl _ hps; exact finalize_frame hn hl hps
  | succ k ih =>
    intro s lc ps hl ha hps
    unfold runIterations
    dsimp only
    apply Post.bind
    apply Post.mono (runPatterns_frame hrec hn pats hl ha hps)
    rintro f s1 ⟨h1, hf⟩
    have ha1 := h1.above ha
    have hl1 := Nat.lt_of_lt_of_le hl h1.len
    cases f with
    | ret r => exact ⟨h1, hf⟩
    | next ps1 =>
      apply Post.mono (ih hl1 ha1 hf)
      rintro r s2 ⟨h2, hr⟩
      exact ⟨h1.trans h2, hr⟩
    | action a ps1 =>
      obtain ⟨hd, hps1⟩ := hf
      cases a with
      | brk name d =>
        dsimp only
        split
        · exact ⟨h1, hd⟩
        apply Post.bind
        apply Post.mono (handlePayload_frame (d := d) ha1 hd hps1)
        rintro ps2 s2 ⟨h2, hps2⟩
        apply Post.bind
        apply Post.mono (finalize_frame hn (Nat.lt_of_lt_of_le hl1 h2.len) hps2)
        rintro r s3 ⟨h3, hr⟩
        have h := (h1.trans h2).trans h3
        split
        · exact ⟨h, hr⟩
        · cases r with
          | ok t => exact ⟨h, hr⟩
          | err e => exact ⟨h, hr⟩
      | cont name d =>
        dsimp only
        split
        · exact ⟨h1, hd⟩
        apply Post.bind
        apply Post.mono (handlePayload_frame (d := d) ha1 hd hps1)
        rintro ps2 s2 ⟨h2, hps2⟩
        split
        · apply Post.mono (ih (Nat.lt_of_lt_of_le hl1 h2.len) (h2.above ha1) hps2)
          rintro r s3 ⟨h3, hr⟩
          exact ⟨(h1.trans h2).trans h3, hr⟩
        · apply Post.mono (finalize_frame hn (Nat.lt_of_lt_of_le hl1 h2.len) hps2)
          rintro r s3 ⟨h3, hr⟩
          exact ⟨(h1.trans h2).trans h3, hr⟩
      | stop =>
        apply Post.mono (finalize_frame hn hl1 hps1)
        rintro r s3 ⟨h3, hr⟩
        exact ⟨h1.trans h3, hr⟩
      | token _ => trivial
      | proxyChildren _ => trivial
      | skip _ => trivial
      | none => trivial

theorem discardCollect_frame {e : TokId} (he : n ≤ e) (d : Nat) : ∀ {s : State} {w : TokId},
    n ≤ w → w < s.toks.length → Above n s →
    Post True (discardCollect d e w) s (fun _ s' => Frm n s s') := by
  induction d with
  | zero => intro s w _ _ _; trivial
  | succ d ih =>
    intro s w hw hwl ha
    unfold discardCollect
    apply Post.bind
    apply Post.getTok _ (fun _ => trivial)
    intro wk hwk
    apply Post.bind
    apply Post.mono (Q := fun _ s' => Frm n s s')
    · unfold discardRecord
      split
      · apply Post.modTok _ (fun _ => trivial)
        intro ek hek
        apply Frm.setTok he
        intro _ c hc
        have hc' : c ∈ ek.children ++ [w] := by
          revert hc
          dsimp only
          generalize (if ek.matched.start > wk.matched.start then wk.matched.start
            else ek.matched.start) = x
          generalize (if ek.matched.stop < wk.matched.stop then wk.matched.stop
            else ek.matched.stop) = y
          split
          · simp
          · exact id
        simp only [List.mem_append, List.mem_singleton] at hc'
        rcases hc' with hc' | rfl
        · exact ha e ek he hek c hc'
        · exact ⟨hw, hwl⟩
      · exact Post.pure (Frm.refl _ _)
    intro _ s1 h1
    have hcs : ∀ c ∈ wk.children, n ≤ c ∧ c < s1.toks.length := fun c hc =>
      ⟨(ha w wk hw hwk c hc).1, Nat.lt_of_lt_of_le (ha w wk hw hwk c hc).2 h1.len⟩
    have ha1 := h1.above ha
    generalize wk.children = cs at hcs
    suffices ∀ (s1 : State), Frm n s s1 → Above n s1 → (∀ c ∈ cs, n ≤ c ∧ c < s1.toks.length) →
        Post True (forEach (discardCollect d e) cs) s1 (fun _ s' => Frm n s s') from
      this s1 h1 ha1 hcs
    clear hcs ha1 h1 s1
    induction cs with
    | nil => intro s1 h1 _ _; exact h1
    | cons c cs ihc =>
      intro s1 h1 ha1 hcs
      unfold forEach
      apply Post.bind
      have hc := hcs c (by simp)
      apply Post.mono (ih hc.1 hc.2 ha1)
      intro _ s2 h2
      exact ihc s2 (h1.trans h2) (h2.above ha1) (fun c' hc' =>
        ⟨(hcs c' (by simp [hc'])).1, Nat.lt_of_lt_of_le (hcs c' (by simp [hc'])).2 h2.len⟩)

theorem skipToken_frame {cfg : Cfg} {c : Ctx} {so : Nat} {t : TokId} (ht : n ≤ t)
    (hl : t < s.toks.length) (ha : Above n s) :
    Post True (skipToken cfg c so t) s (fun x s' => Frm n s s' ∧ x.In n s'.toks.length) := by
  unfold skipToken
  apply Post.bind
  apply Post.getTok _ (fun _ => trivial)
  intro tk _
  apply Post.bind
  apply Post.newTok
  have hn : n ≤ s.toks.length := Nat.le_trans ht (Nat.le_of_lt hl)
  have h1 : Frm n s { s with toks := s.toks ++ [Token.mk' c.parser "Error".toList
      ⟨so, tk.matched.stop⟩] } := Frm.newTok hn (by simp [Token.mk', Token.mkMatched])
  generalize hs1 : ({ s with toks := s.toks ++ [Token.mk' c.parser "Error".toList
      ⟨so, tk.matched.stop⟩] } : State) = s1 at h1
  have hlen1 : s.toks.length < s1.toks.length := by rw [← hs1]; simp
  apply Post.bind
  apply Post.getState
  apply Post.bind
  apply Post.mono (discardCollect_frame hn _ ht (Nat.lt_of_lt_of_le hl h1.len) (h1.above ha))
  intro _ s2 h2
  apply Post.bind
  apply Post.getTok _ (fun _ => trivial)
  intro ek _
  split
  · exact ⟨h1.trans h2, ⟨hn, Nat.lt_of_lt_of_le hlen1 h2.len⟩⟩
  · apply Post.bind
    unfold subOffset
    dsimp only
    repeat' split
    · exact ⟨h1.trans h2, trivial⟩
    · trivial
    · exact ⟨h1.trans h2, trivial⟩

theorem execProgram_frame {T : Table} {cfg : Cfg} {rec_ : ExecFn} (hrec : FrameOK rec_)
    {pats : List MatcherId} {name : Str} {iter : Option (Nat × Nat)} {fs : Bool} {c : Ctx}
    {sc : SCtxId} : Post True (execProgram T cfg rec_ pats name iter fs c sc) s
    (fun r s' => Frm s.toks.length s s' ∧ r.In s.toks.length s'.toks.length) := by
  unfold execProgram
  apply Post.bind
  apply Post.newTok
  have h1 : Frm s.toks.length s { s with toks := s.toks ++ [Token.mk' (c.withName name).parser name
      Range.blank] } := Frm.newTok (Nat.le_refl _) (by simp [Token.mk', Token.mkMatched])
  apply Post.mono (runIterations_frame hrec (Nat.le_refl _) _ (by simp) (h1.above (Above.top s))
    (by simp [PS.In]))
  rintro r s2 ⟨h2, hr⟩
  exact ⟨h1.trans h2, hr⟩

theorem newTok_frame {t : Token} (ht : t.children = []) :
    Post True (newTok t) s (fun i s' => Frm s.toks.length s s' ∧ s.toks.length ≤ i ∧
      i < s'.toks.length) := by
  refine ⟨Frm.newTok (Nat.le_refl _) (by simp [ht]), Nat.le_refl _, by simp⟩

theorem newErrorTokenWithRange_frame {c : Ctx} {msg : Str} {r : Range} :
    Post True (newErrorTokenWithRange c msg r) s
      (fun i s' => Frm s.toks.length s s' ∧ s.toks.length ≤ i ∧ i < s'.toks.length) := by
  unfold newErrorTokenWithRange
  apply Post.bind
  apply Post.ofOpt _ (fun _ => trivial)
  intro m _
  apply newTok_frame
  rfl

theorem execNode_frame {T : Table} {cfg : Cfg} {rec_ : ExecFn} (hrec : FrameOK rec_) {nd : Node}
    (hnd : FrameNode nd) {c : Ctx} {sc : SCtxId} : Post True (execNode T cfg rec_ nd c sc) s
    (fun r s' => Frm s.toks.length s s' ∧ r.In s.toks.length s'.toks.length) := by
  unfold execNode
  cases nd with
  | equals name _ pat =>
    dsimp only
    unfold execEquals
    apply Post.bind
    apply Post.fetchValue
    intro v
    cases v with
    | inr _ => exact ⟨Frm.refl _ _, trivial⟩
    | inl v =>
      apply Post.bind
      apply Post.ofOpt _ (fun _ => trivial)
      intro o _
      cases o with
      | none =>
        apply Post.bind
        apply Post.dbgT
        exact ⟨Frm.refl _ _, trivial⟩
      | some r =>
        apply Post.bind
        apply Post.dbgT
        apply Post.bind
        exact Post.mono (newTok_frame rfl) (fun i s' h => h)
  | regex name _ re =>
    dsimp only
    unfold execMatches
    apply Post.bind
    apply Post.ofOpt _ (fun _ => trivial)
    intro o _
    cases o with
    | none =>
      apply Post.bind
      apply Post.dbgT
      exact ⟨Frm.refl _ _, trivial⟩
    | some r =>
      dsimp only
      split
      · apply Post.bind
        apply Post.dbgT
        exact ⟨Frm.refl _ _, trivial⟩
      · apply Post.bind
        exact Post.mono (newTok_frame rfl) (fun i s' h => h)
  | sequence name _ a b e =>
    dsimp only
    unfold execSequence
    apply Post.bind
    apply Post.fetchValue
    intro v
    cases v with
    | inr _ => exact ⟨Frm.refl _ _, trivial⟩
    | inl v =>
      dsimp only
      split
      · trivial
      apply Post.bind
      apply Post.fetchValue
      intro v2
      cases v2 with
      | inr _ => exact ⟨Frm.refl _ _, trivial⟩
      | inl v2 =>
        dsimp only
        split
        · trivial
        apply Post.bind
        apply Post.fetchValue
        intro v3
        cases v3 with
        | inr _ => exact ⟨Frm.refl _ _, trivial⟩
        | inl v3 =>
          apply Post.bind
          apply Post.ofOpt _ (fun _ => trivial)
          intro o _
          cases o with
          | none =>
            apply Post.bind
            apply Post.dbgT
            exact ⟨Frm.refl _ _, trivial⟩
          | some r =>
            dsimp only
            split
            · trivial
            · apply Post.bind
              apply Post.dbgT
              exact ⟨Frm.refl _ _, trivial⟩
            · apply Post.bind
              apply Post.mono (newTok_frame rfl)
              intro i s' h
              apply Post.bind
              apply Post.dbgT
              exact h
  | program ps name _ iter fs => exact execProgram_frame hrec
  | optional m =>
    apply Post.bind
    apply Post.mono (hrec m _ sc s)
    intro r s1 h
    split
    · exact ⟨h.1, trivial⟩
    · exact h
  | not m =>
    apply Post.bind
    apply Post.mono (hrec m _ sc s)
    rintro r s1 ⟨h, hr⟩
    split
    · exact ⟨h, trivial⟩
    · exact ⟨h, trivial⟩
    · split <;> exact ⟨h, trivial⟩
    · exact ⟨h, trivial⟩
    · exact ⟨h, hr⟩
  | discard m =>
    dsimp only
    unfold execDiscard
    apply Post.bind
    apply Post.mono (hrec m _ sc s)
    rintro r s1 ⟨h, hr⟩
    have hskip : ∀ {t : TokId} {f : Success → Success}, (∀ x n len, x.In n len → (f x).In n len) →
        s.toks.length ≤ t → t < s1.toks.length → Post True (do
          let x ← skipToken cfg (c.withName "Discard".toList) c.offset.start t
          pure (.ok (f x)) : M R) s1
          (fun r s' => Frm s.toks.length s s' ∧ r.In s.toks.length s'.toks.length) := by
      intro t f hf ht hl
      apply Post.bind
      apply Post.mono (skipToken_frame ht hl (h.above (Above.top s)))
      rintro x s2 ⟨h2, hx⟩
      exact ⟨h.trans h2, hf _ _ _ hx⟩
    dsimp only
    split
    · exact hskip (f := id) (fun _ _ _ => id) hr.1 hr.2
    · exact hskip (f := id) (fun _ _ _ => id) hr.1 hr.2
    · split
      · exact hskip (f := fun x => .brk _ x) (fun _ _ _ => id) hr.1 hr.2
      · exact hskip (f := fun x => .brk _ x) (fun _ _ _ => id) hr.1 hr.2
      · trivial
      · trivial
      · exact ⟨h, hr⟩
    · split
      · exact hskip (f := fun x => .cont _ x) (fun _ _ _ => id) hr.1 hr.2
      · exact hskip (f := fun x => .cont _ x) (fun _ _ _ => id) hr.1 hr.2
      · trivial
      · trivial
      · exact ⟨h, hr⟩
    · exact ⟨h, hr⟩
  | proxyChildren m name _ =>
    apply Post.bind
    apply Post.mono (hrec m _ sc s)
    rintro r s1 ⟨h, hr⟩
    split <;> exact ⟨h, hr⟩
  | expandRange m =>
    dsimp only
    unfold execExpandRange
    apply Post.bind
    apply Post.mono (hrec m _ sc s)
    rintro r s1 ⟨h, hr⟩
    split
    · rename_i t
      apply Post.bind
      apply Post.getTok _ (fun _ => trivial)
      intro tk _
      apply Post.bind
      apply Post.mono (newTok_frame rfl)
      rintro w s2 ⟨h2, hw, hwl⟩
      have h12 := h.trans (h2.lift h.len)
      have hw' := Nat.le_trans h.len hw
      apply Post.bind
      apply Post.modTok _ (fun _ => trivial)
      intro wk hwk
      refine ⟨h12.trans (Frm.setTok hw' ?_), hw', by simpa using hwl⟩
      intro ha c hc
      simp only [List.mem_append, List.mem_singleton] at hc
      rcases hc with hc | rfl
      · exact ha w wk hw' hwk c hc
      · exact ⟨hr.1, Nat.lt_of_lt_of_le hr.2 h2.len⟩
    · rename_i t
      apply Post.bind
      apply Post.mono (modTok_frm hr.1 (fun k => by simp))
      intro _ s2 h2
      exact ⟨h.trans h2, ⟨hr.1, Nat.lt_of_lt_of_le hr.2 h2.len⟩⟩
    · exact ⟨h, hr⟩
  | catch_ m f =>
    apply Post.bind
    apply Post.mono (hrec m _ sc s)
    rintro r s1 ⟨h, hr⟩
    cases r with
    | ok x => exact ⟨h, hr⟩
    | err e =>
      apply Post.mono (hnd _ e s1)
      rintro r s2 ⟨h2, hr2⟩
      exact ⟨h.trans (h2.lift h.len), R.In.mono h.len (Nat.le_refl _) hr2⟩
  | map m sf ff =>
    apply Post.bind
    apply Post.mono (hrec m _ sc s)
    rintro r s1 ⟨h, hr⟩
    split
    · apply Post.mono (hnd.1 _ _ _ sc s1 hr.1 hr.2 (h.above (Above.top s)))
      rintro r s2 ⟨h2, hr2⟩
      exact ⟨h.trans h2, hr2⟩
    · apply Post.mono (hnd.1 _ _ _ sc s1 hr.1 hr.2 (h.above (Above.top s)))
      rintro r s2 ⟨h2, hr2⟩
      exact ⟨h.trans h2, hr2⟩
    · exact ⟨h, hr⟩
    · apply Post.mono (hnd.2 _ _ sc s1)
      rintro r s2 ⟨h2, hr2⟩
      exact ⟨h.trans (h2.lift h.len), R.In.mono h.len (Nat.le_refl _) hr2⟩
  | store m name _ =>
    apply Post.bind
    apply Post.mono (hrec m _ sc s)
    rintro r s1 ⟨h, hr⟩
    split
    · apply Post.bind
      apply Post.bindVar
      refine ⟨h.trans (Frm.toks_eq (by simp)), ?_⟩
      simpa using hr
    · exact ⟨h, hr⟩
  | storeStr v name _ =>
    apply Post.bind
    apply Post.bindVar
    exact ⟨Frm.toks_eq (by simp), trivial⟩
  | fetch _ => exact ⟨Frm.refl _ _, trivial⟩
  | ref target name _ =>
    dsimp only
    unfold execRef
    apply Post.bind
    apply Post.fetchValue
    intro v
    cases v with
    | inr m => exact hrec m _ sc s
    | inl nm =>
      apply Post.bind
      apply Post.lookupVar
      split
      · exact hrec _ _ sc s
      · exact ⟨Frm.refl _ _, trivial⟩
  | register ps =>
    dsimp only
    suffices ∀ s', Frm s.toks.length s s' → Post True (execRegister T sc ps) s'
      (fun r s' => Frm s.toks.length s s' ∧ r.In s.toks.length s'.toks.length) from
      this s (Frm.refl _ _)
    induction ps with
    | nil => intro s' h; exact ⟨h, trivial⟩
    | cons p ps ih =>
      intro s' h
      unfold execRegister
      apply Post.bind
      apply Post.bindVar
      exact ih trivial _ (h.trans (Frm.toks_eq (by simp)))
  | setScope scope m =>
    dsimp only
    unfold execSetScope
    dsimp only
    split
    · exact hrec m _ _ s
    · apply Post.bind
      apply Post.pushScope
      apply Post.bind
      apply Post.mono (hrec m _ _ _)
      rintro r s1 ⟨h, hr⟩
      apply Post.bind
      apply Post.popScope
      simp only [State.pushScope_toks] at h hr
      refine ⟨?_, hr⟩
      have h0 : Frm s.toks.length s (s.pushScope c.scope) := Frm.toks_eq rfl
      exact (h0.trans h).trans (Frm.toks_eq rfl)
  | pin m offset name _ =>
    dsimp only
    unfold execPin
    apply Post.bind
    apply Post.fetchValue
    intro v
    cases v with
    | inr _ => exact ⟨Frm.refl _ _, trivial⟩
    | inl v =>
      have hpo : ∀ {Q : Nat → State → Prop} (a b : Nat) (x : Str), (∀ k, Q k s) →
          Post True (parseOffset cfg a b x) s Q := by
        intro Q a b x hQ
        unfold parseOffset
        dsimp only
        repeat' split
        all_goals first | exact hQ _ | trivial
      apply Post.bind
      apply hpo
      intro st
      apply Post.bind
      apply Post.mono (Q := fun _ s' => s' = s)
      · unfold pinEnd
        split
        · apply hpo
          intro _
          rfl
        · exact Post.pure rfl
      rintro e s' rfl
      cases m with
      | some m => exact hrec m _ sc s'
      | none =>
        apply Post.bind
        exact Post.mono (newTok_frame rfl) (fun i s' h => h)
  | debug m mode =>
    dsimp only
    unfold execDebug
    apply Post.bind
    apply Post.ofOpt _ (fun _ => trivial)
    intro _ _
    cases m with
    | some m => exact hrec m _ sc s
    | none => exact ⟨Frm.refl _ _, trivial⟩
  | brk name => exact ⟨Frm.refl _ _, trivial⟩
  | null => exact ⟨Frm.refl _ _, trivial⟩
  | panic msg =>
    dsimp only
    unfold execPanic
    apply Post.bind
    apply Post.mono (Q := fun _ s' => s' = s)
    · unfold panicRange
      split
      · apply Post.bind
        apply Post.getTok _ (fun _ => trivial)
        intro _ _
        exact Post.pure rfl
      · exact Post.pure rfl
    rintro r s' rfl
    apply Post.bind
    apply Post.ofOpt _ (fun _ => trivial)
    intro _ _
    exact ⟨Frm.refl _ _, trivial⟩
  | error msg =>
    apply Post.bind
    exact Post.mono newErrorTokenWithRange_frame (fun i s' h => h)

theorem exec_frame {T : Table} (cfg : Cfg) (hT : ∀ id, FrameNode (T id)) :
    ∀ fuel, FrameOK (exec T cfg fuel) := by
  intro fuel
  induction fuel with
  | zero => intro m c sc s; trivial
  | succ k ih =>
    intro m c sc s
    unfold exec
    apply Post.bind
    apply Post.mono (Q := fun _ s' => s'.toks = s.toks)
    · unfold beforeExec
      split
      · apply Post.bindVar; simp
      · exact Post.pure rfl
    intro _ s1 h1
    apply Post.mono (execNode_frame ih (hT m))
    rintro r s2 ⟨h2, hr⟩
    rw [h1] at h2 hr
    exact ⟨(Frm.toks_eq h1).trans h2, hr⟩

end Adx
