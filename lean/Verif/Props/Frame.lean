import Verif.Proofs.Frame
import Verif.Spec.Heap
import Verif.Spec.Outcome
import Verif.Model.Build
/-
  C05: running a matcher, or `tokenize`, leaves every token that already existed
  untouched, and returns only new tokens.
-/
namespace Adx

theorem Success.In.tok {n len : Nat} {x : Success} (h : x.In n len) {t : TokId}
    (ht : x.tok = some t) : n ≤ t ∧ t < len := by
  induction x with
  | token u => cases ht; exact h
  | proxyChildren u => cases ht; exact h
  | brk _ d ih => exact ih h ht
  | cont _ d ih => exact ih h ht
  | skip _ => cases ht
  | none => cases ht
  | stop => cases ht

theorem Above.reach {n : Nat} {s : State} (ha : Above n s) {t u : TokId} (ht : n ≤ t)
    (h : Reach s.toks t u) : n ≤ u := by
  induction h with
  | refl => exact ht
  | step _ hk hc ih => exact (ha _ _ ih hk _ hc).1

/-- C05 for one matcher run: whatever the grammar, the prior heap and the outcome,
tokens that existed before are exactly as they were, and everything reachable
from the returned token is new. -/
theorem C05_exec_frame {T : Table} {cfg : Cfg} (hT : ∀ id, FrameNode (T id)) {fuel : Nat}
    {m : MatcherId} {c : Ctx} {sc : SCtxId} {s s' : State} {r : R}
    (h : exec T cfg fuel m c sc s = .ok r s') :
    (∀ i, i < s.toks.length → s'.toks[i]? = s.toks[i]?) ∧
    (∀ t, r.tok = some t → t < s'.toks.length ∧
      ∀ u, Reach s'.toks t u → s.toks.length ≤ u) := by
  have hf := (exec_frame cfg hT fuel m c sc s).of_ok h
  refine ⟨hf.1.same, fun t ht => ?_⟩
  cases r with
  | err _ => cases ht
  | ok x =>
    have hx := Success.In.tok hf.2 ht
    exact ⟨hx.2, fun u hu => (hf.1.above (Above.top s)).reach hx.1 hu⟩

/-- The callbacks of the library's own macros meet the contract of C05. -/
theorem C05_library_callbacks (m : MatcherId) (msg : Str) :
    FrameNode (.map m (fatalIfOk msg) failureIsFine) ∧
    FrameNode (.map m successIsFine (fatalIfNotErr msg)) ∧
    FrameNode (.map m (assertIfOk msg) failureIsFine) ∧
    FrameNode (.map m successIsFine (assertIfNotErr msg)) := by
  have hf : ∀ e c sc (s : State), Post True (failureIsFine e c sc) s
      (fun r s' => Frm s.toks.length s s' ∧ r.In s.toks.length s'.toks.length) := by
    intro e c sc s
    cases e <;> exact ⟨Frm.refl _ _, trivial⟩
  have hs : ∀ n t c sc (s : State), n ≤ t → t < s.toks.length → Above n s →
      Post True (successIsFine t c sc) s (fun r s' => Frm n s s' ∧ r.In n s'.toks.length) := by
    intro n t c sc s _ _ _
    exact ⟨Frm.refl _ _, trivial⟩
  refine ⟨⟨?_, hf⟩, ⟨hs, ?_⟩, ⟨?_, hf⟩, ⟨hs, ?_⟩⟩
  · intro n t c sc s _ _ _
    apply Post.bind
    apply Post.getTok _ (fun _ => trivial)
    intro tk _
    apply Post.bind
    apply Post.ofOpt _ (fun _ => trivial)
    intro _ _
    exact ⟨Frm.refl _ _, trivial⟩
  · intro e c sc s
    cases e with
    | error e => exact ⟨Frm.refl _ _, trivial⟩
    | fail =>
      apply Post.bind
      apply Post.ofOpt _ (fun _ => trivial)
      intro _ _
      exact ⟨Frm.refl _ _, trivial⟩
  · intro n t c sc s hn hl _
    apply Post.bind
    apply Post.getTok _ (fun _ => trivial)
    intro tk _
    apply Post.bind
    apply Post.mono newErrorTokenWithRange_frame
    rintro i s' ⟨h, hi, hil⟩
    have hns := Nat.le_trans hn (Nat.le_of_lt hl)
    exact ⟨h.lift hns, Nat.le_trans hns hi, hil⟩
  · intro e c sc s
    cases e with
    | error e => exact ⟨Frm.refl _ _, trivial⟩
    | fail =>
      apply Post.bind
      exact Post.mono newErrorTokenWithRange_frame (fun i s' h => h)

/-- Non-vacuity of C05: a program with a discarded part and an error check, run on
a heap that already holds a token; it creates the tokens 1 to 6 and returns 1. -/
example :
    let g : B MatcherId := B.program [B.equals "a", B.discard (B.equals " "),
      B.assertIf (B.equals "b") "no b"]
    let T := tableOf (g.run []).2
    let c := Ctx.new ⟨"a b".toList, []⟩ 0 []
    let s : State := ⟨[Token.mk' c.parser "Old".toList ⟨0, 1⟩], [], [[]]⟩
    (∀ id, FrameNode (T id)) ∧
    (exec T ⟨true⟩ 9 (g.run []).1 c 0 s).holds (fun r s' => r = .ok (.token 1) ∧
      s'.toks.length = 7 ∧ (s'.toks[1]?.map (·.children)) = some [2, 6]) := by
  refine ⟨fun id => ?_, by decide +kernel⟩
  match id with
  | 0 | 1 | 2 | 3 | 5 => trivial
  | 4 => exact (C05_library_callbacks 3 "no b".toList).2.2.1
  | _ + 6 => trivial

theorem splitErrors_spec {s : State} : ∀ cs : List TokId,
    Post True (splitErrors cs) s (fun p s' => s' = s ∧ (∀ c ∈ p.1, c ∈ cs) ∧ ∀ c ∈ p.2, c ∈ cs) := by
  intro cs
  induction cs with
  | nil => exact ⟨rfl, by simp, by simp⟩
  | cons c cs ih =>
    unfold splitErrors
    apply Post.bind
    apply Post.getTok _ (fun _ => trivial)
    intro k _
    apply Post.bind
    apply Post.mono ih
    rintro ⟨keep, errs⟩ s' ⟨rfl, hk, he⟩
    dsimp only at hk he ⊢
    split
    · refine ⟨rfl, fun x hx => List.mem_cons_of_mem _ (hk x hx), fun x hx => ?_⟩
      simp only [List.mem_cons] at hx ⊢
      rcases hx with rfl | hx
      · exact Or.inl rfl
      · exact Or.inr (he x hx)
    · refine ⟨rfl, fun x hx => ?_, fun x hx => List.mem_cons_of_mem _ (he x hx)⟩
      simp only [List.mem_cons] at hx ⊢
      rcases hx with rfl | hx
      · exact Or.inl rfl
      · exact Or.inr (hk x hx)

theorem collectErrors_frame {n : Nat} {root : TokId} (hr : n ≤ root) (d : Nat) :
    ∀ {s : State} {t : TokId} {b : Bool}, n ≤ t → Above n s →
    Post True (collectErrors d root t b) s (fun _ s' => Frm n s s') := by
  induction d with
  | zero => intro s t b _ _; trivial
  | succ d ih =>
    intro s t b ht ha
    unfold collectErrors
    apply Post.bind
    apply Post.getTok _ (fun _ => trivial)
    intro tk htk
    apply Post.bind
    have hcs : ∀ c ∈ tk.children, n ≤ c := fun c hc => (ha t tk ht htk c hc).1
    have loop : ∀ (cs : List TokId) (s1 : State), Frm n s s1 → (∀ c ∈ cs, n ≤ c) →
        Post True (forEach (fun c => collectErrors d root c false) cs) s1
          (fun _ s' => Frm n s s') := by
      intro cs
      induction cs with
      | nil => intro s1 h1 _; exact h1
      | cons c cs ihc =>
        intro s1 h1 hcs
        unfold forEach
        apply Post.bind
        apply Post.mono (ih (hcs c (by simp)) (h1.above ha))
        intro _ s2 h2
        exact ihc s2 (h1.trans h2) (fun c hc => hcs c (by simp [hc]))
    apply Post.mono (loop tk.children s (Frm.refl _ _) hcs)
    intro _ s1 h1
    split
    · exact h1
    apply Post.bind
    apply Post.getTok _ (fun _ => trivial)
    intro tk1 htk1
    have ha1 := h1.above ha
    have hcs1 := ha1 t tk1 ht htk1
    apply Post.bind
    apply Post.mono (splitErrors_spec tk1.children)
    rintro ⟨keep, errs⟩ s2 ⟨rfl, hk, he⟩
    dsimp only at hk he ⊢
    apply Post.bind
    apply Post.modTok _ (fun _ => trivial)
    intro t2 ht2
    have h2 : Frm n s2 { s2 with toks := s2.toks.set t { t2 with children := keep } } :=
      Frm.setTok ht (fun _ c hc => hcs1 c (hk c hc))
    apply Post.modTok _ (fun _ => trivial)
    intro r2 hr2
    refine (h1.trans h2).trans (Frm.setTok hr (fun ha2 c hc => ?_))
    simp only [List.mem_append] at hc
    rcases hc with hc | hc
    · exact ha2 root r2 hr hr2 c hc
    · have := hcs1 c (he c hc)
      simpa using this

/-- C05 for `tokenize`: tokens of earlier parses are exactly as they were, and
everything reachable from the returned root is new. -/
theorem C05_tokenize_frame {T : Table} {cfg : Cfg} (hT : ∀ id, FrameNode (T id)) {fuel : Nat}
    {m : MatcherId} {c : Ctx} {s s' : State} {r : Except Failure TokId}
    (h : tokenize T cfg fuel c m s = .ok r s') :
    (∀ i, i < s.toks.length → s'.toks[i]? = s.toks[i]?) ∧
    (∀ t, r = .ok t → t < s'.toks.length ∧ ∀ u, Reach s'.toks t u → s.toks.length ≤ u) := by
  have key : Post True (tokenize T cfg fuel c m) s (fun r s' => Frm s.toks.length s s' ∧
      ∀ t, r = .ok t → s.toks.length ≤ t ∧ t < s'.toks.length) := by
    unfold tokenize
    apply Post.bind
    apply Post.mono (exec_frame cfg hT fuel m c c.scope s)
    rintro r s1 ⟨h1, hr⟩
    have fin : ∀ t, s.toks.length ≤ t ∧ t < s1.toks.length →
        Post True (do collectErrorsTop t; pure (.ok t) : M (Except Failure TokId)) s1
        (fun r s' => Frm s.toks.length s s' ∧
          ∀ t, r = .ok t → s.toks.length ≤ t ∧ t < s'.toks.length) := by
      intro t ht
      apply Post.bind
      unfold collectErrorsTop
      apply Post.bind
      apply Post.getState
      apply Post.mono (collectErrors_frame ht.1 _ ht.1 (h1.above (Above.top s)))
      intro _ s2 h2
      refine ⟨h1.trans h2, ?_⟩
      intro t' ht'
      cases ht'
      exact ⟨ht.1, Nat.lt_of_lt_of_le ht.2 h2.len⟩
    split
    · exact fin _ hr
    · exact fin _ hr
    · exact fin _ hr
    · exact fin _ hr
    · exact ⟨h1, by intro t ht; cases ht⟩
    · exact ⟨h1, by intro t ht; cases ht⟩
  have hk := key.of_ok h
  refine ⟨hk.1.same, fun t ht => ?_⟩
  have := hk.2 t ht
  exact ⟨this.2, fun u hu => (hk.1.above (Above.top s)).reach this.1 hu⟩

end Adx
