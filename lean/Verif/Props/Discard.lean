import Verif.Proofs.Step
import Verif.Proofs.Forest
/-
  C19: `Discard`.
-/
namespace Adx

variable {T : Table} {cfg : Cfg} {m b : MatcherId} {c : Ctx} {sc : SCtxId} {s s' : State} {r : R}

theorem contain_eq_hull (a b : Range) : a.contain b = hullR a b := by
  unfold Range.contain hullR
  congr 1 <;> split <;> omega

theorem isErrorTok_eq {toks : List Token} {t : TokId} {k : Token} (h : toks[t]? = some k) :
    isErrorTok toks t = k.flagsEnabled IS_ERROR := by
  unfold isErrorTok
  rw [h]
  rfl

/-- The scratch token of a `Discard` after a list of tokens has been looked at. -/
def absorb (toks : List Token) (ek : Token) (l : List TokId) : Token :=
  { ek with
    children := ek.children ++ l.filter (isErrorTok toks)
    matched := hullOf toks ek.matched (l.filter (isErrorTok toks))
    matchedValue := (hullOf toks ek.matched (l.filter (isErrorTok toks))).text ek.parser }

/-- A standard token whose matched text is up to date. -/
def UpToDate (k : Token) : Prop := k.kind = .standard ∧ k.matchedValue = k.matched.text k.parser

theorem absorb_nil {toks : List Token} {ek : Token} (h : UpToDate ek) : absorb toks ek [] = ek := by
  cases ek
  obtain ⟨_, h2⟩ := h
  simp only at h2
  simp [absorb, hullOf, h2]

theorem absorb_upToDate {toks : List Token} {ek : Token} (h : UpToDate ek) (l : List TokId) :
    UpToDate (absorb toks ek l) := ⟨h.1, rfl⟩

theorem hullOf_append (toks : List Token) (a : Range) (l l' : List TokId) :
    hullOf toks a (l ++ l') = hullOf toks (hullOf toks a l) l' := by
  induction l generalizing a with
  | nil => rfl
  | cons t ts ih => exact ih _

theorem absorb_append (toks : List Token) (ek : Token) (l l' : List TokId) :
    absorb toks ek (l ++ l') = absorb toks (absorb toks ek l) l' := by
  simp [absorb, hullOf_append]

theorem discardRecord_run {toks : List Token} {e t : TokId} {ek k : Token}
    (hk : toks[t]? = some k) (he : s.toks[e]? = some ek) (hu : UpToDate ek) :
    discardRecord e t k s = .ok () { s with toks := s.toks.set e (absorb toks ek [t]) } := by
  unfold discardRecord
  rw [← isErrorTok_eq hk]
  by_cases hf : isErrorTok toks t
  · rw [if_pos hf]
    refine modTok_ok.mpr ⟨ek, he, ?_⟩
    congr 2
    have hh : hullOf toks ek.matched [t] = hullR ek.matched k.matched := by
      simp [hullOf, hk]
    have ha : absorb toks ek [t] = { ek with
        children := ek.children ++ [t]
        matched := hullR ek.matched k.matched
        matchedValue := (hullR ek.matched k.matched).text ek.parser } := by
      simp [absorb, hf, hh]
    rw [ha, ← contain_eq_hull]
    dsimp only
    have hc : ek.matched.contain k.matched =
        ⟨if ek.matched.start > k.matched.start then k.matched.start else ek.matched.start,
         if ek.matched.stop < k.matched.stop then k.matched.stop else ek.matched.stop⟩ := rfl
    rw [← hc]
    have hst : (ek.matched.contain k.matched).start =
      if ek.matched.start > k.matched.start then k.matched.start else ek.matched.start := rfl
    have hsp : (ek.matched.contain k.matched).stop =
      if ek.matched.stop < k.matched.stop then k.matched.stop else ek.matched.stop := rfl
    rw [← hst, ← hsp]
    by_cases hne : (ek.matched.contain k.matched).start = ek.matched.start ∧
        (ek.matched.contain k.matched).stop = ek.matched.stop
    · rw [if_neg (fun h => h.elim (fun h => h hne.1) (fun h => h hne.2))]
      have hs : ek.matched.contain k.matched = ek.matched := by
        cases hx : ek.matched.contain k.matched with
        | mk a b =>
          rw [hx] at hne
          cases hy : ek.matched with
          | mk a' b' =>
            rw [hy] at hne
            obtain ⟨h1, h2⟩ := hne
            simp only at h1 h2
            rw [h1, h2]
      rw [hs, ← hu.2]
    · rw [if_pos (Decidable.not_and_iff_or_not.mp hne)]
      unfold Token.setMatched
      simp only [hu.1]
  · rw [if_neg hf]
    have : absorb toks ek [t] = ek := by
      have := absorb_nil (toks := toks) hu
      simpa [absorb, hf] using this
    rw [this]
    have hset : s.toks.set e ek = s.toks := by
      obtain ⟨h1, h2⟩ := List.getElem?_eq_some_iff.mp he
      rw [← h2]
      exact List.set_getElem_self h1
    rw [hset]
    rfl

theorem discardCollect_run {toks : List Token} {e : TokId} {n : Nat} {ts l : List TokId}
    (h : Walk toks n ts l) : ∀ (s : State) (ek : Token), (∀ u ∈ l, s.toks[u]? = toks[u]?) → e ∉ l →
    s.toks[e]? = some ek → UpToDate ek →
    forEach (discardCollect n e) ts s = .ok () { s with toks := s.toks.set e (absorb toks ek l) } := by
  induction h with
  | nil n =>
    intro s ek _ _ he hu
    rw [absorb_nil hu]
    have hset : s.toks.set e ek = s.toks := by
      obtain ⟨h1, h2⟩ := List.getElem?_eq_some_iff.mp he
      rw [← h2]
      exact List.set_getElem_self h1
    rw [hset]
    rfl
  | @cons n t k ts l l' hk hc hs ih1 ih2 =>
    intro s ek hsame hne he hu
    have hlt : e < s.toks.length := (List.getElem?_eq_some_iff.mp he).1
    have hnt : e ≠ t := fun h => hne (by simp [h])
    have hnl : e ∉ l := fun h => hne (by simp [h])
    have hnl' : e ∉ l' := fun h => hne (by simp [h])
    unfold forEach
    refine bind_ok.mpr ⟨(), { s with toks := s.toks.set e (absorb toks (absorb toks ek [t]) l) }, ?_, ?_⟩
    · unfold discardCollect
      refine bind_ok.mpr ⟨k, s, getTok_ok.mpr ⟨by rw [hsame t (by simp), hk], rfl⟩, ?_⟩
      refine bind_ok.mpr ⟨(), _, discardRecord_run hk he hu, ?_⟩
      have := ih1 { s with toks := s.toks.set e (absorb toks ek [t]) } (absorb toks ek [t])
        (fun u hu' => by
          show (s.toks.set e _)[u]? = _
          rw [List.getElem?_set_ne (fun h => hnl (by rw [h]; exact hu'))]
          exact hsame u (by simp [hu']))
        hnl (by show (s.toks.set e _)[e]? = _; rw [List.getElem?_set_self hlt])
        (absorb_upToDate hu _)
      rw [this, List.set_set]
    · have := ih2 { s with toks := s.toks.set e (absorb toks (absorb toks ek [t]) l) }
        (absorb toks (absorb toks ek [t]) l)
        (fun u hu' => by
          show (s.toks.set e _)[u]? = _
          rw [List.getElem?_set_ne (fun h => hnl' (by rw [h]; exact hu'))]
          exact hsame u (by simp [hu']))
        hnl' (by show (s.toks.set e _)[e]? = _; rw [List.getElem?_set_self hlt])
        (absorb_upToDate (absorb_upToDate hu _) _)
      rw [this, List.set_set]
      have hx : t :: (l ++ l') = [t] ++ l ++ l' := by simp
      rw [hx, absorb_append, absorb_append]

/-- What `Discard` makes of a body's token `t` whose tree is `l`: the distance from
where `Discard` was applied to the end of the body's match, or, if there are error
tokens in the tree, a token that holds all of them. -/
def DiscardsTo (p : Parser) (start : Nat) (t : TokId) (l : List TokId) (s : State) (x : Success)
    (s' : State) : Prop :=
  ∃ k e, s.toks[t]? = some k ∧ s' = { s with toks := s.toks ++ [e] } ∧
    ((l.filter (isErrorTok s.toks) = [] ∧ x = .skip ((k.matched.stop : Int) - start)) ∨
     (l.filter (isErrorTok s.toks) ≠ [] ∧ x = .token s.toks.length ∧
      e.children = l.filter (isErrorTok s.toks) ∧ e.name = "Error".toList ∧ e.parser = p ∧
      e.flags = 0 ∧ e.attributes = [] ∧
      e.captured = ⟨start, k.matched.stop⟩ ∧
      e.matched = hullOf s.toks ⟨start, k.matched.stop⟩ (l.filter (isErrorTok s.toks))))

theorem skipToken_run {t : TokId} {l : List TokId} {k : Token} {start : Nat} (hp : Pre s.toks [t] l)
    (hk : s.toks[t]? = some k) (h1 : start ≤ isizeMax) (h2 : k.matched.stop ≤ isizeMax) :
    ∃ x s', skipToken cfg c start t s = .ok x s' ∧ DiscardsTo c.parser start t l s x s' := by
  let ek := Token.mk' c.parser "Error".toList ⟨start, k.matched.stop⟩
  have hek : UpToDate ek := ⟨rfl, rfl⟩
  let s1 : State := { s with toks := s.toks ++ [ek] }
  have hnew : s.toks.length ∉ l := fun h => Nat.lt_irrefl _ (hp.valid _ h)
  have hw : Walk s.toks (s1.toks.length + 1) [t] l := hp.walk (by
    show _ ≤ (s.toks ++ [ek]).length + 1
    rw [List.length_append]; omega)
  have hcol := discardCollect_run hw s1 ek
    (fun u hu => List.getElem?_append_left (hp.valid u hu)) hnew
    (by show (s.toks ++ [ek])[s.toks.length]? = _; simp) hek
  have hset : (s.toks ++ [ek]).set s.toks.length (absorb s.toks ek l) =
      s.toks ++ [absorb s.toks ek l] := by simp
  have hdc : discardCollect (s1.toks.length + 1) s.toks.length t s1 =
      .ok () { s with toks := s.toks ++ [absorb s.toks ek l] } := by
    unfold forEach at hcol
    obtain ⟨u, s2, h3, h4⟩ := bind_ok.mp hcol
    unfold forEach at h4
    obtain ⟨_, rfl⟩ := pure_ok.mp h4
    rw [h3]
    show Res.ok () { s1 with toks := (s.toks ++ [ek]).set s.toks.length (absorb s.toks ek l) } = _
    rw [hset]
  have hd : subOffset cfg k.matched.stop start { s with toks := s.toks ++ [absorb s.toks ek l] } =
      .ok ((k.matched.stop : Int) - start) { s with toks := s.toks ++ [absorb s.toks ek l] } := by
    unfold subOffset asIsize
    rw [if_pos h2, if_pos h1, if_pos (by omega)]
    rfl
  have hgo : ∀ x s', (do
      let ek ← getTok s.toks.length
      if ek.children ≠ [] then pure (Success.token s.toks.length)
      else do
        let d ← subOffset cfg k.matched.stop start
        pure (Success.skip d)) { s with toks := s.toks ++ [absorb s.toks ek l] } = .ok x s' →
      skipToken cfg c start t s = .ok x s' := by
    intro x s' h
    unfold skipToken
    refine bind_ok.mpr ⟨k, s, getTok_ok.mpr ⟨hk, rfl⟩, ?_⟩
    refine bind_ok.mpr ⟨s.toks.length, s1, rfl, ?_⟩
    refine bind_ok.mpr ⟨s1, s1, rfl, ?_⟩
    exact bind_ok.mpr ⟨(), _, hdc, h⟩
  have hget : getTok s.toks.length { s with toks := s.toks ++ [absorb s.toks ek l] } =
      .ok (absorb s.toks ek l) { s with toks := s.toks ++ [absorb s.toks ek l] } :=
    getTok_ok.mpr ⟨by simp, rfl⟩
  by_cases hf : l.filter (isErrorTok s.toks) = []
  · refine ⟨_, _, hgo (.skip ((k.matched.stop : Int) - start)) _ (bind_ok.mpr ⟨_, _, hget, ?_⟩),
      k, absorb s.toks ek l, hk, rfl, Or.inl ⟨hf, rfl⟩⟩
    have hce : (absorb s.toks ek l).children = [] := hf
    rw [if_neg (by rw [hce]; simp)]
    exact bind_ok.mpr ⟨_, _, hd, rfl⟩
  · refine ⟨_, _, hgo (.token s.toks.length) _ (bind_ok.mpr ⟨_, _, hget, ?_⟩),
      k, absorb s.toks ek l, hk, rfl, Or.inr ⟨hf, rfl, rfl, rfl, rfl, rfl, rfl, rfl, rfl⟩⟩
    have hce : (absorb s.toks ek l).children = l.filter (isErrorTok s.toks) := rfl
    rw [if_pos (by rw [hce]; exact hf)]
    rfl

/-- The body's result, when `Discard` has something to hide in it: its token, or the
token carried by a `Break` or `Continue`, and how the result is rebuilt around what
takes its place. -/
inductive Carries : R → TokId → (Success → R) → Prop
  | token (t) : Carries (.ok (.token t)) t (fun x => .ok x)
  | proxy (t) : Carries (.ok (.proxyChildren t)) t (fun x => .ok x)
  | brkToken (n t) : Carries (.ok (.brk n (.token t))) t (fun x => .ok (.brk n x))
  | brkProxy (n t) : Carries (.ok (.brk n (.proxyChildren t))) t (fun x => .ok (.brk n x))
  | contToken (n t) : Carries (.ok (.cont n (.token t))) t (fun x => .ok (.cont n x))
  | contProxy (n t) : Carries (.ok (.cont n (.proxyChildren t))) t (fun x => .ok (.cont n x))

/-- Results without a token, and without a nested `Break`/`Continue`. -/
def Bare : R → Prop
  | .err _ => True
  | .ok (.skip _) => True
  | .ok .none => True
  | .ok .stop => True
  | .ok (.brk _ (.skip _)) => True
  | .ok (.brk _ .none) => True
  | .ok (.brk _ .stop) => True
  | .ok (.cont _ (.skip _)) => True
  | .ok (.cont _ .none) => True
  | .ok (.cont _ .stop) => True
  | _ => False

/-- C19: when the body returns a token with a finite tree, `Discard` returns, in its
place, the distance to the end of the match, or a token holding the error tokens of
the tree in document order; no existing token is touched.  This is its only result. -/
theorem C19_discard_token (hm : T m = .discard b) {r0 : R} {s1 : State} {t : TokId}
    {wrap : Success → R} {l : List TokId} (hb : Runs T cfg b c sc s r0 s1)
    (hc : Carries r0 t wrap) (hp : Pre s1.toks [t] l) (h1 : c.offset.start ≤ isizeMax)
    (h2 : ∀ k, s1.toks[t]? = some k → k.matched.stop ≤ isizeMax) :
    (∃ x s', Runs T cfg m c sc s (wrap x) s' ∧ DiscardsTo c.parser c.offset.start t l s1 x s') ∧
    (∀ r s', Runs T cfg m c sc s r s' →
      ∃ x, r = wrap x ∧ DiscardsTo c.parser c.offset.start t l s1 x s') := by
  have hstep : ∀ f, execNode T cfg f (T m) c sc =
      (f b (c.withName "Discard".toList) sc >>= fun r => execDiscard cfg (fun _ _ _ => pure r) b c sc) := by
    intro f; rw [hm]; rfl
  obtain ⟨k, hk⟩ : ∃ k, s1.toks[t]? = some k :=
    ⟨_, List.getElem?_eq_getElem (hp.valid t (hp.roots t (by simp)))⟩
  obtain ⟨x, s2, hx, hd⟩ := skipToken_run (cfg := cfg) (c := c.withName "Discard".toList) hp hk h1 (h2 k hk)
  have hrun : Runs T cfg m c sc s (wrap x) s2 := by
    rw [runs_body hstep]
    refine ⟨r0, s1, ?_, ?_⟩
    · rw [runs_name, entered_plain (by rw [hm]; rfl)]; exact hb
    · unfold execDiscard
      refine bind_ok.mpr ⟨r0, s1, rfl, ?_⟩
      cases hc <;> exact bind_ok.mpr ⟨x, s2, hx, rfl⟩
  refine ⟨⟨x, s2, hrun, hd⟩, fun r s' h => ?_⟩
  obtain ⟨rfl, rfl⟩ := C06_unique hrun h
  exact ⟨x, rfl, hd⟩

/-- C19: every result without a token, in particular a failure or an error, is passed
on unchanged, and so are the effects of the body. -/
theorem C19_discard_other (hm : T m = .discard b) {r0 : R} {s1 : State}
    (hb : Runs T cfg b c sc s r0 s1) (hr : Bare r0) : Runs T cfg m c sc s r0 s1 := by
  have hstep : ∀ f, execNode T cfg f (T m) c sc =
      (f b (c.withName "Discard".toList) sc >>= fun r => execDiscard cfg (fun _ _ _ => pure r) b c sc) := by
    intro f; rw [hm]; rfl
  rw [runs_body hstep]
  refine ⟨r0, s1, ?_, ?_⟩
  · rw [runs_name, entered_plain (by rw [hm]; rfl)]; exact hb
  · unfold execDiscard
    refine bind_ok.mpr ⟨r0, s1, rfl, ?_⟩
    rcases r0 with x | e
    · cases x with
      | brk n d => cases d <;> first | rfl | exact hr.elim
      | cont n d => cases d <;> first | rfl | exact hr.elim
      | _ => first | rfl | exact hr.elim
    · rfl

/-- C19: `Discard` returns only if its body does. -/
theorem C19_discard_needs_body (hm : T m = .discard b) (h : Runs T cfg m c sc s r s') :
    ∃ r0 s1, Runs T cfg b c sc s r0 s1 := by
  have hstep : ∀ f, execNode T cfg f (T m) c sc =
      (f b (c.withName "Discard".toList) sc >>= fun r => execDiscard cfg (fun _ _ _ => pure r) b c sc) := by
    intro f; rw [hm]; rfl
  rw [runs_body hstep] at h
  obtain ⟨r0, s1, h1, _⟩ := h
  rw [runs_name, entered_plain (by rw [hm]; rfl)] at h1
  exact ⟨r0, s1, h1⟩

/-- Non-vacuity of C19: a body without errors is skipped over; one with two error
tokens inside gives a token holding both. -/
example :
    let T : Table := fun
      | 0 => .discard 1
      | 1 => .program [2, 3, 2, 3] "P".toList false none false
      | 2 => .equals "A".toList false (.str ['a'])
      | 3 => .error "oops".toList
      | _ => .discard 2
    let run (m : MatcherId) := exec T ⟨true⟩ 9 m (Ctx.new ⟨"aab".toList, []⟩ 0 []) 0 ⟨[], [], [[]]⟩
    (run 4).holds (fun r _ => r = .ok (.skip 1)) ∧
    (run 0).holds (fun r s => r = .ok (.token 5) ∧
      s.toks[5]?.map (fun k => (k.name, k.children)) = some ("Error".toList, [2, 4])) := by
  decide +kernel

end Adx
