import Verif.Props.Control
/-
  C20, C21, C40, C41: `ProxyChildren`, `ExpandRange`, `Catch`, `Map`.
-/
namespace Adx

variable {T : Table} {cfg : Cfg} {m b : MatcherId} {c : Ctx} {sc : SCtxId} {s s' : State} {r : R}
  {name : Str} {cu : Bool}

/-- A result with its token, or the token of its `Break`/`Continue`, marked for splicing. -/
inductive Proxied : R → R → Prop
  | token {t} : Proxied (.ok (.token t)) (.ok (.proxyChildren t))
  | brk {n t} : Proxied (.ok (.brk n (.token t))) (.ok (.brk n (.proxyChildren t)))
  | cont {n t} : Proxied (.ok (.cont n (.token t))) (.ok (.cont n (.proxyChildren t)))
  | other {r : R} (h1 : ∀ t, r ≠ .ok (.token t)) (h2 : ∀ n t, r ≠ .ok (.brk n (.token t)))
      (h3 : ∀ n t, r ≠ .ok (.cont n (.token t))) : Proxied r r

/-- C20: `ProxyChildren` does what its body does and marks the token for splicing. -/
theorem C20_proxy_children (hm : T m = .proxyChildren b name cu) :
    Runs T cfg m c sc s r s' ↔
      ∃ r0, Runs T cfg b c sc (entered T m sc s) r0 s' ∧ Proxied r0 r := by
  have hstep : ∀ f, execNode T cfg f (T m) c sc = (f b (c.withName name) sc >>= fun r =>
      match (generalizing := false) r with
      | .ok (.token t) => pure (.ok (.proxyChildren t))
      | .ok (.brk n (.token t)) => pure (.ok (.brk n (.proxyChildren t)))
      | .ok (.cont n (.token t)) => pure (.ok (.cont n (.proxyChildren t)))
      | r => pure r) := by
    intro f; rw [hm]; rfl
  rw [runs_body hstep]
  simp only [runs_name]
  constructor
  · rintro ⟨r0, s1, h0, h1⟩
    split at h1 <;> obtain ⟨rfl, rfl⟩ := pure_ok'.mp h1
    · exact ⟨_, h0, .token⟩
    · exact ⟨_, h0, .brk⟩
    · exact ⟨_, h0, .cont⟩
    · rename_i n1 n2 n3
      exact ⟨_, h0, .other (fun t h => n1 t h) (fun n t h => n2 n t h) (fun n t h => n3 n t h)⟩
  · rintro ⟨r0, h0, hp⟩
    refine ⟨r0, s', h0, ?_⟩
    cases hp with
    | token => rfl
    | brk => rfl
    | cont => rfl
    | other h1 h2 h3 =>
      split
      · exact (h1 _ rfl).elim
      · exact (h2 _ _ rfl).elim
      · exact (h3 _ _ rfl).elim
      · rfl

/-- Is the token an ordinary token (not a pin)? -/
def isStd (s : State) (t : TokId) : Bool := (s.toks[t]?.map (·.kind)) == some .standard

/-- Where the token ends. -/
def stopOf (s : State) (t : TokId) : Nat := (s.toks[t]?.map (·.matched.stop)).getD 0

theorem adopted_same (k : Token) (prog : TokId) (lo : Nat) :
    (k.adopted prog lo).kind = k.kind ∧ (k.adopted prog lo).matched.stop = k.matched.stop ∧
    (k.adopted prog lo).name = k.name ∧ (k.adopted prog lo).children = k.children ∧
    (k.adopted prog lo).parent = some prog ∧ (k.adopted prog lo).flags = k.flags ∧
    (k.adopted prog lo).attributes = k.attributes := by
  unfold Token.adopted Token.setMatched Token.setCaptured
  split <;> cases k.kind <;> simp

/-- What splicing does to the program and to the tokens. -/
theorem splices_effect {prog : TokId} {con : Bool} {ts : List TokId} {a a' : Acc}
    (h : Splices prog con ts a s a' s') :
    a'.kids = a.kids ++ ts.filter (isStd s) ∧
    (con = true → a'.pos = ((ts.filter (isStd s)).getLast?.map (stopOf s)).getD a.pos) ∧
    (s'.scopes = s.scopes ∧ s'.sctxs = s.sctxs ∧ s'.toks.length = s.toks.length) ∧
    ∀ t k, s.toks[t]? = some k → ∃ k', s'.toks[t]? = some k' ∧ k'.kind = k.kind ∧
      k'.matched.stop = k.matched.stop ∧ k'.name = k.name ∧ k'.children = k.children ∧
      (t ∈ ts.filter (isStd s) → k'.parent = some prog) ∧
      (t ∉ ts.filter (isStd s) → k' = k) := by
  induction h with
  | nil =>
    refine ⟨by simp, fun _ => by simp, ⟨rfl, rfl, rfl⟩, fun t k hk => ⟨k, hk, rfl, rfl, rfl, rfl, ?_, fun _ => rfl⟩⟩
    intro h
    simp at h
  | @pin t ts k a s a' s' hk hp _ ih =>
    have hf : isStd s t = false := by simp [isStd, hk, hp]
    simp only [List.filter_cons, hf, Bool.false_eq_true, if_false]
    exact ih
  | @kid t ts k a s a' s' hk hp _ ih =>
    have hlt : t < s.toks.length := (List.getElem?_eq_some_iff.mp hk).1
    obtain ⟨hs1, hs2, hs3, hs4, hs5, _, _⟩ := adopted_same k prog (lowest a.mats)
    have hget : ∀ u, (s.put t (k.adopted prog (lowest a.mats))).toks[u]? =
        if u = t then some (k.adopted prog (lowest a.mats)) else s.toks[u]? := by
      intro u
      unfold State.put
      rw [List.getElem?_set]
      by_cases hu : t = u
      · subst hu; simp [hlt]
      · simp [hu, Ne.symm hu]
    have hstd : isStd (s.put t (k.adopted prog (lowest a.mats))) = isStd s := by
      funext u
      unfold isStd
      rw [hget]
      split
      · rename_i h; subst h; simp [hk, hs1]
      · rfl
    have hstop : stopOf (s.put t (k.adopted prog (lowest a.mats))) = stopOf s := by
      funext u
      unfold stopOf
      rw [hget]
      split
      · rename_i h; subst h; simp [hk, hs2]
      · rfl
    have hf : isStd s t = true := by simp [isStd, hk, hp]
    obtain ⟨i1, i2, ⟨i3, i4, i5⟩, i6⟩ := ih
    rw [hstd] at i1 i2 i6
    rw [hstop] at i2
    simp only [List.filter_cons, hf, if_true]
    refine ⟨?_, ?_, ⟨i3, i4, ?_⟩, ?_⟩
    · rw [i1]
      have : (a.add con t (k.adopted prog (lowest a.mats))).kids = a.kids ++ [t] := by
        unfold Acc.add; cases con <;> rfl
      rw [this, List.append_assoc]
      rfl
    · intro hc
      rw [i2 hc]
      subst hc
      have : (a.add true t (k.adopted prog (lowest a.mats))).pos = stopOf s t := by
        simp [Acc.add, Acc.cover, stopOf, hk, hs2]
      rw [this]
      cases hl : (ts.filter (isStd s)).getLast? with
      | none =>
        rw [List.getLast?_eq_none_iff] at hl
        rw [hl]
        rfl
      | some u =>
        rw [List.getLast?_cons, hl]
        rfl
    · rw [i5]
      simp [State.put]
    · intro u ku hu
      by_cases hut : u = t
      · subst hut
        rw [hk] at hu
        cases hu
        obtain ⟨k', h1, h2, h3, h4, h5, h6, h7⟩ := i6 u (k.adopted prog (lowest a.mats)) (by rw [hget]; simp)
        refine ⟨k', h1, by rw [h2, hs1], by rw [h3, hs2], by rw [h4, hs3], by rw [h5, hs4], ?_, ?_⟩
        · intro _
          by_cases hm : u ∈ ts.filter (isStd s)
          · exact h6 hm
          · rw [h7 hm, hs5]
        · intro hn
          exact (hn (by simp)).elim
      · obtain ⟨k', h1, h2, h3, h4, h5, h6, h7⟩ := i6 u ku (by rw [hget]; simp [hut, hu])
        refine ⟨k', h1, h2, h3, h4, h5, ?_, ?_⟩
        · intro hm
          exact h6 (by simpa [hut] using hm)
        · intro hn
          exact h7 (fun hm => hn (by simp [hm]))

/-- C20: a program takes up a proxied token: its children that are not pins are added
in order and handed to the program, the token itself is not; the program reads on where
the last of these children ends (where the token ends if it has none); nothing else
changes. -/
theorem C20_spliced {prog t : TokId} {start : Nat} {k : Token} {a a' : Acc}
    (hk : s.toks[t]? = some k) (hstd : k.kind = .standard)
    (h : Takes cfg prog start true (.proxyChildren t) a s a' s') :
    a'.kids = a.kids ++ k.children.filter (isStd s) ∧
    a'.pos = ((k.children.filter (isStd s)).getLast?.map (stopOf s)).getD k.matched.stop ∧
    (s'.scopes = s.scopes ∧ s'.sctxs = s.sctxs ∧ s'.toks.length = s.toks.length) ∧
    ∀ u ku, s.toks[u]? = some ku → ∃ k', s'.toks[u]? = some k' ∧ k'.kind = ku.kind ∧
      k'.matched.stop = ku.matched.stop ∧ k'.name = ku.name ∧ k'.children = ku.children ∧
      (u ∈ k.children.filter (isStd s) → k'.parent = some prog) ∧
      (u ∉ k.children.filter (isStd s) → k' = ku) := by
  cases h with
  | pin hx hk' hp =>
    rcases hx with hx | hx <;> cases hx
    rw [hk] at hk'
    cases hk'
    rw [hstd] at hp
    cases hp
  | proxy hk' hp hs =>
    rw [hk] at hk'
    cases hk'
    have := splices_effect hs
    exact ⟨this.1, this.2.1 rfl, this.2.2⟩

/-- C20, falsified part: after splicing, the program does not read on at the end of the
proxied token but at the end of its last child.  Here the proxied program matched
`"ab"`, discarding `b`; the following `"c"` is tried at `b` and fails. -/
theorem C20_position_counterexample :
    let T : Table := fun
      | 0 => .program [1, 6] "Outer".toList false none false
      | 1 => .proxyChildren 2 "ProxyChildren".toList false
      | 2 => .program [3, 4] "Inner".toList false none false
      | 3 => .equals "A".toList false (.str ['a'])
      | 4 => .discard 5
      | 5 => .equals "B".toList false (.str ['b'])
      | _ => .equals "C".toList false (.str ['c'])
    let T' : Table := fun
      | 0 => .program [2, 6] "Outer".toList false none false
      | i => T i
    let c := Ctx.new ⟨"abc".toList, []⟩ 0 []
    (∃ s', Runs T ⟨true⟩ 0 c 0 ⟨[], [], [[]]⟩ (.err .fail) s' ∧ True) ∧
    (∃ s', Runs T' ⟨true⟩ 0 c 0 ⟨[], [], [[]]⟩ (.ok (.token 0)) s' ∧ True) :=
  ⟨Runs.of_check 9 (by decide +kernel), Runs.of_check 9 (by decide +kernel)⟩

/-- Non-vacuity of C20: the two children of the proxied program become children of the
outer one. -/
example :
    let T : Table := fun
      | 0 => .program [1, 5] "Outer".toList false none false
      | 1 => .proxyChildren 2 "ProxyChildren".toList false
      | 2 => .program [3, 4] "Inner".toList false none false
      | 3 => .equals "A".toList false (.str ['a'])
      | 4 => .equals "B".toList false (.str ['b'])
      | _ => .equals "C".toList false (.str ['c'])
    (exec T ⟨true⟩ 9 0 (Ctx.new ⟨"abc".toList, []⟩ 0 []) 0 ⟨[], [], [[]]⟩).holds
      (fun r s => r = .ok (.token 0) ∧ (s.toks[0]?.map (·.children)) = some [2, 3, 4] ∧
        (s.toks[2]?.map (·.parent)) = some (some 0)) := by
  decide +kernel

/-! ### ExpandRange -/

/-- C21: `ExpandRange` around a token returns, for splicing, a new token with the
matched range as captured range, whose only child is the body's token; a token already
marked for splicing gets its captured range set to its matched range; everything else
passes. -/
theorem C21_expand_range (hm : T m = .expandRange b) :
    Runs T cfg m c sc s r s' ↔ ∃ r0 s1, Runs T cfg b c sc s r0 s1 ∧
      ((∃ t k, r0 = .ok (.token t) ∧ s1.toks[t]? = some k ∧
          r = .ok (.proxyChildren s1.toks.length) ∧
          s' = { s1 with toks := s1.toks ++
            [{ Token.mkMatched c.parser "ExpandRange".toList k.matched k.matched with children := [t] }] }) ∨
       (∃ t k, r0 = .ok (.proxyChildren t) ∧ s1.toks[t]? = some k ∧ r = r0 ∧
          s' = s1.put t (k.setCaptured k.matched)) ∨
       ((∀ t, r0 ≠ .ok (.token t)) ∧ (∀ t, r0 ≠ .ok (.proxyChildren t)) ∧ r = r0 ∧ s' = s1)) := by
  have hstep : ∀ f, execNode T cfg f (T m) c sc = (f b (c.withName "Catch".toList) sc >>= fun r =>
      execExpandRange (fun _ _ _ => pure r) b c sc) := by
    intro f; rw [hm]; rfl
  rw [runs_body hstep, entered_plain (by rw [hm]; rfl)]
  simp only [runs_name]
  have key : ∀ r0 s1, (execExpandRange (fun _ _ _ => pure r0) b c sc s1 = .ok r s' ↔
      ((∃ t k, r0 = .ok (.token t) ∧ s1.toks[t]? = some k ∧
          r = .ok (.proxyChildren s1.toks.length) ∧
          s' = { s1 with toks := s1.toks ++
            [{ Token.mkMatched c.parser "ExpandRange".toList k.matched k.matched with children := [t] }] }) ∨
       (∃ t k, r0 = .ok (.proxyChildren t) ∧ s1.toks[t]? = some k ∧ r = r0 ∧
          s' = s1.put t (k.setCaptured k.matched)) ∨
       ((∀ t, r0 ≠ .ok (.token t)) ∧ (∀ t, r0 ≠ .ok (.proxyChildren t)) ∧ r = r0 ∧ s' = s1))) := by
    intro r0 s1
    have heq : execExpandRange (fun _ _ _ => pure r0) b c sc s1 = (match (generalizing := false) r0 with
        | .ok (.token t) => getTok t >>= fun tk =>
          newTok (Token.mkMatched c.parser "ExpandRange".toList tk.matched tk.matched) >>= fun w =>
          modTok w (fun k => { k with children := k.children ++ [t] }) >>= fun _ =>
          pure (.ok (.proxyChildren w))
        | .ok (.proxyChildren t) => modTok t (fun k => k.setCaptured k.matched) >>= fun _ =>
          pure (.ok (.proxyChildren t))
        | r => pure r : M R) s1 := rfl
    rw [heq]
    constructor
    · intro h1
      split at h1
      · rename_i t
        replace h1 := bind_ok.mp h1
        obtain ⟨k, s2, h2, h1⟩ := h1
        obtain ⟨hk, rfl⟩ := getTok_ok.mp h2
        replace h1 := bind_ok.mp h1
        obtain ⟨w, s3, h3, h1⟩ := h1
        obtain ⟨rfl, rfl⟩ := newTok_ok.mp h3
        replace h1 := bind_ok.mp h1
        obtain ⟨_, s4, h4, h1⟩ := h1
        obtain ⟨kw, hkw, rfl⟩ := modTok_ok.mp h4
        obtain ⟨rfl, rfl⟩ := pure_ok'.mp h1
        refine Or.inl ⟨t, k, rfl, hk, rfl, ?_⟩
        simp at hkw
        subst hkw
        simp [Token.mkMatched]
      · rename_i t
        obtain ⟨_, s4, h4, h1⟩ := bind_ok.mp h1
        obtain ⟨kw, hkw, rfl⟩ := modTok_ok.mp h4
        obtain ⟨rfl, rfl⟩ := pure_ok'.mp h1
        exact Or.inr (Or.inl ⟨t, kw, rfl, hkw, rfl, rfl⟩)
      · rename_i n1 n2
        obtain ⟨rfl, rfl⟩ := pure_ok'.mp h1
        exact Or.inr (Or.inr ⟨fun t h => n1 t h, fun t h => n2 t h, rfl, rfl⟩)
    · rintro (⟨t, k, rfl, hk, rfl, rfl⟩ | ⟨t, k, rfl, hk, rfl, rfl⟩ | ⟨h1, h2, rfl, rfl⟩)
      · refine bind_ok.mpr ⟨k, s1, getTok_ok.mpr ⟨hk, rfl⟩, ?_⟩
        refine bind_ok.mpr ⟨_, _, newTok_ok.mpr ⟨rfl, rfl⟩, ?_⟩
        refine bind_ok.mpr ⟨(), _, modTok_ok.mpr ⟨Token.mkMatched c.parser "ExpandRange".toList k.matched k.matched, by simp, rfl⟩, ?_⟩
        refine pure_ok'.mpr ⟨rfl, ?_⟩
        simp [Token.mkMatched]
      · refine bind_ok.mpr ⟨(), _, modTok_ok.mpr ⟨k, hk, rfl⟩, pure_ok'.mpr ⟨rfl, rfl⟩⟩
      · split
        · exact (h1 _ rfl).elim
        · exact (h2 _ rfl).elim
        · rfl
  constructor
  · rintro ⟨r0, s1, h0, h1⟩
    exact ⟨r0, s1, h0, (key r0 s1).mp h1⟩
  · rintro ⟨r0, s1, h0, h1⟩
    exact ⟨r0, s1, h0, (key r0 s1).mpr h1⟩

/-- C21: inside a program, `ExpandRange` of a token `t` contributes `t` itself as a
child; the program covers the matched range of `t` in its captured range too, and reads
on behind `t`. -/
theorem C21_in_program {prog t w : TokId} {start : Nat} {k kw : Token} {a a' : Acc}
    (hk : s.toks[t]? = some k) (hstd : k.kind = .standard) (herr : k.flags &&& IS_ERROR = 0)
    (hw : s.toks[w]? = some kw) (hwk : kw.kind = .standard) (hwc : kw.captured = k.matched)
    (hwm : kw.matched = k.matched) (hch : kw.children = [t])
    (h : Takes cfg prog start true (.proxyChildren w) a s a' s') :
    a'.kids = a.kids ++ [t] ∧ a'.pos = k.matched.stop ∧
    a'.caps = a.caps ++ [k.matched, k.captured] ∧ a'.mats = a.mats ++ [k.matched, k.matched] ∧
    s' = s.put t { k with parent := some prog } := by
  cases h with
  | pin hx hk' hp =>
    rcases hx with hx | hx <;> cases hx
    rw [hw] at hk'
    cases hk'
    rw [hwk] at hp
    cases hp
  | proxy hk' hp hs =>
    rw [hw] at hk'
    cases hk'
    rw [hch] at hs
    cases hs with
    | pin hk'' hp' =>
      rw [hk] at hk''
      cases hk''
      rw [hstd] at hp'
      cases hp'
    | kid hk'' hp' hr =>
      rw [hk] at hk''
      cases hk''
      cases hr
      have had : ∀ lo, k.adopted prog lo = { k with parent := some prog } := by
        intro lo
        unfold Token.adopted
        rw [if_neg (fun h => h.1 herr)]
      simp [Acc.add, Acc.cover, had, hwc, hwm]

/-- Non-vacuity of C21: the captured range of the program includes the quotes that the
sequence itself does not capture. -/
example :
    let T : Table := fun
      | 0 => .program [1] "P".toList false none false
      | 1 => .expandRange 2
      | _ => .sequence "Q".toList false (.str ['"']) (.str ['"']) (.str ['\\'])
    let T' : Table := fun
      | 0 => .program [2] "P".toList false none false
      | i => T i
    let c := Ctx.new ⟨"\"x\"".toList, []⟩ 0 []
    (exec T ⟨true⟩ 9 0 c 0 ⟨[], [], [[]]⟩).holds
      (fun r s => r = .ok (.token 0) ∧
        (s.toks[0]?.map (fun k => (k.children, k.captured))) = some ([1], ⟨0, 3⟩)) ∧
    (exec T' ⟨true⟩ 9 0 c 0 ⟨[], [], [[]]⟩).holds
      (fun r s => r = .ok (.token 0) ∧
        (s.toks[0]?.map (fun k => (k.children, k.captured))) = some ([1], ⟨1, 2⟩)) := by
  decide +kernel

/-! ### Catch and Map -/

/-- C40: `Catch` hands a success of its body on unchanged and replaces a failure, plain
or error, by whatever the handler returns, run in the heap the body left. -/
theorem C40_catch {f : Ctx → Failure → M R} (hm : T m = .catch_ b f) :
    Runs T cfg m c sc s r s' ↔
      (∃ x, Runs T cfg b c sc s (.ok x) s' ∧ r = .ok x) ∨
      (∃ e s1, Runs T cfg b c sc s (.err e) s1 ∧ f (c.withName "Catch".toList) e s1 = .ok r s') := by
  have hstep : ∀ g, execNode T cfg g (T m) c sc = (g b (c.withName "Catch".toList) sc >>= fun r =>
      match (generalizing := false) r with
      | .ok x => pure (.ok x)
      | .err e => f (c.withName "Catch".toList) e) := by
    intro g; rw [hm]; rfl
  rw [runs_body hstep, entered_plain (by rw [hm]; rfl)]
  simp only [runs_name]
  constructor
  · rintro ⟨r0, s1, h0, h1⟩
    cases r0 with
    | ok x =>
      obtain ⟨rfl, rfl⟩ := pure_ok'.mp h1
      exact Or.inl ⟨x, h0, rfl⟩
    | err e => exact Or.inr ⟨e, s1, h0, h1⟩
  · rintro (⟨x, h0, rfl⟩ | ⟨e, s1, h0, h1⟩)
    · exact ⟨_, _, h0, rfl⟩
    · exact ⟨_, _, h0, h1⟩

/-- C41: `Map` gives a token, or a token marked for splicing, to its success callback
and a failure to its failure callback, in the heap the body left; skips and control
results pass without a callback. -/
theorem C41_map {sf : TokId → Ctx → SCtxId → M R} {ff : Failure → Ctx → SCtxId → M R}
    (hm : T m = .map b sf ff) :
    Runs T cfg m c sc s r s' ↔
      (∃ t s1, (Runs T cfg b c sc s (.ok (.token t)) s1 ∨ Runs T cfg b c sc s (.ok (.proxyChildren t)) s1) ∧
        sf t (c.withName "Map".toList) sc s1 = .ok r s') ∨
      (∃ e s1, Runs T cfg b c sc s (.err e) s1 ∧ ff e (c.withName "Map".toList) sc s1 = .ok r s') ∨
      (Runs T cfg b c sc s r s' ∧ (∃ x, r = .ok x) ∧ (∀ t, r ≠ .ok (.token t)) ∧
        (∀ t, r ≠ .ok (.proxyChildren t))) := by
  have hstep : ∀ g, execNode T cfg g (T m) c sc = (g b (c.withName "Map".toList) sc >>= fun r =>
      match (generalizing := false) r with
      | .ok (.token t) => sf t (c.withName "Map".toList) sc
      | .ok (.proxyChildren t) => sf t (c.withName "Map".toList) sc
      | .ok x => pure (.ok x)
      | .err e => ff e (c.withName "Map".toList) sc) := by
    intro g; rw [hm]; rfl
  rw [runs_body hstep, entered_plain (by rw [hm]; rfl)]
  simp only [runs_name]
  constructor
  · rintro ⟨r0, s1, h0, h1⟩
    split at h1
    · exact Or.inl ⟨_, s1, Or.inl h0, h1⟩
    · exact Or.inl ⟨_, s1, Or.inr h0, h1⟩
    · rename_i x n1 n2
      obtain ⟨rfl, rfl⟩ := pure_ok'.mp h1
      refine Or.inr (Or.inr ⟨h0, ⟨x, rfl⟩, fun t h => ?_, fun t h => ?_⟩)
      · cases h; exact n1 t rfl
      · cases h; exact n2 t rfl
    · exact Or.inr (Or.inl ⟨_, s1, h0, h1⟩)
  · rintro (⟨t, s1, h0 | h0, h1⟩ | ⟨e, s1, h0, h1⟩ | ⟨h0, ⟨x, rfl⟩, h1, h2⟩)
    · exact ⟨_, _, h0, h1⟩
    · exact ⟨_, _, h0, h1⟩
    · exact ⟨_, _, h0, h1⟩
    · refine ⟨_, _, h0, ?_⟩
      cases x with
      | token t => exact (h1 t rfl).elim
      | proxyChildren t => exact (h2 t rfl).elim
      | _ => rfl

/-- Non-vacuity of C40 and C41: a handler that recovers, a callback that renames. -/
example :
    let T : Table := fun
      | 0 => .catch_ 2 (fun _ _ => pure (.ok (.skip 7)))
      | 1 => .map 2 (fun t _ _ => do modTok t (·.setName "N".toList); pure (.ok (.token t)))
          (fun e _ _ => pure (.err e))
      | _ => .equals "A".toList false (.str ['a'])
    let run (i : MatcherId) (src : String) :=
      exec T ⟨true⟩ 9 i (Ctx.new ⟨src.toList, []⟩ 0 []) 0 ⟨[], [], [[]]⟩
    (run 0 "a").holds (fun r _ => r = .ok (.token 0)) ∧
    (run 0 "b").holds (fun r _ => r = .ok (.skip 7)) ∧
    (run 1 "a").holds (fun r s => r = .ok (.token 0) ∧ (s.toks[0]?.map (·.name)) = some "N".toList) ∧
    (run 1 "b").holds (fun r _ => r = .err .fail) := by
  decide +kernel

end Adx
