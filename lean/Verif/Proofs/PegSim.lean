import Verif.Proofs.Peg
import Verif.Spec.Work
import Verif.Props.Scopes
/-
  The engine in lock step with the interpreter: programs, switches and loops.
-/
namespace Adx

namespace Peg

/-! ### Trees in the heap -/

/-- The tokens `ts`, all at `lo` or above, are the roots of the given trees; children
are above their parents. -/
inductive Reps (toks : List Token) : Nat → List TokId → List Tree → Prop
  | nil {lo} : Reps toks lo [] []
  | cons {lo t k ts cs trees} (hl : lo ≤ t) (hk : toks[t]? = some k) (hs : k.kind = .standard)
      (hf : k.flags = 0) (hc : Reps toks (t + 1) k.children cs) (hr : Reps toks lo ts trees) :
      Reps toks lo (t :: ts) (.node k.name k.captured k.matched k.getValue k.getMatchedValue
        (k.getAttribute "__message".toList) cs :: trees)

variable {toks toks' : List Token} {lo : Nat} {ts : List TokId} {trees : List Tree}

theorem Reps.lower {lo' : Nat} (h : Reps toks lo ts trees) (hl : lo' ≤ lo) : Reps toks lo' ts trees := by
  induction h generalizing lo' with
  | nil => exact .nil
  | cons h1 hk hs hf hc _ _ ih => exact .cons (Nat.le_trans hl h1) hk hs hf hc (ih hl)

theorem Reps.append {ts' : List TokId} {trees' : List Tree} (h : Reps toks lo ts trees)
    (h' : Reps toks lo ts' trees') : Reps toks lo (ts ++ ts') (trees ++ trees') := by
  induction h with
  | nil => exact h'
  | cons h1 hk hs hf hc _ _ ih => exact .cons h1 hk hs hf hc (ih h')

theorem Reps.nil_iff (h : Reps toks lo ts trees) : ts = [] ↔ trees = [] := by
  cases h <;> simp

/-- Only the parents of tokens may have changed. -/
theorem Reps.change (h : Reps toks lo ts trees)
    (hc : ∀ (i : Nat) (k : Token), lo ≤ i → toks[i]? = some k → ∃ q, toks'[i]? = some { k with parent := q }) :
    Reps toks' lo ts trees := by
  induction h with
  | nil => exact .nil
  | @cons lo t k ts cs trees hl hk hs hf _ _ ih1 ih2 =>
    obtain ⟨q, hk'⟩ := hc t k hl hk
    have := ih1 fun i k hi => hc i k (by omega)
    exact .cons (k := { k with parent := q }) hl hk' hs hf this (ih2 hc)

theorem Reps.pre (h : Reps toks lo ts trees) :
    ∃ l, Pre toks ts l ∧ (∀ u ∈ l, isErrorTok toks u = false) := by
  induction h with
  | nil => exact ⟨[], .nil, by simp⟩
  | @cons lo t k ts cs trees hl hk hs hf _ _ ih1 ih2 =>
    obtain ⟨l1, p1, e1⟩ := ih1
    obtain ⟨l2, p2, e2⟩ := ih2
    refine ⟨t :: (l1 ++ l2), .cons hk p1 p2, ?_⟩
    intro u hu
    rcases List.mem_cons.mp hu with rfl | hu
    · rw [isErrorTok_eq hk]
      unfold Token.flagsEnabled
      rw [hf]
      decide
    · rcases List.mem_append.mp hu with hu | hu
      · exact e1 u hu
      · exact e2 u hu

theorem Reps.treeOf (h : Reps toks lo ts trees) : ∀ {n : Nat}, toks.length - lo < n →
    ts.mapM (treeOf toks n) = some trees := by
  induction h with
  | nil => intro n _; rfl
  | @cons lo t k ts cs trees hl hk hs hf _ _ ih1 ih2 =>
    intro n hn
    cases n with
    | zero => omega
    | succ n =>
      have hlt : t < toks.length := (List.getElem?_eq_some_iff.mp hk).1
      have h1 : Adx.treeOf toks (n + 1) t = some (.node k.name k.captured k.matched k.getValue k.getMatchedValue
          (k.getAttribute "__message".toList) cs) := by
        unfold Adx.treeOf
        rw [hk]
        dsimp only
        rw [ih1 (n := n) (by omega)]
      rw [List.mapM_cons, h1, ih2 hn]
      rfl

/-- The root of a tree. -/
theorem Reps.root {t : TokId} {tree : Tree} (h : Reps toks lo [t] [tree]) :
    ∃ k, lo ≤ t ∧ toks[t]? = some k ∧ k.kind = .standard ∧ k.flags = 0 ∧ k.matched = tree.matched ∧
      k.captured = tree.captured ∧ Reps toks (t + 1) k.children tree.children := by
  cases h with
  | cons hl hk hs hf hc _ => exact ⟨_, hl, hk, hs, hf, rfl, rfl, hc⟩

/-- The tokens below `b` are the same in both heaps, and none is lost. -/
structure Keeps (b : Nat) (s s' : State) : Prop where
  len : s.toks.length ≤ s'.toks.length
  same : ∀ i, i < b → s'.toks[i]? = s.toks[i]?

theorem Keeps.refl (b : Nat) (s : State) : Keeps b s s := ⟨Nat.le_refl _, fun _ _ => rfl⟩

theorem Keeps.trans {b b' : Nat} {s s1 s2 : State} (h : Keeps b s s1) (h' : Keeps b' s1 s2) (hb : b ≤ b') :
    Keeps b s s2 :=
  ⟨Nat.le_trans h.len h'.len, fun i hi => by rw [h'.same i (by omega), h.same i hi]⟩

theorem Keeps.reps {b : Nat} {s s' : State} (h : Keeps b s s') (hb : s.toks.length ≤ b)
    (hr : Reps s.toks lo ts trees) : Reps s'.toks lo ts trees := by
  refine hr.change fun i k _ hk => ⟨k.parent, ?_⟩
  have hlt : i < s.toks.length := (List.getElem?_eq_some_iff.mp hk).1
  rw [h.same i (by omega), hk]

theorem Keeps.put {b : Nat} {s : State} {t : TokId} {k : Token} (ht : b ≤ t) : Keeps b s (s.put t k) := by
  refine ⟨by simp [State.put], fun i hi => ?_⟩
  show (s.toks.set t k)[i]? = _
  rw [List.getElem?_set_ne (by omega)]

theorem put_reps {s : State} {t : TokId} {k : Token} {q : Option TokId} (hk : s.toks[t]? = some k)
    (hr : Reps s.toks lo ts trees) : Reps (s.put t { k with parent := q }).toks lo ts trees := by
  refine hr.change fun i k' _ hk' => ?_
  by_cases hi : i = t
  · subst hi
    rw [hk] at hk'
    cases hk'
    exact ⟨q, put_get hk⟩
  · refine ⟨k'.parent, ?_⟩
    show (s.toks.set t _)[i]? = _
    rw [List.getElem?_set_ne (fun h => hi h.symm), hk']

/-! ### Lock step -/

theorem Sim.ok {α β : Type} {a : α} {s : State} {b : β} {Q : α → State → β → Prop} (h : Q a s b) :
    Sim (.ok a s) (some b) Q := h

theorem Sim.mono {α β : Type} {x : Res α} {y : Option β} {Q Q' : α → State → β → Prop} (h : Sim x y Q)
    (hq : ∀ a s b, Q a s b → Q' a s b) : Sim x y Q' := by
  unfold Sim at h ⊢
  split at h
  · exact hq _ _ _ h
  · trivial
  · exact h.elim

/-- The same with the interpreter's result at hand. -/
theorem Sim.mono' {α β : Type} {x : Res α} {y : Option β} {Q Q' : α → State → β → Prop} (h : Sim x y Q)
    (hq : ∀ a s b, y = some b → Q a s b → Q' a s b) : Sim x y Q' := by
  unfold Sim at h ⊢
  split at h
  · exact hq _ _ _ rfl h
  · trivial
  · exact h.elim

theorem Sim.bind {α β γ δ : Type} {x : M α} {k : α → M γ} {s : State} {y : Option β} {g : β → Option δ}
    {Q : α → State → β → Prop} {Q' : γ → State → δ → Prop} (h : Sim (x s) y Q)
    (hk : ∀ a s1 b, y = some b → Q a s1 b → Sim (k a s1) (g b) Q') : Sim ((x >>= k) s) (y.bind g) Q' := by
  rw [bind_eq]
  unfold M.bind
  unfold Sim at h
  split at h
  · rename_i a s1 b h1
    rw [h1]
    exact hk a s1 b rfl h
  · rename_i h1
    rw [h1]
    trivial
  · exact h.elim

theorem Sim.map {α β γ δ : Type} {x : M α} {k : α → M γ} {s : State} {y : Option β} {g : β → δ}
    {Q : α → State → β → Prop} {Q' : γ → State → δ → Prop} (h : Sim (x s) y Q)
    (hk : ∀ a s1 b, y = some b → Q a s1 b → ∃ a' s2, k a s1 = .ok a' s2 ∧ Q' a' s2 (g b)) :
    Sim ((x >>= k) s) (y.map g) Q' := by
  rw [Option.map_eq_bind]
  refine h.bind fun a s1 b hb hq => ?_
  obtain ⟨a', s2, h1, h2⟩ := hk a s1 b hb hq
  rw [h1]
  exact h2

/-- The engine's result shows what the interpreter says. -/
inductive Shows (toks : List Token) (lo : Nat) : R → Result → Prop
  | fail : Shows toks lo (.err .fail) .fail
  | skip {k : Int} {n : Nat} (h : k = n) : Shows toks lo (.ok (.skip k)) (.skip n)
  | token {t tree} (h : Reps toks lo [t] [tree]) : Shows toks lo (.ok (.token t)) (.token tree)
  | splice {t tree} (h : Reps toks lo [t] [tree]) : Shows toks lo (.ok (.proxyChildren t)) (.splice tree)

theorem Shows.lower {lo' : Nat} {r : R} {x : Result} (h : Shows toks lo r x) (hl : lo' ≤ lo) :
    Shows toks lo' r x := by
  cases h with
  | fail => exact .fail
  | skip h => exact .skip h
  | token h => exact .token (h.lower hl)
  | splice h => exact .splice (h.lower hl)

/-- The engine's recursion `f` and the interpreter's `ev` agree; `wk` counts the tokens. -/
def Lock (T : Table) (ρ : Str → Option MatcherId) (S : MatcherId → Prop) (p : Parser) (stop : Nat)
    (f : ExecFn) (ev : MatcherId → Nat → Option Result) (wk : MatcherId → Nat → Nat) : Prop :=
  ∀ m, S m → ∀ c sc s, Ready p stop c → Cut p.src stop c.offset.start → Resolves ρ sc (entered T m sc s) →
    Sim (f m c sc s) (ev m c.offset.start) fun r s' x =>
      Shows s'.toks s.toks.length r x ∧ Keeps s.toks.length s s' ∧ Resolves ρ sc s' ∧
        s'.toks.length = s.toks.length + wk m c.offset.start

/-- What a program has collected, on both sides. -/
structure Tracks (p : Parser) (stop start : Nat) (name : Str) (prog : TokId) (s : State) (a : Acc) (r : Run) :
    Prop where
  pos : a.pos = r.pos
  caps : a.caps = r.caps
  mats : (a.mats = [] ∧ r.far = start ∧ r.pos = start) ∨ (lowest a.mats = start ∧ highest a.mats = r.far)
  kids : Reps s.toks (prog + 1) a.kids r.kids
  ok : RunOk p.src stop start r
  tok : s.toks[prog]? = some (Token.mk' p name ⟨0, 0⟩)

section
variable {T : Table} {cfg : Cfg} {ρ : Str → Option MatcherId} {S : MatcherId → Prop} {p : Parser} {stop start : Nat}
  {name : Str} {prog : TokId} {s s' : State} {a : Acc} {r : Run} {c : Ctx} {sc : SCtxId}

theorem small {n : Nat} (h : n ≤ isizeMax) : n < usizeMax := by
  have : isizeMax < usizeMax := by decide
  omega

theorem Tracks.keep (h : Tracks p stop start name prog s a r) (hk : Keeps s.toks.length s s') :
    Tracks p stop start name prog s' a r := by
  refine ⟨h.pos, h.caps, h.mats, hk.reps (Nat.le_refl _) h.kids, h.ok, ?_⟩
  rw [hk.same _ (List.getElem?_eq_some_iff.mp h.tok).1, h.tok]

theorem adopted_plain {k : Token} {n : Nat} (h : k.flags = 0) : k.adopted prog n = { k with parent := some prog } := by
  unfold Token.adopted
  rw [if_neg]
  rw [h]
  exact fun hh => hh.1 (by decide)

/-- The token without its parent. -/
def Token.orphan (k : Token) : Token := { k with parent := none }

theorem put_length (s : State) (t : TokId) (k : Token) : (s.put t k).toks.length = s.toks.length :=
  List.length_set ..

/-- Adding a token. -/
theorem Tracks.add (hb : blen p.src ≤ isizeMax) (h : Tracks p stop start name prog s a r) {t : TokId} {tree : Tree}
    (ht : Reps s.toks (prog + 1) [t] [tree]) {q : Nat} (hq : start ≤ q) (hsp : Spot p.src stop q tree)
    (hm : a.mats = [] → q = r.pos) :
    ∃ k, s.toks[t]? = some k ∧ k.kind = .standard ∧ k.flags = 0 ∧ k.matched = tree.matched ∧
      Tracks p stop start name prog (s.put t (k.adopted prog (lowest a.mats)))
        (a.add true t (k.adopted prog (lowest a.mats))) (r.add tree) ∧
      Keeps (prog + 1) s (s.put t (k.adopted prog (lowest a.mats))) ∧
      (a.add true t (k.adopted prog (lowest a.mats))).mats ≠ [] := by
  obtain ⟨k, hl, hk, hs, hf, hmt, hcp, hch⟩ := ht.root
  refine ⟨k, hk, hs, hf, hmt, ?_⟩
  rw [adopted_plain hf]
  have hcut := hsp.cut.le
  have hst := h.ok.le
  have hfar := h.ok.far.le
  have hlt := hsp.lt
  have hss := hsp.start
  have husz : usizeMax = 2 * isizeMax + 1 := by decide
  refine ⟨⟨?_, ?_, ?_, ?_, h.ok.add hq hsp, ?_⟩, Keeps.put hl, by simp [Acc.add, Acc.cover]⟩
  · show k.matched.stop = _
    rw [hmt]
    rfl
  · show a.caps ++ [k.captured] = r.caps ++ [tree.captured]
    rw [h.caps, hcp]
  · refine Or.inr ⟨?_, ?_⟩
    · show lowest (a.mats ++ [k.matched]) = start
      rw [lowest_append, hmt, hss]
      rcases h.mats with ⟨h1, h2, h3⟩ | ⟨h1, h2⟩
      · have := hm h1
        rw [h1]
        show min usizeMax _ = _
        omega
      · rw [h1]
        omega
    · show highest (a.mats ++ [k.matched]) = max r.far tree.matched.stop
      rw [highest_append, hmt]
      rcases h.mats with ⟨h1, h2, h3⟩ | ⟨h1, h2⟩
      · have := hm h1
        rw [h1]
        show max 0 _ = _
        omega
      · rw [h2]
  · refine Reps.append (put_reps hk h.kids) (put_reps hk ?_)
    exact ht
  · show (s.toks.set t _)[prog]? = _
    rw [List.getElem?_set_ne (by omega), h.tok]

/-- Splicing tokens in. -/
theorem Tracks.splice (hb : blen p.src ≤ isizeMax) {trees : List Tree} {ts : List TokId} {lo : Nat}
    {toks : List Token} (hr : Reps toks lo ts trees) (hlo : prog + 1 ≤ lo) :
    ∀ {s : State} {a : Acc} {r : Run}, (∀ i : Nat, s.toks[i]?.map Token.orphan = toks[i]?.map Token.orphan) →
      Tracks p stop start name prog s a r → a.mats ≠ [] →
      (∀ x ∈ trees, ∃ q, start ≤ q ∧ Spot p.src stop q x) →
      ∃ a' s', Splices prog true ts a s a' s' ∧ Tracks p stop start name prog s' a' (trees.foldl Run.add r) ∧
        Keeps (prog + 1) s s' ∧ (∀ sc, Resolves ρ sc s → Resolves ρ sc s') ∧ s'.toks.length = s.toks.length := by
  induction hr with
  | nil => intro s a r _ h _ _; exact ⟨a, s, .nil, h, .refl _ _, fun _ h => h, rfl⟩
  | @cons lo t k ts cs trees hl hk hs hf hc hr ih1 ih2 =>
    intro s a r hsame h hm hsp
    have hch : ∀ {lo ts trees}, Reps toks lo ts trees → Reps s.toks lo ts trees := by
      intro lo ts trees hx
      refine hx.change fun i k' _ hk' => ?_
      have := hsame i
      rw [hk'] at this
      obtain ⟨k2, hk2, he⟩ := Option.map_eq_some_iff.mp this
      refine ⟨k2.parent, ?_⟩
      rw [hk2]
      cases k2
      cases k'
      simp only [Token.orphan] at he
      cases he
      rfl
    have h1 : Reps s.toks (prog + 1) [t] [_] := hch ((Reps.cons hl hk hs hf hc .nil).lower hlo)
    obtain ⟨q, hq, hspot⟩ := hsp _ (List.mem_cons_self ..)
    obtain ⟨k', hk', hs', hf', hmt, htr, hkeep, hne⟩ := h.add hb h1 hq hspot (fun h => (hm h).elim)
    have hsame' : ∀ i : Nat, (s.put t (k'.adopted prog (lowest a.mats))).toks[i]?.map Token.orphan = toks[i]?.map Token.orphan := by
      intro i
      rw [← hsame i]
      by_cases hi : i = t
      · subst hi
        rw [put_get hk', hk', adopted_plain hf']
        rfl
      · show (s.toks.set t _)[i]?.map _ = _
        rw [List.getElem?_set_ne (fun h => hi h.symm)]
    obtain ⟨a', s', h2, h3, h4, h5, h6⟩ := ih2 hlo hsame' htr hne (fun x hx => hsp x (List.mem_cons_of_mem _ hx))
    exact ⟨a', s', .kid hk' hs' h2, h3, hkeep.trans h4 (Nat.le_refl _), fun _ h => h5 _ h,
      h6.trans (put_length ..)⟩

theorem moves_nat {pos n : Nat} (h : pos + n < 2 ^ 64) : Moves cfg pos n (pos + n) := by
  have h1 : (n : Int) % 2 ^ 64 = n := Int.emod_eq_of_lt (by omega) (by omega)
  have h2 : ((pos : Int) + n) % 2 ^ 64 = pos + n := Int.emod_eq_of_lt (by omega) (by omega)
  refine ⟨?_, fun _ => ?_⟩
  · rw [h2]; omega
  · rw [h1]; omega

/-- Skipping text. -/
theorem Tracks.skip (hb : blen p.src ≤ isizeMax) (h : Tracks p stop start name prog s a r) {n : Nat}
    (hn : Cut p.src stop (r.pos + n)) :
    Moves cfg a.pos n (a.pos + n) ∧ Tracks p stop start name prog s (a.jump start (a.pos + n)) (r.take (.skip n)) := by
  have hcut := hn.le
  have hst := h.ok.le
  have hpos := h.pos
  have husz : usizeMax = 2 * isizeMax + 1 := by decide
  have h64 : 2 ^ 64 = usizeMax + 1 := by decide
  refine ⟨moves_nat (by omega), ?_, h.caps, ?_, h.kids, h.ok.take hn, h.tok⟩
  · show a.pos + n = r.pos + n
    omega
  · refine Or.inr ⟨?_, ?_⟩
    · show lowest (a.mats ++ [⟨start, a.pos + n⟩]) = start
      rw [lowest_append]
      rcases h.mats with ⟨h1, h2, h3⟩ | ⟨h1, h2⟩
      · rw [h1]
        show min usizeMax (min start usizeMax) = _
        omega
      · rw [h1]
        show min start (min start usizeMax) = _
        omega
    · show highest (a.mats ++ [⟨start, a.pos + n⟩]) = max r.far (r.pos + n)
      rw [highest_append]
      rcases h.mats with ⟨h1, h2, h3⟩ | ⟨h1, h2⟩
      · rw [h1]
        show max 0 (a.pos + n) = _
        omega
      · rw [h2]
        show max r.far (a.pos + n) = _
        omega

/-- Handing over what has been collected. -/
theorem Tracks.finish (hb : blen p.src ≤ isizeMax) (h : Tracks p stop start name prog s a r) :
    ∃ q s', Completes prog a s q s' ∧ Shows s'.toks prog q (r.finish p name start) ∧ Keeps prog s s' ∧
      (∀ sc, Resolves ρ sc s → Resolves ρ sc s') ∧ s'.toks.length = s.toks.length := by
  unfold Run.finish
  by_cases hk : r.kids = []
  · rw [if_pos hk]
    exact ⟨_, _, .nothing (Or.inl (h.kids.nil_iff.mpr hk)), .fail, .refl _ _, fun _ h => h, rfl⟩
  · rw [if_neg hk]
    obtain ⟨h1, h2⟩ := h.ok.some hk
    have hcut := h.ok.far.le
    have hlc := lowest_caps h1 h.ok.caps
    have hm : lowest a.mats = start ∧ highest a.mats = r.far := by
      rcases h.mats with ⟨-, h3, -⟩ | h3
      · omega
      · exact h3
    have husz : usizeMax = 2 * isizeMax + 1 := by decide
    refine ⟨_, _, .token (fun hh => hk (h.kids.nil_iff.mp hh)) (by rw [h.caps]; omega) (by omega) h.tok, ?_,
      Keeps.put (Nat.le_refl _), fun _ h => h, put_length ..⟩
    refine .token ?_
    have hspan : span a.mats = ⟨start, r.far⟩ := by unfold span; rw [hm.1, hm.2]
    rw [h.caps, hspan]
    refine .cons (Nat.le_refl _) (put_get h.tok) rfl rfl ?_ .nil
    show Reps (s.put prog _).toks (prog + 1) a.kids r.kids
    refine h.kids.change fun i k hi hk' => ⟨k.parent, ?_⟩
    show (s.toks.set prog _)[i]? = _
    rw [List.getElem?_set_ne (by omega), hk']

theorem take_idle (h : RunOk p.src stop start r) : r.take (.skip 0) = r := by
  have hle := h.le'
  cases r
  show Run.mk _ (max _ _) _ _ = _
  rw [Nat.max_eq_left (by exact hle)]
  rfl

variable {f : ExecFn} {ev : MatcherId → Nat → Option Result} {wk : MatcherId → Nat → Nat} {iter : Option (Nat × Nat)} {count : Nat}

theorem Resolves.enter {G : MatcherId → Expr} (hG : Grammar T ρ S G) {m : MatcherId} (hm : S m)
    (h : Resolves ρ sc s) : Resolves ρ sc (entered T m sc s) := by
  unfold entered
  split
  · rename_i hc
    have hnamed := hG.named m hm hc
    generalize (T m).name = k at hnamed
    have hget : ∀ (st : List ScopeId) (top : ScopeId) (x : Str), x ≠ k →
        lookupStack (s.scopes.set top ((s.scopes[top]?.getD []).insert k (.matcher m))) st x =
          lookupStack s.scopes st x := by
      intro st top x hx
      induction st with
      | nil => rfl
      | cons i st ih =>
        unfold lookupStack
        rw [ih]
        have : AMap.get ((s.scopes.set top ((s.scopes[top]?.getD []).insert k (.matcher m)))[i]?.getD []) x =
            AMap.get (s.scopes[i]?.getD []) x := by
          rw [List.getElem?_set]
          split
          · rename_i hi
            subst hi
            split
            · rw [Option.getD_some, AMap.get_insert, if_neg hx]
            · rename_i hlt
              rw [List.getElem?_eq_none (by omega)]
          · rfl
        rw [this]
    intro n x hn
    have hlook := h n x hn
    unfold State.bindVar
    unfold State.lookup at hlook ⊢
    cases hst : s.sctxs[sc]?.getD [] with
    | nil =>
      rw [hst] at hlook
      cases hlook
    | cons top st =>
      dsimp only
      rw [hst] at hlook ⊢
      by_cases hk : n = k
      · subst hk
        obtain rfl := hnamed x hn
        by_cases hlt : top < s.scopes.length
        · unfold lookupStack
          rw [List.getElem?_set_self hlt, Option.getD_some, AMap.get_insert, if_pos rfl]
        · rw [List.set_eq_of_length_le (Nat.le_of_not_lt hlt)]
          exact hlook
      · rw [hget _ _ _ hk]
        exact hlook
  · exact h

/-- One after the other. -/
theorem sim_parts {G : MatcherId → Expr} (hG : Grammar T ρ S G) (hb : blen p.src ≤ isizeMax)
    (hcon : ∀ m, S m → ∀ x pos, (T m).isConsuming = false → ev m pos = some x → x = .skip 0)
    (hL : Lock T ρ S p stop f ev wk) (hev : EvGood p stop S ev) (hc : Ready p stop c) {ms : List MatcherId} (hms : ∀ m ∈ ms, S m) :
    ∀ {s : State} {a : Acc} {r : Run}, Tracks p stop start name prog s a r → Resolves ρ sc s →
      Sim (runPatterns T cfg f prog sc start iter false count ms (a.ps c) s) (parts ev ms r) fun fl s' x =>
        Keeps prog s s' ∧ Resolves ρ sc s' ∧ s'.toks.length = s.toks.length + partsWork ev wk ms r ∧
        ((x.1 = true ∧ ∃ a', fl = .next (a'.ps c) ∧ Tracks p stop start name prog s' a' x.2) ∨
         (x.1 = false ∧ ∃ q, fl = .ret q ∧
            Shows s'.toks prog q (if iter.isSome then x.2.finish p name start else .fail))) := by
  induction ms with
  | nil =>
    intro s a r h hr
    exact Sim.ok ⟨.refl _ _, hr, rfl, Or.inl ⟨rfl, a, rfl, h⟩⟩
  | cons m ms ih =>
    intro s a r h hres
    have hm := hms m (List.mem_cons_self ..)
    have hprog : prog < s.toks.length := (List.getElem?_eq_some_iff.mp h.tok).1
    rw [runPatterns_eq]
    have hrun := hL m hm { (a.ps c).ctx with stack := prog :: (a.ps c).ctx.stack } sc s
      ⟨hc.parser, hc.stop, hc.debug⟩ (by show Cut p.src stop a.pos; rw [h.pos]; exact h.ok.pos) (hres.enter hG hm)
    have hpos : ({ (a.ps c).ctx with stack := prog :: (a.ps c).ctx.stack } : Ctx).offset.start = r.pos := h.pos
    rw [hpos] at hrun
    refine Sim.bind hrun ?_
    rintro q s1 x hx ⟨hsh, hkeep, hres1, hlen1⟩
    have hone : x = .fail → partsWork ev wk (m :: ms) r = wk m r.pos := by
      rintro rfl
      show _ + _ = _
      rw [hx]
      rfl
    have hmore : x ≠ .fail → partsWork ev wk (m :: ms) r = wk m r.pos + partsWork ev wk ms (r.take x) := by
      intro hf
      show _ + _ = _
      rw [hx]
      cases x <;> first | exact (hf rfl).elim | rfl
    have hgood := hev m hm r.pos h.ok.pos x hx
    have htr := h.keep hkeep
    have hkeep' : Keeps prog s s1 := (Keeps.trans (b := prog) ⟨Nat.le_refl _, fun _ _ => rfl⟩ hkeep (Nat.le_of_lt hprog))
    have rest : x ≠ .fail → ∀ {s2 : State} {a2 : Acc}, Tracks p stop start name prog s2 a2 (r.take x) →
        Resolves ρ sc s2 → Keeps prog s1 s2 → s2.toks.length = s1.toks.length →
        Sim (runPatterns T cfg f prog sc start iter false count ms (a2.ps c) s2) (parts ev ms (r.take x)) fun fl s' x =>
          Keeps prog s s' ∧ Resolves ρ sc s' ∧ s'.toks.length = s.toks.length + partsWork ev wk (m :: ms) r ∧
          ((x.1 = true ∧ ∃ a', fl = .next (a'.ps c) ∧ Tracks p stop start name prog s' a' x.2) ∨
           (x.1 = false ∧ ∃ q, fl = .ret q ∧
              Shows s'.toks prog q (if iter.isSome then x.2.finish p name start else .fail))) := by
      intro hf s2 a2 h2 hr2 hk2 hl2
      refine (ih (fun y hy => hms y (List.mem_cons_of_mem _ hy)) h2 hr2).mono ?_
      rintro fl s3 y ⟨h3, h4, h5, h6⟩
      have := hmore hf
      exact ⟨(hkeep'.trans hk2 (Nat.le_refl _)).trans h3 (Nat.le_refl _), h4, by omega, h6⟩
    have hcons : x ≠ .skip 0 → (T m).isConsuming = true := by
      intro hne
      cases hcc : (T m).isConsuming with
      | true => rfl
      | false => exact (hne (hcon m hm x r.pos hcc hx)).elim
    cases hsh with
    | fail =>
      dsimp only
      rw [bind_run (dbg_off (c := (a.ps c).ctx) hc.debug)]
      rw [if_neg (by simp)]
      cases iter with
      | none => exact Sim.ok ⟨hkeep', hres1, by rw [hone rfl]; exact hlen1, Or.inr ⟨rfl, _, rfl, .fail⟩⟩
      | some lh =>
        obtain ⟨q, s', hcomp, hshow, hk2, hres2, hl2⟩ := htr.finish (ρ := ρ) hb
        rw [if_pos (by rfl), bind_run (finalize_false.mpr hcomp)]
        exact Sim.ok ⟨hkeep'.trans hk2 (Nat.le_refl _), hres2 _ hres1, by rw [hone rfl, hl2]; exact hlen1,
          Or.inr ⟨rfl, _, rfl, hshow⟩⟩
    | @skip k n hk =>
      subst hk
      dsimp only
      rw [if_neg (by simp)]
      by_cases hcc : (T m).isConsuming = true
      · rw [if_pos hcc]
        obtain ⟨hmv, htr2⟩ := htr.skip (cfg := cfg) hb hgood
        rw [bind_run (handleSkip_ok.mpr ⟨_, hmv, rfl, rfl⟩)]
        exact rest nofun htr2 hres1 (.refl _ _) rfl
      · rw [if_neg hcc]
        have h0 := hcon m hm _ r.pos (by simpa using hcc) hx
        cases h0
        refine rest nofun ?_ hres1 (.refl _ _) rfl
        rw [take_idle h.ok]
        exact htr
    | @token t tree hrep =>
      dsimp only
      have hcc := hcons (by simp)
      have hrep' : Reps s1.toks (prog + 1) [t] [tree] := hrep.lower hprog
      obtain ⟨k, hk, hs, hf, hmt, htr2, hk2, -⟩ := htr.add hb hrep' h.ok.le hgood.spot (fun _ => rfl)
      rw [bind_run (getTok_ok.mpr ⟨hk, rfl⟩)]
      have hlt := hgood.spot.lt
      rw [if_neg (by rw [not_shouldDiscard_iff.mpr hs]; simp), if_neg (by simp)]
      rw [bind_run (handleToken_ok.mpr ⟨k, hk, fun _ _ => ?_, rfl, rfl⟩)]
      · rw [hcc, hs]
        refine rest nofun htr2 hres1 ?_ (put_length ..)
        exact Keeps.trans (b := prog) (.refl _ _) hk2 (by omega)
      · rw [hmt, h.pos]
        omega
    | @splice t tree hrep =>
      dsimp only
      have hcc := hcons (by simp)
      have hrep' : Reps s1.toks (prog + 1) [t] [tree] := hrep.lower hprog
      obtain ⟨k, hl, hk, hs, hf, hmt, hcp, hch⟩ := hrep'.root
      rw [bind_run (getTok_ok.mpr ⟨hk, rfl⟩)]
      rw [if_neg (by rw [not_shouldDiscard_iff.mpr hs]; simp), if_neg (by simp)]
      have hspot := hgood.spot
      have hlt := hspot.lt
      have hss := hspot.start
      have hcov : Tracks p stop start name prog s1 (a.cover k)
          { r.goto tree.matched.stop with caps := r.caps ++ [tree.captured] } := by
        have husz : usizeMax = 2 * isizeMax + 1 := by decide
        have hcut := hspot.cut.le
        have hle := h.ok.le
        refine ⟨by show k.matched.stop = _; rw [hmt]; rfl, by show a.caps ++ [k.captured] = _; rw [h.caps, hcp],
          Or.inr ⟨?_, ?_⟩, htr.kids, h.ok.cover hspot, htr.tok⟩
        · show lowest (a.mats ++ [k.matched]) = start
          rw [lowest_append, hmt, hss]
          rcases h.mats with ⟨h1, h2, h3⟩ | ⟨h1, h2⟩
          · rw [h1]
            show min usizeMax _ = _
            omega
          · rw [h1]
            omega
        · show highest (a.mats ++ [k.matched]) = max r.far tree.matched.stop
          rw [highest_append, hmt]
          rcases h.mats with ⟨h1, h2, h3⟩ | ⟨h1, h2⟩
          · rw [h1]
            show max 0 _ = _
            omega
          · rw [h2]
      obtain ⟨a', s', hsp, htr2, hk2, hres2, hl2⟩ := Tracks.splice (ρ := ρ) hb hch (Nat.le_succ_of_le hl) (fun _ => rfl) hcov (by simp [Acc.cover])
        (fun x hx => by
          obtain ⟨q, hq, hs⟩ := hgood.kids x hx
          have hle := h.ok.le
          exact ⟨q, by omega, hs⟩)
      rw [bind_run (handleExtract_ok.mpr ⟨k, a', hk, rfl, by rw [hcc, hs]; exact hsp⟩)]
      refine rest nofun htr2 ?_ ?_ hl2
      · exact hres2 _ hres1
      · exact Keeps.trans (b := prog) (.refl _ _) hk2 (by omega)

/-- Ordered choice. -/
theorem sim_choose {G : MatcherId → Expr} (hG : Grammar T ρ S G) (hb : blen p.src ≤ isizeMax)
    (hL : Lock T ρ S p stop f ev wk) (hc : Ready p stop c) {pos : Nat} (hcut : Cut p.src stop pos)
    {ms : List MatcherId} (hms : ∀ m ∈ ms, S m) :
    ∀ {s : State} {a : Acc}, a.pos = pos → a.kids = [] → prog < s.toks.length → Resolves ρ sc s →
      Sim (runPatterns T cfg f prog sc start none true count ms (a.ps c) s) (choose ev pos ms) fun fl s' x =>
        Keeps (prog + 1) s s' ∧ Resolves ρ sc s' ∧ s'.toks.length = s.toks.length + chooseWork ev wk pos ms ∧
        ((x = .fail ∧ ∃ a' : Acc, fl = .next (a'.ps c) ∧ a'.kids = []) ∨
         (∃ q, fl = .ret q ∧ Shows s'.toks (prog + 1) q x)) := by
  induction ms with
  | nil =>
    intro s a hp hk hl hr
    exact Sim.ok ⟨.refl _ _, hr, rfl, Or.inl ⟨rfl, a, rfl, hk⟩⟩
  | cons m ms ih =>
    intro s a hp hk hl hres
    have hm := hms m (List.mem_cons_self ..)
    rw [runPatterns_eq]
    have hrun := hL m hm { (a.ps c).ctx with stack := prog :: (a.ps c).ctx.stack } sc s
      ⟨hc.parser, hc.stop, hc.debug⟩ (by show Cut p.src stop a.pos; rw [hp]; exact hcut) (hres.enter hG hm)
    have hpos : ({ (a.ps c).ctx with stack := prog :: (a.ps c).ctx.stack } : Ctx).offset.start = pos := hp
    rw [hpos] at hrun
    refine Sim.bind hrun ?_
    rintro q s1 x hx ⟨hsh, hkeep, hres1, hlen1⟩
    have hcw : chooseWork ev wk pos (m :: ms) = wk m pos +
        match some x with
        | some .fail => chooseWork ev wk pos ms
        | some (.skip 0) => chooseWork ev wk pos ms
        | _ => 0 := by rw [← hx]; rfl
    have hkeep' : Keeps (prog + 1) s s1 := Keeps.trans (b := prog + 1) (.refl _ _) hkeep hl
    have hl1 : prog < s1.toks.length := Nat.lt_of_lt_of_le hl hkeep.len
    have hcle := hcut.le
    have rest : chooseWork ev wk pos (m :: ms) = wk m pos + chooseWork ev wk pos ms →
        ∀ {a2 : Acc}, a2.pos = pos → a2.kids = [] →
        Sim (runPatterns T cfg f prog sc start none true count ms (a2.ps c) s1) (choose ev pos ms) fun fl s' x =>
          Keeps (prog + 1) s s' ∧ Resolves ρ sc s' ∧
          s'.toks.length = s.toks.length + chooseWork ev wk pos (m :: ms) ∧
          ((x = .fail ∧ ∃ a' : Acc, fl = .next (a'.ps c) ∧ a'.kids = []) ∨
           (∃ q, fl = .ret q ∧ Shows s'.toks (prog + 1) q x)) := by
      intro hw a2 h1 h2
      refine (ih (fun y hy => hms y (List.mem_cons_of_mem _ hy)) h1 h2 hl1 hres1).mono ?_
      rintro fl s3 y ⟨h3, h4, h5, h6⟩
      exact ⟨hkeep'.trans h3 (Nat.le_refl _), h4, by omega, h6⟩
    cases hsh with
    | fail =>
      dsimp only
      rw [bind_run (dbg_off (c := (a.ps c).ctx) hc.debug), if_pos rfl]
      exact rest hcw hp hk
    | @skip k n hkn =>
      subst hkn
      dsimp only
      cases n with
      | zero =>
        rw [if_neg (by simp)]
        by_cases hcc : (T m).isConsuming = true
        · rw [if_pos hcc]
          have hmv : Moves cfg a.pos (0 : Nat) (a.pos + 0) := by
            have h64 : 2 ^ 64 = 2 * isizeMax + 2 := by decide
            exact moves_nat (by omega)
          rw [bind_run (handleSkip_ok.mpr ⟨_, hmv, rfl, rfl⟩)]
          exact rest hcw hp hk
        · rw [if_neg hcc]
          exact rest hcw hp hk
      | succ n =>
        rw [if_pos ⟨by omega, rfl⟩]
        exact Sim.ok ⟨hkeep', hres1, hlen1.trans (congrArg _ hcw.symm), Or.inr ⟨_, rfl, .skip rfl⟩⟩
    | @token t tree hrep =>
      dsimp only
      obtain ⟨k, hlo, hkk, hs, hf, hmt, -⟩ := hrep.root
      rw [bind_run (getTok_ok.mpr ⟨hkk, rfl⟩)]
      rw [if_neg (by rw [not_shouldDiscard_iff.mpr hs]; simp), if_pos rfl]
      exact Sim.ok ⟨hkeep', hres1, hlen1.trans (congrArg _ hcw.symm), Or.inr ⟨_, rfl, .token (hrep.lower hl)⟩⟩
    | @splice t tree hrep =>
      dsimp only
      obtain ⟨k, hlo, hkk, hs, hf, hmt, -⟩ := hrep.root
      rw [bind_run (getTok_ok.mpr ⟨hkk, rfl⟩)]
      rw [if_neg (by rw [not_shouldDiscard_iff.mpr hs]; simp), if_pos rfl]
      exact Sim.ok ⟨hkeep', hres1, hlen1.trans (congrArg _ hcw.symm), Or.inr ⟨_, rfl, .splice (hrep.lower hl)⟩⟩

/-- Repetition. -/
theorem sim_rounds {G : MatcherId → Expr} (hG : Grammar T ρ S G) (hb : blen p.src ≤ isizeMax)
    (hcon : ∀ m, S m → ∀ x pos, (T m).isConsuming = false → ev m pos = some x → x = .skip 0)
    (hL : Lock T ρ S p stop f ev wk) (hev : EvGood p stop S ev) (hc : Ready p stop c) {ms : List MatcherId}
    (hms : ∀ m ∈ ms, S m) {lo hi : Nat} {k : Nat} :
    ∀ {n : Nat} {s : State} {a : Acc} {r : Run}, n + k = hi - lo → (n = 0 → r.kids = []) →
      Tracks p stop start name prog s a r → Resolves ρ sc s →
      Sim (runIterations T cfg f prog sc start name ms (some (lo, hi)) false k n (a.ps c) s)
        ((rounds ev ms k r).map (loopResult p name start lo hi)) fun q s' x =>
        Shows s'.toks prog q x ∧ Keeps prog s s' ∧ Resolves ρ sc s' ∧
          s'.toks.length = s.toks.length + roundsWork ev wk ms k r := by
  induction k with
  | zero =>
    intro n s a r hn h0 h hres
    show Sim (finalizeProgram prog (a.ps c) (some (lo, hi)) n true s) (some (loopResult p name start lo hi (true, r))) _
    unfold loopResult
    dsimp only
    by_cases hz : lo = 0 ∧ hi = 0
    · rw [if_pos hz]
      have hk := h.kids.nil_iff.mpr (h0 (by omega))
      rw [finalize_true.mpr (.skips (by rw [hz.1]) (by omega) hk)]
      exact Sim.ok ⟨.skip rfl, .refl _ _, hres, rfl⟩
    · rw [if_neg hz]
      by_cases hlt : hi - lo < lo
      · rw [if_pos hlt, finalize_true.mpr (.short rfl (by omega))]
        exact Sim.ok ⟨.fail, .refl _ _, hres, rfl⟩
      · rw [if_neg hlt]
        obtain ⟨q, s', hcomp, hshow, hk2, hres2, hl2⟩ := h.finish (ρ := ρ) hb
        rw [finalize_true.mpr (.completes (fun lo' hi' he => ?_) hcomp)]
        · exact Sim.ok ⟨hshow, hk2, hres2 _ hres, hl2⟩
        · cases he
          refine ⟨by omega, fun hh => ?_⟩
          omega
  | succ k ih =>
    intro n s a r hn h0 h hres
    have hp := sim_parts (sc := sc) (iter := some (lo, hi)) (count := n) (cfg := cfg) hG hb hcon hL hev hc hms h hres
    unfold runIterations rounds
    rw [Option.map_bind]
    refine Sim.bind hp ?_
    rintro fl s1 ⟨b, r'⟩ hx ⟨hkeep, hres1, hlen1, hcase⟩
    have hrw : roundsWork ev wk ms (k + 1) r = partsWork ev wk ms r +
        match some (b, r') with
        | some (true, r) => roundsWork ev wk ms k r
        | _ => 0 := by rw [← hx]; rfl
    rcases hcase with ⟨hb', a', rfl, htr⟩ | ⟨hb', q, rfl, hshow⟩
    · simp only at hb'
      subst hb'
      refine (ih (n := n + 1) (by omega) (by omega) htr hres1).mono ?_
      rintro q s2 x ⟨h1, h2, h3, h4⟩
      rw [hrw]
      exact ⟨h1, hkeep.trans h2 (Nat.le_refl _), h3, by rw [h4, hlen1, Nat.add_assoc]⟩
    · simp only at hb'
      subst hb'
      exact Sim.ok ⟨hshow, hkeep, hres1, hlen1.trans (congrArg _ hrw.symm)⟩

end

end Peg

end Adx
