import Verif.Proofs.Interp
/-
  The engine in lock step with the reference interpreter: programs, switches and loops.
-/
namespace Adx.Interp

open Peg (body Cuts Cut Ready Sim Keeps)

variable {toks toks' : List Token} {lo : Nat} {ts : List TokId} {trees : List Item}

/-- The engine's result shows what the interpreter says. -/
inductive Shows (toks : List Token) (lo : Nat) : R → Result → Prop
  | fail : Shows toks lo (.err .fail) .fail
  | error {e} : Shows toks lo (.err (.error e)) (.error e)
  | skip {k : Int} {n : Nat} (h : k = n) : Shows toks lo (.ok (.skip k)) (.skip n)
  | token {t tree} (h : Reps toks lo [t] [tree]) : Shows toks lo (.ok (.token t)) (.token tree)
  | splice {t tree} (h : Reps toks lo [t] [tree]) : Shows toks lo (.ok (.proxyChildren t)) (.splice tree)

theorem Shows.lower {lo' : Nat} {r : R} {x : Result} (h : Shows toks lo r x) (hl : lo' ≤ lo) :
    Shows toks lo' r x := by
  cases h with
  | fail => exact .fail
  | error => exact .error
  | skip h => exact .skip h
  | token h => exact .token (h.lower hl)
  | splice h => exact .splice (h.lower hl)

/-- What is seen of one run that makes `k` tokens. -/
structure Seen (S : MatcherId → Prop) (K : SCtxId → Prop) (C : Str → Prop) (p : Parser) (stop pos : Nat) (s : State)
    (k : Result → Nat) (r : R) (s' : State) (x : Result × Vars) : Prop where
  shows : Shows s'.toks s.toks.length r x.1
  good : x.1.Good p.src stop pos
  keeps : Keeps s.toks.length s s'
  store : vars s' = x.2
  knows : Knows S K C s'
  count : s'.toks.length = s.toks.length + k x.1

/-- The engine's recursion `f` and the interpreter's `ev` agree, and `wk` is what runs cost. -/
def Lock (S : MatcherId → Prop) (K : SCtxId → Prop) (C : Str → Prop) (p : Parser) (stop : Nat) (f : ExecFn)
    (ev : Ev MatcherId Vars) (wk : MatcherId → Nat → Nat → Vars → Nat) : Prop :=
  ∀ m, S m → ∀ c sc s, K sc → Ready p stop c → Cut p.src stop c.offset.start → Knows S K C s →
    Sim (f m c sc s) (ev m sc c.offset.start (vars s)) (Seen S K C p stop c.offset.start s fun _ => wk m sc c.offset.start (vars s))

/-- What a program has collected, on both sides. -/
structure Tracks (p : Parser) (stop start : Nat) (name : Str) (prog : TokId) (s : State) (a : Acc) (r : Run) :
    Prop where
  pos : a.pos = r.pos
  caps : a.caps = r.caps
  mats : (a.mats = [] ∧ r.far = start ∧ r.pos = start) ∨ (lowest a.mats = start ∧ highest a.mats = r.far)
  kids : Reps s.toks (prog + 1) a.kids r.kids
  ok : RunOk p.src stop start r
  tok : s.toks[prog]? = some (Token.mk' p name ⟨0, 0⟩)

section
variable {T : Table} {cfg : Cfg} {G : Grammar MatcherId} {S : MatcherId → Prop} {K : SCtxId → Prop} {C : Str → Prop} {p : Parser} {stop start : Nat}
  {name : Str} {prog : TokId} {s s' : State} {a : Acc} {r : Run} {c : Ctx} {sc : SCtxId}

theorem Tracks.keep (h : Tracks p stop start name prog s a r) (hk : Keeps s.toks.length s s') :
    Tracks p stop start name prog s' a r := by
  refine ⟨h.pos, h.caps, h.mats, hk.items (Nat.le_refl _) h.kids, h.ok, ?_⟩
  rw [hk.same _ (List.getElem?_eq_some_iff.mp h.tok).1, h.tok]

/-- Adding a token. -/
theorem Tracks.add (hb : blen p.src ≤ isizeMax) (h : Tracks p stop start name prog s a r) {t : TokId} {tree : Item}
    (ht : Reps s.toks (prog + 1) [t] [tree]) {q : Nat} (hq : start ≤ q) (hsp : Spot p.src stop q tree)
    (hm : a.mats = [] → q = r.pos) :
    ∃ k, s.toks[t]? = some k ∧ k.kind = .standard ∧ k.flags = 0 ∧ k.matched = tree.matched ∧
      Tracks p stop start name prog (s.put t (k.adopted prog (lowest a.mats)))
        (a.add true t (k.adopted prog (lowest a.mats))) (r.add tree) ∧
      Keeps (prog + 1) s (s.put t (k.adopted prog (lowest a.mats))) ∧
      (a.add true t (k.adopted prog (lowest a.mats))).mats ≠ [] := by
  obtain ⟨k, hl, hk, hs, hf, hmt, hcp, hch⟩ := ht.root
  refine ⟨k, hk, hs, hf, hmt, ?_⟩
  rw [Peg.adopted_plain hf]
  have hcut := hsp.cut.le
  have hst := h.ok.le
  have hfar := h.ok.far.le
  have hlt := hsp.lt
  have hss := hsp.start
  have husz : usizeMax = 2 * isizeMax + 1 := by decide
  refine ⟨⟨?_, ?_, ?_, ?_, h.ok.add hq hsp, ?_⟩, Keeps.put hl, by simp [Acc.add, Acc.cover]⟩
  · show k.matched.stop = _
    rw [hmt]
    rfl
  · show a.caps ++ [k.captured] = r.caps ++ [tree.captured]
    rw [h.caps, hcp]
  · refine Or.inr ⟨?_, ?_⟩
    · show lowest (a.mats ++ [k.matched]) = start
      rw [lowest_append, hmt, hss]
      rcases h.mats with ⟨h1, h2, h3⟩ | ⟨h1, h2⟩
      · have := hm h1
        rw [h1]
        show min usizeMax _ = _
        omega
      · rw [h1]
        omega
    · show highest (a.mats ++ [k.matched]) = max r.far tree.matched.stop
      rw [highest_append, hmt]
      rcases h.mats with ⟨h1, h2, h3⟩ | ⟨h1, h2⟩
      · have := hm h1
        rw [h1]
        show max 0 _ = _
        omega
      · rw [h2]
  · refine Reps.append (put_reps hk h.kids) (put_reps hk ?_)
    exact ht
  · show (s.toks.set t _)[prog]? = _
    rw [List.getElem?_set_ne (by omega), h.tok]

/-- Splicing tokens in. -/
theorem Tracks.splice (hb : blen p.src ≤ isizeMax) {trees : List Item} {ts : List TokId} {lo : Nat}
    {toks : List Token} (hr : Reps toks lo ts trees) (hlo : prog + 1 ≤ lo) :
    ∀ {s : State} {a : Acc} {r : Run}, (∀ i : Nat, s.toks[i]?.map Peg.Token.orphan = toks[i]?.map Peg.Token.orphan) →
      Tracks p stop start name prog s a r → a.mats ≠ [] →
      (∀ x ∈ trees, ∃ q, start ≤ q ∧ Spot p.src stop q x) →
      ∃ a' s', Splices prog true ts a s a' s' ∧ Tracks p stop start name prog s' a' (trees.foldl Run.add r) ∧
        Keeps (prog + 1) s s' ∧ vars s' = vars s ∧ s'.toks.length = s.toks.length := by
  induction hr with
  | nil => intro s a r _ h _ _; exact ⟨a, s, .nil, h, .refl _ _, rfl, rfl⟩
  | @cons lo t k ts cs trees hl hk hs hf hc hr ih1 ih2 =>
    intro s a r hsame h hm hsp
    have hch : ∀ {lo ts trees}, Reps toks lo ts trees → Reps s.toks lo ts trees := by
      intro lo ts trees hx
      refine hx.change fun i k' _ hk' => ?_
      have := hsame i
      rw [hk'] at this
      obtain ⟨k2, hk2, he⟩ := Option.map_eq_some_iff.mp this
      refine ⟨k2.parent, ?_⟩
      rw [hk2]
      cases k2
      cases k'
      simp only [Peg.Token.orphan] at he
      cases he
      rfl
    have h1 : Reps s.toks (prog + 1) [t] [_] := hch ((Reps.cons hl hk hs hf hc .nil).lower hlo)
    obtain ⟨q, hq, hspot⟩ := hsp _ (List.mem_cons_self ..)
    obtain ⟨k', hk', hs', hf', hmt, htr, hkeep, hne⟩ := h.add hb h1 hq hspot (fun h => (hm h).elim)
    have hsame' : ∀ i : Nat, (s.put t (k'.adopted prog (lowest a.mats))).toks[i]?.map Peg.Token.orphan = toks[i]?.map Peg.Token.orphan := by
      intro i
      rw [← hsame i]
      by_cases hi : i = t
      · subst hi
        rw [put_get hk', hk', Peg.adopted_plain hf']
        rfl
      · show (s.toks.set t _)[i]?.map _ = _
        rw [List.getElem?_set_ne (fun h => hi h.symm)]
    obtain ⟨a', s', h2, h3, h4, h5, h6⟩ := ih2 hlo hsame' htr hne (fun x hx => hsp x (List.mem_cons_of_mem _ hx))
    exact ⟨a', s', .kid hk' hs' h2, h3, hkeep.trans h4 (Nat.le_refl _), h5, h6.trans (Peg.put_length ..)⟩

/-- Skipping text. -/
theorem Tracks.skip (hb : blen p.src ≤ isizeMax) (h : Tracks p stop start name prog s a r) {n : Nat}
    (hn : Cut p.src stop (r.pos + n)) :
    Moves cfg a.pos n (a.pos + n) ∧ Tracks p stop start name prog s (a.jump start (a.pos + n)) (r.take (.skip n)) := by
  have hcut := hn.le
  have hst := h.ok.le
  have hpos := h.pos
  have husz : usizeMax = 2 * isizeMax + 1 := by decide
  have h64 : 2 ^ 64 = usizeMax + 1 := by decide
  refine ⟨Peg.moves_nat (by omega), ?_, h.caps, ?_, h.kids, h.ok.take hn, h.tok⟩
  · show a.pos + n = r.pos + n
    omega
  · refine Or.inr ⟨?_, ?_⟩
    · show lowest (a.mats ++ [⟨start, a.pos + n⟩]) = start
      rw [lowest_append]
      rcases h.mats with ⟨h1, h2, h3⟩ | ⟨h1, h2⟩
      · rw [h1]
        show min usizeMax (min start usizeMax) = _
        omega
      · rw [h1]
        show min start (min start usizeMax) = _
        omega
    · show highest (a.mats ++ [⟨start, a.pos + n⟩]) = max r.far (r.pos + n)
      rw [highest_append]
      rcases h.mats with ⟨h1, h2, h3⟩ | ⟨h1, h2⟩
      · rw [h1]
        show max 0 (a.pos + n) = _
        omega
      · rw [h2]
        show max r.far (a.pos + n) = _
        omega

/-- Handing over what has been collected. -/
theorem Tracks.finish (hb : blen p.src ≤ isizeMax) (h : Tracks p stop start name prog s a r) :
    ∃ q s', Completes prog a s q s' ∧ Shows s'.toks prog q (r.finish p name start) ∧ Keeps prog s s' ∧
      vars s' = vars s ∧ s'.toks.length = s.toks.length := by
  unfold Run.finish
  by_cases hk : r.kids = []
  · rw [if_pos hk]
    exact ⟨_, _, .nothing (Or.inl (h.kids.nil_iff.mpr hk)), .fail, .refl _ _, rfl, rfl⟩
  · rw [if_neg hk]
    obtain ⟨h1, h2⟩ := h.ok.some hk
    have hcut := h.ok.far.le
    have hlc := Peg.lowest_caps h1 h.ok.caps
    have hm : lowest a.mats = start ∧ highest a.mats = r.far := by
      rcases h.mats with ⟨-, h3, -⟩ | h3
      · omega
      · exact h3
    have husz : usizeMax = 2 * isizeMax + 1 := by decide
    refine ⟨_, _, .token (fun hh => hk (h.kids.nil_iff.mp hh)) (by rw [h.caps]; omega) (by omega) h.tok, ?_,
      Keeps.put (Nat.le_refl _), rfl, Peg.put_length ..⟩
    refine .token ?_
    have hspan : span a.mats = ⟨start, r.far⟩ := by unfold span; rw [hm.1, hm.2]
    rw [h.caps, hspan]
    refine .cons (Nat.le_refl _) (put_get h.tok) rfl rfl ?_ .nil
    show Reps (s.put prog _).toks (prog + 1) a.kids r.kids
    refine h.kids.change fun i k hi hk' => ⟨k.parent, ?_⟩
    show (s.toks.set prog _)[i]? = _
    rw [List.getElem?_set_ne (by omega), hk']

theorem take_idle (h : RunOk p.src stop start r) : r.take (.skip 0) = r := by
  have hle := h.le'
  cases r
  show Run.mk _ (max _ _) _ _ = _
  rw [Nat.max_eq_left (by exact hle)]
  rfl

end

end Adx.Interp
