import Verif.Proofs.InterpNames
/-
  The engine in lock step with the reference interpreter: running the parts of a program.
-/
namespace Adx.Interp

open Peg (body Cuts Cut Ready Sim Keeps)

variable {T : Table} {cfg : Cfg} {G : Grammar MatcherId} {S : MatcherId → Prop} {K : SCtxId → Prop} {C : Str → Prop} {p : Parser}
  {stop start : Nat} {name : Str} {prog : TokId} {c : Ctx} {sc : SCtxId} {f : ExecFn} {ev : Ev MatcherId Vars}
  {wk : MatcherId → Nat → Nat → Vars → Nat} {iter : Option (Nat × Nat)} {count : Nat}

/-- Matchers that do not consume are empty. -/
def Idle (T : Table) (S : MatcherId → Prop) (ev : Ev MatcherId Vars) : Prop :=
  ∀ m, S m → (T m).isConsuming = false → ∀ k pos st x, ev m k pos st = some x → x.1 = .skip 0

/-- How a pass over parts ends, on both sides. -/
def Ends (p : Parser) (stop start : Nat) (name : Str) (prog : TokId) (c : Ctx) (iter : Option (Nat × Nat))
    (fl : Flow) (s : State) : Step → Prop
  | .all r => ∃ a, fl = .next (a.ps c) ∧ Tracks p stop start name prog s a r
  | .failed r => RunOk p.src stop start r ∧ ∃ q, fl = .ret q ∧
      Shows s.toks prog q (if iter.isSome then r.finish p name start else .fail)
  | .error e => fl = .ret (.err (.error e))

theorem partsWork_some {N σ : Type} {ev : Ev N σ} {wk : N → Nat → Nat → σ → Nat} {k : Nat} {m : N} {ms : List N} {r : Run}
    {st : σ} {x : Result × σ} (h : ev m k r.pos st = some x) :
    partsWork ev wk k (m :: ms) r st = wk m k r.pos st +
      match x.1 with
      | .fail => 0
      | .error _ => 0
      | y => partsWork ev wk k ms (r.take y) x.2 := by
  rw [partsWork, h]
  obtain ⟨x, st'⟩ := x
  cases x <;> rfl

theorem chooseWork_some {N σ : Type} {ev : Ev N σ} {wk : N → Nat → Nat → σ → Nat} {k pos : Nat} {m : N} {ms : List N}
    {st : σ} {x : Result × σ} (h : ev m k pos st = some x) :
    chooseWork ev wk k pos (m :: ms) st = wk m k pos st +
      match x.1 with
      | .fail => chooseWork ev wk k pos ms x.2
      | .skip 0 => chooseWork ev wk k pos ms x.2
      | _ => 0 := by
  rw [chooseWork, h]
  obtain ⟨x, st'⟩ := x
  cases x with
  | skip n => cases n <;> rfl
  | _ => rfl

theorem roundsWork_some {N σ : Type} {ev : Ev N σ} {wk : N → Nat → Nat → σ → Nat} {k j : Nat} {ms : List N} {r : Run}
    {st : σ} {x : Step × σ} (h : parts ev k ms r st = some x) :
    roundsWork ev wk k ms (j + 1) r st = partsWork ev wk k ms r st +
      match x.1 with
      | .all r => roundsWork ev wk k ms j r x.2
      | _ => 0 := by
  rw [roundsWork, h]
  obtain ⟨x, st'⟩ := x
  cases x <;> rfl

/-- One after the other. -/
theorem sim_parts (hb : blen p.src ≤ isizeMax) (hcon : Idle T S ev) (hL : Lock S K C p stop f ev wk) (hK : K sc)
    (hc : Ready p stop c) {ms : List MatcherId} (hms : ∀ m ∈ ms, S m) :
    ∀ {s : State} {a : Acc} {r : Run}, Tracks p stop start name prog s a r → Knows S K C s →
      Sim (runPatterns T cfg f prog sc start iter false count ms (a.ps c) s) (parts ev sc ms r (vars s))
        fun fl s' x => Keeps prog s s' ∧ vars s' = x.2 ∧ Knows S K C s' ∧ Ends p stop start name prog c iter fl s' x.1 ∧
          s'.toks.length = s.toks.length + partsWork ev wk sc ms r (vars s) := by
  induction ms with
  | nil =>
    intro s a r h hr
    exact Peg.Sim.ok ⟨.refl _ _, rfl, hr, ⟨a, rfl, h⟩, rfl⟩
  | cons m ms ih =>
    intro s a r h hres
    have hm := hms m (List.mem_cons_self ..)
    have hprog : prog < s.toks.length := (List.getElem?_eq_some_iff.mp h.tok).1
    rw [runPatterns_eq]
    have hrun := hL m hm { (a.ps c).ctx with stack := prog :: (a.ps c).ctx.stack } sc s hK
      ⟨hc.parser, hc.stop, hc.debug⟩ (by show Cut p.src stop a.pos; rw [h.pos]; exact h.ok.pos) hres
    have hpos : ({ (a.ps c).ctx with stack := prog :: (a.ps c).ctx.stack } : Ctx).offset.start = r.pos := h.pos
    rw [hpos] at hrun
    refine Peg.Sim.bind hrun ?_
    rintro q s1 ⟨x, st⟩ hx ⟨hsh, hgood, hkeep, hvars, hres1, hlen⟩
    dsimp only at hsh hgood hvars hlen
    have hwork := partsWork_some (wk := wk) (ms := ms) hx
    have htr := h.keep hkeep
    have hkeep' : Keeps prog s s1 := (Peg.Keeps.trans (b := prog) ⟨Nat.le_refl _, fun _ _ => rfl⟩ hkeep (Nat.le_of_lt hprog))
    have rest : ∀ {s2 : State} {a2 : Acc}, Tracks p stop start name prog s2 a2 (r.take x) → Knows S K C s2 →
        vars s2 = vars s1 → Keeps prog s1 s2 → s2.toks.length = s1.toks.length →
        partsWork ev wk sc (m :: ms) r (vars s) = wk m sc r.pos (vars s) + partsWork ev wk sc ms (r.take x) st →
        Sim (runPatterns T cfg f prog sc start iter false count ms (a2.ps c) s2) (parts ev sc ms (r.take x) st)
        fun fl s' x => Keeps prog s s' ∧ vars s' = x.2 ∧ Knows S K C s' ∧ Ends p stop start name prog c iter fl s' x.1 ∧
          s'.toks.length = s.toks.length + partsWork ev wk sc (m :: ms) r (vars s) := by
      intro s2 a2 h2 hr2 hv hk2 hl2 hw
      rw [← hvars, ← hv] at hw ⊢
      refine (ih (fun y hy => hms y (List.mem_cons_of_mem _ hy)) h2 hr2).mono ?_
      rintro fl s3 y ⟨h3, h4, h5, h6, h7⟩
      exact ⟨(hkeep'.trans hk2 (Nat.le_refl _)).trans h3 (Nat.le_refl _), h4, h5, h6, by rw [h7, hl2, hlen, hw]; omega⟩
    have hcons : x ≠ .skip 0 → (T m).isConsuming = true := by
      intro hne
      cases hcc : (T m).isConsuming with
      | true => rfl
      | false => exact (hne (hcon m hm hcc _ _ _ _ hx)).elim
    cases hsh with
    | fail =>
      dsimp only
      rw [bind_run (dbg_off (c := (a.ps c).ctx) hc.debug)]
      rw [if_neg (by simp)]
      cases iter with
      | none => exact Peg.Sim.ok ⟨hkeep', hvars, hres1, ⟨h.ok, _, rfl, .fail⟩, by rw [hlen, hwork]; rfl⟩
      | some lh =>
        obtain ⟨q, s', hcomp, hshow, hk2, hv2, hl2⟩ := htr.finish hb
        rw [if_pos (by rfl), bind_run (finalize_false.mpr hcomp)]
        exact Peg.Sim.ok ⟨hkeep'.trans hk2 (Nat.le_refl _), hv2.trans hvars, Knows.congr hv2 hres1,
          ⟨h.ok, _, rfl, hshow⟩, by rw [hl2, hlen, hwork]; rfl⟩
    | error =>
      dsimp only
      rw [bind_run (dbg_off (c := (a.ps c).ctx) hc.debug)]
      exact Peg.Sim.ok ⟨hkeep', hvars, hres1, rfl, by rw [hlen, hwork]; rfl⟩
    | @skip k n hk =>
      subst hk
      dsimp only
      rw [if_neg (by simp)]
      by_cases hcc : (T m).isConsuming = true
      · rw [if_pos hcc]
        obtain ⟨hmv, htr2⟩ := htr.skip (cfg := cfg) hb hgood
        rw [bind_run (handleSkip_ok.mpr ⟨_, hmv, rfl, rfl⟩)]
        exact rest htr2 hres1 rfl (.refl _ _) rfl hwork
      · rw [if_neg hcc]
        have h0 := hcon m hm (by simpa using hcc) _ _ _ _ hx
        cases h0
        refine rest ?_ hres1 rfl (.refl _ _) rfl hwork
        rw [take_idle h.ok]
        exact htr
    | @token t tree hrep =>
      dsimp only
      have hcc := hcons (by simp)
      have hrep' : Reps s1.toks (prog + 1) [t] [tree] := hrep.lower hprog
      obtain ⟨k, hk, hs, hf, hmt, htr2, hk2, -⟩ := htr.add hb hrep' h.ok.le hgood.spot (fun _ => rfl)
      rw [bind_run (getTok_ok.mpr ⟨hk, rfl⟩)]
      have hlt := hgood.spot.lt
      rw [if_neg (by rw [not_shouldDiscard_iff.mpr hs]; simp), if_neg (by simp)]
      rw [bind_run (handleToken_ok.mpr ⟨k, hk, fun _ _ => ?_, rfl, rfl⟩)]
      · rw [hcc, hs]
        refine rest htr2 hres1 rfl ?_ (Peg.put_length ..) hwork
        exact Peg.Keeps.trans (b := prog) (.refl _ _) hk2 (by omega)
      · rw [hmt, h.pos]
        omega
    | @splice t tree hrep =>
      dsimp only
      have hcc := hcons (by simp)
      have hrep' : Reps s1.toks (prog + 1) [t] [tree] := hrep.lower hprog
      obtain ⟨k, hl, hk, hs, hf, hmt, hcp, hch⟩ := hrep'.root
      rw [bind_run (getTok_ok.mpr ⟨hk, rfl⟩)]
      rw [if_neg (by rw [not_shouldDiscard_iff.mpr hs]; simp), if_neg (by simp)]
      have hspot := hgood.spot
      have hlt := hspot.lt
      have hss := hspot.start
      have hcov : Tracks p stop start name prog s1 (a.cover k)
          { r.goto tree.matched.stop with caps := r.caps ++ [tree.captured] } := by
        have husz : usizeMax = 2 * isizeMax + 1 := by decide
        have hcut := hspot.cut.le
        have hle := h.ok.le
        refine ⟨by show k.matched.stop = _; rw [hmt]; rfl, by show a.caps ++ [k.captured] = _; rw [h.caps, hcp],
          Or.inr ⟨?_, ?_⟩, htr.kids, h.ok.cover hspot, htr.tok⟩
        · show lowest (a.mats ++ [k.matched]) = start
          rw [lowest_append, hmt, hss]
          rcases h.mats with ⟨h1, h2, h3⟩ | ⟨h1, h2⟩
          · rw [h1]
            show min usizeMax _ = _
            omega
          · rw [h1]
            omega
        · show highest (a.mats ++ [k.matched]) = max r.far tree.matched.stop
          rw [highest_append, hmt]
          rcases h.mats with ⟨h1, h2, h3⟩ | ⟨h1, h2⟩
          · rw [h1]
            show max 0 _ = _
            omega
          · rw [h2]
      obtain ⟨a', s', hsp, htr2, hk2, hv2, hl2⟩ := Tracks.splice hb hch (Nat.le_succ_of_le hl) (fun _ => rfl) hcov (by simp [Acc.cover])
        (fun x hx => by
          obtain ⟨q, hq, hs⟩ := hgood.kids x hx
          have hle := h.ok.le
          exact ⟨q, by omega, hs⟩)
      rw [bind_run (handleExtract_ok.mpr ⟨k, a', hk, rfl, by rw [hcc, hs]; exact hsp⟩)]
      refine rest htr2 (Knows.congr hv2 hres1) hv2 ?_ hl2 hwork
      exact Peg.Keeps.trans (b := prog) (.refl _ _) hk2 (by omega)

/-- Ordered choice. -/
theorem sim_choose (hb : blen p.src ≤ isizeMax) (hL : Lock S K C p stop f ev wk) (hK : K sc) (hc : Ready p stop c) {pos : Nat}
    (hcut : Cut p.src stop pos) {ms : List MatcherId} (hms : ∀ m ∈ ms, S m) :
    ∀ {s : State} {a : Acc}, a.pos = pos → a.kids = [] → prog < s.toks.length → Knows S K C s →
      Sim (runPatterns T cfg f prog sc start none true count ms (a.ps c) s) (choose ev sc pos ms (vars s)) fun fl s' x =>
        Keeps (prog + 1) s s' ∧ vars s' = x.2 ∧ Knows S K C s' ∧ x.1.Good p.src stop pos ∧
        ((x.1 = .fail ∧ ∃ a' : Acc, fl = .next (a'.ps c) ∧ a'.kids = []) ∨
         (∃ q, fl = .ret q ∧ Shows s'.toks (prog + 1) q x.1)) ∧
        s'.toks.length = s.toks.length + chooseWork ev wk sc pos ms (vars s) := by
  induction ms with
  | nil =>
    intro s a hp hk hl hr
    exact Peg.Sim.ok ⟨.refl _ _, rfl, hr, trivial, Or.inl ⟨rfl, a, rfl, hk⟩, rfl⟩
  | cons m ms ih =>
    intro s a hp hk hl hres
    have hm := hms m (List.mem_cons_self ..)
    rw [runPatterns_eq]
    have hrun := hL m hm { (a.ps c).ctx with stack := prog :: (a.ps c).ctx.stack } sc s hK
      ⟨hc.parser, hc.stop, hc.debug⟩ (by show Cut p.src stop a.pos; rw [hp]; exact hcut) hres
    have hpos : ({ (a.ps c).ctx with stack := prog :: (a.ps c).ctx.stack } : Ctx).offset.start = pos := hp
    rw [hpos] at hrun
    refine Peg.Sim.bind hrun ?_
    rintro q s1 ⟨x, st⟩ hx ⟨hsh, hgood, hkeep, hvars, hres1, hlen⟩
    dsimp only at hsh hgood hvars hlen
    have hwork := chooseWork_some (wk := wk) (ms := ms) hx
    have hkeep' : Keeps (prog + 1) s s1 := Peg.Keeps.trans (b := prog + 1) (.refl _ _) hkeep hl
    have hl1 : prog < s1.toks.length := Nat.lt_of_lt_of_le hl hkeep.len
    have hcle := hcut.le
    have rest : ∀ {a2 : Acc}, a2.pos = pos → a2.kids = [] →
        chooseWork ev wk sc pos (m :: ms) (vars s) = wk m sc pos (vars s) + chooseWork ev wk sc pos ms st →
        Sim (runPatterns T cfg f prog sc start none true count ms (a2.ps c) s1) (choose ev sc pos ms st) fun fl s' x =>
          Keeps (prog + 1) s s' ∧ vars s' = x.2 ∧ Knows S K C s' ∧ x.1.Good p.src stop pos ∧
          ((x.1 = .fail ∧ ∃ a' : Acc, fl = .next (a'.ps c) ∧ a'.kids = []) ∨
           (∃ q, fl = .ret q ∧ Shows s'.toks (prog + 1) q x.1)) ∧
          s'.toks.length = s.toks.length + chooseWork ev wk sc pos (m :: ms) (vars s) := by
      intro a2 h1 h2 hw
      rw [← hvars] at hw ⊢
      refine (ih (fun y hy => hms y (List.mem_cons_of_mem _ hy)) h1 h2 hl1 hres1).mono ?_
      rintro fl s3 y ⟨h3, h4, h5, h6, h7, h8⟩
      exact ⟨hkeep'.trans h3 (Nat.le_refl _), h4, h5, h6, h7, by rw [h8, hlen, hw]; omega⟩
    cases hsh with
    | fail =>
      dsimp only
      rw [bind_run (dbg_off (c := (a.ps c).ctx) hc.debug), if_pos rfl]
      exact rest hp hk hwork
    | error =>
      dsimp only
      rw [bind_run (dbg_off (c := (a.ps c).ctx) hc.debug)]
      exact Peg.Sim.ok ⟨hkeep', hvars, hres1, hgood, Or.inr ⟨_, rfl, .error⟩, by rw [hlen, hwork]; rfl⟩
    | @skip k n hkn =>
      subst hkn
      dsimp only
      cases n with
      | zero =>
        rw [if_neg (by simp)]
        by_cases hcc : (T m).isConsuming = true
        · rw [if_pos hcc]
          have hmv : Moves cfg a.pos (0 : Nat) (a.pos + 0) := by
            have h64 : 2 ^ 64 = 2 * isizeMax + 2 := by decide
            exact Peg.moves_nat (by omega)
          rw [bind_run (handleSkip_ok.mpr ⟨_, hmv, rfl, rfl⟩)]
          exact rest hp hk hwork
        · rw [if_neg hcc]
          exact rest hp hk hwork
      | succ n =>
        rw [if_pos ⟨by omega, rfl⟩]
        exact Peg.Sim.ok ⟨hkeep', hvars, hres1, hgood, Or.inr ⟨_, rfl, .skip rfl⟩, by rw [hlen, hwork]; rfl⟩
    | @token t tree hrep =>
      dsimp only
      obtain ⟨k, hlo, hkk, hs, hf, hmt, -⟩ := hrep.root
      rw [bind_run (getTok_ok.mpr ⟨hkk, rfl⟩)]
      rw [if_neg (by rw [not_shouldDiscard_iff.mpr hs]; simp), if_pos rfl]
      exact Peg.Sim.ok ⟨hkeep', hvars, hres1, hgood, Or.inr ⟨_, rfl, .token (hrep.lower hl)⟩, by rw [hlen, hwork]; rfl⟩
    | @splice t tree hrep =>
      dsimp only
      obtain ⟨k, hlo, hkk, hs, hf, hmt, -⟩ := hrep.root
      rw [bind_run (getTok_ok.mpr ⟨hkk, rfl⟩)]
      rw [if_neg (by rw [not_shouldDiscard_iff.mpr hs]; simp), if_pos rfl]
      exact Peg.Sim.ok ⟨hkeep', hvars, hres1, hgood, Or.inr ⟨_, rfl, .splice (hrep.lower hl)⟩, by rw [hlen, hwork]; rfl⟩

/-- Repetition. -/
theorem sim_rounds (hb : blen p.src ≤ isizeMax) (hcon : Idle T S ev) (hL : Lock S K C p stop f ev wk) (hK : K sc)
    (hc : Ready p stop c) (hcut : Cut p.src stop start) {ms : List MatcherId} (hms : ∀ m ∈ ms, S m) {lo hi : Nat} {k : Nat} :
    ∀ {n : Nat} {s : State} {a : Acc} {r : Run}, n + k = hi - lo → (n = 0 → r.kids = []) →
      Tracks p stop start name prog s a r → Knows S K C s →
      Sim (runIterations T cfg f prog sc start name ms (some (lo, hi)) false k n (a.ps c) s)
        ((rounds ev sc ms k r (vars s)).map fun x => (loopResult p name start lo hi x.1, x.2)) fun q s' x =>
        Shows s'.toks prog q x.1 ∧ x.1.Good p.src stop start ∧ Keeps prog s s' ∧ vars s' = x.2 ∧ Knows S K C s' ∧
        s'.toks.length = s.toks.length + roundsWork ev wk sc ms k r (vars s) := by
  induction k with
  | zero =>
    intro n s a r hn h0 h hres
    show Sim (finalizeProgram prog (a.ps c) (some (lo, hi)) n true s) (some (loopResult p name start lo hi (.all r), vars s)) _
    unfold loopResult
    dsimp only
    by_cases hz : lo = 0 ∧ hi = 0
    · rw [if_pos hz]
      have hk := h.kids.nil_iff.mpr (h0 (by omega))
      rw [finalize_true.mpr (.skips (by rw [hz.1]) (by omega) hk)]
      exact Peg.Sim.ok ⟨.skip rfl, hcut, .refl _ _, rfl, hres, rfl⟩
    · rw [if_neg hz]
      by_cases hlt : hi - lo < lo
      · rw [if_pos hlt, finalize_true.mpr (.short rfl (by omega))]
        exact Peg.Sim.ok ⟨.fail, trivial, .refl _ _, rfl, hres, rfl⟩
      · rw [if_neg hlt]
        obtain ⟨q, s', hcomp, hshow, hk2, hv2, hl2⟩ := h.finish hb
        rw [finalize_true.mpr (.completes (fun lo' hi' he => ?_) hcomp)]
        · exact Peg.Sim.ok ⟨hshow, h.ok.finish, hk2, hv2, Knows.congr hv2 hres, hl2⟩
        · cases he
          refine ⟨by omega, fun hh => ?_⟩
          omega
  | succ k ih =>
    intro n s a r hn h0 h hres
    have hp := sim_parts (iter := some (lo, hi)) (count := n) (cfg := cfg) hb hcon hL hK hc hms h hres
    unfold runIterations rounds
    rw [Option.map_bind]
    refine Peg.Sim.bind hp ?_
    rintro fl s1 ⟨y, st⟩ hx ⟨hkeep, hvars, hres1, hcase, hlen⟩
    dsimp only at hvars hcase
    have hwork := roundsWork_some (wk := wk) (j := k) hx
    cases y with
    | all r' =>
      obtain ⟨a', rfl, htr⟩ := hcase
      show Sim _ ((rounds ev sc ms k r' st).map _) _
      dsimp only at hwork
      rw [← hvars] at hwork ⊢
      refine (ih (n := n + 1) (by omega) (by omega) htr hres1).mono ?_
      rintro q s2 x ⟨h1, h2, h3, h4, h5, h6⟩
      exact ⟨h1, h2, hkeep.trans h3 (Nat.le_refl _), h4, h5, by rw [h6, hlen, hwork]; omega⟩
    | failed r' =>
      obtain ⟨hok, q, rfl, hshow⟩ := hcase
      exact Peg.Sim.ok ⟨hshow, hok.finish, hkeep, hvars, hres1, by rw [hlen, hwork]; rfl⟩
    | error e =>
      cases hcase
      exact Peg.Sim.ok ⟨.error, trivial, hkeep, hvars, hres1, by rw [hlen, hwork]; rfl⟩

end Adx.Interp
