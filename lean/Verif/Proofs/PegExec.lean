import Verif.Proofs.PegSim
/-
  The engine in lock step with the interpreter: all matchers.
-/
namespace Adx.Peg

variable {T : Table} {cfg : Cfg} {ρ : Str → Option MatcherId} {S : MatcherId → Prop} {G : MatcherId → Expr}
  {p : Parser} {stop : Nat} {name : Str} {s s' : State} {c : Ctx} {sc : SCtxId}

/-- What is shown of one run that makes `k` tokens. -/
def Seen (ρ : Str → Option MatcherId) (sc : SCtxId) (s : State) (k : Result → Nat) (r : R) (s' : State)
    (x : Result) : Prop :=
  Shows s'.toks s.toks.length r x ∧ Keeps s.toks.length s s' ∧ Resolves ρ sc s' ∧
    s'.toks.length = s.toks.length + k x

/-- A leaf makes a token if it matches. -/
def leafWork (x : Result) : Nat := made (some x)

theorem Seen.fail (h : Resolves ρ sc s) : Seen ρ sc s leafWork (.err .fail) s .fail :=
  ⟨.fail, .refl _ _, h, rfl⟩

theorem Seen.skip (h : Resolves ρ sc s) : Seen ρ sc s leafWork (.ok (.skip 0)) s (.skip 0) :=
  ⟨.skip rfl, .refl _ _, h, rfl⟩

/-- A new token without children. -/
theorem Seen.fresh (h : Resolves ρ sc s) {k : Token} (h1 : k.kind = .standard) (h2 : k.flags = 0)
    (h3 : k.children = []) {tree : Tree} (ht : tree = .node k.name k.captured k.matched k.getValue k.getMatchedValue
      (k.getAttribute "__message".toList) []) :
    Seen ρ sc s leafWork (.ok (.token s.toks.length)) { s with toks := s.toks ++ [k] } (.token tree) := by
  refine ⟨.token ?_, ⟨by simp, fun i hi => List.getElem?_append_left hi⟩, h, List.length_append⟩
  subst ht
  have hk : (s.toks ++ [k])[s.toks.length]? = some k := by simp
  exact .cons (Nat.le_refl _) hk h1 h2 (by rw [h3]; exact .nil) .nil

theorem sim_lit {lit w : Str} (hc : Ready p stop c) (hw : TextAt p.src c.offset.start stop w)
    (h : Resolves ρ sc s) :
    Sim (execEquals name (.str lit) c sc s)
      (if lit ≠ [] ∧ lit.isPrefixOf w then
        some (.token (leaf p name ⟨c.offset.start, c.offset.start + blen lit⟩ ⟨c.offset.start, c.offset.start + blen lit⟩))
      else some .fail) (Seen ρ sc s leafWork) := by
  have hch : (c.withName name).chunk = some w := by
    apply chunk_unread
    show TextAt c.parser.src c.offset.start c.offset.stop w
    rw [hc.parser, hc.stop]
    exact hw
  have hd : (c.withName name).debug = 0 := hc.debug
  unfold execEquals
  rw [bind_run (show fetchValue (.str lit) sc s = .ok (.inl lit) s from rfl)]
  dsimp only
  by_cases hl : lit ≠ [] ∧ lit.isPrefixOf w = true
  · rw [if_pos hl]
    have hmatch : (c.withName name).matchesStr lit = some (some ⟨c.offset.start, c.offset.start + blen lit⟩) := by
      unfold Ctx.matchesStr
      rw [hch, if_neg hl.1]
      dsimp only
      rw [if_pos hl.2]
      rfl
    rw [bind_run (ofOpt_ok.mpr ⟨hmatch, rfl⟩)]
    dsimp only
    rw [bind_run (dbg_off hd), bind_run (newTok_ok.mpr ⟨rfl, rfl⟩)]
    refine Sim.ok (Seen.fresh h rfl rfl rfl ?_)
    have hp : (c.withName name).parser = p := hc.parser
    rw [hp]
    rfl
  · rw [if_neg hl]
    have hmatch : (c.withName name).matchesStr lit = some none := by
      unfold Ctx.matchesStr
      rw [hch]
      by_cases h0 : lit = []
      · rw [if_pos h0]
      · rw [if_neg h0]
        dsimp only
        rw [if_neg fun hh => hl ⟨h0, hh⟩]
    rw [bind_run (ofOpt_ok.mpr ⟨hmatch, rfl⟩)]
    dsimp only
    rw [bind_run (dbg_off hd)]
    exact Sim.ok (Seen.fail h)

theorem sim_re {re : Regex} {w : Str} (hc : Ready p stop c) (hw : TextAt p.src c.offset.start stop w)
    (h : Resolves ρ sc s) :
    Sim (execMatches name re c s)
      (match re.find w with
      | some (0, 0) => some (.skip 0)
      | some (0, b) => some (.token (leaf p name ⟨c.offset.start, c.offset.start + b⟩ ⟨c.offset.start, c.offset.start + b⟩))
      | _ => some .fail) (Seen ρ sc s leafWork) := by
  have hch : (c.withName name).chunk = some w := by
    apply chunk_unread
    show TextAt c.parser.src c.offset.start c.offset.stop w
    rw [hc.parser, hc.stop]
    exact hw
  have hd : (c.withName name).debug = 0 := hc.debug
  have hp : (c.withName name).parser = p := hc.parser
  have hmatch : ∀ o, (match re.find w with
      | some (a, b) => if a + c.offset.start ≠ c.offset.start then none
        else some (⟨a + c.offset.start, b + c.offset.start⟩ : Range)
      | none => none) = o → (c.withName name).matchesRegexp re = some o := by
    intro o ho
    unfold Ctx.matchesRegexp
    rw [hch]
    dsimp only
    rw [← ho]
    cases re.find w with
    | none => rfl
    | some ab =>
      by_cases hne : ab.1 + c.offset.start ≠ c.offset.start
      · show (if _ then _ else _) = some (if _ then _ else _)
        rw [if_pos hne]
        exact if_pos hne
      · show (if _ then _ else _) = some (if _ then _ else _)
        rw [if_neg hne]
        exact if_neg hne
  unfold execMatches
  cases hf : re.find w with
  | none =>
    have := hmatch none (by rw [hf])
    rw [bind_run (ofOpt_ok.mpr ⟨this, rfl⟩)]
    dsimp only
    rw [bind_run (dbg_off hd)]
    exact Sim.ok (Seen.fail h)
  | some ab =>
    obtain ⟨a, b⟩ := ab
    cases a with
    | succ a =>
      have := hmatch none (by rw [hf]; dsimp only; rw [if_pos (by omega)])
      rw [bind_run (ofOpt_ok.mpr ⟨this, rfl⟩)]
      dsimp only
      rw [bind_run (dbg_off hd)]
      exact Sim.ok (Seen.fail h)
    | zero =>
      have := hmatch (some ⟨c.offset.start, c.offset.start + b⟩)
        (by rw [hf]; dsimp only; rw [if_neg (by omega), Nat.zero_add, Nat.add_comm b])
      rw [bind_run (ofOpt_ok.mpr ⟨this, rfl⟩)]
      dsimp only
      cases b with
      | zero =>
        rw [if_pos (by omega), bind_run (dbg_off hd)]
        exact Sim.ok (Seen.skip h)
      | succ b =>
        rw [if_neg (by omega), bind_run (newTok_ok.mpr ⟨rfl, rfl⟩)]
        refine Sim.ok (Seen.fresh h rfl rfl rfl ?_)
        rw [hp]
        rfl

theorem sim_delim {a b e w : Str} (ha : a ≠ []) (hb : b ≠ []) (hasc : AsciiBetween p.src a b e) (hc : Ready p stop c)
    (hw : TextAt p.src c.offset.start stop w) (h : Resolves ρ sc s) :
    Sim (execSequence name (.str a) (.str b) (.str e) c sc s)
      (if a.isPrefixOf w then
        match body b e (w.length + 1) (w.drop a.length) with
        | some (raw, val) => some (.token (delimLeaf p name a b c.offset.start raw val))
        | none => some .fail
      else some .fail) (Seen ρ sc s leafWork) := by
  have hunread : (c.withName name).Unread w := by
    show TextAt c.parser.src c.offset.start c.offset.stop w
    rw [hc.parser, hc.stop]
    exact hw
  have hch : (c.withName name).chunk = some w := chunk_unread hunread
  have hd : (c.withName name).debug = 0 := hc.debug
  have hp : (c.withName name).parser = p := hc.parser
  unfold execSequence
  rw [bind_run (show fetchValue (.str a) sc s = .ok (.inl a) s from rfl)]
  dsimp only
  rw [if_neg ha, bind_run (show fetchValue (.str b) sc s = .ok (.inl b) s from rfl)]
  dsimp only
  rw [if_neg hb, bind_run (show fetchValue (.str e) sc s = .ok (.inl e) s from rfl)]
  dsimp only
  by_cases hl : a.isPrefixOf w = true
  · rw [if_pos hl]
    have hmatch : (c.withName name).matchesStr a = some (some ⟨c.offset.start, c.offset.start + blen a⟩) := by
      unfold Ctx.matchesStr
      rw [hch, if_neg ha]
      dsimp only
      rw [if_pos hl]
      rfl
    rw [bind_run (ofOpt_ok.mpr ⟨hmatch, rfl⟩)]
    dsimp only
    obtain ⟨w1, rfl⟩ := List.isPrefixOf_iff_prefix.mp hl
    rw [List.drop_left]
    have hw1 : TextAt c.parser.src (c.offset.start + blen a) c.offset.stop w1 := hunread.suffix
    have hpsrc : c.parser = p := hc.parser
    have haw : ∀ v r, Skims b e w1 v r → Ascii v := by
      obtain ⟨pre, post, he, -, -⟩ := hunread
      rw [show (c.withName name).parser.src = p.src by rw [← hpsrc]; rfl] at he
      exact fun v r h => hasc pre w1 post v r (by rw [he]; simp) h
    have hle := hw1.le
    have hspec := seqLoop_text (c := c.withName name) (esc := e) hb
      (c.offset.stop - (c.offset.start + blen a)) w1 [] [] (c.offset.start + blen a)
      (c.offset.start + blen a) [] (by omega) hw1
      (by simp [blen]) rfl
    rcases hspec with ⟨raw, val, rest, parts', hB, -, hv, hloop⟩ | ⟨hno, -, hloop⟩ | ⟨⟨v, r, h1, h2⟩, -⟩
    · have hbody : body b e ((a ++ w1).length + 1) w1 = some (raw, val) :=
        (body_iff hb (by simp; omega)).mpr ⟨rest, hB⟩
      rw [hbody]
      dsimp only
      have hloop' : seqLoop (c.withName name) b e
          ((c.withName name).offset.stop - (c.offset.start + blen a)) (c.offset.start + blen a)
          (c.offset.start + blen a) [] = .found (c.offset.start + blen a + blen raw + blen b) parts' := hloop
      rw [hloop']
      dsimp only
      rw [bind_run (newTok_ok.mpr ⟨rfl, rfl⟩), bind_run (dbg_off hd)]
      refine Sim.ok (Seen.fresh h rfl rfl rfl ?_)
      rw [getValue_setAttribute _ _ rfl, hp, hv, Nat.add_sub_cancel]
      rfl
    · have hbody : body b e ((a ++ w1).length + 1) w1 = none := by
        cases hx : body b e ((a ++ w1).length + 1) w1 with
        | none => rfl
        | some rv =>
          obtain ⟨raw, val⟩ := rv
          obtain ⟨rest, hB⟩ := (body_iff hb (by simp; omega)).mp hx
          exact (hno ⟨raw, val, rest, hB⟩).elim
      rw [hbody]
      dsimp only
      have hloop' : seqLoop (c.withName name) b e
          ((c.withName name).offset.stop - (c.offset.start + blen a)) (c.offset.start + blen a)
          (c.offset.start + blen a) [] = .fail := hloop
      rw [hloop']
      dsimp only
      rw [bind_run (dbg_off hd)]
      exact Sim.ok (Seen.fail h)
    · exact (h2 (haw v r h1)).elim
  · rw [if_neg hl]
    have hmatch : (c.withName name).matchesStr a = some none := by
      unfold Ctx.matchesStr
      rw [hch, if_neg ha]
      dsimp only
      rw [if_neg hl]
    rw [bind_run (ofOpt_ok.mpr ⟨hmatch, rfl⟩)]
    dsimp only
    rw [bind_run (dbg_off hd)]
    exact Sim.ok (Seen.fail h)

variable {f : ExecFn} {ev : MatcherId → Nat → Option Result} {wk : MatcherId → Nat → Nat}

/-- Programs, switches and loops as a whole. -/
theorem sim_program (hG : Grammar T ρ S G) (hb : blen p.src ≤ isizeMax)
    (hcon : ∀ m, S m → ∀ x pos, (T m).isConsuming = false → ev m pos = some x → x = .skip 0)
    (hL : Lock T ρ S p stop f ev wk) (hev : EvGood p stop S ev) (hc : Ready p stop c)
    (hcut : Cut p.src stop c.offset.start) {ms : List MatcherId} (hms : ∀ m ∈ ms, S m) (h : Resolves ρ sc s) :
    Sim (execProgram T cfg f ms name none false c sc s)
      ((parts ev ms (.start c.offset.start)).map fun x =>
        match x with
        | (true, r) => r.finish p name c.offset.start
        | (false, _) => .fail) (Seen ρ sc s fun _ => 1 + partsWork ev wk ms (.start c.offset.start)) ∧
    Sim (execProgram T cfg f ms name none true c sc s) (choose ev c.offset.start ms)
      (Seen ρ sc s fun _ => 1 + chooseWork ev wk c.offset.start ms) ∧
    ∀ lo hi, Sim (execProgram T cfg f ms name (some (lo, hi)) false c sc s)
      ((rounds ev ms (hi - lo) (.start c.offset.start)).map (loopResult p name c.offset.start lo hi))
      (Seen ρ sc s fun _ => 1 + roundsWork ev wk ms (hi - lo) (.start c.offset.start)) := by
  have hc' : Ready p stop (c.withName name) := ⟨hc.parser, hc.stop, hc.debug⟩
  have hps : (⟨c.withName name, [], ⟨usizeMax, 0⟩, ⟨usizeMax, 0⟩⟩ : PS) = (Acc.start c.offset.start).ps (c.withName name) := rfl
  let s1 : State := { s with toks := s.toks ++ [Token.mk' p name ⟨0, 0⟩] }
  have hk1 : Keeps s.toks.length s s1 := ⟨by simp [s1], fun i hi => List.getElem?_append_left hi⟩
  have h1 : Resolves ρ sc s1 := h
  have htok : s1.toks[s.toks.length]? = some (Token.mk' p name ⟨0, 0⟩) := by simp [s1]
  have hrun : ∀ iter first, execProgram T cfg f ms name iter first c sc s =
      runIterations T cfg f s.toks.length sc c.offset.start name ms iter first (iterCount iter) 0
        ((Acc.start c.offset.start).ps (c.withName name)) s1 := by
    intro iter first
    have hp : (c.withName name).parser = p := hc.parser
    unfold execProgram
    rw [hp, bind_run (newTok_ok.mpr ⟨rfl, rfl⟩)]
    rfl
  have htr : Tracks p stop c.offset.start name s.toks.length s1 (.start c.offset.start) (.start c.offset.start) :=
    ⟨rfl, rfl, Or.inl ⟨rfl, rfl, rfl⟩, .nil, RunOk.start' hcut, htok⟩
  have hlen1 : s1.toks.length = s.toks.length + 1 := by simp [s1]
  have hlen : s.toks.length < s1.toks.length := by omega
  refine ⟨?_, ?_, ?_⟩
  · rw [hrun]
    show Sim ((runPatterns T cfg f s.toks.length sc c.offset.start none false 0 ms _ >>= _) s1) _ _
    refine Sim.map (sim_parts (sc := sc) (iter := none) (count := 0) (cfg := cfg) hG hb hcon hL hev hc' hms htr h1) ?_
    rintro fl s2 ⟨b, r⟩ - ⟨hkeep, hres, hl2, hcase⟩
    rw [hlen1, Nat.add_assoc] at hl2
    rcases hcase with ⟨hb', a', rfl, htr2⟩ | ⟨hb', q, rfl, hshow⟩
    · simp only at hb'
      subst hb'
      obtain ⟨q, s3, hcomp, hshow, hk3, hres3, hl3⟩ := htr2.finish (ρ := ρ) hb
      refine ⟨q, s3, ?_, hshow, (hk1.trans hkeep (Nat.le_refl _)).trans hk3 (Nat.le_refl _), hres3 _ hres,
        hl3.trans hl2⟩
      exact finalize_true.mpr (.completes (by simp) hcomp)
    · simp only at hb'
      subst hb'
      exact ⟨q, s2, rfl, hshow, hk1.trans hkeep (Nat.le_refl _), hres, hl2⟩
  · rw [hrun]
    have hch : choose ev c.offset.start ms = (choose ev c.offset.start ms).map id := by simp
    rw [hch]
    show Sim ((runPatterns T cfg f s.toks.length sc c.offset.start none true 0 ms _ >>= _) s1) _ _
    refine Sim.map (sim_choose (sc := sc) (cfg := cfg) (start := c.offset.start) (count := 0) hG hb hL hc' hcut hms
      (a := .start c.offset.start) rfl rfl hlen h1) ?_
    rintro fl s2 x - ⟨hkeep, hres, hl2, hcase⟩
    rw [hlen1, Nat.add_assoc] at hl2
    have hk2 : Keeps s.toks.length s s2 := hk1.trans hkeep (Nat.le_succ _)
    rcases hcase with ⟨rfl, a', rfl, hk⟩ | ⟨q, rfl, hshow⟩
    · refine ⟨_, s2, finalize_true.mpr (.completes (by simp) (.nothing (Or.inl hk))), .fail, hk2, hres, hl2⟩
    · exact ⟨q, s2, rfl, hshow.lower (Nat.le_succ _), hk2, hres, hl2⟩
  · intro lo hi
    rw [hrun]
    refine (sim_rounds (sc := sc) (cfg := cfg) (lo := lo) (hi := hi) (n := 0) hG hb hcon hL hev hc' hms (Nat.zero_add _) (fun _ => rfl)
      htr h1).mono ?_
    rintro q s2 x ⟨h2, h3, h4, h5⟩
    rw [hlen1, Nat.add_assoc] at h5
    exact ⟨h2, hk1.trans h3 (Nat.le_refl _), h4, h5⟩

theorem Seen.entered {m : MatcherId} {r : R} {x : Result} {k : Result → Nat}
    (h : Seen ρ sc (entered T m sc s) k r s' x) : Seen ρ sc s k r s' x := by
  obtain ⟨h1, h2, h3, h4⟩ := h
  rw [entered_toks] at h1 h2 h4
  exact ⟨h1, ⟨by rw [← entered_toks (T := T) (m := m) (sc := sc)]; exact h2.len,
    fun i hi => by rw [h2.same i hi, entered_toks]⟩, h3, h4⟩

/-- The matchers that have an expression. -/
inductive IsExpr (ρ : Str → Option MatcherId) : Node → Expr → Prop
  | lit {n c s} : IsExpr ρ (.equals n c (.str s)) (.lit n s)
  | re {n c re} : IsExpr ρ (.regex n c re) (.re n re.find)
  | delim {n c a b e} (ha : a ≠ []) (hb : b ≠ []) :
      IsExpr ρ (.sequence n c (.str a) (.str b) (.str e)) (.delim n a b e)
  | seq {ms n c} : IsExpr ρ (.program ms n c none false) (.seq n ms)
  | choice {ms n c} : IsExpr ρ (.program ms n c none true) (.choice ms)
  | loop {ms n c lo hi} : IsExpr ρ (.program ms n c (some (lo, hi)) false) (.loop n ms lo hi)
  | opt {m} : IsExpr ρ (.optional m) (.opt m)
  | neg {m} : IsExpr ρ (.not m) (.neg m)
  | drop {m} : IsExpr ρ (.discard m) (.drop m)
  | flat {m n c} : IsExpr ρ (.proxyChildren m n c) (.flat m)
  | name {m x n c} (h : ρ x = some m) : IsExpr ρ (.ref (.str x) n c) (.call m)
  | call {m n c} : IsExpr ρ (.ref (.matcher m) n c) (.call m)
  | empty : IsExpr ρ .null .empty

theorem exprOf_inv {node : Node} {e : Expr} (h : exprOf ρ node = some e) : IsExpr ρ node e := by
  unfold exprOf at h
  split at h
  all_goals first
    | (cases h; constructor; done)
    | skip
  · split at h
    · rename_i hh
      cases h
      exact .delim hh.1 hh.2
    · cases h
  · obtain ⟨m, hm, rfl⟩ := Option.map_eq_some_iff.mp h
    exact .name hm
  · cases h

/-- The parts that do not consume are empty. -/
theorem eval_idle (hG : Grammar T ρ S G) (n : Nat) : ∀ m, S m → ∀ x pos, (T m).isConsuming = false →
    eval G p stop n m pos = some x → x = .skip 0 := by
  intro m hm x pos hc h
  have he := exprOf_inv (hG.expr m hm)
  cases n with
  | zero => cases h
  | succ n =>
    unfold eval at h
    generalize T m = node at he hc
    generalize G m = e at he h
    cases he
    all_goals first | (cases hc; done) | skip
    cases h
    rfl

/-- The interpreter's results for a grammar lie in the text. -/
theorem Grammar.good (hG : Grammar T ρ S G) : ∀ n, EvGood p stop S (eval G p stop n) := by
  refine eval_good hG.closed ?_ ?_
  · intro m hm name find hg
    have he := exprOf_inv (hG.expr m hm)
    have hr := hG.regex m hm
    rw [hg] at he
    generalize T m = node at he hr
    cases he
    exact hr _ _ _ rfl
  · intro m hm name a b e hg
    have he := exprOf_inv (hG.expr m hm)
    rw [hg] at he
    generalize T m = node at he
    cases he with
    | delim ha hb => exact ⟨ha, hb⟩

/-- The engine and the interpreter run in lock step, with the same depth of recursion. -/
theorem lock (hG : Grammar T ρ S G) (hb : blen p.src ≤ isizeMax)
    (hasc : ∀ m, S m → (G m).Between p.src) (n : Nat) :
    Lock T ρ S p stop (exec T cfg n) (eval G p stop n) (work G p stop n) := by
  have hgood : ∀ n, EvGood p stop S (eval G p stop n) := hG.good
  induction n with
  | zero => intro m _ c sc s _ _ _; trivial
  | succ n ih =>
    intro m hm c sc s hc hcut hres
    rw [exec_succ]
    refine Sim.mono (Q := Seen ρ sc (entered T m sc s) fun _ => work G p stop (n + 1) m c.offset.start) ?_
      fun r s' x h => h.entered
    have he := exprOf_inv (hG.expr m hm)
    have huse := hG.closed m hm
    have hdel := hasc m hm
    generalize entered T m sc s = s1 at hres ⊢
    obtain ⟨w, hw⟩ := hcut
    have hw' : bslice p.src c.offset.start stop = some w := bslice_iff.mpr hw
    have hleaf : (∀ r s2 x, eval G p stop (n + 1) m c.offset.start = some x → Seen ρ sc s1 leafWork r s2 x →
        work G p stop (n + 1) m c.offset.start = made (eval G p stop (n + 1) m c.offset.start) →
        Seen ρ sc s1 (fun _ => work G p stop (n + 1) m c.offset.start) r s2 x) := by
      rintro r s2 x hx ⟨h1, h2, h3, h4⟩ hk
      rw [hx] at hk
      exact ⟨h1, h2, h3, h4.trans (congrArg _ hk.symm)⟩
    have hwork : work G p stop (n + 1) m c.offset.start = _ := work.eq_2 ..
    generalize work G p stop (n + 1) m c.offset.start = total at hwork hleaf ⊢
    rw [eval.eq_2] at hwork hleaf ⊢
    rw [hw'] at hwork hleaf ⊢
    dsimp only [Option.getD_some] at hwork hleaf ⊢
    have hsub : ∀ b nm, S b → Sim (exec T cfg n b (c.withName nm) sc s1) (eval G p stop n b c.offset.start)
        (Seen ρ sc s1 fun _ => work G p stop n b c.offset.start) := by
      intro b nm hSb
      exact ih b hSb (c.withName nm) sc s1 ⟨hc.parser, hc.stop, hc.debug⟩ ⟨w, hw⟩ (hres.enter hG hSb)
    generalize T m = node at he ⊢
    generalize G m = e at he huse hdel hwork hleaf ⊢
    have hcon := eval_idle (p := p) (stop := stop) hG n
    cases he with
    | lit => exact (sim_lit hc hw hres).mono' fun r s2 x hx h => hleaf r s2 x hx h hwork
    | re => exact (sim_re hc hw hres).mono' fun r s2 x hx h => hleaf r s2 x hx h hwork
    | delim ha hb' => exact (sim_delim ha hb' (hdel _ _ _ _ rfl) hc hw hres).mono' fun r s2 x hx h => hleaf r s2 x hx h hwork
    | seq => subst hwork; exact (sim_program hG hb hcon ih (hgood n) hc ⟨w, hw⟩ huse hres).1
    | choice => subst hwork; exact (sim_program hG hb hcon ih (hgood n) hc ⟨w, hw⟩ huse hres).2.1
    | loop => subst hwork; exact (sim_program hG hb hcon ih (hgood n) hc ⟨w, hw⟩ huse hres).2.2 _ _
    | @opt b =>
      refine Sim.map (hsub b _ (huse b (by simp [Expr.uses]))) ?_
      subst hwork
      rintro r s2 x - ⟨h1, h2, h3, h4⟩
      cases h1 with
      | fail => exact ⟨_, _, rfl, .skip rfl, h2, h3, h4⟩
      | skip h => exact ⟨_, _, rfl, .skip h, h2, h3, h4⟩
      | token h => exact ⟨_, _, rfl, .token h, h2, h3, h4⟩
      | splice h => exact ⟨_, _, rfl, .splice h, h2, h3, h4⟩
    | @neg b =>
      refine Sim.map (hsub b _ (huse b (by simp [Expr.uses]))) ?_
      subst hwork
      rintro r s2 x - ⟨h1, h2, h3, h4⟩
      cases h1 with
      | fail => exact ⟨_, _, rfl, .skip rfl, h2, h3, h4⟩
      | @skip k j h =>
        subst h
        cases j with
        | zero => exact ⟨_, _, rfl, .skip rfl, h2, h3, h4⟩
        | succ j => exact ⟨_, _, rfl, .fail, h2, h3, h4⟩
      | token h => exact ⟨_, _, rfl, .fail, h2, h3, h4⟩
      | splice h => exact ⟨_, _, rfl, .fail, h2, h3, h4⟩
    | @drop b =>
      have hSb := huse b (by simp [Expr.uses])
      refine Sim.map (hsub b _ hSb) ?_
      rintro r s2 x hx ⟨h1, h2, h3, h4⟩
      have hg := hgood n b hSb _ ⟨w, hw⟩ x hx
      have htot : ∀ k, made (eval G p stop n b c.offset.start) = k →
          total = work G p stop n b c.offset.start + k := by
        rintro k rfl
        exact hwork
      have key : ∀ t tree, Reps s2.toks s1.toks.length [t] [tree] → Good p.src stop c.offset.start tree →
          total = work G p stop n b c.offset.start + 1 →
          ∃ a' s3, (skipToken cfg (c.withName "Discard".toList) c.offset.start t >>= fun s => pure (.ok s) : M R) s2 = .ok a' s3 ∧
            Seen ρ sc s1 (fun _ => total) a' s3 (.skip (tree.matched.stop - c.offset.start)) := by
        intro t tree hr hgd htot1
        obtain ⟨k, -, hk, -, -, hmt, -⟩ := hr.root
        obtain ⟨l, hp, hne⟩ := hr.pre
        have hlt := hgd.spot.lt
        have hle := hgd.spot.cut.le
        obtain ⟨y, s3, hrun, k', e, hk', rfl, hcase⟩ := skipToken_run (cfg := cfg) (c := c.withName "Discard".toList)
          (start := c.offset.start) hp hk (by omega) (by rw [hmt]; omega)
        rw [hk] at hk'
        cases hk'
        have hfil : l.filter (isErrorTok s2.toks) = [] := by
          rw [List.filter_eq_nil_iff]
          intro u hu
          rw [hne u hu]
          simp
        rcases hcase with ⟨-, rfl⟩ | ⟨hh, -⟩
        · refine ⟨_, _, bind_ok.mpr ⟨_, _, hrun, rfl⟩, .skip ?_, ?_, h3, ?_⟩
          · rw [hmt]
            omega
          · have hkp : Keeps s2.toks.length s2 { s2 with toks := s2.toks ++ [e] } :=
              ⟨by simp, fun i hi => List.getElem?_append_left hi⟩
            exact h2.trans hkp h2.len
          · show (s2.toks ++ [e]).length = _
            rw [List.length_append, h4, htot1, Nat.add_assoc]
            rfl
        · exact (hh hfil).elim
      cases h1 with
      | fail => exact ⟨_, _, rfl, .fail, h2, h3, h4.trans (congrArg _ (htot 0 (by rw [hx]; rfl)).symm)⟩
      | skip h => exact ⟨_, _, rfl, .skip h, h2, h3, h4.trans (congrArg _ (htot 0 (by rw [hx]; rfl)).symm)⟩
      | token h => exact key _ _ h hg (htot 1 (by rw [hx]; rfl))
      | splice h => exact key _ _ h hg (htot 1 (by rw [hx]; rfl))
    | @flat b =>
      refine Sim.map (hsub b _ (huse b (by simp [Expr.uses]))) ?_
      subst hwork
      rintro r s2 x - ⟨h1, h2, h3, h4⟩
      cases h1 with
      | fail => exact ⟨_, _, rfl, .fail, h2, h3, h4⟩
      | skip h => exact ⟨_, _, rfl, .skip h, h2, h3, h4⟩
      | token h => exact ⟨_, _, rfl, .splice h, h2, h3, h4⟩
      | splice h => exact ⟨_, _, rfl, .splice h, h2, h3, h4⟩
    | @name b x nm cu h =>
      have hl := hres x b h
      have hrun : execNode T cfg (exec T cfg n) (.ref (.str x) nm cu) c sc s1 = exec T cfg n b (c.withName nm) sc s1 := by
        show execRef (exec T cfg n) (.str x) nm c sc s1 = _
        unfold execRef
        rw [bind_run (show fetchValue (.str x) sc s1 = .ok (.inl x) s1 from rfl)]
        dsimp only
        rw [bind_run (show lookupVar sc x s1 = .ok (some (.matcher b)) s1 by unfold lookupVar; rw [hl])]
      rw [hrun]
      subst hwork
      exact hsub b nm (huse b (by simp [Expr.uses]))
    | @call b nm cu => subst hwork; exact hsub b nm (huse b (by simp [Expr.uses]))
    | empty => subst hwork; exact Sim.ok (Seen.skip hres)

end Adx.Peg
