import Verif.Proofs.InterpRun
/-
  The engine in lock step with the reference interpreter: all matchers.
-/
namespace Adx.Interp

open Peg (body Cuts Cut Ready Sim Keeps)

variable {T : Table} {cfg : Cfg} {G : Grammar MatcherId} {S : MatcherId → Prop} {K : SCtxId → Prop} {C : Str → Prop} {p : Parser}
  {stop pos : Nat} {name : Str} {s s' : State} {c : Ctx} {sc : SCtxId}

theorem Seen.fail (h : Knows S K C s) : Seen S K C p stop pos s made (.err .fail) s (.fail, vars s) :=
  ⟨.fail, trivial, .refl _ _, rfl, h, rfl⟩

theorem Seen.skip (h : Knows S K C s) (hc : Cut p.src stop pos) :
    Seen S K C p stop pos s made (.ok (.skip 0)) s (.skip 0, vars s) := ⟨.skip rfl, hc, .refl _ _, rfl, h, rfl⟩

theorem Seen.leaf {x : Res R} {y : Option (Result × Vars)} (h : Sim x y (Seen S K C p stop pos s made)) :
    Sim x y (Seen S K C p stop pos s fun _ => madeBy y) := by
  refine Peg.Sim.mono' h ?_
  rintro r s' x rfl h
  exact ⟨h.shows, h.good, h.keeps, h.store, h.knows, h.count⟩

/-- A new token without children. -/
theorem Seen.fresh (h : Knows S K C s) {k : Token} (h1 : k.kind = .standard) (h2 : k.flags = 0)
    (h3 : k.children = []) {tree : Item} (ht : tree = .node k.name k.captured k.matched k.getValue k.getMatchedValue
      k.attributes []) (hg : Good p.src stop pos tree) :
    Seen S K C p stop pos s made (.ok (.token s.toks.length)) { s with toks := s.toks ++ [k] } (.token tree, vars s) := by
  refine ⟨.token ?_, hg, ⟨by simp, fun i hi => List.getElem?_append_left hi⟩, rfl, h, by simp [made]⟩
  subst ht
  have hk : (s.toks ++ [k])[s.toks.length]? = some k := by simp
  exact .cons (Nat.le_refl _) hk h1 h2 (by rw [h3]; exact .nil) .nil

theorem sim_lit {lit w : Str} (hc : Ready p stop c) (hw : TextAt p.src c.offset.start stop w)
    (h : Knows S K C s) :
    Sim (execEquals name (.str lit) c sc s)
      (if lit ≠ [] ∧ lit.isPrefixOf w then
        some (.token (leaf p name ⟨c.offset.start, c.offset.start + blen lit⟩ ⟨c.offset.start, c.offset.start + blen lit⟩), vars s)
      else some (.fail, vars s)) (Seen S K C p stop c.offset.start s made) := by
  have hch : (c.withName name).chunk = some w := by
    apply chunk_unread
    show TextAt c.parser.src c.offset.start c.offset.stop w
    rw [hc.parser, hc.stop]
    exact hw
  have hd : (c.withName name).debug = 0 := hc.debug
  unfold execEquals
  rw [bind_run (show fetchValue (.str lit) sc s = .ok (.inl lit) s from rfl)]
  dsimp only
  by_cases hl : lit ≠ [] ∧ lit.isPrefixOf w = true
  · rw [if_pos hl]
    have hmatch : (c.withName name).matchesStr lit = some (some ⟨c.offset.start, c.offset.start + blen lit⟩) := by
      unfold Ctx.matchesStr
      rw [hch, if_neg hl.1]
      dsimp only
      rw [if_pos hl.2]
      rfl
    rw [bind_run (ofOpt_ok.mpr ⟨hmatch, rfl⟩)]
    dsimp only
    rw [bind_run (dbg_off hd), bind_run (newTok_ok.mpr ⟨rfl, rfl⟩)]
    refine Peg.Sim.ok (Seen.fresh h rfl rfl rfl ?_ (leaf_good hw ?_ ?_))
    · have hp : (c.withName name).parser = p := hc.parser
      rw [hp]
      rfl
    · exact Nat.pos_of_ne_zero fun h0 => hl.1 (blen_eq_zero.mp h0)
    · obtain ⟨w1, rfl⟩ := List.isPrefixOf_iff_prefix.mp hl.2
      exact ⟨lit, [], w1, rfl, rfl, (Nat.zero_add _).symm⟩
  · rw [if_neg hl]
    have hmatch : (c.withName name).matchesStr lit = some none := by
      unfold Ctx.matchesStr
      rw [hch]
      by_cases h0 : lit = []
      · rw [if_pos h0]
      · rw [if_neg h0]
        dsimp only
        rw [if_neg fun hh => hl ⟨h0, hh⟩]
    rw [bind_run (ofOpt_ok.mpr ⟨hmatch, rfl⟩)]
    dsimp only
    rw [bind_run (dbg_off hd)]
    exact Peg.Sim.ok (Seen.fail h)

theorem sim_re {re : Regex} {w : Str} (hcuts : Cuts re.find) (hc : Ready p stop c) (hw : TextAt p.src c.offset.start stop w)
    (h : Knows S K C s) :
    Sim (execMatches name re c s)
      (match re.find w with
      | some (0, 0) => some (.skip 0, vars s)
      | some (0, b) => some (.token (leaf p name ⟨c.offset.start, c.offset.start + b⟩ ⟨c.offset.start, c.offset.start + b⟩), vars s)
      | _ => some (.fail, vars s)) (Seen S K C p stop c.offset.start s made) := by
  have hch : (c.withName name).chunk = some w := by
    apply chunk_unread
    show TextAt c.parser.src c.offset.start c.offset.stop w
    rw [hc.parser, hc.stop]
    exact hw
  have hd : (c.withName name).debug = 0 := hc.debug
  have hp : (c.withName name).parser = p := hc.parser
  have hmatch : ∀ o, (match re.find w with
      | some (a, b) => if a + c.offset.start ≠ c.offset.start then none
        else some (⟨a + c.offset.start, b + c.offset.start⟩ : Range)
      | none => none) = o → (c.withName name).matchesRegexp re = some o := by
    intro o ho
    unfold Ctx.matchesRegexp
    rw [hch]
    dsimp only
    rw [← ho]
    cases re.find w with
    | none => rfl
    | some ab =>
      by_cases hne : ab.1 + c.offset.start ≠ c.offset.start
      · show (if _ then _ else _) = some (if _ then _ else _)
        rw [if_pos hne]
        exact if_pos hne
      · show (if _ then _ else _) = some (if _ then _ else _)
        rw [if_neg hne]
        exact if_neg hne
  unfold execMatches
  cases hf : re.find w with
  | none =>
    have := hmatch none (by rw [hf])
    rw [bind_run (ofOpt_ok.mpr ⟨this, rfl⟩)]
    dsimp only
    rw [bind_run (dbg_off hd)]
    exact Peg.Sim.ok (Seen.fail h)
  | some ab =>
    obtain ⟨a, b⟩ := ab
    cases a with
    | succ a =>
      have := hmatch none (by rw [hf]; dsimp only; rw [if_pos (by omega)])
      rw [bind_run (ofOpt_ok.mpr ⟨this, rfl⟩)]
      dsimp only
      rw [bind_run (dbg_off hd)]
      exact Peg.Sim.ok (Seen.fail h)
    | zero =>
      have := hmatch (some ⟨c.offset.start, c.offset.start + b⟩)
        (by rw [hf]; dsimp only; rw [if_neg (by omega), Nat.zero_add, Nat.add_comm b])
      rw [bind_run (ofOpt_ok.mpr ⟨this, rfl⟩)]
      dsimp only
      cases b with
      | zero =>
        rw [if_pos (by omega), bind_run (dbg_off hd)]
        exact Peg.Sim.ok (Seen.skip h ⟨w, hw⟩)
      | succ b =>
        rw [if_neg (by omega), bind_run (newTok_ok.mpr ⟨rfl, rfl⟩)]
        refine Peg.Sim.ok (Seen.fresh h rfl rfl rfl ?_ (leaf_good hw (Nat.succ_pos _) (hcuts _ _ _ hf)))
        rw [hp]
        rfl

theorem sim_delim {a b e w : Str} (ha : a ≠ []) (hb : b ≠ []) (hasc : AsciiBetween p.src a b e) (hc : Ready p stop c)
    (hw : TextAt p.src c.offset.start stop w) (h : Knows S K C s) :
    Sim (execSequence name (.str a) (.str b) (.str e) c sc s)
      (if a.isPrefixOf w then
        match body b e (w.length + 1) (w.drop a.length) with
        | some (raw, val) => some (.token (delimLeaf p name a b c.offset.start raw val), vars s)
        | none => some (.fail, vars s)
      else some (.fail, vars s)) (Seen S K C p stop c.offset.start s made) := by
  have hunread : (c.withName name).Unread w := by
    show TextAt c.parser.src c.offset.start c.offset.stop w
    rw [hc.parser, hc.stop]
    exact hw
  have hch : (c.withName name).chunk = some w := chunk_unread hunread
  have hd : (c.withName name).debug = 0 := hc.debug
  have hp : (c.withName name).parser = p := hc.parser
  unfold execSequence
  rw [bind_run (show fetchValue (.str a) sc s = .ok (.inl a) s from rfl)]
  dsimp only
  rw [if_neg ha, bind_run (show fetchValue (.str b) sc s = .ok (.inl b) s from rfl)]
  dsimp only
  rw [if_neg hb, bind_run (show fetchValue (.str e) sc s = .ok (.inl e) s from rfl)]
  dsimp only
  by_cases hl : a.isPrefixOf w = true
  · rw [if_pos hl]
    have hmatch : (c.withName name).matchesStr a = some (some ⟨c.offset.start, c.offset.start + blen a⟩) := by
      unfold Ctx.matchesStr
      rw [hch, if_neg ha]
      dsimp only
      rw [if_pos hl]
      rfl
    rw [bind_run (ofOpt_ok.mpr ⟨hmatch, rfl⟩)]
    dsimp only
    obtain ⟨w1, rfl⟩ := List.isPrefixOf_iff_prefix.mp hl
    rw [List.drop_left]
    have hw1 : TextAt c.parser.src (c.offset.start + blen a) c.offset.stop w1 := hunread.suffix
    have hpsrc : c.parser = p := hc.parser
    have haw : ∀ v r, Skims b e w1 v r → Ascii v := by
      obtain ⟨pre, post, he, -, -⟩ := hunread
      rw [show (c.withName name).parser.src = p.src by rw [← hpsrc]; rfl] at he
      exact fun v r h => hasc pre w1 post v r (by rw [he]; simp) h
    have hle := hw1.le
    have hspec := seqLoop_text (c := c.withName name) (esc := e) hb
      (c.offset.stop - (c.offset.start + blen a)) w1 [] [] (c.offset.start + blen a)
      (c.offset.start + blen a) [] (by omega) hw1
      (by simp [blen]) rfl
    rcases hspec with ⟨raw, val, rest, parts', hB, -, hv, hloop⟩ | ⟨hno, -, hloop⟩ | ⟨⟨v, r, h1, h2⟩, -⟩
    · have hbody : body b e ((a ++ w1).length + 1) w1 = some (raw, val) :=
        (Peg.body_iff hb (by simp; omega)).mpr ⟨rest, hB⟩
      rw [hbody]
      dsimp only
      have hloop' : seqLoop (c.withName name) b e
          ((c.withName name).offset.stop - (c.offset.start + blen a)) (c.offset.start + blen a)
          (c.offset.start + blen a) [] = .found (c.offset.start + blen a + blen raw + blen b) parts' := hloop
      rw [hloop']
      dsimp only
      rw [bind_run (newTok_ok.mpr ⟨rfl, rfl⟩), bind_run (dbg_off hd)]
      refine Peg.Sim.ok (Seen.fresh h rfl rfl rfl ?_ (delim_good ha hb hw hbody))
      rw [getValue_setAttribute _ _ rfl, hp, hv, Nat.add_sub_cancel]
      rfl
    · have hbody : body b e ((a ++ w1).length + 1) w1 = none := by
        cases hx : body b e ((a ++ w1).length + 1) w1 with
        | none => rfl
        | some rv =>
          obtain ⟨raw, val⟩ := rv
          obtain ⟨rest, hB⟩ := (Peg.body_iff hb (by simp; omega)).mp hx
          exact (hno ⟨raw, val, rest, hB⟩).elim
      rw [hbody]
      dsimp only
      have hloop' : seqLoop (c.withName name) b e
          ((c.withName name).offset.stop - (c.offset.start + blen a)) (c.offset.start + blen a)
          (c.offset.start + blen a) [] = .fail := hloop
      rw [hloop']
      dsimp only
      rw [bind_run (dbg_off hd)]
      exact Peg.Sim.ok (Seen.fail h)
    · exact (h2 (haw v r h1)).elim
  · rw [if_neg hl]
    have hmatch : (c.withName name).matchesStr a = some none := by
      unfold Ctx.matchesStr
      rw [hch, if_neg ha]
      dsimp only
      rw [if_neg hl]
    rw [bind_run (ofOpt_ok.mpr ⟨hmatch, rfl⟩)]
    dsimp only
    rw [bind_run (dbg_off hd)]
    exact Peg.Sim.ok (Seen.fail h)

variable {f : ExecFn} {ev : Ev MatcherId Vars} {wk : MatcherId → Nat → Nat → Vars → Nat}

/-- Programs, switches and loops as a whole. -/
theorem sim_program (hb : blen p.src ≤ isizeMax) (hcon : Idle T S ev) (hL : Lock S K C p stop f ev wk) (hK : K sc)
    (hc : Ready p stop c) (hcut : Cut p.src stop c.offset.start) {ms : List MatcherId} (hms : ∀ m ∈ ms, S m)
    (h : Knows S K C s) :
    Sim (execProgram T cfg f ms name none false c sc s)
      ((parts ev sc ms (.start c.offset.start) (vars s)).map fun x => (seqResult p name c.offset.start x.1, x.2))
      (Seen S K C p stop c.offset.start s fun _ => 1 + partsWork ev wk sc ms (.start c.offset.start) (vars s)) ∧
    Sim (execProgram T cfg f ms name none true c sc s) (choose ev sc c.offset.start ms (vars s))
      (Seen S K C p stop c.offset.start s fun _ => 1 + chooseWork ev wk sc c.offset.start ms (vars s)) ∧
    ∀ lo hi, Sim (execProgram T cfg f ms name (some (lo, hi)) false c sc s)
      ((rounds ev sc ms (hi - lo) (.start c.offset.start) (vars s)).map
        fun x => (loopResult p name c.offset.start lo hi x.1, x.2))
      (Seen S K C p stop c.offset.start s fun _ => 1 + roundsWork ev wk sc ms (hi - lo) (.start c.offset.start) (vars s)) := by
  have hc' : Ready p stop (c.withName name) := ⟨hc.parser, hc.stop, hc.debug⟩
  let s1 : State := { s with toks := s.toks ++ [Token.mk' p name ⟨0, 0⟩] }
  have hk1 : Keeps s.toks.length s s1 := ⟨by simp [s1], fun i hi => List.getElem?_append_left hi⟩
  have h1 : Knows S K C s1 := h
  have hv1 : vars s1 = vars s := rfl
  have htok : s1.toks[s.toks.length]? = some (Token.mk' p name ⟨0, 0⟩) := by simp [s1]
  have hrun : ∀ iter first, execProgram T cfg f ms name iter first c sc s =
      runIterations T cfg f s.toks.length sc c.offset.start name ms iter first (iterCount iter) 0
        ((Acc.start c.offset.start).ps (c.withName name)) s1 := by
    intro iter first
    have hp : (c.withName name).parser = p := hc.parser
    unfold execProgram
    rw [hp, bind_run (newTok_ok.mpr ⟨rfl, rfl⟩)]
    rfl
  have htr : Tracks p stop c.offset.start name s.toks.length s1 (.start c.offset.start) (.start c.offset.start) :=
    ⟨rfl, rfl, Or.inl ⟨rfl, rfl, rfl⟩, .nil, RunOk.start' hcut, htok⟩
  have hlen : s.toks.length < s1.toks.length := by simp [s1]
  have hlen' : s1.toks.length = s.toks.length + 1 := by simp [s1]
  rw [← hv1]
  refine ⟨?_, ?_, ?_⟩
  · rw [hrun]
    show Sim ((runPatterns T cfg f s.toks.length sc c.offset.start none false 0 ms _ >>= _) s1) _ _
    refine Peg.Sim.map (sim_parts (sc := sc) (iter := none) (count := 0) (cfg := cfg) hb hcon hL hK hc' hms htr h1) ?_
    rintro fl s2 ⟨y, st⟩ - ⟨hkeep, hvars, hknows, hcase, hcount⟩
    have hk2 := hk1.trans hkeep (Nat.le_refl _)
    cases y with
    | all r =>
      obtain ⟨a', rfl, htr2⟩ := hcase
      obtain ⟨q, s3, hcomp, hshow, hk3, hv3, hl3⟩ := htr2.finish hb
      exact ⟨q, s3, finalize_true.mpr (.completes (by simp) hcomp), hshow, htr2.ok.finish,
        hk2.trans hk3 (Nat.le_refl _), hv3.trans hvars, Knows.congr hv3 hknows, by rw [hl3, hcount, hlen', Nat.add_assoc]⟩
    | failed r =>
      obtain ⟨hok, q, rfl, hshow⟩ := hcase
      exact ⟨q, s2, rfl, hshow, trivial, hk2, hvars, hknows, by rw [hcount, hlen', Nat.add_assoc]⟩
    | error e =>
      cases hcase
      exact ⟨_, s2, rfl, .error, trivial, hk2, hvars, hknows, by rw [hcount, hlen', Nat.add_assoc]⟩
  · rw [hrun]
    have hch : choose ev sc c.offset.start ms (vars s1) = (choose ev sc c.offset.start ms (vars s1)).map id := by simp
    rw [hch]
    show Sim ((runPatterns T cfg f s.toks.length sc c.offset.start none true 0 ms _ >>= _) s1) _ _
    refine Peg.Sim.map (sim_choose (sc := sc) (cfg := cfg) (start := c.offset.start) (count := 0) hb hL hK hc' hcut hms
      (a := .start c.offset.start) rfl rfl hlen h1) ?_
    rintro fl s2 ⟨y, st⟩ - ⟨hkeep, hvars, hknows, hgood, hcase, hcount⟩
    have hk2 : Keeps s.toks.length s s2 := hk1.trans hkeep (Nat.le_succ _)
    rcases hcase with ⟨hy, a', rfl, hk⟩ | ⟨q, rfl, hshow⟩
    · dsimp only at hy
      subst hy
      exact ⟨_, s2, finalize_true.mpr (.completes (by simp) (.nothing (Or.inl hk))), .fail, trivial, hk2, hvars, hknows,
        by rw [hcount, hlen', Nat.add_assoc]⟩
    · exact ⟨q, s2, rfl, hshow.lower (Nat.le_succ _), hgood, hk2, hvars, hknows, by rw [hcount, hlen', Nat.add_assoc]⟩
  · intro lo hi
    rw [hrun]
    refine (sim_rounds (sc := sc) (cfg := cfg) (lo := lo) (hi := hi) (n := 0) hb hcon hL hK hc' hcut hms (Nat.zero_add _)
      (fun _ => rfl) htr h1).mono ?_
    rintro q s2 x ⟨h2, h3, h4, h5, h6, hcount⟩
    exact ⟨h2, h3, hk1.trans h4 (Nat.le_refl _), h5, h6, by rw [hcount, hlen', Nat.add_assoc]⟩

theorem Seen.entered {m : MatcherId} {k : Result → Nat} {r : R} {x : Result × Vars}
    (h : Seen S K C p stop pos (entered T m sc s) k r s' x) : Seen S K C p stop pos s k r s' x := by
  obtain ⟨h1, h2, h3, h4, h5, h6⟩ := h
  rw [entered_toks] at h1 h3 h6
  exact ⟨h1, h2, ⟨by rw [← entered_toks (T := T) (m := m) (sc := sc)]; exact h3.len,
    fun i hi => by rw [h3.same i hi, entered_toks]⟩, h4, h5, h6⟩

/-- The parts that do not consume are empty. -/
theorem eval_idle (hF : Forms T G S K C) (n : Nat) : Idle T S (eval G heapNames p stop n) := by
  intro m hm hc k pos st x h
  have he := hF.expr m hm
  cases n with
  | zero => cases h
  | succ n =>
    unfold eval at h
    generalize T m = node at he hc
    generalize G.expr m = e at he h
    cases he
    all_goals first | (cases hc; done) | skip
    cases h
    rfl

/-! ### Changing a token -/

/-- What changes of a token when a callback of the script compiler is run on it. -/
theorem alter_token {lo : Nat} {t : TokId} {tree : Item} {g : Token → Token} {g' : Item → Item}
    (hg : ∀ k : Token, k.kind = .standard → (g k).kind = .standard ∧ (g k).flags = k.flags ∧ (g k).children = k.children ∧
      ∀ cs, g' (.node k.name k.captured k.matched k.getValue k.getMatchedValue k.attributes cs) =
        .node (g k).name (g k).captured (g k).matched (g k).getValue (g k).getMatchedValue (g k).attributes cs)
    (h : Reps s.toks lo [t] [tree]) :
    ∃ k, s.toks[t]? = some k ∧ Reps (s.put t (g k)).toks lo [t] [g' tree] ∧ Keeps lo s (s.put t (g k)) := by
  cases h with
  | @cons _ _ k _ cs _ hl hk hs hf hc _ =>
    obtain ⟨h1, h2, h3, h4⟩ := hg k hs
    refine ⟨k, hk, ?_, Keeps.put hl⟩
    rw [h4]
    refine .cons hl (put_get hk) h1 (by rw [h2, hf]) ?_ .nil
    rw [h3]
    refine hc.change fun i k' hi hk' => ⟨k'.parent, ?_⟩
    show (s.toks.set t _)[i]? = _
    rw [List.getElem?_set_ne (by omega), hk']

theorem rename_keeps {l : Str} (k : Token) (h : k.kind = .standard) :
    (k.setName l).kind = .standard ∧ (k.setName l).flags = k.flags ∧ (k.setName l).children = k.children ∧
      ∀ cs, Item.rename l (.node k.name k.captured k.matched k.getValue k.getMatchedValue k.attributes cs) =
        .node (k.setName l).name (k.setName l).captured (k.setName l).matched (k.setName l).getValue
          (k.setName l).getMatchedValue (k.setName l).attributes cs := ⟨h, rfl, rfl, fun _ => rfl⟩

theorem addMissing_eq {a : AMap Str} : ∀ {k : Token}, k.addMissing a = { k with attributes := Item.missing k.attributes a } := by
  induction a with
  | nil => intro k; rfl
  | cons kv a ih =>
    intro k
    obtain ⟨key, v⟩ := kv
    unfold Token.addMissing Item.missing
    by_cases h : (k.attributes.get key).isSome = true
    · rw [if_pos h, if_pos (show k.hasAttribute key = true from h), ih]
    · rw [if_neg h, if_neg (show ¬ k.hasAttribute key = true from h), ih]
      rfl

theorem missing_keeps {a : AMap Str} {x v : Str} : ∀ {b : AMap Str}, b.get x = some v → (Item.missing b a).get x = some v := by
  induction a with
  | nil => intro b h; exact h
  | cons kv a ih =>
    intro b h
    obtain ⟨key, v'⟩ := kv
    unfold Item.missing
    split
    · exact ih h
    · rename_i hh
      apply ih
      rw [AMap.get_insert, if_neg]
      · exact h
      · rintro rfl
        rw [h] at hh
        exact hh rfl

theorem give_keeps {a : AMap Str} (k : Token) (h : k.kind = .standard) :
    (k.addMissing a).kind = .standard ∧ (k.addMissing a).flags = k.flags ∧ (k.addMissing a).children = k.children ∧
      ∀ cs, Item.give a (.node k.name k.captured k.matched k.getValue k.getMatchedValue k.attributes cs) =
        .node (k.addMissing a).name (k.addMissing a).captured (k.addMissing a).matched (k.addMissing a).getValue
          (k.addMissing a).getMatchedValue (k.addMissing a).attributes cs := by
  rw [addMissing_eq]
  refine ⟨h, rfl, rfl, fun cs => ?_⟩
  show Item.node _ _ _ (((Item.missing k.attributes a).get "__value".toList).getD k.getValue) _ _ _ = _
  have hv : ((Item.missing k.attributes a).get "__value".toList).getD k.getValue =
      Token.getValue { k with attributes := Item.missing k.attributes a } := by
    unfold Token.getValue
    show _ = match (Item.missing k.attributes a).get "__value".toList with
      | some v => v
      | none => _
    cases h1 : (Item.missing k.attributes a).get "__value".toList with
    | some v => rfl
    | none =>
      have h2 : k.getAttribute "__value".toList = none := by
        cases h3 : k.getAttribute "__value".toList with
        | none => rfl
        | some v =>
          rw [missing_keeps h3] at h1
          cases h1
      rw [h2]
      show (match k.value with | some v => v | none => k.getCapturedValue) = _
      dsimp only
      cases k.value with
      | some v => rfl
      | none =>
        unfold Token.getCapturedValue
        rw [h]
  rw [hv]
  have hm : Token.getMatchedValue { k with attributes := Item.missing k.attributes a } = k.getMatchedValue := by
    unfold Token.getMatchedValue
    rw [h]
  rw [hm]

theorem Good.rename {l : Str} {t : Item} (h : Good p.src stop pos t) : Good p.src stop pos (t.rename l) := by
  cases t
  exact ⟨⟨h.spot.start, h.spot.lt, h.spot.cut, h.spot.cap⟩, h.kids⟩

theorem Good.give {a : AMap Str} {t : Item} (h : Good p.src stop pos t) : Good p.src stop pos (t.give a) := by
  cases t
  exact ⟨⟨h.spot.start, h.spot.lt, h.spot.cut, h.spot.cap⟩, h.kids⟩

/-! ### All matchers -/

/-- The engine and the interpreter run in lock step, with the same depth of recursion. -/
theorem lock (hF : Forms T G S K C) (hb : blen p.src ≤ isizeMax)
    (hasc : ∀ m, S m → (G.expr m).Between p.src) (n : Nat) :
    Lock S K C p stop (exec T cfg n) (eval G heapNames p stop n) (work G heapNames p stop n) := by
  induction n with
  | zero => intro m _ c sc s _ _ _ _; trivial
  | succ n ih =>
    intro m hm c sc s hK hc hcut hknows
    rw [exec_succ]
    refine Peg.Sim.mono (Q := Seen S K C p stop c.offset.start (entered T m sc s)
      fun _ => work G heapNames p stop (n + 1) m sc c.offset.start (vars s)) ?_ fun r s' x h => h.entered
    have he := hF.expr m hm
    have huse := hF.closed m hm
    have hins := hF.inside m hm
    have hdel := hasc m hm
    have hreg := hF.regex m hm
    have hcall := hF.calls m hm
    show Sim _ (evalExpr _ _ _ _ _ _ (enter G heapNames m sc (vars s)) _) (Seen S K C p stop c.offset.start _
      fun _ => workExpr (eval G heapNames p stop n) (work G heapNames p stop n) heapNames p stop sc c.offset.start
        (enter G heapNames m sc (vars s)) (G.expr m))
    rw [← vars_entered hF hm]
    replace hknows := hknows.enter (T := T) (sc := sc) hm
    generalize entered T m sc s = s1 at hknows ⊢
    obtain ⟨w, hw⟩ := hcut
    have hw' : bslice p.src c.offset.start stop = some w := bslice_iff.mpr hw
    have hsub : ∀ b nm k, S b → K k → Sim (exec T cfg n b (c.withName nm) k s1)
        (eval G heapNames p stop n b k c.offset.start (vars s1))
        (Seen S K C p stop c.offset.start s1 fun _ => work G heapNames p stop n b k c.offset.start (vars s1)) := by
      intro b nm k hSb hKk
      exact ih b hSb (c.withName nm) k s1 hKk ⟨hc.parser, hc.stop, hc.debug⟩ ⟨w, hw⟩ hknows
    generalize T m = node at he ⊢
    generalize G.expr m = e at he huse hins hdel hreg hcall ⊢
    have hcon := eval_idle (p := p) (stop := stop) hF n
    cases he with
    | lit =>
      refine Seen.leaf ?_
      unfold evalExpr
      rw [hw']
      exact sim_lit hc hw hknows
    | re =>
      refine Seen.leaf ?_
      unfold evalExpr
      rw [hw']
      exact sim_re (hreg _ _ rfl) hc hw hknows
    | delim ha hb' =>
      refine Seen.leaf ?_
      unfold evalExpr
      rw [hw']
      exact sim_delim ha hb' (hdel _ _ _ _ rfl) hc hw hknows
    | seq => exact (sim_program hb hcon ih hK hc ⟨w, hw⟩ huse hknows).1
    | choice => exact (sim_program hb hcon ih hK hc ⟨w, hw⟩ huse hknows).2.1
    | loop => exact (sim_program hb hcon ih hK hc ⟨w, hw⟩ huse hknows).2.2 _ _
    | @opt b =>
      refine Peg.Sim.map (hsub b _ sc (huse b (by simp [Expr.uses])) hK) ?_
      rintro r s2 ⟨x, st⟩ - ⟨h1, h2, h3, h4, h5, h6⟩
      cases h1 with
      | fail => exact ⟨_, _, rfl, .skip rfl, ⟨w, hw⟩, h3, h4, h5, h6⟩
      | error => exact ⟨_, _, rfl, .error, h2, h3, h4, h5, h6⟩
      | skip h => exact ⟨_, _, rfl, .skip h, h2, h3, h4, h5, h6⟩
      | token h => exact ⟨_, _, rfl, .token h, h2, h3, h4, h5, h6⟩
      | splice h => exact ⟨_, _, rfl, .splice h, h2, h3, h4, h5, h6⟩
    | @neg b =>
      refine Peg.Sim.map (hsub b _ sc (huse b (by simp [Expr.uses])) hK) ?_
      rintro r s2 ⟨x, st⟩ - ⟨h1, h2, h3, h4, h5, h6⟩
      cases h1 with
      | fail => exact ⟨_, _, rfl, .skip rfl, ⟨w, hw⟩, h3, h4, h5, h6⟩
      | error => exact ⟨_, _, rfl, .error, h2, h3, h4, h5, h6⟩
      | @skip k j h =>
        subst h
        cases j with
        | zero => exact ⟨_, _, rfl, .skip rfl, h2, h3, h4, h5, h6⟩
        | succ j => exact ⟨_, _, rfl, .fail, trivial, h3, h4, h5, h6⟩
      | token h => exact ⟨_, _, rfl, .fail, trivial, h3, h4, h5, h6⟩
      | splice h => exact ⟨_, _, rfl, .fail, trivial, h3, h4, h5, h6⟩
    | @drop b =>
      refine Peg.Sim.map (hsub b _ sc (huse b (by simp [Expr.uses])) hK) ?_
      rintro r s2 ⟨x, st⟩ hx ⟨h1, h2, h3, h4, h5, h6⟩
      have hw6 : workExpr (eval G heapNames p stop n) (work G heapNames p stop n) heapNames p stop sc c.offset.start
          (vars s1) (.drop b) = work G heapNames p stop n b sc c.offset.start (vars s1) + made x := by
        show _ + madeBy (eval G heapNames p stop n b sc c.offset.start (vars s1)) = _
        rw [hx]
        rfl
      have key : ∀ t tree, Reps s2.toks s1.toks.length [t] [tree] → Good p.src stop c.offset.start tree → made x = 1 →
          ∃ a' s3, (skipToken cfg (c.withName "Discard".toList) c.offset.start t >>= fun s => pure (.ok s) : M R) s2 = .ok a' s3 ∧
            Seen S K C p stop c.offset.start s1 (fun _ => workExpr (eval G heapNames p stop n) (work G heapNames p stop n)
              heapNames p stop sc c.offset.start (vars s1) (.drop b)) a' s3 (.skip (tree.matched.stop - c.offset.start), st) := by
        intro t tree hr hgd hmade
        obtain ⟨k, -, hk, -, -, hmt, -⟩ := hr.root
        obtain ⟨l, hp, hne⟩ := hr.pre
        have hlt := hgd.spot.lt
        have hle := hgd.spot.cut.le
        obtain ⟨y, s3, hrun, k', e, hk', rfl, hcase⟩ := skipToken_run (cfg := cfg) (c := c.withName "Discard".toList)
          (start := c.offset.start) hp hk (by omega) (by rw [hmt]; omega)
        rw [hk] at hk'
        cases hk'
        have hfil : l.filter (isErrorTok s2.toks) = [] := by
          rw [List.filter_eq_nil_iff]
          intro u hu
          rw [hne u hu]
          simp
        rcases hcase with ⟨-, rfl⟩ | ⟨hh, -⟩
        · refine ⟨_, _, bind_ok.mpr ⟨_, _, hrun, rfl⟩, .skip ?_, ?_, ?_, h4, h5, ?_⟩
          · rw [hmt]
            omega
          · exact hgd.sub rfl
          · have hkp : Keeps s2.toks.length s2 { s2 with toks := s2.toks ++ [e] } :=
              ⟨by simp, fun i hi => List.getElem?_append_left hi⟩
            exact h3.trans hkp h3.len
          · show (s2.toks ++ [e]).length = _
            rw [hw6, List.length_append, h6, hmade]
            show _ + 1 = _
            omega
        · exact (hh hfil).elim
      cases h1 with
      | fail => exact ⟨_, _, rfl, .fail, h2, h3, h4, h5, h6.trans (by rw [hw6]; rfl)⟩
      | error => exact ⟨_, _, rfl, .error, h2, h3, h4, h5, h6.trans (by rw [hw6]; rfl)⟩
      | skip h => exact ⟨_, _, rfl, .skip h, h2, h3, h4, h5, h6.trans (by rw [hw6]; rfl)⟩
      | token h => exact key _ _ h h2 rfl
      | splice h => exact key _ _ h h2 rfl
    | @flat b =>
      refine Peg.Sim.map (hsub b _ sc (huse b (by simp [Expr.uses])) hK) ?_
      rintro r s2 ⟨x, st⟩ - ⟨h1, h2, h3, h4, h5, h6⟩
      cases h1 with
      | fail => exact ⟨_, _, rfl, .fail, h2, h3, h4, h5, h6⟩
      | error => exact ⟨_, _, rfl, .error, h2, h3, h4, h5, h6⟩
      | skip h => exact ⟨_, _, rfl, .skip h, h2, h3, h4, h5, h6⟩
      | token h => exact ⟨_, _, rfl, .splice h, h2, h3, h4, h5, h6⟩
      | splice h => exact ⟨_, _, rfl, .splice h, h2, h3, h4, h5, h6⟩
    | @call x nm cu =>
      show Sim (execRef (exec T cfg n) (.str x) nm c sc s1) _ _
      unfold execRef evalExpr workExpr
      rw [bind_run (show fetchValue (.str x) sc s1 = .ok (.inl x) s1 from rfl)]
      dsimp only
      rw [bind_run (show lookupVar sc x s1 = .ok (s1.lookup sc x) s1 from rfl)]
      cases hl : heapNames.get (vars s1) sc x with
      | some b =>
        have hl' := get_vars_iff.mp hl
        rw [hl']
        exact hsub b nm sc (hknows sc hK x (hcall x rfl) b hl') hK
      | none =>
        have hnot : ∀ b, s1.lookup sc x ≠ some (.matcher b) := by
          intro b hb
          rw [get_vars_iff.mpr hb] at hl
          cases hl
        have hend : Sim (Res.ok (R.err (.error (unknown x))) s1) (some (Result.error (unknown x), vars s1))
            (Seen S K C p stop c.offset.start s1 fun _ => 0) := Peg.Sim.ok ⟨.error, trivial, .refl _ _, rfl, hknows, rfl⟩
        cases hl2 : s1.lookup sc x with
        | none => exact hend
        | some v =>
          cases v with
          | matcher b => exact (hnot b hl2).elim
          | _ => exact hend
    | @jump b nm cu => exact hsub b nm sc (huse b (by simp [Expr.uses])) hK
    | @within k b => exact hsub b _ k (huse b (by simp [Expr.uses])) (hins k rfl)
    | @rename l b =>
      refine Peg.Sim.map (hsub b _ sc (huse b (by simp [Expr.uses])) hK) ?_
      rintro r s2 ⟨x, st⟩ - ⟨h1, h2, h3, h4, h5, h6⟩
      have key : ∀ t tree, Reps s2.toks s1.toks.length [t] [tree] → Good p.src stop c.offset.start tree →
          ∃ a' s3, renameToken l t (c.withName "Map".toList) sc s2 = .ok a' s3 ∧
            Seen S K C p stop c.offset.start s1 (fun _ => work G heapNames p stop n b sc c.offset.start (vars s1)) a' s3 (.token (tree.rename l), st) := by
        intro t tree hr hgd
        obtain ⟨k, hk, hr', hkp⟩ := alter_token (rename_keeps (l := l)) hr
        exact ⟨_, _, bind_ok.mpr ⟨(), _, modTok_ok.mpr ⟨k, hk, rfl⟩, rfl⟩, .token hr', hgd.rename,
          h3.trans hkp (Nat.le_refl _), h4, h5, (Peg.put_length ..).trans h6⟩
      cases h1 with
      | fail => exact ⟨_, _, rfl, .fail, h2, h3, h4, h5, h6⟩
      | error => exact ⟨_, _, rfl, .error, h2, h3, h4, h5, h6⟩
      | skip h => exact ⟨_, _, rfl, .skip h, h2, h3, h4, h5, h6⟩
      | token h => exact key _ _ h h2
      | splice h => exact key _ _ h h2
    | @give a b =>
      refine Peg.Sim.map (hsub b _ sc (huse b (by simp [Expr.uses])) hK) ?_
      rintro r s2 ⟨x, st⟩ - ⟨h1, h2, h3, h4, h5, h6⟩
      have key : ∀ t tree, Reps s2.toks s1.toks.length [t] [tree] → Good p.src stop c.offset.start tree →
          ∃ a' s3, addMissingAttributes a t (c.withName "Map".toList) sc s2 = .ok a' s3 ∧
            Seen S K C p stop c.offset.start s1 (fun _ => work G heapNames p stop n b sc c.offset.start (vars s1)) a' s3 (.token (tree.give a), st) := by
        intro t tree hr hgd
        obtain ⟨k, hk, hr', hkp⟩ := alter_token (give_keeps (a := a)) hr
        exact ⟨_, _, bind_ok.mpr ⟨(), _, modTok_ok.mpr ⟨k, hk, rfl⟩, rfl⟩, .token hr', hgd.give,
          h3.trans hkp (Nat.le_refl _), h4, h5, (Peg.put_length ..).trans h6⟩
      cases h1 with
      | fail => exact ⟨_, _, rfl, .fail, h2, h3, h4, h5, h6⟩
      | error => exact ⟨_, _, rfl, .error, h2, h3, h4, h5, h6⟩
      | skip h => exact ⟨_, _, rfl, .skip h, h2, h3, h4, h5, h6⟩
      | token h => exact key _ _ h h2
      | splice h => exact key _ _ h h2
    | empty => exact Peg.Sim.ok ⟨.skip rfl, ⟨w, hw⟩, .refl _ _, rfl, hknows, rfl⟩

end Adx.Interp
