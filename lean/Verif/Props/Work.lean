import Verif.Props.Rank
import Verif.Spec.Work
/-
  C70: what a parse costs at most.
-/
namespace Adx.Peg

variable {T : Table} {cfg : Cfg} {ρ : Str → Option MatcherId} {S : MatcherId → Prop} {G : MatcherId → Expr}
  {p : Parser} {stop start : Nat} {m : MatcherId} {c : Ctx} {sc : SCtxId} {s s' : State} {n K L B : Nat}
  {N : MatcherId → Prop} {rank : MatcherId → Nat} {top : Nat} {ev : MatcherId → Nat → Option Result}
  {wk : MatcherId → Nat → Nat}

/-! ### Bounds -/

theorem partsWork_le (hev : EvGood p stop S ev) {ms : List MatcherId} (hms : ∀ m ∈ ms, S m)
    (hwk : ∀ m ∈ ms, ∀ q, Cut p.src stop q → start ≤ q → wk m q ≤ B) :
    ∀ {r : Run}, RunOk p.src stop start r → partsWork ev wk ms r ≤ ms.length * B := by
  induction ms with
  | nil => intro r _; exact Nat.zero_le _
  | cons m ms ih =>
    intro r h
    have h1 := hwk m (by simp) r.pos h.pos h.le
    have hrest : ∀ x, ev m r.pos = some x → partsWork ev wk ms (r.take x) ≤ ms.length * B := fun x hx =>
      ih (fun y hy => hms y (by simp [hy])) (fun y hy => hwk y (by simp [hy])) (h.take (hev m (hms m (by simp)) _ h.pos x hx))
    have : partsWork ev wk (m :: ms) r ≤ B + ms.length * B := by
      unfold partsWork
      split
      · omega
      · omega
      · rename_i x _ hx
        have := hrest x hx
        omega
    rw [List.length_cons, Nat.succ_mul]
    omega

theorem chooseWork_le {ms : List MatcherId} {pos : Nat} (hwk : ∀ m ∈ ms, wk m pos ≤ B) :
    chooseWork ev wk pos ms ≤ ms.length * B := by
  induction ms with
  | nil => exact Nat.zero_le _
  | cons m ms ih =>
    have h1 := hwk m (by simp)
    have h2 := ih fun y hy => hwk y (by simp [hy])
    rw [List.length_cons, Nat.succ_mul]
    unfold chooseWork
    split <;> omega

/-- Every round but the last moves forward. -/
theorem roundsWork_le (hev : EvGood p stop S ev)
    (hN : ∀ m, S m → ∀ q, Cut p.src stop q → ev m q = some (.skip 0) → N m)
    {ms : List MatcherId} (hms : ∀ m ∈ ms, S m) (hm : m ∈ ms) (hn : ¬ N m)
    (hwk : ∀ m ∈ ms, ∀ q, Cut p.src stop q → start ≤ q → wk m q ≤ B) {k : Nat} :
    ∀ {r : Run}, RunOk p.src stop start r → roundsWork ev wk ms k r ≤ (stop - r.pos + 1) * (ms.length * B) := by
  induction k with
  | zero => intro r _; exact Nat.zero_le _
  | succ k ih =>
    intro r h
    have h1 := partsWork_le hev hms hwk h
    rw [Nat.succ_mul]
    unfold roundsWork
    split
    · rename_i r1 hp
      have h2 := parts_ok hev hms h hp
      rcases parts_pos hev hN hms h hp with h3 | ⟨-, h3⟩
      · have h4 := ih h2
        have h5 := h2.pos.le.1
        have h6 : (stop - r1.pos + 1) * (ms.length * B) ≤ (stop - r.pos) * (ms.length * B) :=
          Nat.mul_le_mul_right _ (by omega)
        omega
      · exact (hn (h3 rfl m hm)).elim
    · omega

theorem made_le (x : Option Result) : made x ≤ 1 := by
  unfold made
  split <;> omega

/-- The work at a level that goes down with every step. -/
theorem work_le (hG : ∀ n, EvGood p stop S (eval G p stop n)) (hc : ∀ m, S m → ∀ x ∈ (G m).uses, S x)
    (hM : Modest S G N K) {lev : Nat → MatcherId → Nat} (hpos : ∀ n m, 0 < lev (n + 1) m)
    (hlev : ∀ n m, S m → ∀ x ∈ (G m).uses, lev n x < lev (n + 1) m) :
    ∀ {n : Nat} {m : MatcherId}, S m → ∀ {pos : Nat}, Cut p.src stop pos → stop - pos ≤ L →
      work G p stop n m pos ≤ ((L + 1) * K + 1) ^ lev n m := by
  intro n
  induction n with
  | zero => intro m _ pos _ _; exact Nat.zero_le _
  | succ n ih =>
    intro m hm pos hcut hL
    have huse := hc m hm
    have hnar := hM.narrow m hm
    have hN : ∀ m, S m → ∀ q, Cut p.src stop q → eval G p stop n m q = some (.skip 0) → N m :=
      fun m hm q hq h => eval_idles hG hc hM.idle hm hq h
    obtain ⟨l, hl⟩ : ∃ l, lev (n + 1) m = l + 1 := ⟨lev (n + 1) m - 1, by have := hpos n m; omega⟩
    rw [hl]
    have hone : 1 ≤ ((L + 1) * K + 1) ^ l := Nat.pow_pos (Nat.succ_pos _)
    generalize hB : ((L + 1) * K + 1) ^ l = B at hone
    have hsub : ∀ x ∈ (G m).uses, ∀ q, Cut p.src stop q → pos ≤ q → work G p stop n x q ≤ B := by
      intro x hx q hq hle
      refine Nat.le_trans (ih (huse x hx) hq (by omega)) ?_
      rw [← hB]
      have := hlev n m hm x hx
      exact Nat.pow_le_pow_right (Nat.succ_pos _) (by omega)
    rw [Nat.pow_succ, hB, Nat.mul_succ, Nat.mul_comm B]
    have hleaf : ∀ x, made x ≤ (L + 1) * K * B + B := fun x => by have := made_le x; omega
    have hgroup : ∀ k, k ≤ (L + 1) * ((G m).uses.length * B) → 1 + k ≤ (L + 1) * K * B + B := by
      intro k hk
      have h1 : (L + 1) * ((G m).uses.length * B) ≤ (L + 1) * (K * B) :=
        Nat.mul_le_mul_left _ (Nat.mul_le_mul_right _ hnar)
      rw [← Nat.mul_assoc] at h1
      rw [← Nat.mul_assoc (L + 1) K] at h1
      rw [← Nat.mul_assoc] at hk
      omega
    have hwide : ∀ k, k ≤ (G m).uses.length * B → k ≤ (L + 1) * ((G m).uses.length * B) := by
      intro k hk
      rw [Nat.succ_mul]
      exact Nat.le_trans hk (Nat.le_add_left _ _)
    unfold work
    cases hg : G m with
    | lit name s => exact hleaf _
    | re name find => exact hleaf _
    | delim name a b e => exact hleaf _
    | empty => exact Nat.zero_le _
    | seq name ms =>
      rw [hg] at huse hsub hgroup hwide
      exact hgroup _ (hwide _ (partsWork_le (hG n) huse hsub (RunOk.start' hcut)))
    | choice ms =>
      rw [hg] at huse hsub hgroup hwide
      exact hgroup _ (hwide _ (chooseWork_le fun x hx => hsub x hx pos hcut (Nat.le_refl _)))
    | loop name ms lo hi =>
      obtain ⟨x, hx, hn⟩ := hM.moves m hm _ _ _ _ hg
      rw [hg] at huse hsub hgroup hwide
      refine hgroup _ (Nat.le_trans (roundsWork_le (hG n) hN huse hx hn hsub (RunOk.start' hcut)) ?_)
      exact Nat.mul_le_mul_right _ (by show stop - pos + 1 ≤ _; omega)
    | opt x | neg x | flat x | call x =>
      rw [hg] at hsub
      have := hsub x (by simp [Expr.uses]) pos hcut (Nat.le_refl _)
      dsimp only
      omega
    | drop x =>
      rw [hg] at hsub hgroup hwide
      have h1 := hsub x (by simp [Expr.uses]) pos hcut (Nat.le_refl _)
      have h2 := made_le (eval G p stop n x pos)
      have h3 := hgroup _ (hwide _ (show work G p stop n x pos ≤ 1 * B by omega))
      dsimp only
      omega

/-! ### C70 -/

/-- **C70**: what a matcher costs is what the interpreter counts. -/
theorem C70_exact (hG : Grammar T ρ S G) (hb : blen p.src ≤ isizeMax)
    (hasc : ∀ m, S m → (G m).Between p.src) (hm : S m) (hc : Ready p stop c)
    (hcut : Cut p.src stop c.offset.start) (hr : Resolves ρ sc (entered T m sc s)) {r : R}
    (h : exec T cfg n m c sc s = .ok r s') :
    s'.toks.length = s.toks.length + work G p stop n m c.offset.start := by
  have h1 := lock (cfg := cfg) hG hb hasc n m hm c sc s hc hcut hr
  rw [h] at h1
  unfold Sim at h1
  split at h1
  · rename_i h2 _
    cases h2
    exact h1.2.2.2
  · rename_i h2 _; cases h2
  · exact h1.elim

/-- **C70** for `tokenize`. -/
theorem C70_tokenize (hG : Grammar T ρ S G) (hb : blen p.src ≤ isizeMax)
    (hasc : ∀ m, S m → (G m).Between p.src) (hm : S m) (hc : Ready p stop c)
    (hcut : Cut p.src stop c.offset.start) (hr : Resolves ρ c.scope (entered T m c.scope s)) {r : Except Failure TokId}
    (h : tokenize T cfg n c m s = .ok r s') :
    s'.toks.length = s.toks.length + work G p stop n m c.offset.start := by
  have h1 := tokenize_sim (cfg := cfg) (n := n) hG hb hasc hm hc hcut hr
  rw [h] at h1
  unfold Sim at h1
  split at h1
  · rename_i h2 _
    cases h2
    exact h1.2.2.2
  · rename_i h2 _; cases h2
  · exact h1.elim

/-- **C70**: without recursion in the grammar the number of tokens made is at most a
polynomial in the length of the unread text; the degree is the number of levels. -/
theorem C70_polynomial (hG : Grammar T ρ S G) (hb : blen p.src ≤ isizeMax)
    (hasc : ∀ m, S m → (G m).Between p.src) (hm : S m) (hc : Ready p stop c)
    (hcut : Cut p.src stop c.offset.start) (hr : Resolves ρ sc (entered T m sc s)) (hM : Modest S G N K)
    {level : MatcherId → Nat} (hl : Layered S G level) {r : R} (h : exec T cfg n m c sc s = .ok r s') :
    s'.toks.length ≤ s.toks.length + ((stop - c.offset.start + 1) * K + 1) ^ (level m + 1) := by
  rw [C70_exact hG hb hasc hm hc hcut hr h]
  exact Nat.add_le_add_left (work_le (lev := fun _ m => level m + 1) hG.good hG.closed hM (fun _ _ => Nat.succ_pos _)
    (fun _ m hm x hx => Nat.succ_lt_succ (hl m hm x hx)) hm hcut (Nat.le_refl _)) _

/-- **C70**: with a grammar that is not left recursive the number of tokens made is at most
exponential in the length of the unread text (and C65 has one for which it is). -/
theorem C70_exponential (hG : Grammar T ρ S G) (hb : blen p.src ≤ isizeMax)
    (hasc : ∀ m, S m → (G m).Between p.src) (hm : S m) (hc : Ready p stop c)
    (hcut : Cut p.src stop c.offset.start) (hr : Resolves ρ sc (entered T m sc s)) (hM : Modest S G N K)
    (hR : Ranked S G N rank top) {r : R} (h : exec T cfg n m c sc s = .ok r s') :
    s'.toks.length ≤ s.toks.length +
      ((stop - c.offset.start + 1) * K + 1) ^ ((stop - c.offset.start) * (top + 1) + rank m + 1) := by
  obtain ⟨r', s2, h2⟩ := C34_terminates (cfg := cfg) (s := s) hG hb hasc hm hc hcut hr hR (Nat.le_refl _)
  obtain ⟨rfl, rfl⟩ := C06_unique ⟨_, h⟩ ⟨_, h2⟩
  rw [C70_exact hG hb hasc hm hc hcut hr h2]
  exact Nat.add_le_add_left (work_le (lev := fun n _ => n) hG.good hG.closed hM (fun _ _ => Nat.succ_pos _)
    (fun _ _ _ _ _ => Nat.lt_succ_self _) hm hcut (Nat.le_refl _)) _

/-! ### Examples -/

theorem paren_modest : Modest (fun _ => True) parenG (fun m => m ≠ 0 ∧ m ≠ 1 ∧ m ≠ 3 ∧ m ≠ 4) 3 := by
  refine ⟨fun m _ => ?_, paren_ranked.idle, fun m _ name ms lo hi h => ?_⟩
  · unfold parenG
    split <;> decide
  · revert h
    unfold parenG
    split <;> intro h <;> cases h

/-- The tokens made for `(())`: two groups, four parentheses, and a group that does not
match, where a third pair is tried. -/
example : work parenG ⟨"(()) ".toList, []⟩ 5 9 0 0 = 7 := by decide +kernel

/-- The engine on any text with the grammar of nested parentheses. -/
theorem C70_paren {src : Str} (hb : blen src ≤ isizeMax) {sc : SCtxId} {s s' : State} {r : R}
    (hs : s.lookup sc "Paren".toList = some (.matcher 0))
    (h : exec parenT cfg n 0 (Ctx.new ⟨src, []⟩ sc []) sc s = .ok r s') :
    s'.toks.length ≤ s.toks.length + ((blen src + 1) * 3 + 1) ^ (blen src * 4 + 2) := by
  have hr : Resolves parenρ sc (entered parenT 0 sc s) := by
    refine Resolves.again paren_grammar trivial fun n m h => ?_
    unfold parenρ at h
    split at h
    · cases h; subst n; exact hs
    · cases h
  have hle := C70_exponential (p := ⟨src, []⟩) (stop := blen src) paren_grammar hb (fun m _ _ _ _ _ h => ?_) (m := 0) trivial
    ⟨rfl, rfl, rfl⟩ ⟨src, [], [], by simp, rfl, by simp [blen]⟩ hr paren_modest paren_ranked h
  · rw [show (Ctx.new ⟨src, []⟩ sc []).offset.start = 0 from rfl, Nat.sub_zero] at hle
    refine Nat.le_trans hle (Nat.add_le_add_left (Nat.pow_le_pow_right (Nat.succ_pos _) ?_) _)
    show blen src * 4 + 1 + 1 ≤ _
    omega
  revert h
  unfold parenG
  split <;> intro h <;> exact nomatch h

/-- Lines of words: `Lines = Line*`, `Line = Word* ";"`, `Word = "a"`. -/
def linesT : Table
  | 0 => .program [1] "Lines".toList false (some (0, usizeMax)) false
  | 1 => .program [2, 4] "Line".toList false Option.none false
  | 2 => .optional 3
  | 3 => .program [5] "Words".toList false (some (0, usizeMax)) false
  | 4 => .equals "End".toList false (.str ";".toList)
  | _ => .equals "Word".toList false (.str "a".toList)

/-- Its expressions. -/
def linesG : MatcherId → Expr
  | 0 => .loop "Lines".toList [1] 0 usizeMax
  | 1 => .seq "Line".toList [2, 4]
  | 2 => .opt 3
  | 3 => .loop "Words".toList [5] 0 usizeMax
  | 4 => .lit "End".toList ";".toList
  | _ => .lit "Word".toList "a".toList

theorem lines_grammar : Grammar linesT (fun _ => Option.none) (fun _ => True) linesG := by
  refine ⟨fun m _ => ?_, fun _ _ _ _ => trivial, fun m _ hc x hx => (nomatch hx), fun m _ n c re h => ?_⟩
  · unfold linesT linesG
    split <;> rfl
  · revert h
    unfold linesT
    split <;> intro h <;> cases h

theorem lines_modest : Modest (fun _ => True) linesG (fun m => m = 2) 2 := by
  refine ⟨fun m _ => ?_, fun m _ h => ?_, fun m _ name ms lo hi h => ?_⟩
  · unfold linesG
    split <;> decide
  · revert h
    unfold linesG
    split <;> intro h
    · exact absurd h.2 (by decide)
    · exact h.elim
    · rfl
    · exact absurd h.2 (by decide)
    · exact h.elim
    · exact h.elim
  · revert h
    unfold linesG
    split <;> intro h <;> cases h
    · exact ⟨1, by simp, by decide⟩
    · exact ⟨5, by simp, by decide⟩

theorem lines_layered : Layered (fun _ => True) linesG (fun | 0 => 4 | 1 => 3 | 2 => 2 | 3 => 1 | _ => 0) := by
  intro m _ x hx
  revert hx
  unfold linesG
  split <;> intro hx
  · rw [List.mem_singleton.mp hx]; decide
  · rcases List.mem_cons.mp hx with rfl | hx
    · decide
    · rw [List.mem_singleton.mp hx]; decide
  · rw [List.mem_singleton.mp hx]; decide
  · rw [List.mem_singleton.mp hx]; decide
  · cases hx
  · cases hx

/-- On `aa;;` eight tokens are part of the result, and three are made for what was tried and
did not match: words in the second line, and a third line with its words. -/
theorem C70_lines_cost : work linesG ⟨"aa;;".toList, []⟩ 4 9 0 0 = 11 := by decide +kernel

/-- The engine on any text with the grammar of lines. -/
theorem C70_lines {src : Str} (hb : blen src ≤ isizeMax) {sc : SCtxId} {s s' : State} {r : R}
    (h : exec linesT cfg n 0 (Ctx.new ⟨src, []⟩ sc []) sc s = .ok r s') :
    s'.toks.length ≤ s.toks.length + ((blen src + 1) * 2 + 1) ^ 5 := by
  have hle := C70_polynomial (p := ⟨src, []⟩) (stop := blen src) lines_grammar hb (fun m _ _ _ _ _ h => ?_) (m := 0) trivial
    ⟨rfl, rfl, rfl⟩ ⟨src, [], [], by simp, rfl, by simp [blen]⟩ (fun _ _ h => nomatch h) lines_modest lines_layered h
  · rw [show (Ctx.new ⟨src, []⟩ sc []).offset.start = 0 from rfl, Nat.sub_zero] at hle
    exact hle
  revert h
  unfold linesG
  split <;> intro h <;> exact nomatch h

/-- A repetition of something that may match nothing: `(A?)*` with `A = "a"`. -/
def idleT (hi : Nat) : Table
  | 0 => .program [1] "Loop".toList false (some (0, hi)) false
  | 1 => .optional 2
  | 2 => .program [3] "A".toList false Option.none false
  | _ => .equals "Equals".toList false (.str "a".toList)

/-- Its expressions. -/
def idleG (hi : Nat) : MatcherId → Expr
  | 0 => .loop "Loop".toList [1] 0 hi
  | 1 => .opt 2
  | 2 => .seq "A".toList [3]
  | _ => .lit "Equals".toList "a".toList

theorem idle_grammar (hi : Nat) : Grammar (idleT hi) (fun _ => Option.none) (fun _ => True) (idleG hi) := by
  refine ⟨fun m _ => ?_, fun _ _ _ _ => trivial, fun m _ hc x hx => (nomatch hx), fun m _ n c re h => ?_⟩
  · unfold idleT idleG
    split <;> rfl
  · revert h
    unfold idleT
    split <;> intro h <;> cases h

theorem idle_rounds {ms : List MatcherId} {pos : Nat} (h1 : ∀ r : Run, r.pos = pos → partsWork ev wk ms r = 1)
    (h2 : ∀ r : Run, r.pos = pos → ∃ r', parts ev ms r = some (true, r') ∧ r'.pos = pos ∧ r'.kids = r.kids) {k : Nat} :
    ∀ r : Run, r.pos = pos → roundsWork ev wk ms k r = k ∧
      ∃ r', rounds ev ms k r = some (true, r') ∧ r'.kids = r.kids := by
  induction k with
  | zero => intro r _; exact ⟨rfl, r, rfl, rfl⟩
  | succ k ih =>
    intro r hr
    obtain ⟨r1, h3, h4, h5⟩ := h2 r hr
    obtain ⟨h6, r2, h7, h8⟩ := ih r1 h4
    refine ⟨?_, r2, ?_, h8.trans h5⟩
    · unfold roundsWork
      rw [h3, h1 r hr]
      show 1 + roundsWork ev wk ms k r1 = _
      omega
    · unfold rounds
      rw [h3]
      exact h7

/-- **C70**: the hypothesis on repetitions is needed.  If what is repeated may match without
consuming, then the repetition does not stop before its maximal number of rounds, on any
text on which nothing else matches, and makes tokens in each.  (For `*` and `+` that
number is the largest of type `usize`, so that for every purpose the parse does not end.) -/
theorem C70_idle_rounds {hi : Nat} (hhi : 0 < hi) {c : Ctx} (hp : blen c.parser.src ≤ isizeMax) (hd : c.debug = 0)
    {w : Str} (hw : TextAt c.parser.src c.offset.start c.offset.stop w) (ha : ¬ "a".toList.isPrefixOf w) :
    ∃ s', exec (idleT hi) cfg 4 0 c sc s = .ok (.err .fail) s' ∧ s'.toks.length = s.toks.length + hi + 1 := by
  have hw' : bslice c.parser.src c.offset.start c.offset.stop = some w := bslice_iff.mpr hw
  have hlit : ∀ n, eval (idleG hi) c.parser c.offset.stop (n + 1) 3 c.offset.start = some .fail := by
    intro n
    rw [eval.eq_2, hw']
    exact if_neg fun h => ha h.2
  have hseq : ∀ n, eval (idleG hi) c.parser c.offset.stop (n + 2) 2 c.offset.start = some .fail := by
    intro n
    rw [eval.eq_2]
    show (parts (eval (idleG hi) c.parser c.offset.stop (n + 1)) [3] (.start c.offset.start)).map _ = _
    unfold parts
    rw [show (Run.start c.offset.start).pos = c.offset.start from rfl, hlit]
    rfl
  have hopt : ∀ n, eval (idleG hi) c.parser c.offset.stop (n + 3) 1 c.offset.start = some (.skip 0) := by
    intro n
    rw [eval.eq_2]
    show (eval (idleG hi) c.parser c.offset.stop (n + 2) 2 c.offset.start).map Result.opt = _
    rw [hseq]
    rfl
  have hwork : work (idleG hi) c.parser c.offset.stop 3 1 c.offset.start = 1 := by
    show work (idleG hi) c.parser c.offset.stop 2 2 c.offset.start = 1
    show 1 + partsWork (eval (idleG hi) c.parser c.offset.stop 1) (work (idleG hi) c.parser c.offset.stop 1) [3]
      (.start c.offset.start) = 1
    unfold partsWork
    rw [show (Run.start c.offset.start).pos = c.offset.start from rfl, hlit]
    show 1 + (made (eval (idleG hi) c.parser c.offset.stop 1 3 c.offset.start) + 0) = 1
    rw [hlit]
    rfl
  obtain ⟨h1, r', h2, h3⟩ := idle_rounds (ev := eval (idleG hi) c.parser c.offset.stop 3)
    (wk := work (idleG hi) c.parser c.offset.stop 3) (ms := [1]) (pos := c.offset.start) (k := hi)
    (fun r hr => by
      unfold partsWork
      rw [hr, hwork, hopt]
      rfl)
    (fun r hr => by
      refine ⟨r.take (.skip 0), ?_, ?_, rfl⟩
      · unfold parts
        rw [hr, hopt]
        rfl
      · show r.pos + 0 = _
        rw [hr]
        rfl)
    (.start c.offset.start) rfl
  have hev : eval (idleG hi) c.parser c.offset.stop 4 0 c.offset.start = some .fail := by
    rw [eval.eq_2]
    show (rounds (eval (idleG hi) c.parser c.offset.stop 3) [1] hi (.start c.offset.start)).map _ = _
    rw [h2]
    show some (loopResult _ _ _ 0 hi (true, r')) = _
    unfold loopResult
    dsimp only
    rw [if_neg (by omega), if_neg (by omega)]
    unfold Run.finish
    rw [if_pos (show r'.kids = [] from h3)]
  have hl := lock (cfg := cfg) (p := c.parser) (stop := c.offset.stop) (idle_grammar hi) hp (fun m _ _ _ _ _ h => ?_) 4 0 trivial c sc s
    ⟨rfl, rfl, hd⟩ ⟨w, hw⟩ (fun _ _ h => nomatch h)
  · rw [hev] at hl
    unfold Sim at hl
    split at hl
    rotate_left
    · rename_i h5; cases h5
    · exact hl.elim
    rename_i r s' x hx h5
    cases h5
    obtain ⟨hsh, -, -, hlen⟩ := hl
    cases hsh
    refine ⟨s', hx, hlen.trans ?_⟩
    show _ + (1 + roundsWork _ _ [1] hi _) = _
    rw [h1]
    omega
  · revert h
    unfold idleG
    split <;> intro h <;> exact nomatch h

/-- With the maximum of `*`. -/
example : ∃ s', exec (idleT usizeMax) cfg 4 0 (Ctx.new ⟨"b".toList, []⟩ sc []) sc s = .ok (.err .fail) s' ∧
    s'.toks.length = s.toks.length + usizeMax + 1 :=
  C70_idle_rounds (by decide) (by show blen "b".toList ≤ _; decide) rfl ⟨[], [], rfl, rfl, rfl⟩ (w := "b".toList) (by decide)

end Adx.Peg
