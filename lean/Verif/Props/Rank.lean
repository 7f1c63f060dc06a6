import Verif.Props.Peg
import Verif.Spec.Rank
/-
  C34: parsing with a grammar that is not left recursive ends, at a depth of recursion
  that is linear in the length of the text.
-/
namespace Adx.Peg

variable {T : Table} {cfg : Cfg} {ρ : Str → Option MatcherId} {S : MatcherId → Prop} {G : MatcherId → Expr}
  {p : Parser} {stop start : Nat} {m : MatcherId} {c : Ctx} {sc : SCtxId} {s : State} {n : Nat}
  {N : MatcherId → Prop} {rank : MatcherId → Nat} {R : Nat} {ev : MatcherId → Nat → Option Result}

/-! ### Positions move forward -/

theorem fold_pos {ts : List Tree} : ∀ {r : Run}, (∀ c ∈ ts, start < c.matched.stop) → start < r.pos →
    start < (ts.foldl Run.add r).pos := by
  induction ts with
  | nil => intro r _ h; exact h
  | cons t ts ih =>
    intro r h _
    exact ih (fun c hc => h c (by simp [hc])) (h t (by simp))

theorem take_pos {src : Str} {r : Run} {x : Result} (hx : x.Good src stop r.pos) (hf : x ≠ .fail) :
    (x = .skip 0 ∧ (r.take x).pos = r.pos) ∨ r.pos < (r.take x).pos := by
  cases x with
  | fail => exact (hf rfl).elim
  | skip n =>
    cases n with
    | zero => exact Or.inl ⟨rfl, rfl⟩
    | succ n => exact Or.inr (by show r.pos < r.pos + (n + 1); omega)
  | token t => exact Or.inr hx.spot.lt
  | splice t =>
    refine Or.inr (fold_pos (fun c hc => ?_) hx.spot.lt)
    obtain ⟨q, hq, hs⟩ := hx.kids c hc
    exact Nat.lt_of_le_of_lt hq hs.lt

/-- One after the other moves forward, unless all parts may match without consuming. -/
theorem parts_pos (hev : EvGood p stop S ev) (hN : ∀ m, S m → ∀ q, Cut p.src stop q → ev m q = some (.skip 0) → N m)
    {ms : List MatcherId} (hms : ∀ m ∈ ms, S m) :
    ∀ {r r' : Run} {b : Bool}, RunOk p.src stop start r → parts ev ms r = some (b, r') →
      r.pos < r'.pos ∨ (r'.pos = r.pos ∧ (b = true → ∀ m ∈ ms, N m)) := by
  induction ms with
  | nil => intro r r' b h hp; cases hp; exact Or.inr ⟨rfl, fun _ m hm => nomatch hm⟩
  | cons m ms ih =>
    intro r r' b h hp
    obtain ⟨x, hx, hp⟩ := Option.bind_eq_some_iff.mp hp
    have hg := hev m (hms m (by simp)) _ h.pos x hx
    have hn := h.take hg
    have ih := fun hp => ih (fun y hy => hms y (by simp [hy])) (r' := r') (b := b) hn hp
    by_cases hf : x = .fail
    · subst hf
      cases hp
      exact Or.inr ⟨rfl, fun h => nomatch h⟩
    · have hp' : parts ev ms (r.take x) = some (b, r') := by cases x <;> first | exact (hf rfl).elim | exact hp
      rcases take_pos hg hf with ⟨rfl, h1⟩ | h1
      · rcases ih hp' with h2 | ⟨h2, h3⟩
        · exact Or.inl (by omega)
        · refine Or.inr ⟨by omega, fun hb y hy => ?_⟩
          rcases List.mem_cons.mp hy with rfl | hy
          · exact hN _ (hms _ (by simp)) _ h.pos hx
          · exact h3 hb y hy
      · rcases ih hp' with h2 | ⟨h2, -⟩
        · exact Or.inl (by omega)
        · exact Or.inl (by omega)

/-! ### The interpreter returns -/

theorem parts_total (hev : EvGood p stop S ev) (hN : ∀ m, S m → ∀ q, Cut p.src stop q → ev m q = some (.skip 0) → N m)
    {k : Nat} (htot : ∀ x q, S x → Cut p.src stop q → start ≤ q → (start < q ∨ rank x < k) → ∃ y, ev x q = some y)
    {ms : List MatcherId} (hms : ∀ m ∈ ms, S m) :
    ∀ {r : Run}, RunOk p.src stop start r → (start < r.pos ∨ ∀ x, Lead N ms x → rank x < k) →
      ∃ y, parts ev ms r = some y := by
  induction ms with
  | nil => intro r _ _; exact ⟨_, rfl⟩
  | cons m ms ih =>
    intro r h hl
    have hm := hms m (by simp)
    obtain ⟨x, hx⟩ := htot m r.pos hm h.pos h.le (hl.imp id fun h => h m (Or.inl rfl))
    have hg := hev m hm _ h.pos x hx
    unfold parts
    rw [hx]
    show ∃ y, (match x with | .fail => some (false, r) | x => parts ev ms (r.take x)) = some y
    by_cases hf : x = .fail
    · subst hf
      exact ⟨_, rfl⟩
    · obtain ⟨y, hy⟩ := ih (fun y hy => hms y (by simp [hy])) (h.take hg) (by
        rcases take_pos hg hf with ⟨rfl, h1⟩ | h1
        · rcases hl with hl | hl
          · exact Or.inl (by omega)
          · exact Or.inr fun y hy => hl y (Or.inr ⟨hN m hm _ h.pos hx, hy⟩)
        · have := h.le
          exact Or.inl (by omega))
      refine ⟨y, ?_⟩
      cases x <;> first | exact (hf rfl).elim | exact hy

theorem rounds_total (hev : EvGood p stop S ev) (hN : ∀ m, S m → ∀ q, Cut p.src stop q → ev m q = some (.skip 0) → N m)
    {k : Nat} (htot : ∀ x q, S x → Cut p.src stop q → start ≤ q → (start < q ∨ rank x < k) → ∃ y, ev x q = some y)
    {ms : List MatcherId} (hms : ∀ m ∈ ms, S m) (hl : ∀ x, Lead N ms x → rank x < k) {i : Nat} :
    ∀ {r : Run}, RunOk p.src stop start r → ∃ y, rounds ev ms i r = some y := by
  induction i with
  | zero => intro r _; exact ⟨_, rfl⟩
  | succ i ih =>
    intro r h
    obtain ⟨⟨b, r1⟩, hp⟩ := parts_total hev hN htot hms h (Or.inr hl)
    unfold rounds
    rw [hp]
    cases b with
    | false => exact ⟨_, rfl⟩
    | true => exact ih (parts_ok hev hms h hp)

theorem choose_total {ms : List MatcherId} {pos : Nat} (h : ∀ m ∈ ms, ∃ y, ev m pos = some y) :
    ∃ y, choose ev pos ms = some y := by
  induction ms with
  | nil => exact ⟨_, rfl⟩
  | cons m ms ih =>
    obtain ⟨x, hx⟩ := h m (by simp)
    obtain ⟨y, hy⟩ := ih fun m hm => h m (by simp [hm])
    unfold choose
    rw [hx]
    cases x with
    | fail => exact ⟨y, hy⟩
    | skip n =>
      cases n with
      | zero => exact ⟨y, hy⟩
      | succ n => exact ⟨_, rfl⟩
    | token _ => exact ⟨_, rfl⟩
    | splice _ => exact ⟨_, rfl⟩

theorem choose_idle {ms : List MatcherId} {pos : Nat} : choose ev pos ms ≠ some (.skip 0) := by
  induction ms with
  | nil => intro h; cases h
  | cons m ms ih =>
    intro h
    obtain ⟨x, hx, h⟩ := Option.bind_eq_some_iff.mp h
    cases x with
    | fail => exact ih h
    | skip n =>
      cases n with
      | zero => exact ih h
      | succ n => cases h
    | token _ => cases h
    | splice _ => cases h

theorem finish_idle {r : Run} {name : Str} {pos : Nat} : r.finish p name pos ≠ .skip 0 := by
  unfold Run.finish
  split <;> exact fun h => nomatch h

/-- What may match without consuming has been declared so. -/
theorem eval_idles (hG : ∀ n, EvGood p stop S (eval G p stop n)) (hc : ∀ m, S m → ∀ x ∈ (G m).uses, S x)
    (hr : ∀ m, S m → (G m).Idles N → N m) : ∀ {n : Nat} {m : MatcherId}, S m → ∀ {pos : Nat},
    Cut p.src stop pos → eval G p stop n m pos = some (.skip 0) → N m := by
  intro n
  induction n with
  | zero => intro m _ pos _ h; cases h
  | succ n ih =>
    intro m hm pos hpos h
    apply hr m hm
    have huse := hc m hm
    unfold eval at h
    cases hg : G m with
    | lit name s =>
      rw [hg] at h
      dsimp only at h
      split at h <;> cases h
    | re name find =>
      rw [hg] at h
      dsimp only at h
      split at h
      · rename_i hf
        exact ⟨_, hf⟩
      · cases h
      · cases h
    | delim name a b e =>
      rw [hg] at h
      dsimp only at h
      split at h
      · split at h <;> cases h
      · cases h
    | seq name ms =>
      rw [hg] at h
      obtain ⟨⟨b, r⟩, -, h⟩ := Option.map_eq_some_iff.mp h
      cases b with
      | false => cases h
      | true => exact (finish_idle h).elim
    | choice ms =>
      rw [hg] at h
      exact (choose_idle h).elim
    | loop name ms lo hi =>
      rw [hg] at h
      obtain ⟨⟨b, r⟩, -, h⟩ := Option.map_eq_some_iff.mp h
      cases b with
      | false => exact (finish_idle h).elim
      | true =>
        unfold loopResult at h
        dsimp only at h
        split at h
        · rename_i h0; exact h0
        · split at h
          · cases h
          · exact (finish_idle h).elim
    | opt x => trivial
    | neg x => trivial
    | empty => trivial
    | drop x =>
      rw [hg] at h huse
      obtain ⟨y, hy, h⟩ := Option.map_eq_some_iff.mp h
      have hx := huse x (by simp [Expr.uses])
      have hgood := hG n x hx pos hpos y hy
      cases y with
      | fail => cases h
      | skip k => cases h; exact ih hx hpos hy
      | token t =>
        have h1 : t.matched.stop - pos = 0 := by injection h
        have := hgood.spot.lt
        omega
      | splice t =>
        have h1 : t.matched.stop - pos = 0 := by injection h
        have := hgood.spot.lt
        omega
    | flat x =>
      rw [hg] at h huse
      obtain ⟨y, hy, h⟩ := Option.map_eq_some_iff.mp h
      cases y with
      | fail => cases h
      | skip k => cases h; exact ih (huse x (by simp [Expr.uses])) hpos hy
      | token t => cases h
      | splice t => cases h
    | call x =>
      rw [hg] at h huse
      exact ih (huse x (by simp [Expr.uses])) hpos h

/-- The interpreter returns if the depth suffices. -/
theorem eval_total (hG : ∀ n, EvGood p stop S (eval G p stop n)) (hc : ∀ m, S m → ∀ x ∈ (G m).uses, S x)
    (hR : Ranked S G N rank R) : ∀ {n : Nat} {m : MatcherId}, S m → ∀ {pos : Nat}, Cut p.src stop pos →
    depthAt stop R rank m pos ≤ n → ∃ x, eval G p stop n m pos = some x := by
  intro n
  induction n with
  | zero => intro m _ pos _ h; unfold depthAt at h; omega
  | succ n ih =>
    intro m hm pos hpos hn
    have hcall : ∀ x q, S x → Cut p.src stop q → pos ≤ q → (pos < q ∨ rank x < rank m) →
        ∃ y, eval G p stop n x q = some y := by
      intro x q hx hq hle hlt
      refine ih hx hq ?_
      unfold depthAt at hn ⊢
      have hb := hR.bound x hx
      have hq' := hq.le.1
      rcases hlt with hlt | hlt
      · have h1 : (stop - q) * (R + 1) + (R + 1) ≤ (stop - pos) * (R + 1) := by
          rw [← Nat.succ_mul]
          exact Nat.mul_le_mul_right _ (by omega)
        omega
      · have h1 : (stop - q) * (R + 1) ≤ (stop - pos) * (R + 1) := Nat.mul_le_mul_right _ (by omega)
        omega
    have hN : ∀ m, S m → ∀ q, Cut p.src stop q → eval G p stop n m q = some (.skip 0) → N m :=
      fun m hm q hq h => eval_idles hG hc hR.idle hm hq h
    have huse := hc m hm
    have hless := hR.less m hm
    unfold eval
    cases hg : G m with
    | lit name s =>
      dsimp only
      split <;> exact ⟨_, rfl⟩
    | re name find =>
      dsimp only
      split <;> exact ⟨_, rfl⟩
    | delim name a b e =>
      dsimp only
      split
      · split <;> exact ⟨_, rfl⟩
      · exact ⟨_, rfl⟩
    | seq name ms =>
      rw [hg] at huse hless
      obtain ⟨y, hy⟩ := parts_total (ms := ms) (hG n) hN hcall huse (RunOk.start' hpos) (Or.inr hless)
      dsimp only
      rw [hy]
      exact ⟨_, rfl⟩
    | choice ms =>
      rw [hg] at huse hless
      exact choose_total fun x hx => hcall x pos (huse x hx) hpos (Nat.le_refl _) (Or.inr (hless x hx))
    | loop name ms lo hi =>
      rw [hg] at huse hless
      obtain ⟨y, hy⟩ := rounds_total (ms := ms) (hG n) hN hcall huse hless (i := hi - lo) (RunOk.start' hpos)
      dsimp only
      rw [hy]
      exact ⟨_, rfl⟩
    | empty => exact ⟨_, rfl⟩
    | call x =>
      rw [hg] at huse hless
      exact hcall x pos (huse x (by simp [Expr.uses])) hpos (Nat.le_refl _) (Or.inr (hless x rfl))
    | opt x | neg x | drop x | flat x =>
      rw [hg] at huse hless
      obtain ⟨y, hy⟩ := hcall x pos (huse x (by simp [Expr.uses])) hpos (Nat.le_refl _) (Or.inr (hless x rfl))
      dsimp only
      rw [hy]
      exact ⟨_, rfl⟩

/-! ### C34 -/

/-- **C34**: with a grammar that is not left recursive every matcher returns, at a depth of
recursion that is linear in the length of the unread text. -/
theorem C34_terminates (hG : Grammar T ρ S G) (hb : blen p.src ≤ isizeMax)
    (hasc : ∀ m, S m → (G m).Between p.src) (hm : S m) (hc : Ready p stop c)
    (hcut : Cut p.src stop c.offset.start) (hr : Resolves ρ sc (entered T m sc s)) (hR : Ranked S G N rank R)
    (hn : depthAt stop R rank m c.offset.start ≤ n) :
    ∃ r s', exec T cfg n m c sc s = .ok r s' := by
  obtain ⟨x, hx⟩ := eval_total hG.good hG.closed hR hm hcut hn
  have := C35_lock_step (cfg := cfg) (n := n) hG hb hasc hm hc hcut hr
  rw [hx] at this
  unfold Sim at this
  split at this
  · rename_i h _; exact ⟨_, _, h⟩
  · rename_i h; cases h
  · exact this.elim

/-- **C34** for `tokenize`. -/
theorem C34_tokenize (hG : Grammar T ρ S G) (hb : blen p.src ≤ isizeMax)
    (hasc : ∀ m, S m → (G m).Between p.src) (hm : S m) (hc : Ready p stop c)
    (hcut : Cut p.src stop c.offset.start) (hr : Resolves ρ c.scope (entered T m c.scope s))
    (hR : Ranked S G N rank R) (hn : depthAt stop R rank m c.offset.start ≤ n) :
    ∃ r s', tokenize T cfg n c m s = .ok r s' := by
  obtain ⟨x, hx⟩ := eval_total hG.good hG.closed hR hm hcut hn
  have := C35_tokenize (cfg := cfg) (n := n) hG hb hasc hm hc hcut hr
  rw [hx] at this
  unfold Sim at this
  split at this
  · rename_i h _; exact ⟨_, _, h⟩
  · rename_i h; cases h
  · exact this.elim

theorem rounds_stop (hev : EvGood p stop S ev)
    (hN : ∀ m, S m → ∀ q, Cut p.src stop q → ev m q = some (.skip 0) → N m)
    {ms : List MatcherId} (hms : ∀ m ∈ ms, S m) (hm : m ∈ ms) (hn : ¬ N m) {i j : Nat} :
    ∀ {r : Run}, RunOk p.src stop start r → stop - r.pos < i → stop - r.pos < j →
      rounds ev ms i r = rounds ev ms j r := by
  induction i generalizing j with
  | zero => intro r _ h; omega
  | succ i ih =>
    intro r h hi hj
    cases j with
    | zero => omega
    | succ j =>
      unfold rounds
      cases hp : parts ev ms r with
      | none => rfl
      | some y =>
        obtain ⟨b, r1⟩ := y
        have h1 := parts_ok hev hms h hp
        cases b with
        | false => rfl
        | true =>
          rcases parts_pos hev hN hms h hp with h2 | ⟨-, h2⟩
          · have h3 := h1.pos.le.1
            exact ih h1 (by omega) (by omega)
          · exact (hn (h2 rfl m hm)).elim

/-- **C34**: a repetition whose body cannot match without consuming makes at most one round
more than there are bytes left: further rounds would make no difference. -/
theorem C34_rounds (hG : Grammar T ρ S G) (hR : Ranked S G N rank R) {ms : List MatcherId} (hms : ∀ m ∈ ms, S m)
    (hm : m ∈ ms) (hn : ¬ N m) {pos : Nat} (hpos : Cut p.src stop pos) {i : Nat} (hi : stop - pos < i) :
    rounds (eval G p stop n) ms i (.start pos) = rounds (eval G p stop n) ms (stop - pos + 1) (.start pos) :=
  rounds_stop (hG.good n) (fun _ hm _ hq h => eval_idles hG.good hG.closed hR.idle hm hq h) hms hm hn
    (RunOk.start' hpos) hi (Nat.lt_succ_self _)

/-- The example grammar is not left recursive. -/
theorem paren_ranked : Ranked (fun _ => True) parenG (fun m => m ≠ 0 ∧ m ≠ 1 ∧ m ≠ 3 ∧ m ≠ 4)
    (fun | 0 => 1 | 2 => 3 | 4 => 2 | _ => 0) 3 := by
  refine ⟨fun m _ => ?_, fun m _ h => ?_, fun m _ x h => ?_⟩
  · split <;> omega
  · revert h
    unfold parenG
    split <;> intro h
    · exact h.elim
    · exact h.elim
    · exact ⟨by decide, by decide, by decide, by decide⟩
    · exact h.elim
    · exact (h.1 rfl).elim
    · rename_i h0 h1 h2 h3 h4
      exact ⟨h0, h1, h3, h4⟩
  · revert h
    unfold parenG
    split <;> intro h
    · rcases h with rfl | ⟨h, -⟩
      · decide
      · exact (h.2.1 rfl).elim
    · exact h.elim
    · cases h; decide
    · exact h.elim
    · cases h; decide
    · exact h.elim

/-- The engine ends on every text with the example grammar. -/
theorem C34_example {src : Str} (hb : blen src ≤ isizeMax) {sc : SCtxId} {s : State}
    (hs : s.lookup sc "Paren".toList = some (.matcher 0)) :
    ∃ r s', tokenize parenT cfg (4 * blen src + 2) (Ctx.new ⟨src, []⟩ sc []) 0 s = .ok r s' := by
  have hr : Resolves parenρ sc (entered parenT 0 sc s) := by
    refine Resolves.again paren_grammar trivial fun n m h => ?_
    unfold parenρ at h
    split at h
    · cases h; subst n; exact hs
    · cases h
  refine C34_tokenize (p := ⟨src, []⟩) (stop := blen src) paren_grammar hb (fun m _ _ _ _ _ h => ?_) (m := 0) trivial
    ⟨rfl, rfl, rfl⟩ ⟨src, [], [], by simp, rfl, by simp [blen]⟩ hr paren_ranked ?_
  · revert h
    unfold parenG
    split <;> intro h <;> exact nomatch h
  · show (blen src - 0) * 4 + 1 + 1 ≤ _
    omega

/-- `A = b? A b`. -/
def leftT : Table
  | 0 => .program [1, 2, 3] "A".toList true Option.none false
  | 1 => .optional 3
  | 2 => .ref (.str "A".toList) "Ref".toList false
  | _ => .equals "Equals".toList false (.str "b".toList)

/-- Its expressions. -/
def leftG : MatcherId → Expr
  | 0 => .seq "A".toList [1, 2, 3]
  | 1 => .opt 3
  | 2 => .call 0
  | _ => .lit "Equals".toList "b".toList

/-- Its names. -/
def leftρ (x : Str) : Option MatcherId := if x = "A".toList then some 0 else Option.none

theorem left_grammar : Grammar leftT leftρ (fun _ => True) leftG := by
  refine ⟨fun m _ => ?_, fun _ _ _ _ => trivial, fun m _ hc x hx => ?_, fun m _ n c re h => ?_⟩
  · unfold leftT leftG
    split <;> rfl
  · revert hc hx
    unfold leftT
    split <;> intro hc hx <;> first | exact absurd hc (by decide) | skip
    · cases hx; rfl
  · revert h
    unfold leftT
    split <;> intro h <;> cases h

theorem left_none : ∀ n pos, eval leftG p stop n 0 pos = Option.none ∧ eval leftG p stop n 2 pos = Option.none := by
  intro n
  induction n with
  | zero => intro pos; exact ⟨rfl, rfl⟩
  | succ n ih =>
    intro pos
    refine ⟨?_, (ih pos).1⟩
    show (parts (eval leftG p stop n) [1, 2, 3] (.start pos)).map _ = Option.none
    have h2 : ∀ r, parts (eval leftG p stop n) [2, 3] r = Option.none := by
      intro r
      unfold parts
      rw [(ih r.pos).2]
      rfl
    have h1 : parts (eval leftG p stop n) [1, 2, 3] (.start pos) = Option.none := by
      unfold parts
      cases hx : eval leftG p stop n 1 (Run.start pos).pos with
      | none => rfl
      | some x =>
        have hf : x ≠ .fail := by
          rintro rfl
          cases n with
          | zero => cases hx
          | succ n =>
            obtain ⟨y, -, hy⟩ := Option.map_eq_some_iff.mp
              (show (eval leftG p stop n 3 (Run.start pos).pos).map Result.opt = some .fail from hx)
            cases y <;> cases hy
        cases x <;> first | exact (hf rfl).elim | exact h2 _
    rw [h1]
    rfl

/-- The hypothesis is needed: a matcher that reaches itself without consuming does not
return, at any depth, on any text. -/
theorem C34_left_recursion {c : Ctx} (hp : blen c.parser.src ≤ isizeMax) (hd : c.debug = 0)
    (hcut : Cut c.parser.src c.offset.stop c.offset.start)
    (hs : s.lookup sc "A".toList = some (.matcher 0)) : exec leftT cfg n 0 c sc s = .diverge := by
  have hr : Resolves leftρ sc (entered leftT 0 sc s) := by
    refine Resolves.again left_grammar trivial fun n m h => ?_
    unfold leftρ at h
    split at h
    · cases h; subst n; exact hs
    · cases h
  have h := C35_lock_step (cfg := cfg) (n := n) (p := c.parser) (stop := c.offset.stop) (c := c) left_grammar hp
    (fun m _ _ _ _ _ h => ?_) (m := 0) trivial ⟨rfl, rfl, hd⟩ hcut hr
  · rw [(left_none n _).1] at h
    unfold Sim at h
    split at h
    · rename_i h2; cases h2
    · rename_i h1 _; exact h1
    · exact h.elim
  · revert h
    unfold leftG
    split <;> intro h <;> exact nomatch h

end Adx.Peg
