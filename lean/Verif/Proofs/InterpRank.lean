import Verif.Spec.Levels
import Verif.Proofs.InterpExec
/-
  The reference interpreter returns, with grammars that are not left recursive.
-/
namespace Adx.Interp

open Peg (body Cuts Cut Ready Sim Keeps)

variable {N σ : Type} {G : Grammar N} {nm : Names σ N} {S : N → Nat → Prop} {I : σ → Prop} {Z : N → Nat → Prop}
  {rank : N → Nat → Nat} {R : Nat} {p : Parser} {stop start : Nat} {ev : Ev N σ}

/-! ### Positions move forward -/

theorem fold_pos {ts : List Item} : ∀ {r : Run}, (∀ c ∈ ts, start < c.matched.stop) → start < r.pos →
    start < (ts.foldl Run.add r).pos := by
  induction ts with
  | nil => intro r _ h; exact h
  | cons t ts ih =>
    intro r h _
    exact ih (fun c hc => h c (by simp [hc])) (h t (by simp))

theorem take_pos {src : Str} {r : Run} {x : Result} (hx : x.Good src stop r.pos) (hf : x ≠ .fail) (he : ∀ e, x ≠ .error e) :
    (x = .skip 0 ∧ (r.take x).pos = r.pos) ∨ r.pos < (r.take x).pos := by
  cases x with
  | fail => exact (hf rfl).elim
  | error e => exact (he e rfl).elim
  | skip n =>
    cases n with
    | zero => exact Or.inl ⟨rfl, rfl⟩
    | succ n => exact Or.inr (by show r.pos < r.pos + (n + 1); omega)
  | token t => exact Or.inr hx.spot.lt
  | splice t =>
    refine Or.inr (fold_pos (fun c hc => ?_) hx.spot.lt)
    obtain ⟨q, hq, hs⟩ := hx.kids c hc
    exact Nat.lt_of_le_of_lt hq hs.lt

/-- Results lie in the text, names keep to `I`, and what matches without consuming is in
`Z`. -/
def EvOk (p : Parser) (stop : Nat) (S : N → Nat → Prop) (I : σ → Prop) (Z : N → Nat → Prop) (ev : Ev N σ) : Prop :=
  ∀ m k, S m k → ∀ pos st, Cut p.src stop pos → I st → ∀ x, ev m k pos st = some x →
    x.1.Good p.src stop pos ∧ I x.2 ∧ (x.1 = .skip 0 → Z m k)

/-- The run at the end of parts. -/
def Step.Ok (src : Str) (stop start : Nat) : Step → Prop
  | .all r => RunOk src stop start r
  | .failed r => RunOk src stop start r
  | .error _ => True

theorem parts_ok (hev : EvOk p stop S I Z ev) {k : Nat} {ms : List N} (hms : ∀ m ∈ ms, S m k) :
    ∀ {r : Run} {st : σ} {y : Step × σ}, RunOk p.src stop start r → I st → parts ev k ms r st = some y →
      y.1.Ok p.src stop start ∧ I y.2 := by
  induction ms with
  | nil => intro r st y h hi hp; cases hp; exact ⟨h, hi⟩
  | cons m ms ih =>
    intro r st y h hi hp
    obtain ⟨⟨x, st'⟩, hx, hp⟩ := Option.bind_eq_some_iff.mp hp
    obtain ⟨hg, hi', -⟩ := hev m k (hms m (by simp)) _ _ h.pos hi _ hx
    have hn := h.take hg
    cases x with
    | fail => cases hp; exact ⟨h, hi'⟩
    | error e => cases hp; exact ⟨trivial, hi'⟩
    | _ => exact ih (fun y hy => hms y (by simp [hy])) hn hi' hp

theorem rounds_ok (hev : EvOk p stop S I Z ev) {k : Nat} {ms : List N} (hms : ∀ m ∈ ms, S m k) {j : Nat} :
    ∀ {r : Run} {st : σ} {y : Step × σ}, RunOk p.src stop start r → I st → rounds ev k ms j r st = some y →
      y.1.Ok p.src stop start ∧ I y.2 := by
  induction j with
  | zero => intro r st y h hi hp; cases hp; exact ⟨h, hi⟩
  | succ j ih =>
    intro r st y h hi hp
    obtain ⟨⟨x, st'⟩, hx, hp⟩ := Option.bind_eq_some_iff.mp hp
    obtain ⟨h1, h2⟩ := parts_ok hev hms h hi hx
    cases x with
    | all r => exact ih h1 h2 hp
    | failed r => cases hp; exact ⟨h1, h2⟩
    | error e => cases hp; exact ⟨h1, h2⟩

theorem choose_ok (hev : EvOk p stop S I Z ev) {k pos : Nat} {ms : List N} (hms : ∀ m ∈ ms, S m k)
    (hpos : Cut p.src stop pos) : ∀ {st : σ} {x : Result × σ}, I st → choose ev k pos ms st = some x →
      x.1.Good p.src stop pos ∧ I x.2 ∧ x.1 ≠ .skip 0 := by
  induction ms with
  | nil => intro st x hi h; cases h; exact ⟨trivial, hi, nofun⟩
  | cons m ms ih =>
    intro st x hi h
    obtain ⟨⟨y, st'⟩, hy, h⟩ := Option.bind_eq_some_iff.mp h
    obtain ⟨hg, hi', -⟩ := hev m k (hms m (by simp)) _ _ hpos hi _ hy
    have ih := fun {x} => ih (fun y hy => hms y (by simp [hy])) (x := x) hi'
    cases y with
    | fail => exact ih h
    | skip n =>
      cases n with
      | zero => exact ih h
      | succ n => cases h; exact ⟨hg, hi', nofun⟩
    | error e => cases h; exact ⟨hg, hi', nofun⟩
    | token _ => cases h; exact ⟨hg, hi', nofun⟩
    | splice _ => cases h; exact ⟨hg, hi', nofun⟩

theorem finish_idle {r : Run} {name : Str} {pos : Nat} : r.finish p name pos ≠ .skip 0 := by
  unfold Run.finish
  split <;> exact fun h => nomatch h

theorem eval_ok (hC : Closed G nm S I) (hZ : ∀ m k, S m k → (G.expr m).Idles nm I Z k → Z m k) (n : Nat) :
    EvOk p stop S I Z (eval G nm p stop n) := by
  induction n with
  | zero => intro m k _ pos st _ _ x h; cases h
  | succ n ih =>
    intro m k hm pos st hpos hi x h
    have hi := hC.enter m k st hm hi
    unfold eval at h
    generalize enter G nm m k st = st at hi h
    have huse := hC.reaches m k hm
    have hidle := hZ m k hm
    obtain ⟨w, hw⟩ := hpos
    have hw' : bslice p.src pos stop = some w := bslice_iff.mpr hw
    have hpos : Cut p.src stop pos := ⟨w, hw⟩
    have hthen : ∀ {f : Result → Result} {m' : N} {k' : Nat}, S m' k' →
        (∀ y, y.Good p.src stop pos → (y = .skip 0 → Z m' k') → (f y).Good p.src stop pos ∧ (f y = .skip 0 → Z m k)) →
        andThen f (eval G nm p stop n m' k' pos st) = some x → x.1.Good p.src stop pos ∧ I x.2 ∧ (x.1 = .skip 0 → Z m k) := by
      intro f m' k' hm' hf h
      obtain ⟨y, hy, rfl⟩ := Option.map_eq_some_iff.mp h
      obtain ⟨h1, h2, h3⟩ := ih m' k' hm' pos st hpos hi _ hy
      exact ⟨(hf _ h1 h3).1, h2, (hf _ h1 h3).2⟩
    cases hg : G.expr m with
    | lit name s =>
      rw [hg] at h
      dsimp only [evalExpr] at h
      rw [hw', Option.getD_some] at h
      split at h
      · rename_i hs
        cases h
        obtain ⟨post, rfl⟩ := List.isPrefixOf_iff_prefix.mp hs.2
        have hb : 0 < blen s := Nat.pos_of_ne_zero fun h0 => hs.1 (blen_eq_zero.mp h0)
        exact ⟨leaf_good hw hb ⟨s, [], post, rfl, rfl, by simp [blen]⟩, hi, nofun⟩
      · cases h
        exact ⟨trivial, hi, nofun⟩
    | re name find =>
      rw [hg] at h hidle
      dsimp only [evalExpr] at h
      rw [hw', Option.getD_some] at h
      split at h
      · rename_i hf
        cases h
        exact ⟨hpos, hi, fun _ => hidle ⟨_, hf⟩⟩
      · rename_i b hb hf
        cases h
        have hb0 : 0 < b := Nat.pos_of_ne_zero fun h0 => hb h0
        exact ⟨leaf_good hw hb0 ((hC.regex m k hm _ _ hg) _ _ _ hf), hi, nofun⟩
      · cases h
        exact ⟨trivial, hi, nofun⟩
    | delim name a b e =>
      obtain ⟨ha, hb⟩ := hC.delim m k hm _ _ _ _ hg
      rw [hg] at h
      dsimp only [evalExpr] at h
      rw [hw', Option.getD_some] at h
      split at h
      · rename_i hpre
        obtain ⟨post, rfl⟩ := List.isPrefixOf_iff_prefix.mp hpre
        rw [List.drop_left] at h
        split at h
        · rename_i hbody
          cases h
          exact ⟨delim_good ha hb hw hbody, hi, nofun⟩
        · cases h
          exact ⟨trivial, hi, nofun⟩
      · cases h
        exact ⟨trivial, hi, nofun⟩
    | seq name ms =>
      rw [hg] at h huse
      obtain ⟨⟨y, st'⟩, hy, rfl⟩ := Option.map_eq_some_iff.mp h
      obtain ⟨h1, h2⟩ := parts_ok ih (fun x hx => huse x k ⟨rfl, hx⟩) (RunOk.start' hpos) hi hy
      refine ⟨?_, h2, ?_⟩
      · cases y with
        | all r => exact h1.finish
        | failed r => trivial
        | error e => trivial
      · cases y with
        | all r => exact fun h => (finish_idle h).elim
        | failed r => nofun
        | error e => nofun
    | choice ms =>
      rw [hg] at h huse
      obtain ⟨h1, h2, h3⟩ := choose_ok ih (fun x hx => huse x k ⟨rfl, hx⟩) hpos hi h
      exact ⟨h1, h2, fun h => (h3 h).elim⟩
    | loop name ms lo hi' =>
      rw [hg] at h huse hidle
      obtain ⟨⟨y, st'⟩, hy, rfl⟩ := Option.map_eq_some_iff.mp h
      obtain ⟨h1, h2⟩ := rounds_ok ih (fun x hx => huse x k ⟨rfl, hx⟩) (RunOk.start' hpos) hi hy
      refine ⟨?_, h2, ?_⟩
      · cases y with
        | all r =>
          dsimp only [loopResult]
          split
          · exact hpos
          · split
            · trivial
            · exact h1.finish
        | failed r => exact h1.finish
        | error e => trivial
      · cases y with
        | all r =>
          dsimp only [loopResult]
          split
          · rename_i h0; exact fun _ => hidle h0
          · split
            · nofun
            · exact fun h => (finish_idle h).elim
        | failed r => exact fun h => (finish_idle h).elim
        | error e => nofun
    | opt x =>
      rw [hg] at h huse hidle
      refine hthen (huse x k ⟨rfl, by simp [Expr.uses]⟩) (fun y h1 h2 => ⟨?_, fun _ => hidle trivial⟩) h
      cases y <;> first | exact h1 | exact hpos
    | neg x =>
      rw [hg] at h huse hidle
      refine hthen (huse x k ⟨rfl, by simp [Expr.uses]⟩) (fun y h1 h2 => ⟨?_, fun _ => hidle trivial⟩) h
      cases y with
      | skip n => cases n <;> first | exact h1 | trivial
      | fail => exact hpos
      | _ => trivial
    | drop x =>
      rw [hg] at h huse hidle
      refine hthen (huse x k ⟨rfl, by simp [Expr.uses]⟩) (fun y h1 h2 => ?_) h
      cases y with
      | fail => exact ⟨trivial, nofun⟩
      | error e => exact ⟨trivial, nofun⟩
      | skip n => exact ⟨h1, fun h => hidle (h2 h)⟩
      | token t =>
        refine ⟨h1.sub rfl, fun h => ?_⟩
        have h3 : t.matched.stop - pos = 0 := by injection h
        have := h1.spot.lt
        omega
      | splice t =>
        refine ⟨h1.sub rfl, fun h => ?_⟩
        have h3 : t.matched.stop - pos = 0 := by injection h
        have := h1.spot.lt
        omega
    | flat x =>
      rw [hg] at h huse hidle
      refine hthen (huse x k ⟨rfl, by simp [Expr.uses]⟩) (fun y h1 h2 => ?_) h
      cases y with
      | skip n => exact ⟨h1, fun h => hidle (h2 h)⟩
      | _ => exact ⟨h1, nofun⟩
    | call x =>
      rw [hg] at h huse hidle
      dsimp only [evalExpr] at h
      split at h
      · rename_i m' hm'
        obtain ⟨h1, h2, h3⟩ := ih m' k (huse m' k ⟨rfl, st, hi, hm'⟩) pos st hpos hi _ h
        exact ⟨h1, h2, fun h => hidle ⟨st, m', hi, hm', h3 h⟩⟩
      · cases h
        exact ⟨trivial, hi, nofun⟩
    | jump x =>
      rw [hg] at h huse hidle
      obtain ⟨h1, h2, h3⟩ := ih x k (huse x k ⟨rfl, by simp [Expr.uses]⟩) pos st hpos hi _ h
      exact ⟨h1, h2, fun h => hidle (h3 h)⟩
    | within j x =>
      rw [hg] at h huse hidle
      obtain ⟨h1, h2, h3⟩ := ih x j (huse x j ⟨rfl, rfl⟩) pos st hpos hi _ h
      exact ⟨h1, h2, fun h => hidle (h3 h)⟩
    | rename l x =>
      rw [hg] at h huse hidle
      refine hthen (huse x k ⟨rfl, by simp [Expr.uses]⟩) (fun y h1 h2 => ?_) h
      cases y with
      | skip n => exact ⟨h1, fun h => hidle (h2 h)⟩
      | fail => exact ⟨h1, nofun⟩
      | error => exact ⟨h1, nofun⟩
      | token t => exact ⟨Good.rename h1, nofun⟩
      | splice t => exact ⟨Good.rename h1, nofun⟩
    | give a x =>
      rw [hg] at h huse hidle
      refine hthen (huse x k ⟨rfl, by simp [Expr.uses]⟩) (fun y h1 h2 => ?_) h
      cases y with
      | skip n => exact ⟨h1, fun h => hidle (h2 h)⟩
      | fail => exact ⟨h1, nofun⟩
      | error => exact ⟨h1, nofun⟩
      | token t => exact ⟨Good.give h1, nofun⟩
      | splice t => exact ⟨Good.give h1, nofun⟩
    | empty =>
      rw [hg] at h hidle
      cases h
      exact ⟨hpos, hi, fun _ => hidle trivial⟩

/-! ### The interpreter returns -/

/-- There are results behind `start`, and at `start` for ranks below `b`. -/
def Answers (p : Parser) (stop start : Nat) (S : N → Nat → Prop) (I : σ → Prop) (rank : N → Nat → Nat) (b : Nat)
    (ev : Ev N σ) : Prop :=
  ∀ x j q st, S x j → I st → Cut p.src stop q → start ≤ q → (start < q ∨ rank x j < b) → ∃ y, ev x j q st = some y

theorem parts_total {b : Nat} (hev : EvOk p stop S I Z ev) (htot : Answers p stop start S I rank b ev) {k : Nat} {ms : List N}
    (hms : ∀ m ∈ ms, S m k) : ∀ {r : Run} {st : σ}, RunOk p.src stop start r → I st →
      (start < r.pos ∨ ∀ x, Lead (Z · k) ms x → rank x k < b) → ∃ y, parts ev k ms r st = some y := by
  induction ms with
  | nil => intro r st _ _ _; exact ⟨_, rfl⟩
  | cons m ms ih =>
    intro r st h hi hl
    have hm := hms m (by simp)
    obtain ⟨⟨x, st'⟩, hx⟩ := htot m k r.pos st hm hi h.pos h.le (hl.imp id fun h => h m (Or.inl rfl))
    obtain ⟨hg, hi', hz⟩ := hev m k hm _ _ h.pos hi _ hx
    dsimp only at hg hi' hz
    unfold parts
    rw [hx]
    have key : x ≠ .fail → (∀ e, x ≠ .error e) → ∃ y, parts ev k ms (r.take x) st' = some y := by
      intro hf he
      refine ih (fun y hy => hms y (by simp [hy])) (h.take hg) hi' ?_
      rcases take_pos hg hf he with ⟨rfl, h1⟩ | h1
      · rcases hl with hl | hl
        · exact Or.inl (by omega)
        · exact Or.inr fun y hy => hl y (Or.inr ⟨hz rfl, hy⟩)
      · have := h.le
        exact Or.inl (by omega)
    cases x with
    | fail => exact ⟨_, rfl⟩
    | error e => exact ⟨_, rfl⟩
    | _ => exact key nofun nofun

theorem rounds_total {b : Nat} (hev : EvOk p stop S I Z ev) (htot : Answers p stop start S I rank b ev) {k : Nat} {ms : List N}
    (hms : ∀ m ∈ ms, S m k) (hl : ∀ x, Lead (Z · k) ms x → rank x k < b) {j : Nat} :
    ∀ {r : Run} {st : σ}, RunOk p.src stop start r → I st → ∃ y, rounds ev k ms j r st = some y := by
  induction j with
  | zero => intro r st _ _; exact ⟨_, rfl⟩
  | succ j ih =>
    intro r st h hi
    obtain ⟨⟨x, st'⟩, hp⟩ := parts_total hev htot hms h hi (Or.inr hl)
    obtain ⟨h1, h2⟩ := parts_ok hev hms h hi hp
    unfold rounds
    rw [hp]
    cases x with
    | all r => exact ih h1 h2
    | failed r => exact ⟨_, rfl⟩
    | error e => exact ⟨_, rfl⟩

theorem choose_total {b : Nat} (hev : EvOk p stop S I Z ev) (htot : Answers p stop start S I rank b ev) {k : Nat} {ms : List N}
    (hms : ∀ m ∈ ms, S m k) (hl : ∀ x ∈ ms, rank x k < b) (hpos : Cut p.src stop start) :
    ∀ {st : σ}, I st → ∃ y, choose ev k start ms st = some y := by
  induction ms with
  | nil => intro st _; exact ⟨_, rfl⟩
  | cons m ms ih =>
    intro st hi
    obtain ⟨⟨x, st'⟩, hx⟩ := htot m k start st (hms m (by simp)) hi hpos (Nat.le_refl _) (Or.inr (hl m (by simp)))
    obtain ⟨-, hi', -⟩ := hev m k (hms m (by simp)) _ _ hpos hi _ hx
    obtain ⟨y, hy⟩ := ih (fun m hm => hms m (by simp [hm])) (fun m hm => hl m (by simp [hm])) hi'
    unfold choose
    rw [hx]
    cases x with
    | fail => exact ⟨y, hy⟩
    | skip n =>
      cases n with
      | zero => exact ⟨y, hy⟩
      | succ n => exact ⟨_, rfl⟩
    | _ => exact ⟨_, rfl⟩

/-- The depth of recursion that suffices. -/
def depthFor (stop R rank pos : Nat) : Nat := (stop - pos) * (R + 1) + rank + 1

/-- The interpreter returns if the depth suffices. -/
theorem eval_total (hC : Closed G nm S I) (hR : Ranked G nm S I Z rank R) : ∀ {n : Nat} {m : N} {k : Nat}, S m k →
    ∀ {pos : Nat} {st : σ}, Cut p.src stop pos → I st → depthFor stop R (rank m k) pos ≤ n →
      ∃ x, eval G nm p stop n m k pos st = some x := by
  intro n
  induction n with
  | zero => intro m k _ pos st _ _ h; unfold depthFor at h; omega
  | succ n ih =>
    intro m k hm pos st hpos hi hn
    have hev := eval_ok (p := p) (stop := stop) hC hR.idle n
    have hi := hC.enter m k st hm hi
    have hans : Answers p stop pos S I rank (rank m k) (eval G nm p stop n) := by
      intro x j q st hx hi hq hle hlt
      refine ih hx hq hi ?_
      unfold depthFor at hn ⊢
      have hb := hR.bound x j hx
      have hq' := hq.le.1
      rcases hlt with hlt | hlt
      · have h1 : (stop - q) * (R + 1) + (R + 1) ≤ (stop - pos) * (R + 1) := by
          rw [← Nat.succ_mul]
          exact Nat.mul_le_mul_right _ (by omega)
        omega
      · have h1 : (stop - q) * (R + 1) ≤ (stop - pos) * (R + 1) := Nat.mul_le_mul_right _ (by omega)
        omega
    have huse := hC.reaches m k hm
    have hless := hR.less m k hm
    unfold eval
    generalize enter G nm m k st = st at hi
    have hthen : ∀ {f : Result → Result} {x : N}, S x k → rank x k < rank m k →
        ∃ y, andThen f (eval G nm p stop n x k pos st) = some y := by
      intro f x hx hlt
      obtain ⟨y, hy⟩ := hans x k pos st hx hi hpos (Nat.le_refl _) (Or.inr hlt)
      exact ⟨_, by rw [hy]; rfl⟩
    cases hg : G.expr m with
    | lit name s =>
      dsimp only [evalExpr]
      split <;> exact ⟨_, rfl⟩
    | re name find =>
      dsimp only [evalExpr]
      split <;> exact ⟨_, rfl⟩
    | delim name a b e =>
      dsimp only [evalExpr]
      split
      · split <;> exact ⟨_, rfl⟩
      · exact ⟨_, rfl⟩
    | seq name ms =>
      rw [hg] at huse hless
      obtain ⟨y, hy⟩ := parts_total (ms := ms) hev hans (fun x hx => huse x k ⟨rfl, hx⟩) (RunOk.start' hpos) hi
        (Or.inr fun x hx => hless x k ⟨rfl, hx⟩)
      dsimp only [evalExpr]
      rw [hy]
      exact ⟨_, rfl⟩
    | choice ms =>
      rw [hg] at huse hless
      exact choose_total hev hans (fun x hx => huse x k ⟨rfl, hx⟩) (fun x hx => hless x k ⟨rfl, hx⟩) hpos hi
    | loop name ms lo hi' =>
      rw [hg] at huse hless
      obtain ⟨y, hy⟩ := rounds_total (ms := ms) (j := hi' - lo) hev hans (fun x hx => huse x k ⟨rfl, hx⟩)
        (fun x hx => hless x k ⟨rfl, hx⟩) (RunOk.start' hpos) hi
      dsimp only [evalExpr]
      rw [hy]
      exact ⟨_, rfl⟩
    | empty => exact ⟨_, rfl⟩
    | call x =>
      rw [hg] at huse hless
      dsimp only [evalExpr]
      split
      · rename_i m' hm'
        exact hans m' k pos st (huse m' k ⟨rfl, st, hi, hm'⟩) hi hpos (Nat.le_refl _) (Or.inr (hless m' k ⟨rfl, st, hi, hm'⟩))
      · exact ⟨_, rfl⟩
    | within j x =>
      rw [hg] at huse hless
      exact hans x j pos st (huse x j ⟨rfl, rfl⟩) hi hpos (Nat.le_refl _) (Or.inr (hless x j ⟨rfl, rfl⟩))
    | jump x =>
      rw [hg] at huse hless
      exact hans x k pos st (huse x k ⟨rfl, by simp [Expr.uses]⟩) hi hpos (Nat.le_refl _)
        (Or.inr (hless x k ⟨rfl, by simp [Expr.uses]⟩))
    | opt x | neg x | drop x | flat x | rename l x | give a x =>
      rw [hg] at huse hless
      exact hthen (huse x k ⟨rfl, by simp [Expr.uses]⟩) (hless x k ⟨rfl, by simp [Expr.uses]⟩)

end Adx.Interp
