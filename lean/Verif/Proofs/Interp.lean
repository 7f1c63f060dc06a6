import Verif.Spec.Toil
import Verif.Proofs.PegExec
/-
  The engine and the reference interpreter: where results lie, and items in the heap.
-/
namespace Adx.Interp

open Peg (body Cuts Cut Ready Sim Keeps)

/-! ### Where the results lie -/

/-- A token that starts at `pos`. -/
structure Spot (src : Str) (stop pos : Nat) (t : Item) : Prop where
  start : t.matched.start = pos
  lt : pos < t.matched.stop
  cut : Cut src stop t.matched.stop
  cap : t.captured.start ≤ stop

/-- The same with children. -/
structure Good (src : Str) (stop pos : Nat) (t : Item) : Prop where
  spot : Spot src stop pos t
  kids : ∀ c ∈ t.children, ∃ q, pos ≤ q ∧ Spot src stop q c

/-- Results at `pos`. -/
def Result.Good (src : Str) (stop pos : Nat) : Result → Prop
  | .fail => True
  | .error _ => True
  | .skip n => Cut src stop (pos + n)
  | .token t => Interp.Good src stop pos t
  | .splice t => Interp.Good src stop pos t

/-- What has been matched since `start`. -/
structure RunOk (src : Str) (stop start : Nat) (r : Run) : Prop where
  pos : Cut src stop r.pos
  far : Cut src stop r.far
  le : start ≤ r.pos
  le' : r.pos ≤ r.far
  kids : ∀ c ∈ r.kids, ∃ q, start ≤ q ∧ Spot src stop q c
  caps : ∀ x ∈ r.caps, x.start ≤ stop
  some : r.kids ≠ [] → r.caps ≠ [] ∧ start < r.far

variable {src : Str} {stop start pos : Nat}

theorem RunOk.start' (h : Cut src stop pos) : RunOk src stop pos (.start pos) :=
  ⟨h, h, Nat.le_refl _, Nat.le_refl _, by simp [Run.start], by simp [Run.start], by simp [Run.start]⟩

theorem RunOk.goto {r : Run} (h : RunOk src stop start r) {q : Nat} (hq : Cut src stop q)
    (hl : start ≤ q) : RunOk src stop start (r.goto q) := by
  refine ⟨hq, h.far.max hq, hl, Nat.le_max_right _ _, h.kids, h.caps, fun hk => ?_⟩
  obtain ⟨h1, h2⟩ := h.some hk
  exact ⟨h1, Nat.lt_of_lt_of_le h2 (Nat.le_max_left _ _)⟩

theorem RunOk.add {r : Run} (h : RunOk src stop start r) {t : Item} {q : Nat} (hq : start ≤ q)
    (ht : Spot src stop q t) : RunOk src stop start (r.add t) := by
  have hlt := ht.lt
  refine ⟨ht.cut, h.far.max ht.cut, by show start ≤ t.matched.stop; omega, Nat.le_max_right _ _, ?_, ?_, fun _ => ⟨by simp [Run.add], ?_⟩⟩
  · intro c hc
    rcases List.mem_append.mp hc with hc | hc
    · exact h.kids c hc
    · rw [List.mem_singleton] at hc
      subst hc
      exact ⟨q, hq, ht⟩
  · intro x hx
    rcases List.mem_append.mp hx with hx | hx
    · exact h.caps x hx
    · rw [List.mem_singleton] at hx
      subst hx
      exact ht.cap
  · show start < Max.max r.far t.matched.stop
    omega

theorem RunOk.cover {r : Run} (h : RunOk src stop start r) {t : Item} (ht : Spot src stop r.pos t) :
    RunOk src stop start { r.goto t.matched.stop with caps := r.caps ++ [t.captured] } := by
  have hlt := ht.lt
  have hle := h.le
  have := h.goto ht.cut (by omega)
  refine ⟨this.pos, this.far, this.le, this.le', this.kids, ?_, fun hk => ⟨by simp, (this.some hk).2⟩⟩
  intro x hx
  rcases List.mem_append.mp hx with hx | hx
  · exact h.caps x hx
  · rw [List.mem_singleton] at hx
    subst hx
    exact ht.cap

theorem RunOk.fold {ts : List Item} : ∀ {r : Run}, RunOk src stop start r →
    (∀ c ∈ ts, ∃ q, start ≤ q ∧ Spot src stop q c) → RunOk src stop start (ts.foldl Run.add r) := by
  induction ts with
  | nil => intro r h _; exact h
  | cons t ts ih =>
    intro r h hk
    obtain ⟨q, hq, ht⟩ := hk t (by simp)
    exact ih (h.add hq ht) fun c hc => hk c (by simp [hc])

theorem RunOk.take {r : Run} (h : RunOk src stop start r) {x : Result} (hx : x.Good src stop r.pos) :
    RunOk src stop start (r.take x) := by
  cases x with
  | fail => exact h
  | error _ => exact h
  | skip n => exact h.goto hx (Nat.le_trans h.le (Nat.le_add_right _ _))
  | token t => exact h.add h.le hx.spot
  | splice t =>
    refine (h.cover hx.spot).fold ?_
    intro c hc
    obtain ⟨q, hq, hs⟩ := hx.kids c hc
    exact ⟨q, Nat.le_trans h.le hq, hs⟩

theorem RunOk.finish {r : Run} {p : Parser} {name : Str} (h : RunOk p.src stop start r) :
    (r.finish p name start).Good p.src stop start := by
  unfold Run.finish
  split
  · trivial
  · rename_i hk
    obtain ⟨h1, h2⟩ := h.some hk
    exact ⟨⟨rfl, h2, h.far, Peg.lowest_caps h1 h.caps⟩, h.kids⟩

theorem Good.sub {n : Nat} {t : Item} (h : Good src stop pos t) (hn : n = t.matched.stop - pos) :
    Cut src stop (pos + n) := by
  have := h.spot.lt
  have he : pos + n = t.matched.stop := by omega
  rw [he]
  exact h.spot.cut

variable {p : Parser}

theorem leaf_good {name w : Str} {b : Nat} (hw : TextAt p.src pos stop w) (hb : 0 < b) (hx : ∃ x, TextAt w 0 b x) :
    Good p.src stop pos (leaf p name ⟨pos, pos + b⟩ ⟨pos, pos + b⟩) := by
  obtain ⟨x, hx⟩ := hx
  obtain ⟨pre, post, rfl, h1, h2⟩ := hx
  have := blen_eq_zero.mp h1.symm
  subst this
  have h2' : b = blen x := by simpa [blen] using h2
  subst h2'
  have := hw.le
  exact ⟨⟨rfl, by show pos < pos + _; omega, ⟨post, hw.suffix (x := [] ++ x)⟩, by show pos ≤ stop; omega⟩,
    by intro c hc; cases hc⟩

theorem delim_good {name a b e w raw val : Str} (ha : a ≠ []) (hb : b ≠ []) (hw : TextAt p.src pos stop (a ++ w))
    (hbody : body b e ((a ++ w).length + 1) w = some (raw, val)) :
    Good p.src stop pos (delimLeaf p name a b pos raw val) := by
  obtain ⟨rest, hB⟩ := (Peg.body_iff hb (by simp; omega)).mp hbody
  have hsplit := hB.split
  have h0 : 0 < blen a := Nat.pos_of_ne_zero fun h0 => ha (blen_eq_zero.mp h0)
  subst hsplit
  have hl := hw.le
  rw [blen_append] at hl
  have hw2 := hw.suffix.suffix
  rw [blen_append, ← Nat.add_assoc] at hw2
  exact ⟨⟨rfl, by show pos < pos + blen a + blen raw + blen b; omega, ⟨rest, hw2⟩, by show pos + blen a ≤ stop; omega⟩,
    by intro c hc; cases hc⟩

/-! ### Trees in the heap -/

/-- The tokens `ts`, all at `lo` or above, are the roots of the given trees; children
are above their parents. -/
inductive Reps (toks : List Token) : Nat → List TokId → List Item → Prop
  | nil {lo} : Reps toks lo [] []
  | cons {lo t k ts cs trees} (hl : lo ≤ t) (hk : toks[t]? = some k) (hs : k.kind = .standard)
      (hf : k.flags = 0) (hc : Reps toks (t + 1) k.children cs) (hr : Reps toks lo ts trees) :
      Reps toks lo (t :: ts) (.node k.name k.captured k.matched k.getValue k.getMatchedValue
        k.attributes cs :: trees)

variable {toks toks' : List Token} {lo : Nat} {ts : List TokId} {trees : List Item}

theorem Reps.lower {lo' : Nat} (h : Reps toks lo ts trees) (hl : lo' ≤ lo) : Reps toks lo' ts trees := by
  induction h generalizing lo' with
  | nil => exact .nil
  | cons h1 hk hs hf hc _ _ ih => exact .cons (Nat.le_trans hl h1) hk hs hf hc (ih hl)

theorem Reps.append {ts' : List TokId} {trees' : List Item} (h : Reps toks lo ts trees)
    (h' : Reps toks lo ts' trees') : Reps toks lo (ts ++ ts') (trees ++ trees') := by
  induction h with
  | nil => exact h'
  | cons h1 hk hs hf hc _ _ ih => exact .cons h1 hk hs hf hc (ih h')

theorem Reps.nil_iff (h : Reps toks lo ts trees) : ts = [] ↔ trees = [] := by
  cases h <;> simp

/-- Only the parents of tokens may have changed. -/
theorem Reps.change (h : Reps toks lo ts trees)
    (hc : ∀ (i : Nat) (k : Token), lo ≤ i → toks[i]? = some k → ∃ q, toks'[i]? = some { k with parent := q }) :
    Reps toks' lo ts trees := by
  induction h with
  | nil => exact .nil
  | @cons lo t k ts cs trees hl hk hs hf _ _ ih1 ih2 =>
    obtain ⟨q, hk'⟩ := hc t k hl hk
    have := ih1 fun i k hi => hc i k (by omega)
    exact .cons (k := { k with parent := q }) hl hk' hs hf this (ih2 hc)

theorem Reps.pre (h : Reps toks lo ts trees) :
    ∃ l, Pre toks ts l ∧ (∀ u ∈ l, isErrorTok toks u = false) := by
  induction h with
  | nil => exact ⟨[], .nil, by simp⟩
  | @cons lo t k ts cs trees hl hk hs hf _ _ ih1 ih2 =>
    obtain ⟨l1, p1, e1⟩ := ih1
    obtain ⟨l2, p2, e2⟩ := ih2
    refine ⟨t :: (l1 ++ l2), .cons hk p1 p2, ?_⟩
    intro u hu
    rcases List.mem_cons.mp hu with rfl | hu
    · rw [isErrorTok_eq hk]
      unfold Token.flagsEnabled
      rw [hf]
      decide
    · rcases List.mem_append.mp hu with hu | hu
      · exact e1 u hu
      · exact e2 u hu

theorem Reps.items (h : Reps toks lo ts trees) : ∀ {n : Nat}, toks.length - lo < n →
    ts.mapM (itemOf toks n) = some trees := by
  induction h with
  | nil => intro n _; rfl
  | @cons lo t k ts cs trees hl hk hs hf _ _ ih1 ih2 =>
    intro n hn
    cases n with
    | zero => omega
    | succ n =>
      have hlt : t < toks.length := (List.getElem?_eq_some_iff.mp hk).1
      have h1 : itemOf toks (n + 1) t = some (.node k.name k.captured k.matched k.getValue k.getMatchedValue
          k.attributes cs) := by
        unfold itemOf
        rw [hk]
        dsimp only
        rw [ih1 (n := n) (by omega)]
      rw [List.mapM_cons, h1, ih2 hn]
      rfl

/-- The root of a tree. -/
theorem Reps.root {t : TokId} {tree : Item} (h : Reps toks lo [t] [tree]) :
    ∃ k, lo ≤ t ∧ toks[t]? = some k ∧ k.kind = .standard ∧ k.flags = 0 ∧ k.matched = tree.matched ∧
      k.captured = tree.captured ∧ Reps toks (t + 1) k.children tree.children := by
  cases h with
  | cons hl hk hs hf hc _ => exact ⟨_, hl, hk, hs, hf, rfl, rfl, hc⟩

theorem _root_.Adx.Peg.Keeps.items {b : Nat} {s s' : State} (h : Keeps b s s') (hb : s.toks.length ≤ b)
    (hr : Reps s.toks lo ts trees) : Reps s'.toks lo ts trees := by
  refine hr.change fun i k _ hk => ⟨k.parent, ?_⟩
  have hlt : i < s.toks.length := (List.getElem?_eq_some_iff.mp hk).1
  rw [h.same i (by omega), hk]

theorem put_reps {s : State} {t : TokId} {k : Token} {q : Option TokId} (hk : s.toks[t]? = some k)
    (hr : Reps s.toks lo ts trees) : Reps (s.put t { k with parent := q }).toks lo ts trees := by
  refine hr.change fun i k' _ hk' => ?_
  by_cases hi : i = t
  · subst hi
    rw [hk] at hk'
    cases hk'
    exact ⟨q, put_get hk⟩
  · refine ⟨k'.parent, ?_⟩
    show (s.toks.set t _)[i]? = _
    rw [List.getElem?_set_ne (fun h => hi h.symm), hk']


end Adx.Interp
