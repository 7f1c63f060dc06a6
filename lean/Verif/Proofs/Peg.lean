import Verif.Spec.Peg
import Verif.Props.Discard
import Verif.Props.Sequence
import Verif.Proofs.Program
/-
  The engine and the interpreter of parsing expression grammars run in lock step.
-/
namespace Adx.Peg

/-! ### Delimited texts -/

theorem body_iff {stop esc : Str} (hs : stop ≠ []) {n : Nat} {w raw val : Str} (hn : w.length < n) :
    body stop esc n w = some (raw, val) ↔ ∃ rest, Body stop esc w raw val rest := by
  induction n generalizing w raw val with
  | zero => omega
  | succ n ih =>
    unfold body
    by_cases h1 : stop.isPrefixOf w
    · rw [if_pos h1]
      have hp := List.isPrefixOf_iff_prefix.mp h1
      constructor
      · intro h
        cases h
        obtain ⟨rest, rfl⟩ := hp
        exact ⟨rest, .done rest⟩
      · rintro ⟨rest, h⟩
        obtain ⟨rest', rfl⟩ := hp
        obtain ⟨rfl, rfl, _⟩ := h.unique hs (.done rest')
        rfl
    · rw [if_neg h1]
      have hp : ¬ stop <+: w := fun h => h1 (List.isPrefixOf_iff_prefix.mpr h)
      by_cases h2 : esc ≠ [] ∧ esc.isPrefixOf w = true
      · rw [if_pos h2]
        obtain ⟨w1, rfl⟩ := List.isPrefixOf_iff_prefix.mp h2.2
        rw [List.drop_left]
        cases w1 with
        | nil =>
          dsimp only
          constructor
          · intro h; cases h
          · rintro ⟨rest, h⟩
            generalize hw : esc ++ [] = w at h hp
            cases h with
            | done => exact (hp ⟨_, rfl⟩).elim
            | @escaped ch w2 =>
              rw [List.append_cancel_left_eq] at hw
              cases hw
            | plain _ h => 
              rcases h with h | h
              · exact absurd h h2.1
              · exact absurd ⟨[], hw⟩ h
        | cons ch w1 =>
          dsimp only
          have hl : w1.length < n := by
            simp only [List.length_append, List.length_cons] at hn; omega
          constructor
          · intro h
            obtain ⟨⟨r, v⟩, hb, he⟩ := Option.map_eq_some_iff.mp h
            cases he
            obtain ⟨rest, hb⟩ := (ih hl).mp hb
            exact ⟨rest, .escaped hp h2.1 hb⟩
          · rintro ⟨rest, h⟩
            generalize hw : esc ++ ch :: w1 = w at h hp
            cases h with
            | done => exact (hp ⟨_, rfl⟩).elim
            | @escaped ch' w2 raw val _ _ _ h =>
              rw [List.append_cancel_left_eq] at hw
              cases hw
              rw [(ih hl).mpr ⟨_, h⟩]
              rfl
            | plain _ h =>
              rcases h with h | h
              · exact absurd h h2.1
              · exact absurd ⟨_, hw⟩ h
      · rw [if_neg h2]
        have h2' : esc = [] ∨ ¬ esc <+: w := by
          by_cases h : esc = []
          · exact Or.inl h
          · exact Or.inr fun hh => h2 ⟨h, List.isPrefixOf_iff_prefix.mpr hh⟩
        cases w with
        | nil =>
          dsimp only
          constructor
          · intro h; cases h
          · rintro ⟨rest, h⟩
            generalize hw : ([] : Str) = w at h hp
            cases h with
            | done => exact (hp ⟨_, rfl⟩).elim
            | escaped => simp at hw
            | plain => cases hw
        | cons ch w1 =>
          dsimp only
          have hl : w1.length < n := by
            simp only [List.length_cons] at hn; omega
          constructor
          · intro h
            obtain ⟨⟨r, v⟩, hb, he⟩ := Option.map_eq_some_iff.mp h
            cases he
            obtain ⟨rest, hb⟩ := (ih hl).mp hb
            exact ⟨rest, .plain hp h2' hb⟩
          · rintro ⟨rest, h⟩
            generalize hw : ch :: w1 = w at h hp h2'
            cases h with
            | done => exact (hp ⟨_, rfl⟩).elim
            | @escaped ch' w2 raw val _ _ h3 h =>
              rcases h2' with h4 | h4
              · exact absurd h4 h3
              · exact absurd ⟨_, rfl⟩ h4
            | plain _ _ h =>
              cases hw
              rw [(ih hl).mpr ⟨_, h⟩]
              rfl

/-! ### Where the results lie -/

/-- A token that starts at `pos`. -/
structure Spot (src : Str) (stop pos : Nat) (t : Tree) : Prop where
  start : t.matched.start = pos
  lt : pos < t.matched.stop
  cut : Cut src stop t.matched.stop
  cap : t.captured.start ≤ stop

/-- The same with children. -/
structure Good (src : Str) (stop pos : Nat) (t : Tree) : Prop where
  spot : Spot src stop pos t
  kids : ∀ c ∈ t.children, ∃ q, pos ≤ q ∧ Spot src stop q c

/-- Results at `pos`. -/
def Result.Good (src : Str) (stop pos : Nat) : Result → Prop
  | .fail => True
  | .skip n => Cut src stop (pos + n)
  | .token t => Peg.Good src stop pos t
  | .splice t => Peg.Good src stop pos t

/-- What has been matched since `start`. -/
structure RunOk (src : Str) (stop start : Nat) (r : Run) : Prop where
  pos : Cut src stop r.pos
  far : Cut src stop r.far
  le : start ≤ r.pos
  le' : r.pos ≤ r.far
  kids : ∀ c ∈ r.kids, ∃ q, start ≤ q ∧ Spot src stop q c
  caps : ∀ x ∈ r.caps, x.start ≤ stop
  some : r.kids ≠ [] → r.caps ≠ [] ∧ start < r.far

variable {src : Str} {stop start pos : Nat}

theorem Cut.le {a : Nat} (h : Cut src stop a) : a ≤ stop ∧ stop ≤ blen src := by
  obtain ⟨w, h⟩ := h
  have := h.le
  omega

theorem RunOk.start' (h : Cut src stop pos) : RunOk src stop pos (.start pos) :=
  ⟨h, h, Nat.le_refl _, Nat.le_refl _, by simp [Run.start], by simp [Run.start], by simp [Run.start]⟩

theorem Cut.max {a b : Nat} (h : Cut src stop a) (h' : Cut src stop b) : Cut src stop (max a b) := by
  rcases Nat.le_total a b with hl | hl
  · rwa [Nat.max_eq_right hl]
  · rwa [Nat.max_eq_left hl]

theorem RunOk.goto {r : Run} (h : RunOk src stop start r) {q : Nat} (hq : Cut src stop q)
    (hl : start ≤ q) : RunOk src stop start (r.goto q) := by
  refine ⟨hq, h.far.max hq, hl, Nat.le_max_right _ _, h.kids, h.caps, fun hk => ?_⟩
  obtain ⟨h1, h2⟩ := h.some hk
  exact ⟨h1, Nat.lt_of_lt_of_le h2 (Nat.le_max_left _ _)⟩

theorem RunOk.add {r : Run} (h : RunOk src stop start r) {t : Tree} {q : Nat} (hq : start ≤ q)
    (ht : Spot src stop q t) : RunOk src stop start (r.add t) := by
  have hlt := ht.lt
  refine ⟨ht.cut, h.far.max ht.cut, by show start ≤ t.matched.stop; omega, Nat.le_max_right _ _, ?_, ?_, fun _ => ⟨by simp [Run.add], ?_⟩⟩
  · intro c hc
    rcases List.mem_append.mp hc with hc | hc
    · exact h.kids c hc
    · rw [List.mem_singleton] at hc
      subst hc
      exact ⟨q, hq, ht⟩
  · intro x hx
    rcases List.mem_append.mp hx with hx | hx
    · exact h.caps x hx
    · rw [List.mem_singleton] at hx
      subst hx
      exact ht.cap
  · show start < Max.max r.far t.matched.stop
    omega

theorem RunOk.cover {r : Run} (h : RunOk src stop start r) {t : Tree} (ht : Spot src stop r.pos t) :
    RunOk src stop start { r.goto t.matched.stop with caps := r.caps ++ [t.captured] } := by
  have hlt := ht.lt
  have hle := h.le
  have := h.goto ht.cut (by omega)
  refine ⟨this.pos, this.far, this.le, this.le', this.kids, ?_, fun hk => ⟨by simp, (this.some hk).2⟩⟩
  intro x hx
  rcases List.mem_append.mp hx with hx | hx
  · exact h.caps x hx
  · rw [List.mem_singleton] at hx
    subst hx
    exact ht.cap

theorem RunOk.fold {ts : List Tree} : ∀ {r : Run}, RunOk src stop start r →
    (∀ c ∈ ts, ∃ q, start ≤ q ∧ Spot src stop q c) → RunOk src stop start (ts.foldl Run.add r) := by
  induction ts with
  | nil => intro r h _; exact h
  | cons t ts ih =>
    intro r h hk
    obtain ⟨q, hq, ht⟩ := hk t (by simp)
    exact ih (h.add hq ht) fun c hc => hk c (by simp [hc])

theorem RunOk.take {r : Run} (h : RunOk src stop start r) {x : Result} (hx : x.Good src stop r.pos) :
    RunOk src stop start (r.take x) := by
  cases x with
  | fail => exact h
  | skip n => exact h.goto hx (Nat.le_trans h.le (Nat.le_add_right _ _))
  | token t => exact h.add h.le hx.spot
  | splice t =>
    refine (h.cover hx.spot).fold ?_
    intro c hc
    obtain ⟨q, hq, hs⟩ := hx.kids c hc
    exact ⟨q, Nat.le_trans h.le hq, hs⟩

theorem lowest_le_mem {l : List Range} {x : Range} (h : x ∈ l) : lowest l ≤ x.start := by
  induction l with
  | nil => cases h
  | cons y l ih =>
    unfold lowest
    rcases List.mem_cons.mp h with rfl | h
    · exact Nat.min_le_left _ _
    · exact Nat.le_trans (Nat.min_le_right _ _) (ih h)

theorem lowest_caps {l : List Range} (hne : l ≠ []) (h : ∀ x ∈ l, x.start ≤ stop) : lowest l ≤ stop := by
  cases l with
  | nil => exact (hne rfl).elim
  | cons x l => exact Nat.le_trans (lowest_le_mem (List.mem_cons_self ..)) (h x (by simp))

theorem RunOk.finish {r : Run} {p : Parser} {name : Str} (h : RunOk p.src stop start r) :
    (r.finish p name start).Good p.src stop start := by
  unfold Run.finish
  split
  · trivial
  · rename_i hk
    obtain ⟨h1, h2⟩ := h.some hk
    exact ⟨⟨rfl, h2, h.far, lowest_caps h1 h.caps⟩, h.kids⟩

variable {p : Parser} {ev : MatcherId → Nat → Option Result}

/-- An evaluation whose results are good for the nonterminals in `S`. -/
def EvGood (p : Parser) (stop : Nat) (S : MatcherId → Prop) (ev : MatcherId → Nat → Option Result) : Prop :=
  ∀ m, S m → ∀ pos, Cut p.src stop pos → ∀ x, ev m pos = some x → x.Good p.src stop pos

theorem parts_ok {S : MatcherId → Prop} (hev : EvGood p stop S ev) {ms : List MatcherId} (hms : ∀ m ∈ ms, S m) :
    ∀ {r : Run} {b : Bool} {r' : Run}, RunOk p.src stop start r → parts ev ms r = some (b, r') →
      RunOk p.src stop start r' := by
  induction ms with
  | nil => intro r b r' h hp; cases hp; exact h
  | cons m ms ih =>
    intro r b r' h hp
    obtain ⟨x, hx, hp⟩ := Option.bind_eq_some_iff.mp hp
    have hg := hev m (hms m (by simp)) _ h.pos x hx
    have hn := h.take hg
    cases x with
    | fail => cases hp; exact h
    | skip _ => exact ih (fun y hy => hms y (by simp [hy])) hn hp
    | token _ => exact ih (fun y hy => hms y (by simp [hy])) hn hp
    | splice _ => exact ih (fun y hy => hms y (by simp [hy])) hn hp

theorem rounds_ok {S : MatcherId → Prop} (hev : EvGood p stop S ev) {ms : List MatcherId} (hms : ∀ m ∈ ms, S m) {k : Nat} :
    ∀ {r : Run} {b : Bool} {r' : Run}, RunOk p.src stop start r → rounds ev ms k r = some (b, r') →
      RunOk p.src stop start r' := by
  induction k with
  | zero => intro r b r' h hp; cases hp; exact h
  | succ k ih =>
    intro r b r' h hp
    obtain ⟨⟨b1, r1⟩, hx, hp⟩ := Option.bind_eq_some_iff.mp hp
    have hn := parts_ok hev hms h hx
    cases b1 with
    | false => cases hp; exact hn
    | true => exact ih hn hp

theorem choose_ok {S : MatcherId → Prop} (hev : EvGood p stop S ev) {ms : List MatcherId} (hms : ∀ m ∈ ms, S m)
    (hpos : Cut p.src stop pos) {x : Result} (h : choose ev pos ms = some x) : x.Good p.src stop pos := by
  induction ms with
  | nil => cases h; trivial
  | cons m ms ih =>
    obtain ⟨y, hy, h⟩ := Option.bind_eq_some_iff.mp h
    have hg := hev m (hms m (by simp)) _ hpos y hy
    have ih := ih (fun y hy => hms y (by simp [hy]))
    cases y with
    | fail => exact ih h
    | skip n =>
      cases n with
      | zero => exact ih h
      | succ n => cases h; exact hg
    | token _ => cases h; exact hg
    | splice _ => cases h; exact hg

theorem Good.sub {n : Nat} {t : Tree} (h : Good src stop pos t) (hn : n = t.matched.stop - pos) :
    Cut src stop (pos + n) := by
  have := h.spot.lt
  have he : pos + n = t.matched.stop := by omega
  rw [he]
  exact h.spot.cut

/-- All results of the interpreter lie in the text. -/
theorem eval_good {G : MatcherId → Expr} {S : MatcherId → Prop}
    (hc : ∀ m, S m → ∀ x ∈ (G m).uses, S x)
    (hr : ∀ m, S m → ∀ name find, G m = .re name find → Cuts find)
    (hd : ∀ m, S m → ∀ name a b e, G m = .delim name a b e → a ≠ [] ∧ b ≠ []) (n : Nat) :
    EvGood p stop S (eval G p stop n) := by
  induction n with
  | zero => intro m _ pos _ x h; cases h
  | succ n ih =>
    intro m hm pos hpos x h
    obtain ⟨w, hw⟩ := hpos
    have hw' : bslice p.src pos stop = some w := bslice_iff.mpr hw
    have huse := hc m hm
    unfold eval at h
    rw [hw'] at h
    dsimp only [Option.getD_some] at h
    have leafGood : ∀ (name : Str) (b : Nat), 0 < b → (∃ x, TextAt w 0 b x) →
        Peg.Good p.src stop pos (leaf p name ⟨pos, pos + b⟩ ⟨pos, pos + b⟩) := by
      rintro name b hb ⟨x, hx⟩
      obtain ⟨pre, post, rfl, h1, h2⟩ := hx
      have := blen_eq_zero.mp h1.symm
      subst this
      have h2' : b = blen x := by simpa [blen] using h2
      subst h2'
      have := hw.le
      refine ⟨⟨rfl, by show pos < pos + _; omega, ⟨post, hw.suffix (x := [] ++ x)⟩, by show pos ≤ stop; omega⟩,
        by intro c hc; cases hc⟩
    cases hg : G m with
    | lit name s =>
      rw [hg] at h
      dsimp only at h
      split at h
      · rename_i hs
        cases h
        obtain ⟨post, rfl⟩ := List.isPrefixOf_iff_prefix.mp hs.2
        have hb : 0 < blen s := Nat.pos_of_ne_zero fun h0 => hs.1 (blen_eq_zero.mp h0)
        exact leafGood name (blen s) hb ⟨s, [], post, by simp, rfl, by simp [blen]⟩
      · cases h; trivial
    | re name find =>
      rw [hg] at h
      dsimp only at h
      have hcut := hr m hm name find hg w
      split at h
      · cases h
        show Cut p.src stop (pos + 0)
        exact ⟨w, hw⟩
      · rename_i b hb hf
        cases h
        exact leafGood name b (Nat.pos_of_ne_zero fun h0 => hb (by rw [h0])) (hcut 0 b hf)
      · cases h; trivial
    | delim name a b e =>
      rw [hg] at h
      dsimp only at h
      obtain ⟨ha, hb⟩ := hd m hm name a b e hg
      split at h
      · rename_i hs
        obtain ⟨w1, rfl⟩ := List.isPrefixOf_iff_prefix.mp hs
        rw [List.drop_left] at h
        split at h
        · rename_i raw val hbody
          cases h
          obtain ⟨rest, hB⟩ := (body_iff hb (by simp; omega)).mp hbody
          have hsplit := hB.split
          have h0 : 0 < blen a := Nat.pos_of_ne_zero fun h0 => ha (blen_eq_zero.mp h0)
          subst hsplit
          have hl := hw.le
          rw [blen_append] at hl
          have hw2 := hw.suffix.suffix
          rw [blen_append, ← Nat.add_assoc] at hw2
          refine ⟨⟨rfl, by show pos < pos + blen a + blen raw + blen b; omega, ⟨rest, hw2⟩, by show pos + blen a ≤ stop; omega⟩,
            by intro c hc; cases hc⟩
        · cases h; trivial
      · cases h; trivial
    | seq name ms =>
      rw [hg] at h huse
      dsimp only at h
      obtain ⟨⟨b, r⟩, hp, h⟩ := Option.map_eq_some_iff.mp h
      have := parts_ok ih huse (RunOk.start' ⟨w, hw⟩) hp
      cases b with
      | false => cases h; trivial
      | true => cases h; exact this.finish
    | choice ms =>
      rw [hg] at h huse
      exact choose_ok ih huse ⟨w, hw⟩ h
    | loop name ms lo hi =>
      rw [hg] at h huse
      dsimp only at h
      obtain ⟨⟨b, r⟩, hp, h⟩ := Option.map_eq_some_iff.mp h
      have := rounds_ok ih huse (RunOk.start' ⟨w, hw⟩) hp
      subst h
      unfold loopResult
      cases b with
      | false => exact this.finish
      | true =>
        dsimp only
        split
        · show Cut p.src stop (pos + 0)
          exact ⟨w, hw⟩
        · split
          · trivial
          · exact this.finish
    | opt b =>
      rw [hg] at h huse
      dsimp only at h
      obtain ⟨y, hy, rfl⟩ := Option.map_eq_some_iff.mp h
      have hg := ih b (huse b (by simp [Expr.uses])) pos ⟨w, hw⟩ y hy
      cases y with
      | fail => exact (⟨w, hw⟩ : Cut p.src stop pos)
      | skip _ => exact hg
      | token _ => exact hg
      | splice _ => exact hg
    | neg b =>
      rw [hg] at h huse
      dsimp only at h
      obtain ⟨y, hy, rfl⟩ := Option.map_eq_some_iff.mp h
      cases y with
      | fail => exact (⟨w, hw⟩ : Cut p.src stop pos)
      | skip n =>
        cases n with
        | zero => exact (⟨w, hw⟩ : Cut p.src stop pos)
        | succ n => trivial
      | token _ => trivial
      | splice _ => trivial
    | drop b =>
      rw [hg] at h huse
      dsimp only at h
      obtain ⟨y, hy, rfl⟩ := Option.map_eq_some_iff.mp h
      have hg := ih b (huse b (by simp [Expr.uses])) pos ⟨w, hw⟩ y hy
      cases y with
      | fail => trivial
      | skip _ => exact hg
      | token t => exact Good.sub hg rfl
      | splice t => exact Good.sub hg rfl
    | flat b =>
      rw [hg] at h huse
      dsimp only at h
      obtain ⟨y, hy, rfl⟩ := Option.map_eq_some_iff.mp h
      have hg := ih b (huse b (by simp [Expr.uses])) pos ⟨w, hw⟩ y hy
      cases y with
      | fail => trivial
      | skip _ => exact hg
      | token t => exact hg
      | splice t => exact hg
    | call b =>
      rw [hg] at h huse
      exact ih b (huse b (by simp [Expr.uses])) pos ⟨w, hw⟩ x h
    | empty =>
      rw [hg] at h
      cases h
      exact (⟨w, hw⟩ : Cut p.src stop pos)

end Adx.Peg
