import Verif.Props.Print
import Verif.Spec.Memory
/-
  C68: a parse tree is never freed.
-/
namespace Adx

section

variable {toks : List Token} {held : List TokId} {m : Mem} {i j : TokId}

theorem strongCount_zero : strongCount toks m i = 0 ↔ i ∉ m.held ∧ ∀ j, Refers toks j i → j ∈ m.freed := by
  unfold strongCount
  rw [Nat.add_eq_zero_iff, List.count_eq_zero, List.sum_eq_zero_iff_forall_eq_nat]
  refine and_congr_right fun _ => ⟨fun h j hj => ?_, fun h x hx => ?_⟩
  · obtain ⟨k, hk, hr⟩ := hj
    have := h _ (List.mem_map.mpr ⟨j, List.mem_range.mpr (List.getElem?_eq_some_iff.mp hk).1, rfl⟩)
    split at this
    · assumption
    · rw [hk] at this
      have := List.count_eq_zero.mp this
      unfold Token.refs at this
      rcases hr with hr | hr
      · simp [hr] at this
      · simp [hr] at this
  · obtain ⟨j, _, rfl⟩ := List.mem_map.mp hx
    split
    · rfl
    · rename_i hf
      split
      · rename_i k hk
        rw [List.count_eq_zero]
        intro hr
        refine hf (h j ⟨k, hk, ?_⟩)
        unfold Token.refs at hr
        rcases List.mem_append.mp hr with hr | hr
        · exact .inl (Option.mem_toList.mp hr)
        · exact .inr hr
      · rfl

/-- C68: what is freed is free to go. -/
theorem C68_freed (h : MemRun toks held m) : ∀ i ∈ m.freed, i < toks.length ∧ Released toks i := by
  induction h with
  | start => intro i hi; simp at hi
  | step h hs ih =>
    cases hs with
    | take h => exact ih
    | letGo h => exact ih
    | free hi hf h0 =>
      intro j hj
      rcases List.mem_cons.mp hj with rfl | hj
      · exact ⟨hi, .intro fun v hv => (ih v ((strongCount_zero.mp h0).2 v hv)).2⟩
      · exact ih j hj

/-- C68: when all references from outside have been dropped, exactly the tokens that are free
to go have been freed. -/
theorem C68_settled (h : MemRun toks held m) (hs : AllDropped toks m) : i ∈ m.freed ↔ i < toks.length ∧ Released toks i := by
  suffices g : ∀ i, Released toks i → i < toks.length → i ∈ m.freed from ⟨C68_freed h i, fun ⟨hi, hr⟩ => g i hr hi⟩
  intro i hr
  induction hr with
  | @intro i _ ih =>
    intro hi
    by_contra hf
    exact hs.2 i hi hf (strongCount_zero.mpr ⟨by simp [hs.1], fun j hj =>
      ih j hj (List.getElem?_eq_some_iff.mp hj.choose_spec.1).1⟩)

/-- C68: references lead to tokens that are there: those that are held and those in tokens that
are there. -/
theorem C68_safe (h : MemRun toks held m) :
    (∀ i ∈ m.held, i ∉ m.freed) ∧ ∀ j i, Refers toks j i → i ∈ m.freed → j ∈ m.freed := by
  induction h with
  | start => exact ⟨fun i _ => by simp, fun j i _ hi => by simp at hi⟩
  | step h hs ih =>
    cases hs with
    | take h =>
      refine ⟨fun i hi => ?_, ih.2⟩
      rcases List.mem_cons.mp hi with rfl | hi
      · exact h
      · exact ih.1 i hi
    | letGo h => exact ⟨fun i hi => ih.1 i (List.mem_of_mem_erase hi), ih.2⟩
    | free hi hf h0 =>
      obtain ⟨h1, h2⟩ := strongCount_zero.mp h0
      refine ⟨fun i hx hm => ?_, fun j i hr hm => ?_⟩
      · rcases List.mem_cons.mp hm with rfl | hm
        · exact h1 hx
        · exact ih.1 i hx hm
      · rcases List.mem_cons.mp hm with rfl | hm
        · exact List.mem_cons_of_mem _ (h2 j hr)
        · exact List.mem_cons_of_mem _ (ih.2 j i hr hm)

/-- C68: all references can be dropped, and freeing comes to an end. -/
theorem C68_drops (toks : List Token) (held : List TokId) : ∃ m, MemRun toks held m ∧ AllDropped toks m := by
  have drop : ∀ (k : Nat) (m : Mem), m.held.length = k → MemRun toks held m → ∃ f, MemRun toks held ⟨[], f⟩ := by
    intro k
    induction k with
    | zero =>
      intro m hk h
      obtain ⟨a, f⟩ := m
      obtain rfl : a = [] := List.length_eq_zero_iff.mp hk
      exact ⟨f, h⟩
    | succ k ih =>
      intro m hk h
      obtain ⟨x, hx⟩ := List.exists_mem_of_length_pos (l := m.held) (by omega)
      exact ih _ (by rw [List.length_erase_of_mem hx]; omega) (h.step (.letGo hx))
  obtain ⟨f, hf⟩ := drop _ _ rfl (.start (toks := toks) (held := held))
  suffices g : ∀ (k : Nat) (f : List TokId), ((List.range toks.length).filter (· ∉ f)).length ≤ k → MemRun toks held ⟨[], f⟩ →
      ∃ m, MemRun toks held m ∧ AllDropped toks m from g _ f (Nat.le_refl _) hf
  intro k
  induction k with
  | zero =>
    intro f hk h
    refine ⟨_, h, rfl, fun i hi hx => ?_⟩
    have hm : i ∈ (List.range toks.length).filter (· ∉ f) := List.mem_filter.mpr ⟨List.mem_range.mpr hi, decide_eq_true hx⟩
    rw [List.length_eq_zero_iff.mp (Nat.le_zero.mp hk)] at hm
    cases hm
  | succ k ih =>
    intro f hk h
    by_cases hx : ∃ i, i < toks.length ∧ i ∉ f ∧ strongCount toks ⟨[], f⟩ i = 0
    · obtain ⟨i, hi, hif, h0⟩ := hx
      refine ih (i :: f) ?_ (h.step (.free hi hif h0))
      have hsub : List.Sublist ((List.range toks.length).filter (· ∉ i :: f)) ((List.range toks.length).filter (· ∉ f)) :=
        List.monotone_filter_right _ fun v hv =>
          decide_eq_true fun hvf => of_decide_eq_true hv (List.mem_cons_of_mem _ hvf)
      have hne : ((List.range toks.length).filter (· ∉ i :: f)).length ≠ ((List.range toks.length).filter (· ∉ f)).length := by
        intro he
        have hm : i ∈ (List.range toks.length).filter (· ∉ f) :=
          List.mem_filter.mpr ⟨List.mem_range.mpr hi, decide_eq_true hif⟩
        rw [← hsub.eq_of_length he] at hm
        exact of_decide_eq_true (List.mem_filter.mp hm).2 (List.mem_cons_self ..)
      exact Nat.le_of_lt_succ (Nat.lt_of_lt_of_le (Nat.lt_of_le_of_ne hsub.length_le hne) hk)
    · exact ⟨_, h, rfl, fun i hi hif h0 => hx ⟨i, hi, hif, h0⟩⟩

theorem RefPath.end {v : TokId} (h : RefPath toks j v) (hv : Refers toks v i) : RefPath toks j i := by
  induction h with
  | one h => exact .more h (.one hv)
  | more h _ ih => exact .more h (ih hv)

theorem RefPath.valid (h : RefPath toks j i) : j < toks.length := by
  cases h with
  | one h => exact (List.getElem?_eq_some_iff.mp h.choose_spec.1).1
  | more h _ => exact (List.getElem?_eq_some_iff.mp h.choose_spec.1).1

theorem Released.back (h : Released toks i) (hl : RefPath toks j i) : Released toks j := by
  induction hl with
  | one hr => cases h with | intro h => exact h _ hr
  | more hr _ ih => cases ih h with | intro h => exact h _ hr

theorem Released.no_cycle (h : Released toks i) : ¬RefPath toks i i := by
  induction h with
  | @intro i h ih =>
    intro hl
    cases hl with
    | one hr => exact ih i hr (.one hr)
    | @more _ v _ hr hv =>
      -- the last step of the cycle
      have last : ∀ {a b : TokId}, RefPath toks a b → ∃ w, Refers toks w b ∧ (a = w ∨ RefPath toks a w) := by
        intro a b hab
        induction hab with
        | one h => exact ⟨_, h, .inl rfl⟩
        | more h _ ih =>
          obtain ⟨w, hw, hx⟩ := ih
          refine ⟨w, hw, .inr ?_⟩
          rcases hx with rfl | hx
          · exact .one h
          · exact .more h hx
      obtain ⟨w, hw, hx⟩ := last hv
      refine ih w hw ?_
      have hiw : RefPath toks i w := by
        rcases hx with rfl | hx
        · exact .one hr
        · exact .more hr hx
      exact .more hw hiw

open Classical in
/-- C68: a token is free to go unless references lead to it from a cycle of references. -/
theorem C68_cycle : Released toks i ↔ ¬∃ j, RefPath toks j j ∧ (j = i ∨ RefPath toks j i) := by
  constructor
  · rintro h ⟨j, hj, rfl | hji⟩
    · exact h.no_cycle hj
    · exact (h.back hji).no_cycle hj
  · -- by the number of tokens from which references lead to it
    suffices h : ∀ (n : Nat) (i : TokId), ((List.range toks.length).filter fun j => RefPath toks j i).length ≤ n →
        (¬∃ j, RefPath toks j j ∧ (j = i ∨ RefPath toks j i)) → Released toks i from h _ i (Nat.le_refl _)
    intro n
    induction n with
    | zero =>
      intro i hn _
      refine .intro fun j hj => ?_
      have := List.length_eq_zero_iff.mp (Nat.le_zero.mp hn)
      have hm : j ∈ (List.range toks.length).filter fun j => RefPath toks j i :=
        List.mem_filter.mpr ⟨List.mem_range.mpr (RefPath.one hj).valid, decide_eq_true (RefPath.one hj)⟩
      rw [this] at hm
      cases hm
    | succ n ih =>
      intro i hn hc
      refine .intro fun j hj => ih j ?_ ?_
      · have hlt : ((List.range toks.length).filter fun v => RefPath toks v j).length <
            ((List.range toks.length).filter fun v => RefPath toks v i).length := by
          have hsub : List.Sublist ((List.range toks.length).filter fun v => RefPath toks v j)
              ((List.range toks.length).filter fun v => RefPath toks v i) :=
            List.monotone_filter_right _ fun v hv => decide_eq_true ((of_decide_eq_true hv).end hj)
          refine Nat.lt_of_le_of_ne hsub.length_le fun he => ?_
          have heq := hsub.eq_of_length he
          have hm : j ∈ (List.range toks.length).filter fun v => RefPath toks v i :=
            List.mem_filter.mpr ⟨List.mem_range.mpr (RefPath.one hj).valid, decide_eq_true (RefPath.one hj)⟩
          rw [← heq] at hm
          exact hc ⟨j, of_decide_eq_true (List.mem_filter.mp hm).2, .inr (.one hj)⟩
        omega
      · rintro ⟨v, hv, rfl | hvj⟩
        · exact hc ⟨v, hv, .inr (.one hj)⟩
        · exact hc ⟨v, hv, .inr (hvj.end hj)⟩

/-- Two tokens that refer to each other stay. -/
theorem mutual_stay (h1 : Refers toks i j) (h2 : Refers toks j i) (h : MemRun toks held m) : i ∉ m.freed ∧ j ∉ m.freed :=
  ⟨fun hi => (C68_freed h i hi).2.no_cycle (.more h1 (.one h2)), fun hj => (C68_freed h j hj).2.no_cycle (.more h2 (.one h1))⟩

end

section

variable {T : Table} {cfg : Cfg} {m : MatcherId} {c : Ctx} {sc : SCtxId} {s s' : State} {r : R} {t u d : TokId}

/-- C68: a token of a parse tree that has a child which is no error is never freed, and neither
is the child, whatever references are dropped. -/
theorem C68_leak (hT : ∀ m, (T m).Nests) {n : Nat} (h : tokenize T cfg n c m s = .ok (.ok t) s') (hu : Reach s'.toks t u)
    {k : Token} (hk : s'.toks[u]? = some k) (hd : d ∈ k.children) (he : isErrorTok s'.toks d = false)
    {held : List TokId} {w : Mem} (hw : MemRun s'.toks held w) : u ∉ w.freed ∧ d ∉ w.freed := by
  obtain ⟨_, h2, _, l, hp, _⟩ := C51_tokenize hT h
  have hdl : d ∈ l := hp.closed u (hp.of_reach hu) k hk d hd
  have hj := List.getElem?_eq_getElem (hp.valid d hdl)
  exact mutual_stay ⟨k, hk, .inr hd⟩ ⟨_, hj, .inl (h2 u d k _ hu hk hd hj he)⟩ hw

/-- C68: of a parse tree without errors that has more than one token, no token is ever freed. -/
theorem C68_tree (hT : ∀ m, (T m).Nests) {n : Nat} (h : tokenize T cfg n c m s = .ok (.ok t) s') {k : Token}
    (hk : s'.toks[t]? = some k) (hc : k.children ≠ []) (he : ∀ v, Reach s'.toks t v → isErrorTok s'.toks v = false)
    (hu : Reach s'.toks t u) {held : List TokId} {w : Mem} (hw : MemRun s'.toks held w) : u ∉ w.freed := by
  cases hu with
  | refl =>
    obtain ⟨d, hd⟩ := List.exists_mem_of_ne_nil _ hc
    exact (C68_leak hT h (.refl t) hk hd (he d (.step (.refl t) hk hd)) hw).1
  | step hr hv hd => exact (C68_leak hT h hr hv hd (he _ (.step hr hv hd)) hw).2

/-- C68: nor are they after anything that is parsed later. -/
theorem C68_later {κ : Prop} {T' : Table} (hT' : ∀ m, (T' m).NestsIf κ) {i j : TokId} (h1 : Refers s.toks i j)
    (h2 : Refers s.toks j i) (h : Runs T' cfg m c sc s r s') {held : List TokId} {w : Mem} (hw : MemRun s'.toks held w) :
    i ∉ w.freed ∧ j ∉ w.freed := by
  obtain ⟨a, ha, h1⟩ := h1
  obtain ⟨b, hb, h2⟩ := h2
  exact mutual_stay ⟨a, C51_old hT' h ha, h1⟩ ⟨b, C51_old hT' h hb, h2⟩ hw

/-- C68: so it is for all scripts and for the grammar that scripts are read with. -/
theorem C68_compiled {env : Env} {w : World} (hw : Compiled env w) {n : Nat}
    (h : tokenize (tableOf w.nodes) cfg n c m s = .ok (.ok t) s') {k : Token} (hk : s'.toks[t]? = some k) (hc : k.children ≠ [])
    (he : ∀ v, Reach s'.toks t v → isErrorTok s'.toks v = false) (hu : Reach s'.toks t u) {held : List TokId} {a : Mem}
    (ha : MemRun s'.toks held a) : u ∉ a.freed :=
  C68_tree (fun m => (hw.milds.table m).nests) h hk hc he hu ha

end

/-! ### Examples -/

namespace MemoryExample

/-- A program that is tried and given up, and one literal. -/
def T : Table := fun
  | 0 => .program [1, 4] "S".toList false none true
  | 1 => .program [2, 3] "P".toList false none false
  | 2 => .program [4] "Q".toList false none false
  | 3 => .equals "X".toList false (.str "x".toList)
  | _ => .equals "E".toList false (.str "a".toList)

def c : Ctx := Ctx.new ⟨"ab".toList, []⟩ 0 []

/-- A single token is freed with its last reference: its count is zero, and nothing refers to
it. -/
example : (tokenize T ⟨true⟩ 9 c 4 ⟨[], [], [[]]⟩).holds (fun r s' =>
    (match r with | .ok t => t == 0 | _ => false) && s'.toks.length == 1 && strongCount s'.toks ⟨[0], []⟩ 0 == 1 &&
    strongCount s'.toks ⟨[], []⟩ 0 == 0) = true := by decide +kernel

/-- A program with a child is not: each is held by the other. -/
theorem C68_pair_counterexample : (∀ m, (T m).Nests) ∧ (tokenize T ⟨true⟩ 9 c 2 ⟨[], [], [[]]⟩).holds (fun r s' =>
    (match r with | .ok t => t == 0 | _ => false) && s'.toks.length == 2 && strongCount s'.toks ⟨[], []⟩ 0 == 1 &&
    strongCount s'.toks ⟨[], []⟩ 1 == 1) = true := by
  refine ⟨fun m => ?_, by decide +kernel⟩
  match m with
  | 0 => trivial
  | 1 => trivial
  | 2 => trivial
  | 3 => trivial
  | _ + 4 => trivial

/-- Nor is a tree that is not in the result: the result is a single token (4), but the program `Q` (2)
of the alternative `P` (1) that was given up and its literal (3) are held by each other, and
`P` is held by `Q`. -/
example : (tokenize T ⟨true⟩ 9 c 0 ⟨[], [], [[]]⟩).holds (fun r s' =>
    (match r with | .ok t => t == 4 | _ => false) &&
    s'.toks.map (fun k => (k.name, k.parent, k.children)) ==
      [("S".toList, none, []), ("P".toList, none, []), ("Q".toList, some 1, [3]), ("E".toList, some 2, []),
        ("E".toList, none, [])] &&
    (List.range 5).map (strongCount s'.toks ⟨[], []⟩) == [0, 1, 1, 1, 0]) = true := by decide +kernel

end MemoryExample

end Adx
