import Verif.Proofs.Kin
import Verif.Props.Compile
import Verif.Model.Print
import Verif.Spec.Print
/-
  C51: tokens know their parents, and can be printed.
-/
namespace Adx

variable {T : Table} {cfg : Cfg} {m : MatcherId} {c : Ctx} {sc : SCtxId} {s s' : State} {r : R} {t : TokId}

theorem not_error {toks : List Token} {u : TokId} {k : Token} (hk : toks[u]? = some k) :
    isErrorTok toks u = false ↔ k.flags &&& IS_ERROR = 0 := by
  unfold isErrorTok
  rw [hk]
  simp

/-- C51: in the tree below the token a run returns, every token is the parent of its
children, error tokens excepted; the token itself has no parent. -/
theorem C51_parent (hT : ∀ m, (T m).Nests) (h : Runs T cfg m c sc s r s') (ht : r.tok = some t) :
    (∀ k, s'.toks[t]? = some k → isErrorTok s'.toks t = false → k.parent = none) ∧
    ∀ u d k j, Reach s'.toks t u → s'.toks[u]? = some k → d ∈ k.children → s'.toks[d]? = some j →
      isErrorTok s'.toks d = false → j.parent = some u := by
  obtain ⟨n, h⟩ := h
  obtain ⟨l, hl, hu⟩ := (Post.of_ok (exec_nest hT n m c sc s) h).2 t ht
  refine ⟨fun k hk he => hu trivial t (by simp) k hk ((not_error hk).mp he), fun u d k j hr hk hd hj he => ?_⟩
  exact hl.kin trivial u (hl.grove.pre.of_reach hr) k hk d hd j hj ((not_error hj).mp he)

/-- C51: a run leaves the tokens that were there as they were, parents included. -/
theorem C51_old {κ : Prop} (hT : ∀ m, (T m).NestsIf κ) (h : Runs T cfg m c sc s r s') {u : TokId} {k : Token}
    (hk : s.toks[u]? = some k) : s'.toks[u]? = some k := by
  obtain ⟨n, h⟩ := h
  rw [(Post.of_ok (exec_nest hT n m c sc s) h).1.same u (List.getElem?_eq_some_iff.mp hk).1, hk]

/-- C51: parents are older than their children, throughout the heap.  This is so for all
matchers: take `False` for `κ`. -/
theorem C51_older {κ : Prop} (hT : ∀ m, (T m).NestsIf κ) (h : Runs T cfg m c sc s r s') (ho : Older s.toks) : Older s'.toks := by
  obtain ⟨n, h⟩ := h
  exact (Post.of_ok (exec_nest hT n m c sc s) h).1.older ho

/-- What is true of a tree when the errors are gathered in its root. -/
theorem gather_kin {κ : Prop} {s s' : State} {l : List TokId} (hl : Nest κ s.toks n [t] l) (hu : Under κ s.toks none [t])
    (h : collectErrorsTop t s = .ok () s') :
    (κ → ∀ k, s'.toks[t]? = some k → isErrorTok s'.toks t = false → k.parent = none) ∧
    (κ → ∀ u d k j, Reach s'.toks t u → s'.toks[u]? = some k → d ∈ k.children → s'.toks[d]? = some j →
      isErrorTok s'.toks d = false → j.parent = some u) ∧
    (Older s.toks → Older s'.toks) := by
  have hG := hl.grove
  cases hG.pre with
  | @cons _ k _ l1 l2 hk hc hs =>
    cases hs
    have hn := hG.nodup
    rw [List.append_nil] at hn hl hG
    obtain ⟨es, s2, hb, hg2, -, -, -, h1, h2, h3⟩ := C23_gather hk hc hn
    have hr := C23_nothing_lost hk hc hn h
    rw [h] at hg2
    cases hg2
    -- every token but for its children is what it was
    have back : ∀ u j, s'.toks[u]? = some j → ∃ j0, s.toks[u]? = some j0 ∧ j.parent = j0.parent ∧ j.flags = j0.flags ∧
        (u ≠ t → ∀ d ∈ j.children, d ∈ j0.children) := by
      intro u j hj
      by_cases ht : u = t
      · subst ht
        rw [h1] at hj
        cases hj
        exact ⟨k, hk, rfl, rfl, fun hx => (hx rfl).elim⟩
      · by_cases hul : u ∈ l1
        · have hlt := hc.valid u hul
          rw [h2 u hul _ (List.getElem?_eq_getElem hlt)] at hj
          cases hj
          exact ⟨_, List.getElem?_eq_getElem hlt, rfl, rfl, fun _ d hd => (List.mem_filter.mp hd).1⟩
        · rw [h3 u ht hul] at hj
          exact ⟨j, hj, rfl, rfl, fun _ d hd => hd⟩
    refine ⟨fun hκ j hj he => ?_, fun hκ u d j q hru hj hd hq he => ?_, fun ho i j p hj hp => ?_⟩
    · obtain ⟨j0, h0, e1, e2, _⟩ := back t j hj
      rw [e1]
      exact hu hκ t (by simp) j0 h0 (by rw [← e2]; exact (not_error hj).mp he)
    · obtain ⟨q0, hq0, e1, e2, _⟩ := back d q hq
      have he0 : q0.flags &&& IS_ERROR = 0 := by rw [← e2]; exact (not_error hq).mp he
      rw [e1]
      by_cases hut : u = t
      · subst hut
        rw [h1] at hj
        cases hj
        rcases List.mem_append.mp hd with hd | hd
        · exact hl.kin hκ u (by simp) k hk d hd q0 hq0 he0
        · have : d ∈ l1.filter (isErrorTok s.toks) := (hb.perm hc).mem_iff.mp (by simp [hd])
          have := (List.mem_filter.mp this).2
          rw [(not_error hq0).mpr he0] at this
          cases this
      · obtain ⟨j0, hj0, _, _, hch⟩ := back u j hj
        exact hl.kin hκ u (hG.pre.of_reach ((hr u).mp hru)) j0 hj0 d (hch hut d hd) q0 hq0 he0
    · obtain ⟨j0, h0, e1, _⟩ := back i j hj
      exact ho i j0 p h0 (e1 ▸ hp)

/-- What `tokenize` returns comes from a run and from gathering the errors. -/
theorem tokenize_from {n : Nat} (h : tokenize T cfg n c m s = .ok (.ok t) s') :
    ∃ r s1, exec T cfg n m c c.scope s = .ok r s1 ∧ r.tok = some t ∧ collectErrorsTop t s1 = .ok () s' := by
  unfold tokenize at h
  obtain ⟨r, s1, hx, h⟩ := bind_ok.mp h
  refine ⟨r, s1, hx, ?_⟩
  cases r with
  | err e => cases (pure_ok.mp h).1
  | ok x =>
    cases x with
    | token u =>
      obtain ⟨_, s2, h1, h2⟩ := bind_ok.mp h
      obtain ⟨e1, rfl⟩ := pure_ok.mp h2
      cases e1
      exact ⟨rfl, h1⟩
    | proxyChildren u =>
      obtain ⟨_, s2, h1, h2⟩ := bind_ok.mp h
      obtain ⟨e1, rfl⟩ := pure_ok.mp h2
      cases e1
      exact ⟨rfl, h1⟩
    | brk n d =>
      cases d with
      | token u =>
        obtain ⟨_, s2, h1, h2⟩ := bind_ok.mp h
        obtain ⟨e1, rfl⟩ := pure_ok.mp h2
        cases e1
        exact ⟨rfl, h1⟩
      | _ => cases (pure_ok.mp h).1
    | cont n d =>
      cases d with
      | token u =>
        obtain ⟨_, s2, h1, h2⟩ := bind_ok.mp h
        obtain ⟨e1, rfl⟩ := pure_ok.mp h2
        cases e1
        exact ⟨rfl, h1⟩
      | _ => cases (pure_ok.mp h).1
    | skip _ => cases (pure_ok.mp h).1
    | stop => cases (pure_ok.mp h).1
    | none => cases (pure_ok.mp h).1

/-- C51: the same for what `tokenize` returns, which is a proper tree of new tokens. -/
theorem C51_tokenize (hT : ∀ m, (T m).Nests) {n : Nat} (h : tokenize T cfg n c m s = .ok (.ok t) s') :
    (∀ k, s'.toks[t]? = some k → isErrorTok s'.toks t = false → k.parent = none) ∧
    (∀ u d k j, Reach s'.toks t u → s'.toks[u]? = some k → d ∈ k.children → s'.toks[d]? = some j →
      isErrorTok s'.toks d = false → j.parent = some u) ∧
    (Older s.toks → Older s'.toks) ∧ ∃ l, Pre s'.toks [t] l ∧ l.Nodup ∧ ∀ u ∈ l, s.toks.length ≤ u := by
  obtain ⟨r, s1, hx, ht, hg⟩ := tokenize_from h
  obtain ⟨hk, hl⟩ := Post.of_ok (exec_nest hT n m c c.scope s) hx
  obtain ⟨l, hl, hu⟩ := hl t ht
  obtain ⟨h1, h2, h3⟩ := gather_kin hl hu hg
  exact ⟨h1 trivial, h2 trivial, fun ho => h3 (hk.older ho), gather_grove hl.grove hg⟩

/-- C51: parents are older and the trees are proper, whatever the matchers. -/
theorem C51_ages {κ : Prop} (hT : ∀ m, (T m).NestsIf κ) {n : Nat} (h : tokenize T cfg n c m s = .ok (.ok t) s') :
    (Older s.toks → Older s'.toks) ∧ ∃ l, Pre s'.toks [t] l ∧ l.Nodup ∧ ∀ u ∈ l, s.toks.length ≤ u := by
  obtain ⟨r, s1, hx, ht, hg⟩ := tokenize_from h
  obtain ⟨hk, hl⟩ := Post.of_ok (exec_nest hT n m c c.scope s) hx
  obtain ⟨l, hl, hu⟩ := hl t ht
  exact ⟨fun ho => (gather_kin hl hu hg).2.2 (hk.older ho), gather_grove hl.grove hg⟩

theorem Descent.reach {toks : List Token} {d : Nat} {t u : TokId} (h : Descent toks d t u) : Reach toks t u := by
  induction h with
  | refl => exact .refl _
  | step _ hk hc ih => exact .step ih hk hc

/-- C51: going up from a token `d` generations below the root of a parse tree leads to the
root in exactly `d` steps, and no further. -/
theorem C51_climb (hT : ∀ m, (T m).Nests) {n : Nat} (h : tokenize T cfg n c m s = .ok (.ok t) s') {d : Nat} {u : TokId}
    (hd : Descent s'.toks d t u) (he : ∀ v, Reach s'.toks t v → isErrorTok s'.toks v = false) :
    climb s'.toks d u = some t ∧ climb s'.toks (d + 1) u = none := by
  obtain ⟨h1, h2, _, l, hp, _⟩ := C51_tokenize hT h
  clear h
  induction hd with
  | refl t =>
    have hlt := hp.valid t (hp.roots t (by simp))
    refine ⟨rfl, ?_⟩
    show ((s'.toks[t]?.bind Token.parent).bind _) = none
    rw [List.getElem?_eq_getElem hlt]
    show (Option.bind (s'.toks[t]).parent _) = none
    rw [h1 _ (List.getElem?_eq_getElem hlt) (he t (.refl _))]
    rfl
  | @step d t u c k hd hk hc ih =>
    have hru := hd.reach
    have hrc := hru.step hk hc
    have hlt := hp.valid c (hp.of_reach hrc)
    have up : ∀ e, climb s'.toks (e + 1) c = climb s'.toks e u := by
      intro e
      show ((s'.toks[c]?.bind Token.parent).bind _) = _
      rw [List.getElem?_eq_getElem hlt]
      show (Option.bind (s'.toks[c]).parent _) = _
      rw [h2 u c k _ hru hk hc (List.getElem?_eq_getElem hlt) (he c hrc)]
      rfl
    rw [up, up]
    exact ih he h1 h2 hp

/-! ### Printing -/

section print
variable {toks : List Token} {attrs : AMap Str → Str}

theorem tabLoop_some (ho : Older toks) : ∀ (n : Nat) (p : TokId), p < n → p < toks.length →
    (tabLoop toks n (some p)).isSome := by
  intro n
  induction n with
  | zero => intro p h; cases h
  | succ n ih =>
    intro p h hl
    unfold tabLoop
    rw [List.getElem?_eq_getElem hl]
    dsimp only
    cases hp : (toks[p]).parent with
    | none =>
      unfold tabLoop
      rfl
    | some q =>
      have hq := ho p _ q (List.getElem?_eq_getElem hl) hp
      have := ih q (Nat.lt_of_lt_of_le hq (Nat.le_of_lt_succ h)) (Nat.lt_trans hq hl)
      rw [Option.isSome_map]
      exact this

theorem tabLoop_mono : ∀ (n m : Nat) (x : Option TokId) (w : Str), n ≤ m → tabLoop toks n x = some w →
    tabLoop toks m x = some w := by
  intro n
  induction n with
  | zero =>
    intro m x w _ h
    cases x with
    | none =>
      unfold tabLoop at h ⊢
      exact h
    | some p =>
      unfold tabLoop at h
      cases h
  | succ n ih =>
    intro m x w hm h
    cases x with
    | none =>
      unfold tabLoop at h ⊢
      exact h
    | some p =>
      obtain ⟨m, rfl⟩ : ∃ k, m = k + 1 := ⟨m - 1, by omega⟩
      unfold tabLoop at h ⊢
      split at h
      · cases h
      · obtain ⟨w', h1, rfl⟩ := Option.map_eq_some_iff.mp h
        rw [ih m _ _ (by omega) h1]
        rfl

/-- Blanks for every token on the way up, whatever the bound. -/
def Tabs (toks : List Token) (x : Option TokId) (n : Nat) : Prop := ∃ f, tabLoop toks f x = some (blanks n)

theorem Tabs.at {x : Option TokId} {n m : Nat} (h : Tabs toks x n) (hs : (tabLoop toks m x).isSome) :
    tabLoop toks m x = some (blanks n) := by
  obtain ⟨f, hf⟩ := h
  obtain ⟨w, hw⟩ := Option.isSome_iff_exists.mp hs
  have h1 := tabLoop_mono f (max f m) x _ (Nat.le_max_left ..) hf
  have h2 := tabLoop_mono m (max f m) x _ (Nat.le_max_right ..) hw
  rw [h1] at h2
  rw [hw]
  exact h2.symm

theorem Tabs.up {u : TokId} {k : Token} {n : Nat} (hk : toks[u]? = some k) (h : Tabs toks k.parent n) :
    Tabs toks (some u) (n + 2) := by
  obtain ⟨f, hf⟩ := h
  refine ⟨f + 1, ?_⟩
  unfold tabLoop
  rw [hk]
  dsimp only
  rw [hf]
  rfl

theorem indentLines_eq (s : Str) : indentLines s = moved s := by
  induction s with
  | nil => rfl
  | cons c s ih =>
    by_cases h : c = '\n'
    · subst h
      show '\n' :: ' ' :: ' ' :: indentLines s = _
      rw [ih]
      rfl
    · rw [indentLines, ih]
      · unfold moved
        rw [List.flatMap_cons, if_neg h]
        rfl
      · exact h

theorem tabLoop_parent (ho : Older toks) {u : TokId} {k : Token} (hk : toks[u]? = some k) :
    (tabLoop toks toks.length k.parent).isSome := by
  have hl := (List.getElem?_eq_some_iff.mp hk).1
  cases hp : k.parent with
  | none =>
    unfold tabLoop
    rfl
  | some p =>
    have := ho u k p hk hp
    exact tabLoop_some ho _ p (Nat.lt_trans this hl) (Nat.lt_trans this hl)

theorem parentPath_some (ho : Older toks) {u : TokId} {k : Token} (hk : toks[u]? = some k) :
    (parentPath toks k).isSome := by
  have hl := (List.getElem?_eq_some_iff.mp hk).1
  unfold parentPath
  cases hp : k.parent with
  | none => rfl
  | some p =>
    have := ho u k p hk hp
    dsimp only
    rw [List.getElem?_eq_getElem (Nat.lt_trans this hl)]
    rfl

/-- Every token of a forest is the root of one. -/
theorem Pre.rooted {ts l : List TokId} (h : Pre toks ts l) : ∀ u ∈ l, ∃ l', Pre toks [u] l' := by
  induction h with
  | nil => intro u hu; simp at hu
  | @cons t k ts l l' hk hc hs ih1 ih2 =>
    intro u hu
    rcases List.mem_cons.mp hu with rfl | hu
    · exact ⟨_, .cons hk hc .nil⟩
    · rcases List.mem_append.mp hu with hu | hu
      · exact ih1 u hu
      · exact ih2 u hu

theorem debugText_some (ho : Older toks) {n : Nat} {ts l : List TokId} (h : Walk toks n ts l) :
    ∀ t ∈ ts, (debugText attrs toks toks.length n t).isSome := by
  induction h with
  | nil => intro t ht; simp at ht
  | @cons n t k ts l l' hk hc hs ih1 ih2 =>
    intro u hu
    rcases List.mem_cons.mp hu with rfl | hu
    · unfold debugText
      obtain ⟨tabs, htabs⟩ := Option.isSome_iff_exists.mp (tabLoop_parent ho hk)
      obtain ⟨up, hup⟩ := Option.isSome_iff_exists.mp (parentPath_some ho hk)
      have h1 : tabDepth toks toks.length k = some (' ' :: ' ' :: tabs) := by
        unfold tabDepth
        rw [htabs]
        rfl
      have h2 : bdrop 2 (' ' :: ' ' :: tabs) = some tabs := by
        cases tabs <;> rfl
      have h3 := mapM_some (l := k.children)
        (f := fun c => (debugText attrs toks toks.length n c).map (childText (' ' :: ' ' :: tabs))) (by
        intro c hc
        rw [Option.isSome_map]
        exact ih1 c hc)
      obtain ⟨inner, h3⟩ := Option.isSome_iff_exists.mp h3
      simp only [hk, h1, h2, hup, h3, Option.bind_eq_bind, Option.bind_some]
      rfl
    · exact ih2 u hu

/-- The list of children of a token `d` generations below the root. -/
theorem debugText_looks (ho : Older toks) {n : Nat} {ts l : List TokId} (h : Walk toks n ts l) :
    ∀ {d : Nat} {u : TokId} {p : Token}, toks[u]? = some p → Kin toks l → (∀ v ∈ l, isErrorTok toks v = false) →
      (∀ t ∈ ts, ∀ k, toks[t]? = some k → k.parent = some u) → Tabs toks (some u) (2 * (d + 1)) →
      ∃ texts, ts.mapM (fun c => (debugText attrs toks toks.length n c).map (childText (blanks (2 * (d + 1))))) =
        some texts ∧ Looks attrs toks d p.name ts texts.flatten := by
  induction h with
  | nil => intro d u p _ _ _ _ _; exact ⟨[], rfl, .nil d p.name⟩
  | @cons n t k ts l l' hk hc hs ih1 ih2 =>
    intro d u p hp hkin herr hpar htab
    have hkp := hpar t (by simp) k hk
    have htab2 : Tabs toks (some t) (2 * (d + 2)) := by
      have := Tabs.up hk (n := 2 * (d + 1)) (by rw [hkp]; exact htab)
      exact this
    obtain ⟨inner, i1, i2⟩ := ih1 (d := d + 1) hk (fun v hv => hkin v (by simp [hv])) (fun v hv => herr v (by simp [hv]))
      (fun c hcc j hj => hkin t (by simp) k hk c hcc j hj ((not_error hj).mp (herr c (by simp [hc.pre.roots c hcc]))))
      htab2
    obtain ⟨rest, r1, r2⟩ := ih2 (d := d) hp (fun v hv => hkin v (by simp [hv])) (fun v hv => herr v (by simp [hv]))
      (fun c hcc => hpar c (by simp [hcc])) htab
    have h0 : tabLoop toks toks.length k.parent = some (blanks (2 * (d + 1))) := by
      rw [hkp]
      exact htab.at (by rw [← hkp]; exact tabLoop_parent ho hk)
    have h1 : tabDepth toks toks.length k = some (blanks (2 * (d + 2))) := by
      unfold tabDepth
      rw [h0]
      rfl
    have h2 : bdrop 2 (blanks (2 * (d + 2))) = some (blanks (2 * (d + 1))) := by
      show bdrop 2 (' ' :: ' ' :: blanks (2 * (d + 1))) = _
      generalize blanks (2 * (d + 1)) = b
      cases b <;> rfl
    have h3 : parentPath toks k = some p.name := by
      unfold parentPath
      rw [hkp]
      dsimp only
      rw [hp]
      rfl
    have ht : debugText attrs toks toks.length (n + 1) t = some (page attrs (d + 1) p.name k inner.flatten) := by
      unfold debugText
      simp only [hk, h1, h2, h3, Option.bind_eq_bind, Option.bind_some]
      rw [i1]
      simp only [Option.bind_some, page, List.append_assoc]
      rfl
    refine ⟨childText (blanks (2 * (d + 1))) (page attrs (d + 1) p.name k inner.flatten) :: rest, ?_, ?_⟩
    · rw [List.mapM_cons, ht, r1]
      rfl
    · have := Looks.cons hk i2 r2
      rw [List.flatten_cons]
      have e : ∀ (a b : Str), childText (blanks (2 * (d + 1))) a ++ b = "\n  ".toList ++ moved a ++ "\n".toList ++ blanks (2 * (d + 2)) ++
            "),\n".toList ++ blanks (2 * (d + 1)) ++ b := by
        intro a b
        have e1 : blanks (2 * (d + 2)) = blanks (2 * (d + 1)) ++ "  ".toList := by
          show List.replicate (2 * (d + 1) + 2) ' ' = List.replicate _ _ ++ List.replicate 2 ' '
          rw [List.replicate_append_replicate]
        unfold childText
        rw [e1, indentLines_eq]
        show ('\n' :: ' ' :: ' ' :: moved a) ++ _ ++ b = _
        simp [List.append_assoc]
      rw [e]
      exact this

end print

/-- C51: every token of a parse tree can be printed: going up ends, going down ends, and no
slice is out of range.  This includes the errors that were gathered, whose parents need not
be above them, and trees made with `ExpandRange` (take `False` for `κ`). -/
theorem C51_prints {κ : Prop} (hT : ∀ m, (T m).NestsIf κ) {n : Nat} (h : tokenize T cfg n c m s = .ok (.ok t) s') (ho : Older s.toks)
    (attrs : AMap Str → Str) {u : TokId} (hu : Reach s'.toks t u) :
    (debugText attrs s'.toks s'.toks.length s'.toks.length u).isSome := by
  obtain ⟨h3, l, hp, hn, _⟩ := C51_ages hT h
  obtain ⟨l', hp'⟩ := hp.rooted u (hp.of_reach hu)
  exact debugText_some (h3 ho) (hp'.walk (Nat.le_refl _)) u (by simp)

/-- A tree whose tokens know their parents, printed. -/
theorem layout_tree {toks : List Token} {l : List TokId} (hp : Pre toks [t] l) (ho : Older toks)
    (h1 : ∀ k, toks[t]? = some k → isErrorTok toks t = false → k.parent = none)
    (h2 : ∀ u d k j, Reach toks t u → toks[u]? = some k → d ∈ k.children → toks[d]? = some j →
      isErrorTok toks d = false → j.parent = some u)
    (he : ∀ v, Reach toks t v → isErrorTok toks v = false) (attrs : AMap Str → Str) :
    ∃ k inner, toks[t]? = some k ∧ Looks attrs toks 0 k.name k.children inner ∧
      debugText attrs toks toks.length toks.length t = some (page attrs 0 "None".toList k inner) := by
  have hre : ∀ v ∈ l, Reach toks t v := by
    intro v hv
    cases hp with
    | cons hk hc hs =>
      cases hs
      rw [List.append_nil] at hv
      rcases List.mem_cons.mp hv with rfl | hv
      · exact .refl _
      · exact hc.reached hk hv
  have hkin : Kin toks l := fun u hu k hk c hc j hj hf => h2 u c k j (hre u hu) hk hc hj ((not_error hj).mpr hf)
  have hw := hp.walk (Nat.le_refl toks.length)
  generalize hN : toks.length = N at hw
  cases hw with
  | @cons n _ k _ l1 l2 hk hc hs =>
    cases hs
    have hkp := h1 k hk (he t (.refl _))
    have h0 : Tabs toks (some t) (2 * (0 + 1)) := Tabs.up hk (n := 0) (by rw [hkp]; exact ⟨0, rfl⟩)
    obtain ⟨inner, i1, i2⟩ := debugText_looks (attrs := attrs) ho hc (d := 0) hk (fun v hv => hkin v (by simp [hv]))
      (fun v hv => he v (hre v (by simp [hv])))
      (fun c hcc j hj => hkin t (by simp) k hk c hcc j hj ((not_error hj).mp (he c ((Reach.refl t).step hk hcc)))) h0
    refine ⟨k, inner.flatten, hk, i2, ?_⟩
    rw [hN] at i1
    have h4 : tabDepth toks (n + 1) k = some (blanks 2) := by
      unfold tabDepth
      rw [hkp]
      rfl
    have h5 : bdrop 2 (blanks 2) = some [] := rfl
    have h6 : parentPath toks k = some "None".toList := by
      unfold parentPath
      rw [hkp]
    unfold debugText
    simp only [hk, h4, h5, h6, Option.bind_eq_bind, Option.bind_some]
    rw [show (blanks 2) = blanks (2 * (0 + 1)) from rfl, i1]
    simp only [Option.bind_some, page, List.append_assoc]
    rfl

/-- C51: a parse tree without errors is printed by generations: a token is indented by its
distance from the root, and says the name of the token that lists it. -/
theorem C51_layout (hT : ∀ m, (T m).Nests) {n : Nat} (h : tokenize T cfg n c m s = .ok (.ok t) s') (ho : Older s.toks)
    (he : ∀ v, Reach s'.toks t v → isErrorTok s'.toks v = false) (attrs : AMap Str → Str) :
    ∃ k inner, s'.toks[t]? = some k ∧ Looks attrs s'.toks 0 k.name k.children inner ∧
      debugText attrs s'.toks s'.toks.length s'.toks.length t = some (page attrs 0 "None".toList k inner) := by
  obtain ⟨h1, h2, h3, l, hp, hn, _⟩ := C51_tokenize hT h
  exact layout_tree hp (h3 ho) h1 h2 he attrs

/-! ### Which callbacks keep to the contract -/

theorem Touched.keeps {n : Nat} {t : TokId} {s s' : State} (h : Touched t s s') (hn : n ≤ t) : Keeps n s s' := by
  rcases h with rfl | ⟨k, k', hk, ha, rfl⟩
  · exact Keeps.refl _ _
  · exact Keeps.set hn fun ho p hp => ho t k p hk (ha.parent ▸ hp)

theorem Node.Mild.nests {κ : Prop} {nd : Node} (h : nd.Mild) : nd.NestsIf κ := by
  cases nd with
  | catch_ m f => exact h.elim
  | expandRange m => exact h.elim
  | map m sf ff =>
    obtain ⟨h1, h2⟩ := h
    refine ⟨fun n t c sc s l r s' hn hl hu hr => ?_, fun e c sc s r s' hr => ?_⟩
    · have hnt : n ≤ t := hl.grove.above t (hl.grove.pre.roots t (by simp))
      obtain ⟨s1, ht, ⟨rfl, hr⟩ | ⟨msg, q, rfl, rfl⟩⟩ := h1 _ _ _ _ _ _ hr
      · rcases hr with rfl | ⟨f, rfl⟩
        · refine ⟨ht.keeps hnt, fun u hu' => ?_⟩
          cases hu'
          rcases ht with rfl | ⟨k, k', hk, ha, rfl⟩
          · exact ⟨l, hl, hu⟩
          · refine ⟨l, hl.adopt (by simp) hk ha.children ha.flags, fun hκ u hu' j hj hf => ?_⟩
            cases List.mem_singleton.mp hu'
            have hj' : (s.toks.set t k')[t]? = some j := hj
            rw [List.getElem?_set_self (List.getElem?_eq_some_iff.mp hk).1] at hj'
            cases hj'
            rw [ha.parent]
            exact hu hκ t (by simp) k hk (by rw [← ha.flags]; exact hf)
        · exact Nests.err (ht.keeps hnt)
      · exact (Nests.leaf rfl rfl (by rw [ht.length]; exact hn)).after (ht.keeps hnt)
    · obtain ⟨rfl, ⟨f, rfl⟩ | ⟨k, rfl⟩⟩ := h2 _ _ _ _ _ _ hr
      · exact Nests.err (Keeps.refl _ _)
      · exact Nests.skip (Keeps.refl _ _)
  | _ => trivial

theorem nests_fatalIfNot {κ : Prop} {msg : Str} : (Node.map m successIsFine (fatalIfNotErr msg)).NestsIf κ := by
  refine ⟨fun n t c sc s l r s' hn hl hu h => ?_, fun e c sc s r s' h => ?_⟩
  · obtain ⟨rfl, rfl⟩ := pure_ok.mp h
    exact Nests.skip (Keeps.refl _ _)
  · unfold fatalIfNotErr at h
    cases e with
    | error e =>
      obtain ⟨rfl, rfl⟩ := pure_ok.mp h
      exact Nests.err (Keeps.refl _ _)
    | fail =>
      obtain ⟨w, s2, h3, h4⟩ := bind_ok.mp h
      obtain ⟨_, rfl⟩ := ofOpt_ok.mp h3
      obtain ⟨rfl, rfl⟩ := pure_ok.mp h4
      exact Nests.err (Keeps.refl _ _)

theorem nests_assertIfNot {κ : Prop} {msg : Str} : (Node.map m successIsFine (assertIfNotErr msg)).NestsIf κ := by
  refine ⟨fun n t c sc s l r s' hn hl hu h => ?_, fun e c sc s r s' h => ?_⟩
  · obtain ⟨rfl, rfl⟩ := pure_ok.mp h
    exact Nests.skip (Keeps.refl _ _)
  · unfold assertIfNotErr at h
    cases e with
    | error e =>
      obtain ⟨rfl, rfl⟩ := pure_ok.mp h
      exact Nests.err (Keeps.refl _ _)
    | fail => exact Post.of_ok (newErrorToken_nest (Nat.le_refl _)) h

/-- C51: the macros keep to the contract. -/
theorem C51_macros (κ : Prop) (m : MatcherId) (msg : Str) :
    (Node.map m (fatalIfOk msg) failureIsFine).NestsIf κ ∧ (Node.map m successIsFine (fatalIfNotErr msg)).NestsIf κ ∧
    (Node.map m (assertIfOk msg) failureIsFine).NestsIf κ ∧ (Node.map m successIsFine (assertIfNotErr msg)).NestsIf κ :=
  ⟨Node.Mild.nests (nd := .map m (fatalIfOk msg) failureIsFine) ⟨mild_fatalIf msg, mild_failureIsFine⟩,
    nests_fatalIfNot,
    Node.Mild.nests (nd := .map m (assertIfOk msg) failureIsFine) ⟨mild_assertIf msg, mild_failureIsFine⟩,
    nests_assertIfNot⟩

/-- C51: so do all matchers that come from scripts, and the grammar that scripts are read
with: their parse trees have the right parents and can be printed. -/
theorem C51_compiled {env : Env} {w : World} (hw : Compiled env w) {n : Nat}
    (h : tokenize (tableOf w.nodes) cfg n c m s = .ok (.ok t) s') (ho : Older s.toks) (attrs : AMap Str → Str) :
    Older s'.toks ∧ ∀ u, Reach s'.toks t u →
      (debugText attrs s'.toks s'.toks.length s'.toks.length u).isSome ∧
      ∀ d k j, s'.toks[u]? = some k → d ∈ k.children → s'.toks[d]? = some j → isErrorTok s'.toks d = false →
        j.parent = some u := by
  have hT : ∀ m, (tableOf w.nodes m).Nests := fun m => (hw.milds.table m).nests
  obtain ⟨_, h2, h3, _⟩ := C51_tokenize hT h
  exact ⟨h3 ho, fun u hu => ⟨C51_prints hT h ho attrs hu, fun d k j => h2 u d k j hu⟩⟩

/-! ### Examples -/

/-- C51, boundary: `ExpandRange` wraps a token that does not know of it. -/
theorem C51_expand_counterexample :
    let T : Table := fun
      | 0 => .expandRange 1
      | 1 => .program [2] "P".toList false none false
      | _ => .equals "E".toList false (.str "a".toList)
    (tokenize T ⟨true⟩ 9 (Ctx.new ⟨"ab".toList, []⟩ 0 []) 0 ⟨[], [], [[]]⟩).holds (fun r s' =>
      (match r with | .ok t => t == 2 | _ => false) && (s'.toks[2]?.map Token.children) == some [0] &&
      (s'.toks[0]?.map Token.parent) == some none) := by
  decide +kernel

/-- Its tree is printed all the same. -/
example : let T : Table := fun
      | 0 => .expandRange 1
      | 1 => .program [2] "P".toList false none false
      | _ => .equals "E".toList false (.str "a".toList)
    (∀ m, (T m).Ages) ∧
    (tokenize T ⟨true⟩ 9 (Ctx.new ⟨"ab".toList, []⟩ 0 []) 0 ⟨[], [], [[]]⟩).holds (fun _ s' =>
      ((debugText (fun _ => "{}".toList) s'.toks 3 3 2).map List.length).any (· > 100)) := by
  refine ⟨fun m => ?_, ?_⟩
  · match m with
    | 0 => exact id
    | 1 => trivial
    | _ + 2 => trivial
  · decide +kernel

/-- Three generations, printed. -/
example : let T : Table := fun
      | 0 => .program [1] "P".toList false none false
      | 1 => .program [2] "Q".toList false none false
      | _ => .equals "E".toList false (.str "a".toList)
    (∀ m, (T m).Nests) ∧
    (tokenize T ⟨true⟩ 9 (Ctx.new ⟨"ab".toList, []⟩ 0 []) 0 ⟨[], [], [[]]⟩).holds (fun r s' =>
      (match r with | .ok t => t == 0 | _ => false) &&
      s'.toks.map Token.parent == [none, some 0, some 1] &&
      debugText (fun _ => "{}".toList) s'.toks 3 3 0 == some ("P(\n  ValueRange(0, 1),\n  RawRange(0, 1),\n" ++
        "  Value(a),\n  RawValue(a),\n  Parent(None),\n  Attributes {}\n  Children [\n" ++
        "    Q(\n      ValueRange(0, 1),\n      RawRange(0, 1),\n" ++
        "      Value(a),\n      RawValue(a),\n      Parent(P),\n      Attributes {}\n      Children [\n" ++
        "        E(\n          ValueRange(0, 1),\n          RawRange(0, 1),\n" ++
        "          Value(a),\n          RawValue(a),\n          Parent(Q),\n          Attributes {}\n" ++
        "          Children [],\n        ),\n      ],\n    ),\n  ],").toList) := by
  refine ⟨fun m => ?_, ?_⟩
  · match m with
    | 0 => trivial
    | 1 => trivial
    | _ + 2 => trivial
  · decide +kernel

end Adx
