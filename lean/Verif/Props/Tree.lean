import Verif.Proofs.Grove
import Verif.Props.Gather
import Verif.Props.Shape
import Verif.Spec.Tree
import Verif.Model.Build
/-
  C36: the result is a proper tree.
-/
namespace Adx

variable {T : Table} {cfg : Cfg} {m : MatcherId} {c : Ctx} {sc : SCtxId} {s s' : State} {r : R} {t : TokId}

/-- C36: the tokens of a returned tree are new, and none occurs twice. -/
theorem C36_tree (hT : ∀ m, (T m).Grafts) (h : Runs T cfg m c sc s r s') (ht : r.tok = some t) :
    ∃ l, Pre s'.toks [t] l ∧ l.Nodup ∧ ∀ u ∈ l, s.toks.length ≤ u := by
  obtain ⟨n, h⟩ := h
  obtain ⟨l, hl⟩ := (Post.of_ok (exec_grow hT n m c sc s) h).2 t ht
  exact ⟨l, hl.pre, hl.nodup, hl.above⟩

/-- C36: error tokens are leaves. -/
theorem C36_error_leaf (hT : ∀ m, (T m).Grafts) (h : Runs T cfg m c sc s r s') (ht : r.tok = some t) {u : TokId}
    {k : Token} (hu : Reach s'.toks t u) (hk : s'.toks[u]? = some k) (he : isErrorTok s'.toks u = true) :
    k.children = [] := by
  obtain ⟨n, h⟩ := h
  obtain ⟨l, hl⟩ := (Post.of_ok (exec_grow hT n m c sc s) h).2 t ht
  have hul : u ∈ l := by
    clear hk he
    induction hu with
    | refl => exact hl.pre.roots t (by simp)
    | step _ hj hc ih => exact hl.pre.closed _ ih _ hj _ hc
  refine hl.errors u hul k hk fun hz => ?_
  unfold isErrorTok at he
  rw [hk] at he
  simp [hz] at he

/-- C36: the tokens that existed before keep their children. -/
theorem C36_old (hT : ∀ m, (T m).Grafts) (h : Runs T cfg m c sc s r s') {u : TokId} {k : Token}
    (hk : s.toks[u]? = some k) : ∃ k', s'.toks[u]? = some k' ∧ k'.children = k.children := by
  obtain ⟨n, h⟩ := h
  obtain ⟨k', h1, h2, _⟩ := (Post.of_ok (exec_grow hT n m c sc s) h).1.keep u (List.getElem?_eq_some_iff.mp hk).1 k hk
  exact ⟨k', h1, h2⟩

/-- The positions of the root and of the children in a proper tree. -/
theorem Pre.acyclic {toks : List Token} {ts l : List TokId} (h : Pre toks ts l) (hn : l.Nodup) :
    ∀ u ∈ l, ∀ k, toks[u]? = some k → ∀ c ∈ k.children, ¬ Reach toks c u := by
  induction h with
  | nil => intro u hu; simp at hu
  | @cons t k ts l l' hk hc hs ih1 ih2 =>
    have hn1 := List.nodup_cons.mp hn
    have hn2 := List.nodup_append.mp hn1.2
    intro u hu j hj c hcj
    rcases List.mem_cons.mp hu with rfl | hu
    · rw [hk] at hj
      cases hj
      intro hr
      have : u ∈ l := by
        have hx : ∀ v, Reach toks c v → v ∈ l := by
          intro v hv
          induction hv with
          | refl => exact hc.roots c hcj
          | step _ hj hc' ih => exact hc.closed _ ih _ hj _ hc'
        exact hx u hr
      exact hn1.1 (List.mem_append.mpr (Or.inl this))
    · rcases List.mem_append.mp hu with hu | hu
      · exact ih1 hn2.1 u hu j hj c hcj
      · exact ih2 hn2.2.1 u hu j hj c hcj

/-- In a proper forest a token has at most one parent, and is not its child twice. -/
theorem Pre.one_parent {toks : List Token} {ts l : List TokId} (h : Pre toks ts l) (hn : l.Nodup) :
    ts.Nodup ∧ (∀ u ∈ l, ∀ k, toks[u]? = some k → k.children.Nodup ∧ ∀ c ∈ k.children, c ∉ ts ∧
      ∀ v ∈ l, ∀ j, toks[v]? = some j → c ∈ j.children → v = u) := by
  induction h with
  | nil => exact ⟨.nil, by simp⟩
  | @cons t k ts l l' hk hc hs ih1 ih2 =>
    have hn1 := List.nodup_cons.mp hn
    have hn2 := List.nodup_append.mp hn1.2
    obtain ⟨a1, a2⟩ := ih1 hn2.1
    obtain ⟨b1, b2⟩ := ih2 hn2.2.1
    have ht1 : t ∉ l := fun hx => hn1.1 (List.mem_append.mpr (Or.inl hx))
    have ht2 : t ∉ l' := fun hx => hn1.1 (List.mem_append.mpr (Or.inr hx))
    -- the parent of a token of the first tree is `t` or in the first tree
    refine ⟨List.nodup_cons.mpr ⟨fun hx => ht2 (hs.roots t hx), b1⟩, fun u hu j hj => ?_⟩
    rcases List.mem_cons.mp hu with rfl | hu
    · rw [hk] at hj
      cases hj
      refine ⟨a1, fun c hcc => ?_⟩
      have hcl := hc.roots c hcc
      refine ⟨fun hx => ?_, fun v hv j hj hcj => ?_⟩
      · rcases List.mem_cons.mp hx with rfl | hx
        · exact ht1 hcl
        · exact hn2.2.2 c hcl c (hs.roots c hx) rfl
      · rcases List.mem_cons.mp hv with rfl | hv
        · rfl
        · rcases List.mem_append.mp hv with hv | hv
          · exact absurd hcc ((a2 v hv j hj).2 c hcj).1
          · exact (hn2.2.2 c hcl c (hs.closed v hv j hj c hcj) rfl).elim
    · rcases List.mem_append.mp hu with hul | hu
      · have hu := hul
        refine ⟨(a2 u hu j hj).1, fun c hcc => ?_⟩
        have hcl := hc.closed u hu j hj c hcc
        refine ⟨fun hx => ?_, fun v hv i hi hci => ?_⟩
        · rcases List.mem_cons.mp hx with rfl | hx
          · exact ht1 hcl
          · exact hn2.2.2 c hcl c (hs.roots c hx) rfl
        · rcases List.mem_cons.mp hv with hvt | hv
          · subst hvt
            rw [hk] at hi
            cases hi
            exact absurd hci ((a2 u hul j hj).2 c hcc).1
          · rcases List.mem_append.mp hv with hv | hv
            · exact ((a2 u hu j hj).2 c hcc).2 v hv i hi hci
            · exact (hn2.2.2 c hcl c (hs.closed v hv i hi c hci) rfl).elim
      · refine ⟨(b2 u hu j hj).1, fun c hcc => ?_⟩
        have hcl := hs.closed u hu j hj c hcc
        refine ⟨fun hx => ?_, fun v hv i hi hci => ?_⟩
        · rcases List.mem_cons.mp hx with rfl | hx
          · exact ht2 hcl
          · exact ((b2 u hu j hj).2 c hcc).1 hx
        · rcases List.mem_cons.mp hv with rfl | hv
          · rw [hk] at hi
            cases hi
            exact (hn2.2.2 c (hc.roots c hci) c hcl rfl).elim
          · rcases List.mem_append.mp hv with hv | hv
            · exact (hn2.2.2 c (hc.closed v hv i hi c hci) c hcl rfl).elim
            · exact ((b2 u hu j hj).2 c hcc).2 v hv i hi hci

theorem Pre.of_reach {toks : List Token} {l : List TokId} (h : Pre toks [t] l) {u : TokId} (hu : Reach toks t u) : u ∈ l := by
  induction hu with
  | refl => exact h.roots t (by simp)
  | step _ hj hc ih => exact h.closed _ ih _ hj _ hc

/-- C36: no token is its own descendant. -/
theorem C36_acyclic (hT : ∀ m, (T m).Grafts) (h : Runs T cfg m c sc s r s') (ht : r.tok = some t) {u d : TokId}
    {k : Token} (hu : Reach s'.toks t u) (hk : s'.toks[u]? = some k) (hd : d ∈ k.children) : ¬ Reach s'.toks d u := by
  obtain ⟨l, hp, hn, _⟩ := C36_tree hT h ht
  exact hp.acyclic hn u (hp.of_reach hu) k hk d hd

/-- C36: no token is shared: not between parents, not twice in one list of children;
the root has no parent in its tree. -/
theorem C36_unshared (hT : ∀ m, (T m).Grafts) (h : Runs T cfg m c sc s r s') (ht : r.tok = some t) {u : TokId}
    {k : Token} (hu : Reach s'.toks t u) (hk : s'.toks[u]? = some k) :
    k.children.Nodup ∧ ∀ d ∈ k.children, d ≠ t ∧ ∀ v, Reach s'.toks t v → ∀ j, s'.toks[v]? = some j →
      d ∈ j.children → v = u := by
  obtain ⟨l, hp, hn, _⟩ := C36_tree hT h ht
  obtain ⟨h1, h2⟩ := (hp.one_parent hn).2 u (hp.of_reach hu) k hk
  exact ⟨h1, fun d hd => ⟨fun hx => (h2 d hd).1 (by simp [hx]), fun v hv => (h2 d hd).2 v (hp.of_reach hv)⟩⟩

theorem mapM_some {α β : Type} {f : α → Option β} {l : List α} (h : ∀ a ∈ l, (f a).isSome) : (l.mapM f).isSome := by
  induction l with
  | nil => rfl
  | cons a l ih =>
    obtain ⟨b, hb⟩ := Option.isSome_iff_exists.mp (h a (by simp))
    obtain ⟨bs, hbs⟩ := Option.isSome_iff_exists.mp (ih fun x hx => h x (by simp [hx]))
    rw [List.mapM_cons, hb, hbs]
    rfl

theorem Walk.treeOf {toks : List Token} {n : Nat} {ts l : List TokId} (h : Walk toks n ts l) :
    ∀ t ∈ ts, (Adx.treeOf toks n t).isSome := by
  induction h with
  | nil => intro t ht; simp at ht
  | @cons n t k ts l l' hk _ _ ih1 ih2 =>
    intro u hu
    rcases List.mem_cons.mp hu with rfl | hu
    · unfold Adx.treeOf
      rw [hk]
      obtain ⟨cs, hcs⟩ := Option.isSome_iff_exists.mp (mapM_some ih1)
      dsimp only
      rw [hcs]
      rfl
    · exact ih2 u hu

/-- C36: walking the result terminates, at a depth of at most the number of tokens. -/
theorem C36_walk (hT : ∀ m, (T m).Grafts) (h : Runs T cfg m c sc s r s') (ht : r.tok = some t) :
    (treeOf s'.toks s'.toks.length t).isSome := by
  obtain ⟨l, hp, _, _⟩ := C36_tree hT h ht
  exact (hp.walk (Nat.le_refl _)).treeOf t (by simp)

/-! ### Gathering the errors keeps the tree proper -/

/-- Error roots that are leaves can be taken out of a forest. -/
theorem Pre.takeOut {toks : List Token} {p : TokId → Bool} {ts l : List TokId} (h : Pre toks ts l)
    (hp : ∀ u ∈ ts, p u = true → ∀ k, toks[u]? = some k → k.children = []) :
    ∃ l', Pre toks (ts.filter (fun u => ! p u)) l' ∧ (l' ++ ts.filter p).Perm l := by
  induction h with
  | nil => exact ⟨[], .nil, .nil⟩
  | @cons t k ts l l' hk hc hs _ ih2 =>
    obtain ⟨l2, h1, h2⟩ := ih2 fun u hu => hp u (by simp [hu])
    by_cases ht : p t = true
    · have hz := hp t (by simp) ht k hk
      rw [hz] at hc
      cases hc
      refine ⟨l2, ?_, ?_⟩
      · rw [List.filter_cons_of_neg (by simp [ht])]
        exact h1
      · rw [List.filter_cons_of_pos ht]
        exact List.perm_middle.trans (h2.cons t)
    · refine ⟨t :: (l ++ l2), ?_, ?_⟩
      · rw [List.filter_cons_of_pos (by simpa using ht)]
        exact .cons hk hc h1
      · rw [List.filter_cons_of_neg ht]
        show (t :: (l ++ l2 ++ _)).Perm _
        refine .cons t ?_
        rw [List.append_assoc]
        exact h2.append_left l

theorem Pre.pruned {toks toks' : List Token} {ts l es : List TokId} (h : Pre toks ts l) (hb : Buried toks ts es)
    (hl : ∀ u ∈ l, isErrorTok toks u = true → ∀ k, toks[u]? = some k → k.children = [])
    (hc : ∀ u ∈ l, ∀ j, toks[u]? = some j →
      toks'[u]? = some { j with children := j.children.filter (fun c => ! isErrorTok toks c) }) :
    ∃ l', Pre toks' ts l' ∧ (l' ++ es).Perm l := by
  induction h generalizing es with
  | nil =>
    cases hb
    exact ⟨[], .nil, .nil⟩
  | @cons t k ts l l2 hk hcs hs ih1 ih2 =>
    cases hb with
    | @cons _ k' _ e1 e2 hk' b1 b2 =>
      rw [hk] at hk'
      cases hk'
      obtain ⟨m1, p1, q1⟩ := ih1 b1 (fun u hu => hl u (by simp [hu])) (fun u hu => hc u (by simp [hu]))
      obtain ⟨m2, p2, q2⟩ := ih2 b2 (fun u hu => hl u (by simp [hu])) (fun u hu => hc u (by simp [hu]))
      obtain ⟨m3, p3, q3⟩ := p1.takeOut (p := isErrorTok toks) (by
        intro u hu he j hj
        have hul : u ∈ l := hcs.roots u hu
        have huv : u < toks.length := hcs.valid u hul
        rw [hc u (by simp [hul]) _ (List.getElem?_eq_getElem huv)] at hj
        cases hj
        rw [hl u (by simp [hul]) he _ (List.getElem?_eq_getElem huv)]
        rfl)
      have p4 := Pre.cons (hc t (by simp) k hk) p3 p2
      refine ⟨_, p4, ?_⟩
      show (t :: (m3 ++ m2 ++ (e1 ++ k.children.filter (isErrorTok toks) ++ e2))).Perm _
      refine .cons t ?_
      refine List.Perm.trans (l₂ := (m3 ++ k.children.filter (isErrorTok toks) ++ e1) ++ (m2 ++ e2)) ?_
        (((q3.append_right e1).trans q1).append q2)
      rw [List.perm_iff_count]
      intro a
      simp only [List.count_append]
      omega

/-- Gathering the errors of a proper tree leaves a proper tree of the same tokens. -/
theorem gather_grove {s1 s' : State} {n : Nat} {l : List TokId} (hl : Grove s1.toks n [t] l)
    (hg : collectErrorsTop t s1 = .ok () s') :
    ∃ l, Pre s'.toks [t] l ∧ l.Nodup ∧ ∀ u ∈ l, n ≤ u := by
  obtain ⟨hp, hn, ha, he⟩ := hl
  cases hp with
  | @cons _ k _ l1 l2 hk hc hs =>
    cases hs
    rw [List.append_nil] at *
    obtain ⟨es, s2, hb, hg2, -, -, -, h1, h2, h3⟩ := C23_gather hk hc hn
    rw [hg] at hg2
    cases hg2
    have hleaf : ∀ u ∈ l1, isErrorTok s1.toks u = true → ∀ j, s1.toks[u]? = some j → j.children = [] := by
      intro u hu hf j hj
      refine he u (by simp [hu]) j hj fun hz => ?_
      unfold isErrorTok at hf
      rw [hj] at hf
      simp [hz] at hf
    obtain ⟨l', p1, q1⟩ := hc.pruned hb hleaf h2
    have hes : ∀ u ∈ es, u ∈ l1 ∧ isErrorTok s1.toks u = true := by
      intro u hu
      have : u ∈ l1.filter (isErrorTok s1.toks) := (hb.perm hc).mem_iff.mp (by simp [hu])
      exact List.mem_filter.mp this
    have pes : ∀ e0 : List TokId, (∀ u ∈ e0, u ∈ es) → Pre s'.toks e0 e0 := by
      intro e0
      induction e0 with
      | nil => intro _; exact .nil
      | cons u e0 ih =>
        intro hsub
        obtain ⟨hu, hf⟩ := hes u (hsub u (by simp))
        have huv : u < s1.toks.length := hc.valid u hu
        refine Pre.cons (l := []) (h2 u hu _ (List.getElem?_eq_getElem huv)) ?_ (ih fun v hv => hsub v (by simp [hv]))
        rw [hleaf u hu hf _ (List.getElem?_eq_getElem huv)]
        exact .nil
    have pall : Pre s'.toks (k.children ++ es) (l' ++ es) := p1.append (pes es fun _ h => h)
    have hmem : ∀ u, u ∈ l' ++ es ↔ u ∈ l1 := fun u => q1.mem_iff
    refine ⟨t :: (l' ++ es), ?_, ?_, ?_⟩
    · have := Pre.cons h1 pall .nil
      rw [List.append_nil] at this
      exact this
    · have hn1 := List.nodup_cons.mp hn
      exact List.nodup_cons.mpr ⟨fun hx => hn1.1 ((hmem t).mp hx), q1.nodup_iff.mpr hn1.2⟩
    · intro u hu
      rcases List.mem_cons.mp hu with rfl | hu
      · exact ha u (by simp)
      · exact ha u (by simp [(hmem u).mp hu])

/-- C36: what `tokenize` returns is a proper tree of new tokens. -/
theorem C36_tokenize (hT : ∀ m, (T m).Grafts) {n : Nat} (h : tokenize T cfg n c m s = .ok (.ok t) s') :
    ∃ l, Pre s'.toks [t] l ∧ l.Nodup ∧ (∀ u ∈ l, s.toks.length ≤ u) ∧
      (treeOf s'.toks s'.toks.length t).isSome := by
  unfold tokenize at h
  obtain ⟨r, s1, hx, h⟩ := bind_ok.mp h
  have main : ∀ x, r = .ok x → x.tok = some t → collectErrorsTop t s1 = .ok () s' →
      ∃ l, Pre s'.toks [t] l ∧ l.Nodup ∧ ∀ u ∈ l, s.toks.length ≤ u := by
    rintro x rfl hxt hg
    obtain ⟨l, hl⟩ := (Post.of_ok (exec_grow hT n m c c.scope s) hx).2 t hxt
    exact gather_grove hl hg
  have fin : ∃ l, Pre s'.toks [t] l ∧ l.Nodup ∧ ∀ u ∈ l, s.toks.length ≤ u := by
    cases r with
    | err e => cases (pure_ok.mp h).1
    | ok x =>
      cases x with
      | token u =>
        obtain ⟨_, s2, h1, h2⟩ := bind_ok.mp h
        obtain ⟨e1, rfl⟩ := pure_ok.mp h2
        cases e1
        exact main _ rfl rfl h1
      | proxyChildren u =>
        obtain ⟨_, s2, h1, h2⟩ := bind_ok.mp h
        obtain ⟨e1, rfl⟩ := pure_ok.mp h2
        cases e1
        exact main _ rfl rfl h1
      | brk n d =>
        cases d with
        | token u =>
          obtain ⟨_, s2, h1, h2⟩ := bind_ok.mp h
          obtain ⟨e1, rfl⟩ := pure_ok.mp h2
          cases e1
          exact main _ rfl rfl h1
        | _ => cases (pure_ok.mp h).1
      | cont n d =>
        cases d with
        | token u =>
          obtain ⟨_, s2, h1, h2⟩ := bind_ok.mp h
          obtain ⟨e1, rfl⟩ := pure_ok.mp h2
          cases e1
          exact main _ rfl rfl h1
        | _ => cases (pure_ok.mp h).1
      | skip _ => cases (pure_ok.mp h).1
      | stop => cases (pure_ok.mp h).1
      | none => cases (pure_ok.mp h).1
  obtain ⟨l, h1, h2, h3⟩ := fin
  exact ⟨l, h1, h2, h3, (h1.walk (Nat.le_refl _)).treeOf t (by simp)⟩

/-! ### The callbacks of the macros keep to the contract -/

theorem failureIsFine_grow {e : Failure} (h : failureIsFine e c sc s = .ok r s') : Grows s.toks.length s r s' := by
  unfold failureIsFine at h
  cases e with
  | fail =>
    obtain ⟨rfl, rfl⟩ := pure_ok.mp h
    exact Grows.skip (Grow.refl _ _)
  | error e =>
    obtain ⟨rfl, rfl⟩ := pure_ok.mp h
    exact Grows.err (Grow.refl _ _)

theorem grafts_fatalIf {msg : Str} : (Node.map m (fatalIfOk msg) failureIsFine).Grafts := by
  refine ⟨fun n t c sc s l r s' hn hl h => ?_, fun e c sc s r s' h => failureIsFine_grow h⟩
  unfold fatalIfOk at h
  obtain ⟨k, s1, h1, h2⟩ := bind_ok.mp h
  obtain ⟨_, rfl⟩ := getTok_ok.mp h1
  obtain ⟨w, s2, h3, h4⟩ := bind_ok.mp h2
  obtain ⟨_, rfl⟩ := ofOpt_ok.mp h3
  obtain ⟨rfl, rfl⟩ := pure_ok.mp h4
  exact Grows.err (Grow.refl _ _)

theorem grafts_assertIf {msg : Str} : (Node.map m (assertIfOk msg) failureIsFine).Grafts := by
  refine ⟨fun n t c sc s l r s' hn hl h => ?_, fun e c sc s r s' h => failureIsFine_grow h⟩
  unfold assertIfOk at h
  obtain ⟨k, s1, h1, h2⟩ := bind_ok.mp h
  obtain ⟨_, rfl⟩ := getTok_ok.mp h1
  exact Post.of_ok (newErrorToken_grow hn) h2

theorem grafts_fatalIfNot {msg : Str} : (Node.map m successIsFine (fatalIfNotErr msg)).Grafts := by
  refine ⟨fun n t c sc s l r s' hn hl h => ?_, fun e c sc s r s' h => ?_⟩
  · obtain ⟨rfl, rfl⟩ := pure_ok.mp h
    exact Grows.skip (Grow.refl _ _)
  · unfold fatalIfNotErr at h
    cases e with
    | error e =>
      obtain ⟨rfl, rfl⟩ := pure_ok.mp h
      exact Grows.err (Grow.refl _ _)
    | fail =>
      obtain ⟨w, s2, h3, h4⟩ := bind_ok.mp h
      obtain ⟨_, rfl⟩ := ofOpt_ok.mp h3
      obtain ⟨rfl, rfl⟩ := pure_ok.mp h4
      exact Grows.err (Grow.refl _ _)

theorem grafts_assertIfNot {msg : Str} : (Node.map m successIsFine (assertIfNotErr msg)).Grafts := by
  refine ⟨fun n t c sc s l r s' hn hl h => ?_, fun e c sc s r s' h => ?_⟩
  · obtain ⟨rfl, rfl⟩ := pure_ok.mp h
    exact Grows.skip (Grow.refl _ _)
  · unfold assertIfNotErr at h
    cases e with
    | error e =>
      obtain ⟨rfl, rfl⟩ := pure_ok.mp h
      exact Grows.err (Grow.refl _ _)
    | fail => exact Post.of_ok (newErrorToken_grow (Nat.le_refl _)) h

/-- C36: the four assertion macros keep to the contract, so grammars made of the built-in
matchers and macros have no other callbacks to check. -/
theorem C36_macros (m : MatcherId) (msg : Str) :
    (Node.map m (fatalIfOk msg) failureIsFine).Grafts ∧ (Node.map m successIsFine (fatalIfNotErr msg)).Grafts ∧
    (Node.map m (assertIfOk msg) failureIsFine).Grafts ∧ (Node.map m successIsFine (assertIfNotErr msg)).Grafts :=
  ⟨grafts_fatalIf, grafts_fatalIfNot, grafts_assertIf, grafts_assertIfNot⟩

/-! ### Examples -/

/-- A loop with discarded errors: the error stays, once, below the wrapper. -/
example : let T : Table := fun
      | 0 => .program [1] "P".toList false (some (0, 2)) false
      | 1 => .discard 2
      | 2 => .program [3, 4] "Q".toList false none false
      | 3 => .equals "E".toList false (.str "a".toList)
      | _ => .map 3 successIsFine (assertIfNotErr "m".toList)
    (∀ m, (T m).Grafts) ∧
    (exec T ⟨true⟩ 9 0 (Ctx.new ⟨"ab".toList, []⟩ 0 []) 0 ⟨[], [], [[]]⟩).holds (fun r s' =>
      r == .ok (.token 0) && s'.toks.map Token.children == [[4], [2, 3], [], [], [3], []]) := by
  refine ⟨fun m => ?_, by decide +kernel⟩
  match m with
  | 0 => trivial
  | 1 => trivial
  | 2 => trivial
  | 3 => trivial
  | _ + 4 => exact grafts_assertIfNot

/-- A callback may tie a knot: a token that is its own child. -/
theorem C36_callback_counterexample :
    let T : Table := fun
      | 0 => .program [1] "P".toList false none false
      | 1 => .map 2 (fun t _ _ => do modTok t (fun k => { k with children := [t] }); pure (.ok (.token t))) passFailure
      | _ => .equals "E".toList false (.str "a".toList)
    (exec T ⟨true⟩ 9 0 (Ctx.new ⟨"ab".toList, []⟩ 0 []) 0 ⟨[], [], [[]]⟩).holds (fun r s' =>
      r == .ok (.token 0) && s'.toks.map Token.children == [[1], [1]] && (treeOf s'.toks 9 0).isNone) := by
  decide +kernel

end Adx
