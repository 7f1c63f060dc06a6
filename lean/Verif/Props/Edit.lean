import Verif.Model.Build
import Verif.Model.Edit
import Verif.Spec.Edit
import Verif.Spec.Script
import Verif.Spec.View
import Verif.Props.Proxy
import Verif.Props.Accessors
/-
  C47: putting matchers together by changing them.
-/
namespace Adx

variable {ns ns' : List Node} {toks : List Token} {m i : MatcherId} {n : Str}

theorem namePassedTo_iff {nd : Node} {x : MatcherId} : nd.namePassedTo = some x ↔ Wraps x nd := by
  constructor
  · intro h
    cases nd <;> simp only [Node.namePassedTo, Option.some.injEq, reduceCtorEq] at h <;> subst h <;> constructor
  · intro h
    cases h <;> rfl

theorem setOwnName_called {nd : Node} (h : ∀ x, ¬ Wraps x nd) : Called n nd (nd.setOwnName n) := by
  cases nd with
  | debug o d =>
    cases o with
    | none => constructor
    | some x => exact (h x .debug).elim
  | optional x => exact (h x .optional).elim
  | not x => exact (h x .not).elim
  | discard x => exact (h x .discard).elim
  | expandRange x => exact (h x .expandRange).elim
  | catch_ x f => exact (h x .catch_).elim
  | map x a b => exact (h x .map).elim
  | setScope k x => exact (h x .setScope).elim
  | _ => constructor <;> simp

theorem Called.unique {nd a b : Node} (h1 : Called n nd a) (h2 : Called n nd b) : a = b := by
  cases h1 <;> cases h2 <;> try rfl
  all_goals
    congr 1
    rw [Bool.eq_iff_iff]
    simp only [*]

theorem Innermost.unique {a b : MatcherId} (h1 : Innermost ns m a) : Innermost ns m b → a = b := by
  induction h1 with
  | here h hn =>
    intro h2
    cases h2 with
    | here => rfl
    | wrap h' hw => rw [h] at h'; cases h'; exact (hn _ hw).elim
  | wrap h hw _ ih =>
    intro h2
    cases h2 with
    | here h' hn => rw [h] at h'; cases h'; exact (hn _ hw).elim
    | wrap h' hw' hi =>
      rw [h] at h'; cases h'
      have := (namePassedTo_iff.mpr hw).symm.trans (namePassedTo_iff.mpr hw')
      cases this
      exact ih hi

/-- There are not more wrappers than matchers. -/
theorem Innermost.chain (n : Str) {nd : Node} (h : Innermost ns m i) (hi : ns[i]? = some nd) :
    ∃ l : List MatcherId, m ∈ l ∧ l.Nodup ∧ (∀ x ∈ l, x < ns.length) ∧
      ∀ x ∈ l, ∀ d, l.length ≤ d → setNameGo n d x ns = .ok () (ns.set i (nd.setOwnName n)) := by
  induction h with
  | @here m nd' h hn =>
    rw [hi] at h
    cases h
    refine ⟨[m], by simp, by simp, ?_, ?_⟩
    · intro x hx
      obtain rfl := List.mem_singleton.mp hx
      exact (List.getElem?_eq_some_iff.mp hi).1
    · intro x hx d hd
      obtain rfl := List.mem_singleton.mp hx
      obtain ⟨d, rfl⟩ : ∃ d', d = d' + 1 := ⟨d - 1, by simp at hd; omega⟩
      unfold setNameGo
      rw [hi]
      have : nd.namePassedTo = none := by
        cases hp : nd.namePassedTo with
        | none => rfl
        | some x => exact (hn x (namePassedTo_iff.mp hp)).elim
      dsimp only
      rw [this]
  | @wrap m nd' x i h hw _ ih =>
    obtain ⟨l, h0, h1, h2, h3⟩ := ih hi
    by_cases hm : m ∈ l
    · exact ⟨l, hm, h1, h2, h3⟩
    · refine ⟨m :: l, by simp, List.nodup_cons.mpr ⟨hm, h1⟩, ?_, ?_⟩
      · intro y hy
        rcases List.mem_cons.mp hy with rfl | hy
        · exact (List.getElem?_eq_some_iff.mp h).1
        · exact h2 y hy
      · intro y hy d hd
        rw [List.length_cons] at hd
        rcases List.mem_cons.mp hy with rfl | hy
        · obtain ⟨d, rfl⟩ : ∃ d', d = d' + 1 := ⟨d - 1, by omega⟩
          conv => lhs; unfold setNameGo
          rw [h]
          dsimp only
          rw [namePassedTo_iff.mpr hw]
          exact h3 x h0 d (by omega)
        · exact h3 y hy d (by omega)

theorem setNameGo_ok {d : Nat} {u : Unit} (h : setNameGo n d m ns = .ok u ns') :
    ∃ i nd, Innermost ns m i ∧ ns[i]? = some nd ∧ ns' = ns.set i (nd.setOwnName n) ∧ ∀ x, ¬ Wraps x nd := by
  induction d generalizing m with
  | zero => cases h
  | succ d ih =>
    unfold setNameGo at h
    cases hm : ns[m]? with
    | none => rw [hm] at h; cases h
    | some nd =>
      rw [hm] at h
      dsimp only at h
      cases hp : nd.namePassedTo with
      | none =>
        rw [hp] at h
        have hn : ∀ x, ¬ Wraps x nd := by
          intro x hx
          rw [namePassedTo_iff.mpr hx] at hp
          cases hp
        cases h
        exact ⟨m, nd, .here hm hn, hm, rfl, hn⟩
      | some x =>
        rw [hp] at h
        obtain ⟨i, nd', h1, h2⟩ := ih h
        exact ⟨i, nd', .wrap hm (namePassedTo_iff.mp hp) h1, h2⟩

/-- C47: `set_name` gives the name to the matcher inside all wrappers, and changes nothing
else. -/
theorem C47_set_name {u : Unit} :
    C.setName m n toks ns = .ok u ns' ↔
      ∃ i nd nd', Innermost ns m i ∧ ns[i]? = some nd ∧ Called n nd nd' ∧ ns'.length = ns.length ∧
        ns'[i]? = some nd' ∧ ∀ j, j ≠ i → ns'[j]? = ns[j]? := by
  constructor
  · intro h
    obtain ⟨i, nd, h1, h2, rfl, h3⟩ := setNameGo_ok h
    refine ⟨i, nd, _, h1, h2, setOwnName_called h3, by simp, ?_, ?_⟩
    · rw [List.getElem?_set_self (List.getElem?_eq_some_iff.mp h2).1]
    · intro j hj
      exact List.getElem?_set_ne (Ne.symm hj)
  · rintro ⟨i, nd, nd', h1, h2, h3, h4, h5, h6⟩
    obtain ⟨l, hl0, hl1, hl2, hl3⟩ := h1.chain n h2
    have hlen : l.length ≤ ns.length := by
      have := List.Nodup.length_le_of_subset hl1 (l₂ := List.range ns.length)
        (fun x hx => List.mem_range.mpr (hl2 x hx))
      simpa using this
    have hn : ∀ x, ¬ Wraps x nd := by
      intro x hx
      cases hx <;> cases h3
    have : C.setName m n toks ns = .ok () (ns.set i (nd.setOwnName n)) := hl3 m hl0 _ (by omega)
    rw [this]
    obtain rfl := h3.unique (setOwnName_called hn)
    congr 1
    apply List.ext_getElem?
    intro j
    by_cases hj : j = i
    · subst hj
      rw [h5, List.getElem?_set_self (List.getElem?_eq_some_iff.mp h2).1]
    · rw [h6 j hj, List.getElem?_set_ne (Ne.symm hj)]

/-- C47: tokens and other results do not depend on which wrapper is given the name: the
names reach the same matcher. -/
theorem C47_set_name_wrapped {nd : Node} {x : MatcherId} (hm : ns[m]? = some nd) (hw : Wraps x nd) {u : Unit} :
    C.setName m n toks ns = .ok u ns' ↔ C.setName x n toks ns = .ok u ns' := by
  rw [C47_set_name, C47_set_name]
  constructor
  · rintro ⟨i, a, b, h, h'⟩
    refine ⟨i, a, b, ?_, h'⟩
    cases h with
    | here h hn => rw [hm] at h; cases h; exact (hn _ hw).elim
    | wrap h hw' hi =>
      rw [hm] at h; cases h
      have := (namePassedTo_iff.mpr hw).symm.trans (namePassedTo_iff.mpr hw')
      cases this
      exact hi
  · rintro ⟨i, a, b, h, h'⟩
    exact ⟨i, a, b, .wrap hm hw h, h'⟩

/-- C47: `set_child` replaces one part of the matcher and changes nothing else; it panics
if there is no such part. -/
theorem C47_set_child {k : Nat} {x : MatcherId} {u : Unit} :
    C.setChild m k x toks ns = .ok u ns' ↔
      ∃ nd nd', ns[m]? = some nd ∧ Replaced x k nd nd' ∧ ns'.length = ns.length ∧
        ns'[m]? = some nd' ∧ ∀ j, j ≠ m → ns'[j]? = ns[j]? := by
  have key : ∀ nd nd', Node.setChild k x nd = some nd' ↔ Replaced x k nd nd' := by
    intro nd nd'
    constructor
    · intro h
      cases nd with
      | program ps n c it f =>
        simp only [Node.setChild, ge_iff_le, Option.ite_none_left_eq_some, Nat.not_le, Option.some.injEq] at h
        obtain ⟨hk, rfl⟩ := h
        have h1 : ps = ps.take k ++ ps[k] :: ps.drop (k + 1) := by simp
        have h2 : ps.set k x = ps.take k ++ x :: ps.drop (k + 1) := List.set_eq_take_append_cons_drop .. |>.trans (by simp [hk])
        rw [h2]
        have h3 : k = (ps.take k).length := by simp; omega
        conv => arg 2; rw [h3]
        conv => arg 3; rw [h1]
        exact .program
      | optional | not | discard | proxyChildren | expandRange | catch_ | map | setScope | debug =>
        simp only [Node.setChild, onlyChild, gt_iff_lt, Option.ite_none_left_eq_some, Nat.not_lt, Nat.le_zero, Option.some.injEq] at h
        obtain ⟨rfl, rfl⟩ := h
        constructor
      | _ => cases h
    · intro h
      cases h with
      | program => simp [Node.setChild]
      | _ => rfl
  unfold C.setChild
  cases hm : ns[m]? with
  | none => simp
  | some nd =>
    dsimp only
    cases hc : nd.setChild k x with
    | none =>
      refine ⟨fun h => (by cases h), ?_⟩
      rintro ⟨a, b, ha, hr, _⟩
      cases ha
      rw [(key _ _).mpr hr] at hc
      cases hc
    | some nd' =>
      have hlt := (List.getElem?_eq_some_iff.mp hm).1
      constructor
      · intro h
        cases h
        refine ⟨nd, nd', rfl, (key _ _).mp hc, by simp, by rw [List.getElem?_set_self hlt], ?_⟩
        intro j hj
        exact List.getElem?_set_ne (Ne.symm hj)
      · rintro ⟨a, b, ha, hr, h1, h2, h3⟩
        cases ha
        rw [(key _ _).mpr hr] at hc
        cases hc
        show CRes.ok () _ = _
        congr 1
        apply List.ext_getElem?
        intro j
        by_cases hj : j = m
        · subst hj
          rw [h2, List.getElem?_set_self hlt]
        · rw [h3 j hj, List.getElem?_set_ne (Ne.symm hj)]

/-- C47: what `get_children` shows of a part that was replaced, or of a pattern that was
added. -/
theorem C47_children {k : Nat} {x : MatcherId} {nd nd' : Node} (h : Replaced x k nd nd') :
    (∃ cs, nd'.children = some cs ∧ cs[k]? = some x) ∧
    ∀ j, j ≠ k → (nd'.children.getD [])[j]? = (nd.children.getD [])[j]? := by
  cases h with
  | @program ps qs y n c it f =>
    refine ⟨⟨_, rfl, by simp⟩, ?_⟩
    intro j hj
    simp only [Node.children, Option.getD_some]
    rcases Nat.lt_or_gt_of_ne hj with h | h
    · rw [List.getElem?_append_left h, List.getElem?_append_left h]
    · rw [List.getElem?_append_right (Nat.le_of_lt h), List.getElem?_append_right (Nat.le_of_lt h)]
      obtain ⟨d, hd⟩ : ∃ d, j - ps.length = d + 1 := ⟨j - ps.length - 1, by omega⟩
      rw [hd, List.getElem?_cons_succ, List.getElem?_cons_succ]
  | @debug o d =>
    refine ⟨⟨_, rfl, rfl⟩, ?_⟩
    intro j hj
    obtain ⟨j, rfl⟩ : ∃ d, j = d + 1 := ⟨j - 1, by omega⟩
    cases o <;> rfl
  | _ =>
    refine ⟨⟨_, rfl, rfl⟩, ?_⟩
    intro j hj
    obtain ⟨j, rfl⟩ : ∃ d, j = d + 1 := ⟨j - 1, by omega⟩
    rfl

/-- C47: `add_pattern` is for programs, switches, loops and `Register`; the new pattern is
the last one, and nothing else changes. -/
theorem C47_add_pattern {x : MatcherId} {u : Unit} :
    C.addPattern m x toks ns = .ok u ns' ↔
      ((∃ ps n c it f, ns[m]? = some (.program ps n c it f) ∧ ns'[m]? = some (.program (ps ++ [x]) n c it f)) ∨
        ∃ ps, ns[m]? = some (.register ps) ∧ ns'[m]? = some (.register (ps ++ [x]))) ∧
      ns'.length = ns.length ∧ ∀ j, j ≠ m → ns'[j]? = ns[j]? := by
  have key : ∀ nd nd', ns[m]? = some nd → (ns' = ns.set m nd' ↔
      ns'[m]? = some nd' ∧ ns'.length = ns.length ∧ ∀ j, j ≠ m → ns'[j]? = ns[j]?) := by
    intro nd nd' hm
    have hlt := (List.getElem?_eq_some_iff.mp hm).1
    constructor
    · rintro rfl
      exact ⟨List.getElem?_set_self hlt, by simp, fun j hj => List.getElem?_set_ne (Ne.symm hj)⟩
    · rintro ⟨h1, h2, h3⟩
      apply List.ext_getElem?
      intro j
      by_cases hj : j = m
      · subst hj
        rw [h1, List.getElem?_set_self hlt]
      · rw [h3 j hj, List.getElem?_set_ne (Ne.symm hj)]
  unfold C.addPattern
  cases hm : ns[m]? with
  | none => simp
  | some nd =>
    cases nd with
    | program ps n c it f =>
      dsimp only
      constructor
      · intro h
        cases h
        obtain ⟨h1, h2⟩ := (key _ (.program (ps ++ [x]) n c it f) hm).mp rfl
        exact ⟨.inl ⟨ps, n, c, it, f, rfl, h1⟩, h2⟩
      · rintro ⟨⟨_, _, _, _, _, h, h1⟩ | ⟨_, h, _⟩, h2⟩
        · cases h
          rw [(key _ _ hm).mpr ⟨h1, h2⟩]
        · cases h
    | register ps =>
      dsimp only
      constructor
      · intro h
        cases h
        obtain ⟨h1, h2⟩ := (key _ (.register (ps ++ [x])) hm).mp rfl
        exact ⟨.inr ⟨ps, rfl, h1⟩, h2⟩
      · rintro ⟨⟨_, _, _, _, _, h, _⟩ | ⟨_, h, h1⟩, h2⟩
        · cases h
        · cases h
          rw [(key _ _ hm).mpr ⟨h1, h2⟩]
    | _ => exact ⟨fun h => (by cases h), by rintro ⟨⟨_, _, _, _, _, h, _⟩ | ⟨_, h, _⟩, _⟩ <;> cases h⟩

/-! ### Registered matchers -/

variable {T : Table} {c : Ctx} {s : State}

/-- C47: registering matchers under names is seen by `get_registered_matcher`: the last
one registered under a name counts, and other names keep what they had. -/
theorem C47_register_names (ms : List (Str × MatcherId)) (hs : ScopesOK s) (hc : c.scope < s.sctxs.length) (n : Str) :
    getRegisteredMatcher c n (registerMatchersWithNames c ms s) =
      match lastDef ms n with
      | some m => some m
      | none => getRegisteredMatcher c n s := by
  induction ms generalizing s with
  | nil => rfl
  | cons p ms ih =>
    obtain ⟨n0, m0⟩ := p
    have h1 : ScopesOK (s.bindVar c.scope n0 (.matcher m0)) ∧
        (s.bindVar c.scope n0 (.matcher m0)).sctxs.length = s.sctxs.length :=
      (scopeStep_refines hs (.set c.scope n0 (.matcher m0)) hc).2
    obtain ⟨h2, h3, -⟩ := C09_set_get s hs c.scope hc n0 (.matcher m0)
    have hl : lastDef ((n0, m0) :: ms) n = (lastDef ms n).or (if n0 = n then some m0 else none) := by
      unfold lastDef
      rw [List.reverse_cons, List.find?_append]
      cases ms.reverse.find? (fun b => b.1 == n) with
      | some p => rfl
      | none =>
        by_cases h : n0 = n
        · simp [h]
        · simp [h]
    show getRegisteredMatcher c n (registerMatchersWithNames c ms (s.bindVar c.scope n0 (.matcher m0))) = _
    rw [ih h1.1 (by rw [h1.2]; exact hc), hl]
    cases lastDef ms n with
    | some m => rfl
    | none =>
      unfold getRegisteredMatcher
      by_cases h : n0 = n
      · subst h
        rw [h2]
        simp
      · rw [h3 n (Ne.symm h)]
        simp [h]

theorem registerMatchers_eq (ms : List MatcherId) :
    registerMatchers T c ms s = registerMatchersWithNames c (ms.map fun m => ((T m).name, m)) s := by
  induction ms generalizing s with
  | nil => rfl
  | cons m ms ih => exact ih

/-- C47: registering matchers is registering each of them under its own name. -/
theorem C47_register (ms : List MatcherId) (hs : ScopesOK s) (hc : c.scope < s.sctxs.length) (n : Str) :
    getRegisteredMatcher c n (registerMatchers T c ms s) =
      match ms.reverse.find? (fun m => (T m).name = n) with
      | some m => some m
      | none => getRegisteredMatcher c n s := by
  rw [registerMatchers_eq, C47_register_names _ hs hc]
  have : lastDef (ms.map fun m => ((T m).name, m)) n = ms.reverse.find? (fun m => (T m).name = n) := by
    unfold lastDef
    rw [← List.map_reverse, List.find?_map]
    cases h : ms.reverse.find? ((fun b => b.1 == n) ∘ fun m => ((T m).name, m)) with
    | none =>
      rw [Option.map_none, Option.map_none, eq_comm, List.find?_eq_none]
      intro m hm
      have := List.find?_eq_none.mp h m hm
      simpa using this
    | some m =>
      rw [Option.map_some, Option.map_some, eq_comm]
      have : ((fun b => b.1 == n) ∘ fun m => ((T m).name, m)) = fun m => decide ((T m).name = n) := by
        funext m
        show ((T m).name == n) = _
        rw [Bool.eq_iff_iff, beq_iff_eq, decide_eq_true_iff]
      rw [← this]
      exact h
  rw [this]

/-- C47: the matchers that a matcher shows are the ones that it is made of; the others show
none. -/
theorem C47_get_children {nd : Node} {ps : List MatcherId} : nd.children = some ps ↔ MadeOf ps nd := by
  constructor
  · intro h
    unfold Node.children at h
    split at h <;> first | cases h | (injection h with h; subst h)
    all_goals first
      | exact .program
      | exact .register
      | exact .proxyChildren
      | exact .store
      | exact .pin
      | (refine .wraps ?_; constructor)
  · intro h
    cases h with
    | wraps h => cases h <;> rfl
    | _ => rfl

/-- C47: only matchers are found as registered matchers, whatever else has the name. -/
theorem C47_registered {n : Str} :
    getRegisteredMatcher c n s = some m ↔ s.lookup c.scope n = some (.matcher m) := by
  unfold getRegisteredMatcher
  cases h : s.lookup c.scope n with
  | none => simp
  | some v => cases v <;> simp

/-- C47: a single registration, with or without a name. -/
theorem C47_register_one (hs : ScopesOK s) (hc : c.scope < s.sctxs.length) (n : Str) :
    getRegisteredMatcher c n (registerMatcherWithName c n m s) = some m ∧
    (∀ k, k ≠ n → getRegisteredMatcher c k (registerMatcherWithName c n m s) = getRegisteredMatcher c k s) ∧
    registerMatcher T c m s = registerMatcherWithName c (T m).name m s := by
  obtain ⟨h1, h2, -⟩ := C09_set_get s hs c.scope hc n (.matcher m)
  unfold getRegisteredMatcher registerMatcherWithName
  refine ⟨by rw [h1], fun k hk => by rw [h2 k hk], rfl⟩

/-- C47: a matcher whose name is fixed has that name. -/
theorem C47_fixed_names {nd : Node} {n : String} (h : KnownAs nd n) : nd.name = n.toList := by
  cases h <;> rfl

/-- C47: so it is found under that name once it is registered. -/
theorem C47_fixed_register {n : String} (h : KnownAs (T m) n) (hs : ScopesOK s) (hc : c.scope < s.sctxs.length) :
    getRegisteredMatcher c n.toList (registerMatcher T c m s) = some m := by
  obtain ⟨h1, -, h2⟩ := C47_register_one (T := T) (m := m) hs hc n.toList
  rw [h2, C47_fixed_names h]
  exact h1

/-! ### Names that macros give -/

/-- Whatever was built before is there afterwards. -/
def BuildsOn (b : B MatcherId) : Prop := ∀ ns, ns <+: (b ns).2

/-- The macro makes a matcher with the name `n`, which counts as given to it or not. -/
def MakesNamed (b : B MatcherId) (n : String) (given : Bool) : Prop :=
  ∀ ns, ∃ nd, (b ns).2[(b ns).1]? = some nd ∧ nd.name = n.toList ∧ nd.hasCustomName = given

theorem makes_mk {f : B MatcherId} {nd : List Node → Node} {g : List Node → List Node} {n : String} {given : Bool}
    (hf : ∀ ns, f ns = ((g ns).length, g ns ++ [nd ns])) (hn : ∀ ns, (nd ns).name = n.toList)
    (hc : ∀ ns, (nd ns).hasCustomName = given) : MakesNamed f n given := by
  intro ns
  exact ⟨nd ns, by rw [hf]; simp, hn ns, hc ns⟩

/-- C47: a matcher that is made with a name has the name, as one that was given to it.
References to it by the name are possible from then on. -/
theorem C47_given_names (n s a b e : String) (r : Regex) (ps : List (B MatcherId)) (lo hi : Bound) (p : B MatcherId)
    (o : Fetchable) :
    MakesNamed (B.equalsN n s) n true ∧ MakesNamed (B.regexN n r) n true ∧ MakesNamed (B.sequenceN n a b e) n true ∧
    MakesNamed (B.programN n ps) n true ∧ MakesNamed (B.switchN n ps) n true ∧ MakesNamed (B.loopN n ps lo hi) n true ∧
    MakesNamed (B.proxyChildrenN n p) n true ∧ MakesNamed (B.pinN n o p) n true ∧
    MakesNamed (B.store n p) n true ∧ MakesNamed (B.storeStr n s) n true := by
  refine ⟨?_, ?_, ?_, ?_, ?_, ?_, ?_, ?_, ?_, ?_⟩ <;>
    exact makes_mk (fun _ => rfl) (fun _ => rfl) (fun _ => rfl)

/-- C47: a matcher that is made without a name has the one of its type, which does not
count as given. -/
theorem C47_default_names (s a b e : String) (r : Regex) (ps : List (B MatcherId)) (lo hi : Bound) (p : B MatcherId)
    (k : SCtxId) (cf : Ctx → Failure → M R) (sf : TokId → Ctx → SCtxId → M R) :
    MakesNamed (B.equals s) "Equals" false ∧ MakesNamed (B.equalsFetch s) "Equals" false ∧
    MakesNamed (B.regex r) "Matches" false ∧ MakesNamed (B.sequence a b e) "Sequence" false ∧
    MakesNamed (B.program ps) "Program" false ∧ MakesNamed (B.switch ps) "Switch" false ∧
    MakesNamed (B.loop ps lo hi) "Loop" false ∧ MakesNamed (B.proxyChildren p) "Flatten" false ∧
    MakesNamed B.pin "Pin" false ∧ MakesNamed (B.ref s) "Ref" false ∧
    MakesNamed (B.optional p) "Optional" false ∧ MakesNamed (B.not p) "Not" false ∧ MakesNamed (B.discard p) "Discard" false ∧
    MakesNamed (B.expandRange p) "Catch" false ∧ MakesNamed (B.catch_ p cf) "Catch" false ∧ MakesNamed (B.map p sf) "Map" false ∧
    MakesNamed (B.fatalIf p s) "Map" false ∧ MakesNamed (B.fatalIfNot p s) "Map" false ∧
    MakesNamed (B.assertIf p s) "Map" false ∧ MakesNamed (B.assertIfNot p s) "Map" false ∧
    MakesNamed (B.register ps) "Register" false ∧ MakesNamed (B.setScope p) "SetScope" false ∧
    MakesNamed (B.setScopeTo k p) "SetScope" false ∧ MakesNamed (B.debug p) "Debug" false ∧ MakesNamed (B.brk s) "Break" false ∧
    MakesNamed B.null "Null" false ∧ MakesNamed (B.panic s) "Error" false ∧ MakesNamed (B.error s) "Error" false := by
  refine ⟨?_, ?_, ?_, ?_, ?_, ?_, ?_, ?_, ?_, ?_, ?_, ?_, ?_, ?_, ?_, ?_, ?_, ?_, ?_, ?_, ?_, ?_, ?_, ?_, ?_, ?_,
    ?_, ?_⟩ <;>
    exact makes_mk (fun _ => rfl) (fun _ => rfl) (fun _ => rfl)

/-- C47: the macros for several matchers make the parts in order, each as it is, and then
the matcher of them; nothing that was built before is changed. -/
theorem C47_parts (n : String) (lo hi : Bound) :
    ∀ f ∈ [B.program, B.programN n, B.switch, B.switchN n, (B.loop · lo hi), (B.loopN n · lo hi), B.register],
    ∀ ps : List (B MatcherId), (∀ p ∈ ps, BuildsOn p) →
      BuildsOn (f ps) ∧
      ∀ ns, ∃ ids nd, (f ps ns).2[(f ps ns).1]? = some nd ∧ MadeOf ids nd ∧ ids.length = ps.length ∧
        ∀ (i : Nat) (p : B MatcherId), ps[i]? = some p → ∃ ns', ns <+: ns' ∧ (p ns').2 <+: (f ps ns).2 ∧ ids[i]? = some (p ns').1 := by
  have key : ∀ ps : List (B MatcherId), (∀ p ∈ ps, BuildsOn p) → ∀ ns,
      ns <+: (ps.mapM id ns).2 ∧ (ps.mapM id ns).1.length = ps.length ∧
      ∀ (i : Nat) (p : B MatcherId), ps[i]? = some p →
        ∃ ns', ns <+: ns' ∧ (p ns').2 <+: (ps.mapM id ns).2 ∧ (ps.mapM id ns).1[i]? = some (p ns').1 := by
    intro ps
    induction ps with
    | nil => exact fun _ ns => ⟨List.prefix_refl _, rfl, fun i p h => by simp at h⟩
    | cons q ps ih =>
      intro hk ns
      have hq := hk q (List.mem_cons_self ..)
      obtain ⟨h1, h2, h3⟩ := ih (fun p hp => hk p (List.mem_cons_of_mem _ hp)) (q ns).2
      have he : List.mapM id (q :: ps) ns =
          ((q ns).1 :: (List.mapM id ps (q ns).2).1, (List.mapM id ps (q ns).2).2) := by
        rw [List.mapM_cons]; rfl
      rw [he]
      refine ⟨(hq ns).trans h1, by simp [h2], ?_⟩
      intro i p hi
      cases i with
      | zero =>
        simp only [List.getElem?_cons_zero, Option.some.injEq] at hi
        subst hi
        exact ⟨ns, List.prefix_refl _, h1, rfl⟩
      | succ i =>
        obtain ⟨ns', h4, h5, h6⟩ := h3 i p (by simpa using hi)
        exact ⟨ns', (hq ns).trans h4, h5, by simpa using h6⟩
  have fin : ∀ (f : List (B MatcherId) → B MatcherId) (g : List MatcherId → Node),
      (∀ ps ns, f ps ns = ((ps.mapM id ns).2.length, (ps.mapM id ns).2 ++ [g (ps.mapM id ns).1])) →
      (∀ ids, MadeOf ids (g ids)) → ∀ ps : List (B MatcherId), (∀ p ∈ ps, BuildsOn p) →
      BuildsOn (f ps) ∧
      ∀ ns, ∃ ids nd, (f ps ns).2[(f ps ns).1]? = some nd ∧ MadeOf ids nd ∧ ids.length = ps.length ∧
        ∀ (i : Nat) (p : B MatcherId), ps[i]? = some p → ∃ ns', ns <+: ns' ∧ (p ns').2 <+: (f ps ns).2 ∧ ids[i]? = some (p ns').1 := by
    intro f g hf hg ps hk
    refine ⟨fun ns => ?_, fun ns => ?_⟩
    · rw [hf]
      exact (key ps hk ns).1.trans (List.prefix_append _ _)
    · obtain ⟨_, h2, h3⟩ := key ps hk ns
      refine ⟨_, _, by rw [hf]; simp, hg _, h2, fun i p hi => ?_⟩
      obtain ⟨ns', h4, h5, h6⟩ := h3 i p hi
      exact ⟨ns', h4, by rw [hf]; exact h5.trans (List.prefix_append _ _), h6⟩
  intro f hf
  simp only [List.mem_cons, List.not_mem_nil, or_false] at hf
  rcases hf with rfl | rfl | rfl | rfl | rfl | rfl | rfl
  all_goals exact fin _ _ (fun _ _ => rfl) (fun _ => by constructor)

/-- Non-vacuity: a named sequence in a named loop, after a matcher that was there. -/
example :
    let x := (B.loopN "L" [B.sequenceN "S" "a" "b" "c", B.null]).run [Node.null]
    x.1 = 3 ∧ x.2.map (fun nd => (nd.name, nd.hasCustomName, nd.children)) =
      [("Null".toList, false, none), ("S".toList, true, none), ("Null".toList, false, none),
        ("L".toList, true, some [1, 2])] := by
  decide +kernel

/-! ### Attributes of definitions -/

/-- C47: a token gets the attributes that it lacks and keeps the ones it has; nothing
else changes. -/
theorem C47_missing_attributes (k : Token) (m : AMap Str) :
    (k.addMissing m).view = { k.view with attr := fun a => (k.view.attr a).or (m.get a) } := by
  induction m generalizing k with
  | nil =>
    show k.view = _
    simp [AMap.get]
  | cons p m ih =>
    obtain ⟨key, v⟩ := p
    unfold Token.addMissing
    split
    · rename_i h
      rw [ih]
      simp only [View.mk.injEq, true_and, and_true]
      funext a
      obtain ⟨w, hw⟩ := (C32_attribute_tests k key v).1.mp h
      by_cases ha : key = a
      · subst ha
        rw [hw]
        rfl
      · simp [AMap.get, ha]
    · rename_i h
      rw [ih, C32_set_attribute]
      simp only [View.mk.injEq, true_and, and_true]
      funext a
      have hn : k.view.attr key = none := by
        cases hw : k.view.attr key with
        | none => rfl
        | some w => exact (h ((C32_attribute_tests k key v).1.mpr ⟨w, hw⟩)).elim
      unfold put
      by_cases ha : a = key
      · subst ha
        simp [AMap.get, hn]
      · simp [AMap.get, ha, Ne.symm ha]

/-- C47: a definition with attributes runs the definition and gives its token, which is
not spliced any more, the missing attributes; everything else is passed on. -/
theorem C47_attributes_run {cfg : Cfg} {sc : SCtxId} {s' : State} {r : R} {b : MatcherId} {attrs : AMap Str}
    (hm : T m = .map b (addMissingAttributes attrs) passFailure) :
    Runs T cfg m c sc s r s' ↔
      (∃ t k s1, (Runs T cfg b c sc s (.ok (.token t)) s1 ∨ Runs T cfg b c sc s (.ok (.proxyChildren t)) s1) ∧
        s1.toks[t]? = some k ∧ r = .ok (.token t) ∧ s' = { s1 with toks := s1.toks.set t (k.addMissing attrs) }) ∨
      (Runs T cfg b c sc s r s' ∧ (∀ t, r ≠ .ok (.token t)) ∧ (∀ t, r ≠ .ok (.proxyChildren t))) := by
  rw [C41_map hm]
  constructor
  · rintro (⟨t, s1, h0, h1⟩ | ⟨e, s1, h0, h1⟩ | ⟨h0, _, h1, h2⟩)
    · unfold addMissingAttributes at h1
      obtain ⟨_, s2, h1, h2⟩ := bind_ok.mp h1
      obtain ⟨k, hk, rfl⟩ := modTok_ok.mp h1
      obtain ⟨rfl, rfl⟩ := pure_ok'.mp h2
      exact .inl ⟨t, k, s1, h0, hk, rfl, rfl⟩
    · unfold passFailure at h1
      obtain ⟨rfl, rfl⟩ := pure_ok'.mp h1
      exact .inr ⟨h0, (fun _ h => nomatch h), (fun _ h => nomatch h)⟩
    · exact .inr ⟨h0, h1, h2⟩
  · rintro (⟨t, k, s1, h0, hk, rfl, rfl⟩ | ⟨h0, h1, h2⟩)
    · exact .inl ⟨t, s1, h0, bind_ok.mpr ⟨(), _, modTok_ok.mpr ⟨k, hk, rfl⟩, rfl⟩⟩
    · cases r with
      | ok x => exact .inr (.inr ⟨h0, ⟨x, rfl⟩, h1, h2⟩)
      | err e => exact .inr (.inl ⟨e, _, h0, rfl⟩)

/-- The matchers after a change, if it does not panic. -/
def after : CRes Unit → Option (List Node)
  | .ok _ ns => some ns
  | _ => none

/-- Non-vacuity of C47: a name through three wrappers, parts replaced, matchers
registered twice under one name, attributes that are there and that are not. -/
example :
    let ns : List Node := [.equals "Equals".toList false (.str ['a']), .optional 0, .discard 1, .debug (some 2) 1,
      .program [0, 1] "Program".toList false none false]
    (after (C.setName 3 "N".toList [] ns)).map (·.map fun nd => (nd.name, nd.hasCustomName)) =
      some [("N".toList, true), ("Optional".toList, false), ("Discard".toList, false), ("Debug".toList, false),
        ("Program".toList, false)] ∧
    (after (C.setChild 4 1 3 [] ns)).map (·.map Node.children) =
      some [none, some [0], some [1], some [2], some [0, 3]] ∧
    (after (C.setChild 4 2 3 [] ns)).isNone ∧
    (after (C.addPattern 4 3 [] ns)).map (·.map Node.children) =
      some [none, some [0], some [1], some [2], some [0, 1, 3]] ∧
    (after (C.addPattern 1 3 [] ns)).isNone ∧
    (let c := Ctx.new ⟨[], []⟩ 0 []
     let s := registerMatchers (tableOf ns) c [0, 4, 1] (registerMatcherWithName c "Program".toList 7 ⟨[], [], [[]]⟩)
     (getRegisteredMatcher c "Program".toList s, getRegisteredMatcher c "Optional".toList s,
      getRegisteredMatcher c "X".toList s) = (some 4, some 1, none)) ∧
    (let k := ((Token.mk' ⟨[], []⟩ [] ⟨0, 0⟩).setAttribute ['x'] ['1']).addMissing [(['x'], ['2']), (['y'], ['3'])]
     (k.getAttribute ['x'], k.getAttribute ['y'], k.getAttribute ['z']) = (some ['1'], some ['3'], none)) := by
  decide +kernel

end Adx
