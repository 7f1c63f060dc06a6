import Verif.Spec.Script
/-
  The builder of grammar scripts makes the matchers that the tokens describe.
-/
namespace Adx

/-- Every normal outcome satisfies `Q`; an error or a panic implies `E`, and no outcome
implies `D`. -/
def CPost {α : Type} (x : C α) (toks : List Token) (ns : List Node) (Q : α → List Node → Prop)
    (E D : Prop) : Prop :=
  match x toks ns with
  | .ok a ns => Q a ns
  | .err _ => E
  | .panic _ => E
  | .diverge => D

namespace CPost
variable {α β : Type} {toks : List Token} {ns : List Node} {E D : Prop}

theorem bind {x : C α} {f : α → C β} {Q : β → List Node → Prop}
    (h : CPost x toks ns (fun a ns => CPost (f a) toks ns Q E D) E D) :
    CPost (x >>= f) toks ns Q E D := by
  unfold CPost at *
  have he : (x >>= f) toks ns = C.bind' x f toks ns := rfl
  rw [he]
  unfold C.bind'
  cases hx : x toks ns with
  | ok a ns' => rw [hx] at h; exact h
  | err _ => rw [hx] at h; exact h
  | panic _ => rw [hx] at h; exact h
  | diverge => rw [hx] at h; exact h

theorem pure {a : α} {Q : α → List Node → Prop} (h : Q a ns) :
    CPost (Pure.pure a : C α) toks ns Q E D := h

theorem err {e : Str} {Q : α → List Node → Prop} (h : E) : CPost (C.err e : C α) toks ns Q E D := h

theorem panic {m : String} {Q : α → List Node → Prop} (h : E) :
    CPost (C.panic m : C α) toks ns Q E D := h

theorem tok {t : TokId} {Q : Token → List Node → Prop} (h : ∀ k, toks[t]? = some k → Q k ns)
    (he : toks[t]? = none → E) : CPost (C.tok t) toks ns Q E D := by
  unfold CPost C.tok
  cases hk : toks[t]? with
  | none => exact he hk
  | some k => exact h k hk

theorem ofOpt {m : String} {o : Option α} {Q : α → List Node → Prop} (h : ∀ a, o = some a → Q a ns)
    (he : o = none → E) : CPost (C.ofOpt m o) toks ns Q E D := by
  cases o with
  | none => exact he rfl
  | some a => exact h a rfl

theorem child {k : Token} {i : Nat} {Q : TokId → List Node → Prop}
    (h : ∀ c, k.children[i]? = some c → Q c ns) (he : k.children[i]? = none → E) :
    CPost (C.child k i) toks ns Q E D := ofOpt h he

theorem mk {n : Node} {Q : MatcherId → List Node → Prop} (h : Q ns.length (ns ++ [n])) :
    CPost (C.mk n) toks ns Q E D := h

theorem mono {x : C α} {Q Q' : α → List Node → Prop} {E' D' : Prop} (h : CPost x toks ns Q E D)
    (hq : ∀ a ns, Q a ns → Q' a ns) (he : E → E') (hd : D → D') : CPost x toks ns Q' E' D' := by
  unfold CPost at *
  cases hx : x toks ns with
  | ok a ns' => rw [hx] at h; exact hq _ _ h
  | err _ => rw [hx] at h; exact he h
  | panic _ => rw [hx] at h; exact he h
  | diverge => rw [hx] at h; exact hd h

end CPost

/-! ### Looking for children -/

theorem nameAt_some {toks : List Token} {t : TokId} {n : Str} (h : nameAt toks t = some n) :
    ∃ k, toks[t]? = some k ∧ k.name = n := by
  unfold nameAt at h
  cases hk : toks[t]? with
  | none => rw [hk] at h; cases h
  | some k => rw [hk] at h; exact ⟨k, rfl, by simpa using h⟩

theorem nameAt_of {toks : List Token} {t : TokId} {k : Token} (h : toks[t]? = some k) :
    nameAt toks t = some k.name := by simp [nameAt, h]

theorem First.exists_ {toks : List Token} {names : List String} {cs : List TokId} {c : TokId}
    (h : First toks names cs c) : ∃ k, toks[c]? = some k ∧ ∃ n ∈ names, k.name = n.toList := by
  obtain ⟨_, _, _, ⟨n, hn, h⟩, _⟩ := h
  obtain ⟨k, hk, he⟩ := nameAt_some h
  exact ⟨k, hk, n, hn, he⟩

theorem First.mem {toks : List Token} {names : List String} {cs : List TokId} {c : TokId}
    (h : First toks names cs c) : c ∈ cs := by
  obtain ⟨b, a, rfl, _⟩ := h
  simp

theorem First.not_absent {toks : List Token} {names : List String} {cs : List TokId} {c : TokId}
    (h : First toks names cs c) : ¬ Absent toks names cs := by
  intro ha
  obtain ⟨b, a, rfl, ⟨n, hn, h⟩, _⟩ := h
  exact ha c (by simp) n hn h

theorem First.cons {toks : List Token} {names : List String} {cs : List TokId} {b c : TokId}
    (hb : ∀ n ∈ names, nameAt toks b ≠ some n.toList) (h : First toks names cs c) :
    First toks names (b :: cs) c := by
  obtain ⟨x, y, rfl, h1, h2⟩ := h
  refine ⟨b :: x, y, rfl, h1, ?_⟩
  intro d hd
  rcases List.mem_cons.mp hd with rfl | hd
  · exact hb
  · exact h2 d hd

theorem First.unique {toks : List Token} {names : List String} {cs : List TokId} {c d : TokId}
    (h : First toks names cs c) (h' : First toks names cs d) : c = d := by
  obtain ⟨b, a, rfl, ⟨n, hn, h1⟩, h2⟩ := h
  obtain ⟨b', a', he, ⟨n', hn', h1'⟩, h2'⟩ := h'
  induction b generalizing b' with
  | nil =>
    cases b' with
    | nil => cases he; rfl
    | cons x b' => cases he; exact absurd h1 (h2' _ (by simp) n hn)
  | cons x b ih =>
    cases b' with
    | nil => cases he; exact absurd h1' (h2 _ (by simp) n' hn')
    | cons x' b' =>
      simp only [List.cons_append, List.cons.injEq] at he
      exact ih (fun d hd => h2 d (by simp [hd])) b' he.2 (fun d hd => h2' d (by simp [hd]))

theorem findChildFuzzy_spec (toks : List Token) (names : List String) (cs : List TokId) :
    match findChildFuzzy toks (fun n => (names.map String.toList).contains n) cs with
    | some c => First toks names cs c
    | none => Absent toks names cs := by
  induction cs with
  | nil => intro b hb; cases hb
  | cons c cs ih =>
    unfold findChildFuzzy
    cases hk : toks[c]? with
    | none =>
      dsimp only
      have hc : ∀ n ∈ names, nameAt toks c ≠ some n.toList := by
        intro n _; simp [nameAt, hk]
      split
      · rename_i d hd; rw [hd] at ih; exact ih.cons hc
      · rename_i hd
        rw [hd] at ih
        intro b hb
        rcases List.mem_cons.mp hb with rfl | hb
        · exact hc
        · exact ih b hb
    | some k =>
      dsimp only
      by_cases ht : (names.map String.toList).contains k.name = true
      · rw [if_pos ht]
        refine ⟨[], cs, rfl, ?_, by simp⟩
        simp only [List.contains_eq_mem, List.mem_map, decide_eq_true_eq] at ht
        obtain ⟨n, hn, ht⟩ := ht
        exact ⟨n, hn, by rw [nameAt_of hk, ht]⟩
      · rw [if_neg ht]
        have hc : ∀ n ∈ names, nameAt toks c ≠ some n.toList := by
          intro n hn he
          rw [nameAt_of hk] at he
          apply ht
          simp only [List.contains_eq_mem, List.mem_map, decide_eq_true_eq]
          exact ⟨n, hn, by simpa using he.symm⟩
        split
        · rename_i d hd; rw [hd] at ih; exact ih.cons hc
        · rename_i hd
          rw [hd] at ih
          intro b hb
          rcases List.mem_cons.mp hb with rfl | hb
          · exact hc
          · exact ih b hb

theorem findChild_eq_fuzzy (toks : List Token) (n : String) (cs : List TokId) :
    findChild toks n.toList cs =
      findChildFuzzy toks (fun x => ([n].map String.toList).contains x) cs := by
  induction cs with
  | nil => rfl
  | cons c cs ih =>
    unfold findChild findChildFuzzy
    cases toks[c]? with
    | none => exact ih
    | some k =>
      dsimp only
      by_cases h : k.name = n.toList
      · simp [h]
      · simp [h, ih]

theorem findChild_spec (toks : List Token) (n : String) (cs : List TokId) :
    match findChild toks n.toList cs with
    | some c => First toks [n] cs c
    | none => Absent toks [n] cs := by
  rw [findChild_eq_fuzzy]
  exact findChildFuzzy_spec toks [n] cs

theorem hasChild_spec (toks : List Token) (n : String) (cs : List TokId) :
    hasChild toks n.toList cs = true ↔ ¬ Absent toks [n] cs := by
  have := findChild_spec toks n cs
  unfold hasChild
  cases h : findChild toks n.toList cs with
  | none => rw [h] at this; simpa using this
  | some c => rw [h] at this; simpa using this.not_absent

namespace CPost
variable {toks : List Token} {ns : List Node} {E D : Prop}

theorem findChild {k : Token} {n : String} {Q : Option TokId → List Node → Prop}
    (h : ∀ c, First toks [n] k.children c → Q (some c) ns)
    (hn : Absent toks [n] k.children → Q none ns) : CPost (C.findChild k n) toks ns Q E D := by
  have := findChild_spec toks n k.children
  show Q (Adx.findChild toks n.toList k.children) ns
  split at this
  · rename_i c hc; rw [hc]; exact h c this
  · rename_i hc; rw [hc]; exact hn this

theorem findChildOf {k : Token} {names : List String} {Q : Option TokId → List Node → Prop}
    (h : ∀ c, First toks names k.children c → Q (some c) ns)
    (hn : Absent toks names k.children → Q none ns) :
    CPost (C.findChildOf k names) toks ns Q E D := by
  have := findChildFuzzy_spec toks names k.children
  show Q (Adx.findChildFuzzy toks _ k.children) ns
  split at this
  · rename_i c hc; rw [hc]; exact h c this
  · rename_i hc; rw [hc]; exact hn this

theorem hasChild {k : Token} {n : String} {Q : Bool → List Node → Prop}
    (h : ∀ b : Bool, (b = true ↔ ¬ Absent toks [n] k.children) → Q b ns) :
    CPost (C.hasChild k n) toks ns Q E D := h _ (hasChild_spec toks n k.children)

theorem parseUsize {s : Str} {Q : Nat → List Node → Prop}
    (h : ∀ n, Adx.parseUsize s = some n → Q n ns) (he : Adx.parseUsize s = none → E) :
    CPost (C.parseUsize s) toks ns Q E D := by
  unfold C.parseUsize
  cases hs : Adx.parseUsize s with
  | none => exact he hs
  | some n => exact h n hs

end CPost

/-! ### Repeat specifiers -/

theorem getRepeatSpecifierRange_spec (toks : List Token) (ns : List Node) (t : TokId) :
    CPost (getRepeatSpecifierRange t) toks ns
      (fun r ns' => ns' = ns ∧ Repeats toks t r.1 r.2) (∀ lo hi, ¬ Repeats toks t lo hi) False := by
  unfold getRepeatSpecifierRange
  apply CPost.bind
  apply CPost.tok
  case he =>
    intro hk lo hi h
    cases h <;> simp_all
  intro k hk
  split
  · rename_i hn
    exact CPost.pure ⟨rfl, .any hk hn⟩
  rename_i hn1
  split
  · rename_i hn
    exact CPost.pure ⟨rfl, .some hk hn⟩
  rename_i hn2
  split
  case isFalse hn3 =>
    refine CPost.err ?_
    intro lo hi h
    cases h <;> simp_all
  rename_i hn
  apply CPost.bind
  refine CPost.findChild ?_ ?_
  case refine_2 =>
    intro ha
    apply CPost.panic
    intro lo hi h
    cases h with
    | any hk' hn' => simp_all
    | some hk' hn' => simp_all
    | upTo hk' hn' ha' => cases hk.symm.trans hk'; exact ha'.not_absent ha
    | atLeast hk' hn' ha' => cases hk.symm.trans hk'; exact ha'.not_absent ha
    | between hk' hn' ha' => cases hk.symm.trans hk'; exact ha'.not_absent ha
  intro a ha
  obtain ⟨ak, hak, -⟩ := ha.exists_
  apply CPost.bind
  apply CPost.pure
  apply CPost.bind
  apply CPost.hasChild
  intro sep hsep
  apply CPost.bind
  apply CPost.tok
  case he => intro h; rw [h] at hak; cases hak
  intro ak' hak'
  cases hak.symm.trans hak'
  apply CPost.bind
  apply CPost.parseUsize
  case he =>
    intro hp lo hi h
    cases h with
    | any hk' hn' => simp_all
    | some hk' hn' => simp_all
    | upTo hk' hn' ha' hak' hs h1 =>
      cases hk.symm.trans hk'; cases ha.unique ha'; simp_all
    | atLeast hk' hn' ha' hak' hs hm h1 =>
      cases hk.symm.trans hk'; cases ha.unique ha'; simp_all
    | between hk' hn' ha' hak' hs hm hb h1 =>
      cases hk.symm.trans hk'; cases ha.unique ha'; simp_all
  intro n hpn
  by_cases hs : sep = true
  case neg =>
    rw [if_neg hs]
    refine CPost.pure ⟨rfl, .upTo hk hn ha hak ?_ hpn⟩
    exact Classical.byContradiction fun h => hs (hsep.mpr h)
  rw [if_pos hs]
  have hs := hsep.mp hs
  apply CPost.bind
  refine CPost.findChild ?_ ?_
  case refine_2 =>
    intro hb
    exact CPost.pure ⟨rfl, .atLeast hk hn ha hak hs hb hpn⟩
  intro b hb
  obtain ⟨bk, hbk, -⟩ := hb.exists_
  dsimp only
  apply CPost.bind
  apply CPost.tok
  case he => intro h; rw [h] at hbk; cases hbk
  intro bk' hbk'
  cases hbk.symm.trans hbk'
  apply CPost.bind
  apply CPost.parseUsize
  case he =>
    intro hp lo hi h
    cases h with
    | any hk' hn' => simp_all
    | some hk' hn' => simp_all
    | upTo hk' hn' ha' hak' hs' h1 =>
      cases hk.symm.trans hk'; exact hs hs'
    | atLeast hk' hn' ha' hak' hs' hm h1 =>
      cases hk.symm.trans hk'; exact hb.not_absent hm
    | between hk' hn' ha' hak' hs' hb' hbk' h1 h2 =>
      cases hk.symm.trans hk'; cases hb.unique hb'; simp_all
  intro m hpm
  split
  · rename_i hlt
    apply CPost.err
    intro lo hi h
    cases h with
    | any hk' hn' => simp_all
    | some hk' hn' => simp_all
    | upTo hk' hn' ha' hak' hs' h1 =>
      cases hk.symm.trans hk'; exact hs hs'
    | atLeast hk' hn' ha' hak' hs' hm h1 =>
      cases hk.symm.trans hk'; exact hb.not_absent hm
    | between hk' hn' ha' hak' hs' hb' hbk' h1 h2 hle =>
      cases hk.symm.trans hk'; cases hb.unique hb'; cases ha.unique ha'
      simp_all
      omega
  · exact CPost.pure ⟨rfl, .between hk hn ha hak hs hb hbk hpn hpm (by omega)⟩

/-! ### Built matchers -/

/-- From `lo` on, `ns'` has all nodes of `ns`. -/
def AgreeFrom (lo : Nat) (ns ns' : List Node) : Prop :=
  ∀ i nd, lo ≤ i → ns[i]? = some nd → ns'[i]? = some nd

theorem AgreeFrom.weaken {lo lo' : Nat} {ns ns' : List Node} (h : AgreeFrom lo ns ns')
    (hl : lo ≤ lo') : AgreeFrom lo' ns ns' := fun i nd hi he => h i nd (by omega) he

theorem AgreeFrom.of_prefix {ns ns' : List Node} (h : ns <+: ns') (lo : Nat) :
    AgreeFrom lo ns ns' := by
  intro i nd _ he
  obtain ⟨x, rfl⟩ := h
  have hi : i < ns.length := by
    rcases Nat.lt_or_ge i ns.length with h | h
    · exact h
    · rw [List.getElem?_eq_none h] at he; cases he
  rw [List.getElem?_append_left hi]
  exact he

theorem AgreeFrom.set {ns : List Node} {i lo : Nat} {nd : Node} (h : i < lo) :
    AgreeFrom lo ns (ns.set i nd) := by
  intro j x hj he
  rw [List.getElem?_set_ne (by omega)]
  exact he

mutual

theorem Built.mono {ns ns' : List Node} {lo : Nat} {m : MatcherId} {g : Gram} :
    Built ns lo m g → AgreeFrom lo ns ns' → Built ns' lo m g
  | .equals hl h, ha => .equals hl (ha _ _ hl h)
  | .regex hl h, ha => .regex hl (ha _ _ hl h)
  | .sequence hl h, ha => .sequence hl (ha _ _ hl h)
  | .ref hl h, ha => .ref hl (ha _ _ hl h)
  | .null hl h, ha => .null hl (ha _ _ hl h)
  | .group hl h hs, ha => .group hl (ha _ _ hl h) (hs.mono (ha.weaken (by omega)))
  | .loop hl h hg, ha => .loop hl (ha _ _ hl h) (hg.mono ha)
  | .opt hl h hg, ha => .opt hl (ha _ _ hl h) (hg.mono ha)
  | .not hl h hg, ha => .not hl (ha _ _ hl h) (hg.mono ha)
  | .discard hl h hg, ha => .discard hl (ha _ _ hl h) (hg.mono ha)
  | .attrs hl h hg, ha => .attrs hl (ha _ _ hl h) (hg.mono ha)

theorem BuiltAll.mono {ns ns' : List Node} {lo : Nat} {ms : List MatcherId} {gs : List Gram} :
    BuiltAll ns lo ms gs → AgreeFrom lo ns ns' → BuiltAll ns' lo ms gs
  | .nil, _ => .nil
  | .cons h hs, ha => .cons (h.mono ha) (hs.mono ha)

end

mutual

theorem Built.lower {ns : List Node} {lo lo' : Nat} {m : MatcherId} {g : Gram} :
    Built ns lo m g → lo' ≤ lo → Built ns lo' m g
  | .equals hl h, ha => .equals (by omega) h
  | .regex hl h, ha => .regex (by omega) h
  | .sequence hl h, ha => .sequence (by omega) h
  | .ref hl h, ha => .ref (by omega) h
  | .null hl h, ha => .null (by omega) h
  | .group hl h hs, ha => .group (by omega) h hs
  | .loop hl h hg, ha => .loop (by omega) h (hg.lower ha)
  | .opt hl h hg, ha => .opt (by omega) h (hg.lower ha)
  | .not hl h hg, ha => .not (by omega) h (hg.lower ha)
  | .discard hl h hg, ha => .discard (by omega) h (hg.lower ha)
  | .attrs hl h hg, ha => .attrs (by omega) h (hg.lower ha)

theorem BuiltAll.lower {ns : List Node} {lo lo' : Nat} {ms : List MatcherId} {gs : List Gram} :
    BuiltAll ns lo ms gs → lo' ≤ lo → BuiltAll ns lo' ms gs
  | .nil, _ => .nil
  | .cons h hs, ha => .cons (h.lower ha) (hs.lower ha)

end

theorem BuiltAll.append {ns : List Node} {lo : Nat} {ms ms' : List MatcherId} {gs gs' : List Gram} :
    BuiltAll ns lo ms gs → BuiltAll ns lo ms' gs' → BuiltAll ns lo (ms ++ ms') (gs ++ gs')
  | .nil, h' => h'
  | .cons h hs, h' => .cons h (hs.append h')

theorem Built.bound {ns : List Node} {lo : Nat} {m : MatcherId} {g : Gram} (h : Built ns lo m g) :
    m < ns.length := by
  have key : ∀ nd, ns[m]? = some nd → m < ns.length := fun nd he =>
    (List.getElem?_eq_some_iff.mp he).1
  cases h <;> exact key _ (by assumption)

/-- A leaf or a group: the grammars that have a name of their own. -/
def Gram.named : Gram → Bool
  | .equals .. => true
  | .regex .. => true
  | .sequence .. => true
  | .ref .. => true
  | .null => true
  | .group .. => true
  | _ => false

theorem DescribesMatcher.named {env : Env} {toks : List Token} {t : TokId} {g : Gram}
    (h : DescribesMatcher env toks t g) : g.named = true := by
  cases h <;> rfl

theorem setName_spec {toks : List Token} {ns : List Node} {m : MatcherId} {g : Gram} {n : Str}
    {E D : Prop} {ns0 : List Node} (h : Built ns m m g) (hg : g.named = true) (hp : ns0 <+: ns)
    (hm : m = ns0.length) :
    CPost (withName m n) toks ns
      (fun _ ns' => ns0 <+: ns' ∧ Built ns' m m (g.called n)) E D := by
  unfold withName
  by_cases hn : n = []
  · rw [if_neg (by simpa using hn)]
    refine CPost.pure ⟨hp, ?_⟩
    unfold Gram.called
    rw [if_pos hn]
    exact h
  · rw [if_pos hn]
    have hset : ∀ nd : Node, ns0 <+: ns.set m nd := by
      intro nd
      obtain ⟨x, rfl⟩ := hp
      refine ⟨x.set 0 nd, ?_⟩
      rw [hm, List.set_append_right _ _ (Nat.le_refl _), Nat.sub_self]
    have hb := h.bound
    have key : ∀ nd : Node, ns[m]? = some nd → nd.namePassedTo = none →
        Built (ns.set m (nd.setOwnName n)) m m (g.called n) →
        CPost (C.setName m n) toks ns
          (fun _ ns' => ns0 <+: ns' ∧ Built ns' m m (g.called n)) E D := by
      intro nd h1 h2 h3
      unfold CPost C.setName setNameGo
      rw [h1]
      dsimp only
      rw [h2]
      exact ⟨hset _, h3⟩
    have hat : ∀ nd : Node, (ns.set m nd)[m]? = some nd := fun nd => by
      rw [List.getElem?_set_self hb]
    cases h with
    | equals _ h => exact key _ h rfl (by rw [Gram.called, if_neg hn]; exact .equals (Nat.le_refl _) (hat _))
    | regex _ h => exact key _ h rfl (by rw [Gram.called, if_neg hn]; exact .regex (Nat.le_refl _) (hat _))
    | sequence _ h => exact key _ h rfl (by rw [Gram.called, if_neg hn]; exact .sequence (Nat.le_refl _) (hat _))
    | ref _ h => exact key _ h rfl (by rw [Gram.called, if_neg hn]; exact .ref (Nat.le_refl _) (hat _))
    | null _ h =>
      refine key _ h rfl ?_
      rw [Gram.called, if_neg hn]
      · exact .null (Nat.le_refl _) (hat _)
      all_goals (intros; contradiction)
    | group _ h hs =>
      exact key _ h rfl (by
        rw [Gram.called, if_neg hn]
        exact .group (Nat.le_refl _) (hat _) (hs.mono (AgreeFrom.set (Nat.lt_succ_self _))))
    | loop => cases hg
    | opt => cases hg
    | not => cases hg
    | discard => cases hg
    | attrs => cases hg

/-- What is wanted of the builder of patterns. -/
def PatOk (env : Env) (toks : List Token) (pat : TokId → C (MatcherId × MatcherId))
    (D : TokId → Prop) : Prop :=
  ∀ t ns, CPost (pat t) toks ns
    (fun p ns' => ns <+: ns' ∧ ∃ g, DescribesPattern env toks t g ∧ Built ns' ns.length p.1 g)
    (∀ g, ¬ DescribesPattern env toks t g) (D t)

/-- `c` is a descendant of `t`. -/
inductive Below (toks : List Token) : TokId → TokId → Prop
  | child {t k c} (hk : toks[t]? = some k) (hc : c ∈ k.children) : Below toks t c
  | step {t k c d} (hk : toks[t]? = some k) (hc : c ∈ k.children) (h : Below toks c d) :
      Below toks t d

theorem constructChildren_spec {env : Env} {toks : List Token}
    {pat : TokId → C (MatcherId × MatcherId)} {D : TokId → Prop} (hp : PatOk env toks pat D) {into : MatcherId}
    {n : Str} {c f : Bool} (cs : List TokId) {ms : List MatcherId} {gs : List Gram}
    {ns0 ns : List Node} (hi : into = ns0.length) (hpre : ns0 <+: ns)
    (hn : ns[into]? = some (.program ms n c none f)) (hb : BuiltAll ns (into + 1) ms gs) :
    CPost (constructChildren pat into cs) toks ns
      (fun _ ns' => ns0 <+: ns' ∧ ∃ ms' gs', DescribesAll env toks cs gs' ∧
        ns'[into]? = some (.program ms' n c none f) ∧ BuiltAll ns' (into + 1) ms' (gs ++ gs'))
      (∀ gs', ¬ DescribesAll env toks cs gs') (∃ c ∈ cs, D c) := by
  induction cs generalizing ms gs ns with
  | nil => exact ⟨hpre, ms, [], .nil, hn, by simpa using hb⟩
  | cons t ts ih =>
    unfold constructChildren
    apply CPost.bind
    refine (hp t ns).mono ?_ ?_ (fun h => ⟨t, by simp, h⟩)
    case refine_2 =>
      intro h gs' h'
      cases h' with
      | cons h1 _ => exact h _ h1
    rintro p ns1 ⟨hpre1, g, hd, hg⟩
    have hlt : into < ns.length := (List.getElem?_eq_some_iff.mp hn).1
    have hn1 : ns1[into]? = some (.program ms n c none f) :=
      AgreeFrom.of_prefix hpre1 0 _ _ (Nat.zero_le _) hn
    apply CPost.bind
    have hadd : C.addPattern into p.1 toks ns1 =
        .ok () (ns1.set into (.program (ms ++ [p.1]) n c none f)) := by
      unfold C.addPattern; rw [hn1]
    unfold CPost
    rw [hadd]
    dsimp only
    have hlt1 : into < ns1.length := (List.getElem?_eq_some_iff.mp hn1).1
    have hagree : AgreeFrom (into + 1) ns1 (ns1.set into (.program (ms ++ [p.1]) n c none f)) :=
      AgreeFrom.set (Nat.lt_succ_self _)
    refine (ih (ms := ms ++ [p.1]) (gs := gs ++ [g]) ?_ ?_ ?_).mono ?_ ?_
      (fun ⟨c, hc, h⟩ => ⟨c, by simp [hc], h⟩)
    · have h := hpre.trans hpre1
      obtain ⟨x, rfl⟩ := h
      refine ⟨x.set 0 (.program (ms ++ [p.1]) n c none f), ?_⟩
      rw [hi, List.set_append_right _ _ (Nat.le_refl _), Nat.sub_self]
    · rw [List.getElem?_set_self hlt1]
    · have h1 := (hb.mono (AgreeFrom.of_prefix hpre1 _)).mono hagree
      have h2 := (hg.lower (show into + 1 ≤ ns.length from hlt)).mono hagree
      exact h1.append (.cons h2 .nil)
    · rintro _ ns2 ⟨h1, ms', gs', h2, h3, h4⟩
      exact ⟨h1, ms', g :: gs', .cons hd h2, h3, by simpa using h4⟩
    · intro h gs' h'
      cases h' with
      | cons _ h2 => exact h _ h2

theorem constructInner_spec {env : Env} {toks : List Token}
    {pat : TokId → C (MatcherId × MatcherId)} {D : TokId → Prop} (hp : PatOk env toks pat D) (t : TokId)
    (ns : List Node) :
    CPost (constructInner env pat t) toks ns
      (fun m ns' => ns <+: ns' ∧ m = ns.length ∧ ∃ g, DescribesMatcher env toks t g ∧
        Built ns' m m g)
      (∀ g, ¬ DescribesMatcher env toks t g) (∃ c, Below toks t c ∧ D c) := by
  unfold constructInner
  have hpre : ∀ nd : Node, ns <+: ns ++ [nd] := fun nd => ⟨[nd], rfl⟩
  have hat : ∀ nd : Node, (ns ++ [nd])[ns.length]? = some nd := fun nd => by simp
  apply CPost.bind
  apply CPost.tok
  case he =>
    intro hk g h
    cases h <;> simp_all
  intro k hk
  split
  · rename_i hn
    apply CPost.bind
    apply CPost.child
    case he =>
      intro hc g h
      cases h <;> simp_all
    intro c hc
    apply CPost.bind
    apply CPost.tok
    case he =>
      intro hck g h
      cases h <;> simp_all
    intro ck hck
    dsimp only
    split
    · apply CPost.err
      intro g h
      cases h <;> simp_all
    · rename_i hv
      exact CPost.mk ⟨hpre _, rfl, _, .equals hk hn hc hck hv, .equals (Nat.le_refl _) (hat _)⟩
  rename_i hn1
  split
  · rename_i hn
    dsimp only
    split
    · apply CPost.err
      intro g h
      cases h <;> simp_all
    rename_i hv
    have hrest : ∀ v, RegexText toks k v → (∀ v', RegexText toks k v' → v' = v) →
        CPost (do
            let re ← C.ofOpt "called `Result::unwrap()` on an `Err` value" (env.regex v)
            C.mk (.regex "Matches".toList false re)) toks ns
          (fun m ns' => ns <+: ns' ∧ m = ns.length ∧ ∃ g, DescribesMatcher env toks t g ∧
            Built ns' m m g) (∀ g, ¬ DescribesMatcher env toks t g)
          (∃ c, Below toks t c ∧ D c) := by
      intro v htext huniq
      apply CPost.bind
      apply CPost.ofOpt
      case he =>
        intro hr g h
        cases h with
        | regex hk' hn' hv' ht' hr' =>
          cases hk.symm.trans hk'
          cases huniq _ ht'
          rw [hr] at hr'; cases hr'
        | _ => simp_all
      intro re hr
      exact CPost.mk ⟨hpre _, rfl, _, .regex hk hn hv htext hr, .regex (Nat.le_refl _) (hat _)⟩
    apply CPost.bind
    refine CPost.findChild ?_ ?_
    · intro f hf
      obtain ⟨fk, hfk, -⟩ := hf.exists_
      dsimp only
      apply CPost.bind
      apply CPost.tok
      case he => intro h; rw [h] at hfk; cases hfk
      intro fk' hfk'
      cases hfk.symm.trans hfk'
      apply CPost.bind
      refine CPost.pure (hrest _ (.flags hf hfk) ?_)
      intro v' h
      cases h with
      | plain h => exact absurd h hf.not_absent
      | flags h h' => cases hf.unique h; cases hfk.symm.trans h'; rfl
    · intro hf
      apply CPost.bind
      refine CPost.pure (hrest _ (.plain hf) ?_)
      intro v' h
      cases h with
      | plain h => rfl
      | flags h h' => exact absurd hf h.not_absent
  rename_i hn2
  split
  · rename_i hn
    apply CPost.bind
    apply CPost.child
    case he =>
      intro hc g h
      cases h <;> simp_all
    intro a ha
    apply CPost.bind
    apply CPost.tok
    case he =>
      intro hck g h
      cases h <;> simp_all
    intro ak hak
    apply CPost.bind
    apply CPost.child
    case he =>
      intro hc g h
      cases h <;> simp_all
    intro b hb
    apply CPost.bind
    apply CPost.tok
    case he =>
      intro hck g h
      cases h <;> simp_all
    intro bk hbk
    apply CPost.bind
    apply CPost.child
    case he =>
      intro hc g h
      cases h <;> simp_all
    intro e he
    apply CPost.bind
    apply CPost.tok
    case he =>
      intro hck g h
      cases h <;> simp_all
    intro ek hek
    split
    · apply CPost.panic
      intro g h
      cases h <;> simp_all
    split
    · apply CPost.panic
      intro g h
      cases h <;> simp_all
    rename_i hva hvb
    exact CPost.mk ⟨hpre _, rfl, _, .sequence hk hn ha hak hb hbk he hek hva hvb,
      .sequence (Nat.le_refl _) (hat _)⟩
  rename_i hn3
  split
  · rename_i hn
    apply CPost.bind
    apply CPost.child
    case he =>
      intro hc g h
      cases h <;> simp_all
    intro c hc
    apply CPost.bind
    apply CPost.tok
    case he =>
      intro hck g h
      cases h <;> simp_all
    intro ck hck
    dsimp only
    split
    · apply CPost.err
      intro g h
      cases h <;> simp_all
    · rename_i hv
      exact CPost.mk ⟨hpre _, rfl, _, .custom hk hn hc hck hv, .ref (Nat.le_refl _) (hat _)⟩
  rename_i hn4
  split
  · rename_i hn
    split
    · rename_i hc
      exact CPost.mk ⟨hpre _, rfl, _, .empty hk (.inl hn) (List.length_eq_zero_iff.mp hc),
        .null (Nat.le_refl _) (hat _)⟩
    · rename_i hc
      have hc' : k.children ≠ [] := fun h => hc (by rw [h]; rfl)
      apply CPost.bind
      apply CPost.mk
      apply CPost.bind
      refine (constructChildren_spec hp k.children rfl (hpre _) (hat _) .nil).mono ?_ ?_
        (fun ⟨c, hc, h⟩ => ⟨c, .child hk hc, h⟩)
      · rintro _ ns1 ⟨h1, ms, gs, h2, h3, h4⟩
        exact CPost.pure ⟨h1, rfl, _, .switch hk hn hc' h2, .group (Nat.le_refl _) h3 h4⟩
      · intro h g h'
        cases h' with
        | switch hk' hn' hc' hall => cases hk.symm.trans hk'; exact h _ hall
        | _ => simp_all
  rename_i hn5
  split
  · rename_i hn
    split
    · rename_i hc
      exact CPost.mk ⟨hpre _, rfl, _, .empty hk (.inr hn) (List.length_eq_zero_iff.mp hc),
        .null (Nat.le_refl _) (hat _)⟩
    · rename_i hc
      have hc' : k.children ≠ [] := fun h => hc (by rw [h]; rfl)
      apply CPost.bind
      apply CPost.mk
      apply CPost.bind
      refine (constructChildren_spec hp k.children rfl (hpre _) (hat _) .nil).mono ?_ ?_
        (fun ⟨c, hc, h⟩ => ⟨c, .child hk hc, h⟩)
      · rintro _ ns1 ⟨h1, ms, gs, h2, h3, h4⟩
        exact CPost.pure ⟨h1, rfl, _, .program hk hn hc' h2, .group (Nat.le_refl _) h3 h4⟩
      · intro h g h'
        cases h' with
        | program hk' hn' hc' hall => cases hk.symm.trans hk'; exact h _ hall
        | _ => simp_all
  · rename_i hn6
    apply CPost.err
    intro g h
    cases h <;> simp_all

theorem collectAttributes_spec {toks : List Token} {ns : List Node} (cs : List TokId) (m : AMap Str) :
    CPost (collectAttributes cs m) toks ns (fun m' ns' => ns' = ns ∧ Attrs toks cs m m')
      (∀ m0 m', ¬ Attrs toks cs m0 m') False := by
  induction cs generalizing m with
  | nil => exact ⟨rfl, .nil⟩
  | cons c cs ih =>
    unfold collectAttributes
    apply CPost.bind
    apply CPost.tok
    case he => intro hk m0 m' h; cases h; simp_all
    intro k hk
    apply CPost.bind
    apply CPost.child
    case he => intro hc m0 m' h; cases h; simp_all
    intro a ha
    apply CPost.bind
    apply CPost.tok
    case he => intro hc m0 m' h; cases h; simp_all
    intro ak hak
    apply CPost.bind
    apply CPost.child
    case he => intro hc m0 m' h; cases h; simp_all
    intro b hb
    apply CPost.bind
    apply CPost.tok
    case he => intro hc m0 m' h; cases h; simp_all
    intro bk hbk
    dsimp only
    refine (ih _).mono ?_ ?_ id
    · rintro m' ns' ⟨rfl, h⟩
      exact ⟨rfl, .cons hk ha hak hb hbk h⟩
    · intro h m0 m' h'
      cases h' with
      | cons _ _ _ _ _ h' => exact h _ _ h'

theorem Built.lo_le {ns : List Node} {lo : Nat} {m : MatcherId} {g : Gram} (h : Built ns lo m g) :
    lo ≤ ns.length := by
  have hb := h.bound
  have hl : lo ≤ m := by cases h <;> assumption
  exact Nat.le_trans hl (Nat.le_of_lt hb)

theorem withAttributes_spec {toks : List Token} {ns ns0 : List Node} {lo : Nat} (k : Token)
    {m : MatcherId} {g : Gram} (h : Built ns lo m g) (hp : ns0 <+: ns) :
    CPost (withAttributes k m) toks ns
      (fun m' ns' => ns0 <+: ns' ∧ ∃ g', WithAttrs toks k.children g g' ∧ Built ns' lo m' g')
      (∀ g g', ¬ WithAttrs toks k.children g g') False := by
  unfold withAttributes
  apply CPost.bind
  refine CPost.findChild ?_ ?_
  · intro a ha
    obtain ⟨ak, hak, -⟩ := ha.exists_
    dsimp only
    apply CPost.bind
    apply CPost.tok
    case he => intro h; rw [h] at hak; cases hak
    intro ak' hak'
    cases hak.symm.trans hak'
    split
    · rename_i hne
      have hne : ak.children ≠ [] := List.ne_nil_of_length_pos hne
      apply CPost.bind
      refine (collectAttributes_spec _ _).mono ?_ ?_ id
      · rintro attrs ns' ⟨rfl, hm⟩
        exact CPost.mk ⟨hp.trans ⟨_, rfl⟩, _, .some ha hak hne hm, .attrs h.lo_le
          (List.getElem?_concat_length) (h.mono (AgreeFrom.of_prefix ⟨_, rfl⟩ _))⟩
      · intro hm g g' h'
        cases h' with
        | none h1 => exact ha.not_absent h1
        | empty h1 h2 h3 => cases ha.unique h1; cases hak.symm.trans h2; exact hne h3
        | some h1 h2 h3 h4 => cases ha.unique h1; cases hak.symm.trans h2; exact hm _ _ h4
    · rename_i hne
      have hne : ak.children = [] := by
        cases hc : ak.children with
        | nil => rfl
        | cons => rw [hc] at hne; simp at hne
      exact CPost.pure ⟨hp, g, .empty ha hak hne, h⟩
  · intro ha
    exact CPost.pure ⟨hp, g, .none ha, h⟩

theorem withRepeat_spec {toks : List Token} {ns ns0 : List Node} {lo : Nat} (k : Token)
    {m : MatcherId} {g : Gram} (h : Built ns lo m g) (hp : ns0 <+: ns) :
    CPost (withRepeat k m) toks ns
      (fun m' ns' => ns0 <+: ns' ∧ ∃ g', WithRepeat toks k.children g g' ∧ Built ns' lo m' g')
      (∀ g g', ¬ WithRepeat toks k.children g g') False := by
  unfold withRepeat
  apply CPost.bind
  refine CPost.findChildOf ?_ ?_
  · intro r hr
    dsimp only
    apply CPost.bind
    refine (getRepeatSpecifierRange_spec toks ns r).mono ?_ ?_ id
    · rintro ⟨a, b⟩ ns' ⟨rfl, hab⟩
      exact CPost.mk ⟨hp.trans ⟨_, rfl⟩, _, .some hr hab,
        .loop h.lo_le (by simp [getRange]) (h.mono (AgreeFrom.of_prefix ⟨_, rfl⟩ _))⟩
    · intro hn g g' h'
      cases h' with
      | none h1 => exact hr.not_absent h1
      | some h1 h2 => cases hr.unique h1; exact hn _ _ h2
  · intro hr
    exact CPost.pure ⟨hp, g, .none hr, h⟩

theorem withModifiers_spec {toks : List Token} {ns ns0 : List Node} {lo : Nat} {m : MatcherId}
    {g : Gram} {E D : Prop} (opt neg : Bool) (h : Built ns lo m g) (hp : ns0 <+: ns) :
    CPost (withModifiers opt neg m) toks ns
      (fun m' ns' => ns0 <+: ns' ∧ Built ns' lo m' (g.modified (opt = true) (neg = true))) E D := by
  unfold withModifiers Gram.modified
  split
  · exact CPost.mk ⟨hp.trans ⟨_, rfl⟩, .opt h.lo_le (by simp)
      (h.mono (AgreeFrom.of_prefix ⟨_, rfl⟩ _))⟩
  · split
    · exact CPost.mk ⟨hp.trans ⟨_, rfl⟩, .not h.lo_le (by simp)
        (h.mono (AgreeFrom.of_prefix ⟨_, rfl⟩ _))⟩
    · exact CPost.pure ⟨hp, h⟩

theorem withDiscard_spec {toks : List Token} {ns ns0 : List Node} {lo : Nat} {m : MatcherId}
    {g : Gram} {E D : Prop} (captured : Bool) (h : Built ns lo m g) (hp : ns0 <+: ns) :
    CPost (withDiscard captured m) toks ns
      (fun m' ns' => ns0 <+: ns' ∧ Built ns' lo m' (if captured then g else .discard g)) E D := by
  unfold withDiscard
  split
  · exact CPost.pure ⟨hp, h⟩
  · exact CPost.mk ⟨hp.trans ⟨_, rfl⟩, .discard h.lo_le (by simp)
      (h.mono (AgreeFrom.of_prefix ⟨_, rfl⟩ _))⟩

theorem constructDefinition_spec {env : Env} {toks : List Token}
    {pat : TokId → C (MatcherId × MatcherId)} {D : TokId → Prop} (hp : PatOk env toks pat D) (t : TokId) (name : Str)
    (captured : Bool) (ns : List Node) :
    CPost (constructDefinition env pat t name captured) toks ns
      (fun p ns' => ns <+: ns' ∧ ∃ g, DescribesDefinition env toks t name g ∧
        Built ns' ns.length p.1 (if captured then g else .discard g))
      (∀ name g, ¬ DescribesDefinition env toks t name g) (∃ c, Below toks t c ∧ D c) := by
  unfold constructDefinition
  apply CPost.bind
  apply CPost.tok
  case he => intro hk name g h; cases h; simp_all
  intro k hk
  split
  · rename_i hn
    apply CPost.err
    intro name g h
    cases h with
    | mk hk' hn' => cases hk.symm.trans hk'; exact hn hn'
  rename_i hn
  have hn : k.name = "PatternDefinition".toList := Classical.byContradiction hn
  apply CPost.bind
  apply CPost.hasChild
  intro oo hoo
  apply CPost.bind
  apply CPost.hasChild
  intro on hon
  apply CPost.bind
  apply CPost.hasChild
  intro io hio
  apply CPost.bind
  apply CPost.hasChild
  intro in_ hin
  apply CPost.bind
  refine CPost.findChildOf ?_ ?_
  case refine_2 =>
    intro hm
    apply CPost.err
    intro name g h
    cases h with
    | mk hk' hn' hm' => cases hk.symm.trans hk'; exact hm'.not_absent hm
  intro mt hm
  dsimp only
  apply CPost.bind
  refine (constructInner_spec hp mt ns).mono ?_ ?_ (fun ⟨c, h1, h2⟩ => ⟨c, .step hk hm.mem h1, h2⟩)
  case refine_2 =>
    intro h name g h'
    cases h' with
    | mk hk' hn' hm' h1 => cases hk.symm.trans hk'; cases hm.unique hm'; exact h _ h1
  rintro inner ns1 ⟨hp1, hi, g, hg, hb⟩
  apply CPost.bind
  refine (setName_spec hb hg.named hp1 hi).mono ?_ id id
  rintro _ ns2 ⟨hp2, hb2⟩
  apply CPost.bind
  refine (withAttributes_spec k hb2 hp2).mono ?_ ?_ False.elim
  case refine_2 =>
    intro h name g h'
    cases h' with
    | mk hk' hn' hm' h1 h2 => cases hk.symm.trans hk'; exact h _ _ h2
  rintro m3 ns3 ⟨hp3, g3, hg3, hb3⟩
  apply CPost.bind
  refine (withModifiers_spec _ _ hb3 hp3).mono ?_ id id
  rintro m4 ns4 ⟨hp4, hb4⟩
  apply CPost.bind
  refine (withRepeat_spec k hb4 hp4).mono ?_ ?_ False.elim
  case refine_2 =>
    intro h name g h'
    cases h' with
    | mk hk' hn' hm' h1 h2 ho hx h3 => cases hk.symm.trans hk'; exact h _ _ h3
  rintro m5 ns5 ⟨hp5, g5, hg5, hb5⟩
  apply CPost.bind
  refine (withModifiers_spec _ _ hb5 hp5).mono ?_ id id
  rintro m6 ns6 ⟨hp6, hb6⟩
  apply CPost.bind
  refine (withDiscard_spec captured hb6 hp6).mono ?_ id id
  rintro m7 ns7 ⟨hp7, hb7⟩
  refine CPost.pure ⟨hp7, _, .mk hk hn hm hg hg3 hio hin hg5 hoo hon, ?_⟩
  exact hi ▸ hb7

/-- There is a chain of `d` descendants. -/
def Deep (toks : List Token) : Nat → TokId → Prop
  | 0, _ => True
  | d + 1, t => ∃ c, Below toks t c ∧ Deep toks d c

theorem constructPattern_spec (env : Env) (toks : List Token) (d : Nat) :
    PatOk env toks (constructPattern env d) (Deep toks d) := by
  induction d with
  | zero => intro t ns; exact trivial
  | succ d ih =>
    intro t ns
    unfold constructPattern
    apply CPost.bind
    apply CPost.tok
    case he => intro hk g h; cases h <;> simp_all
    intro k hk
    split
    · rename_i hn
      apply CPost.bind
      refine CPost.findChild ?_ ?_
      · intro n hm
        obtain ⟨nk, hnk, -⟩ := hm.exists_
        dsimp only
        have huniq : ∀ g, DescribesPattern env toks t g → ∃ c ck d, nk.children[0]? = some c ∧
            toks[c]? = some ck ∧ k.children[1]? = some d ∧ DescribesDefinition env toks d ck.name g := by
          intro g h
          cases h with
          | plain hk' hn' => simp_all
          | captured hk' hn' hm' => cases hk.symm.trans hk'; exact absurd hm' hm.not_absent
          | named hk' hn' hm' hnk' hc' hck' hd' h' =>
            cases hk.symm.trans hk'; cases hm.unique hm'; cases hnk.symm.trans hnk'
            exact ⟨_, _, _, hc', hck', hd', h'⟩
        apply CPost.bind
        apply CPost.tok
        case he => intro h; rw [h] at hnk; cases hnk
        intro nk' hnk'
        cases hnk.symm.trans hnk'
        apply CPost.bind
        apply CPost.child
        case he =>
          intro hc g h
          obtain ⟨c, ck, d, h1, h2, h3, h4⟩ := huniq g h
          simp_all
        intro c hc
        apply CPost.bind
        apply CPost.tok
        case he =>
          intro hc g h
          obtain ⟨c, ck, d, h1, h2, h3, h4⟩ := huniq g h
          simp_all
        intro ck hck
        apply CPost.bind
        apply CPost.child
        case he =>
          intro hc g h
          obtain ⟨c, ck, d, h1, h2, h3, h4⟩ := huniq g h
          simp_all
        intro dd hd
        refine (constructDefinition_spec ih _ _ _ _).mono ?_ ?_
          (fun ⟨c, h1, h2⟩ => ⟨c, .step hk (List.mem_of_getElem? hd) h1, h2⟩)
        · rintro p ns' ⟨h1, g, h2, h3⟩
          exact ⟨h1, g, .named hk hn hm hnk hc hck hd h2, h3⟩
        · intro hno g h
          obtain ⟨c', ck', d', h1, h2, h3, h4⟩ := huniq g h
          cases hd.symm.trans h3
          exact hno _ _ h4
      · intro hm
        dsimp only
        apply CPost.bind
        apply CPost.child
        case he =>
          intro hc g h
          cases h with
          | plain hk' hn' => simp_all
          | captured hk' hn' hm' => simp_all
          | named hk' hn' hm' => cases hk.symm.trans hk'; exact hm'.not_absent hm
        intro dd hd
        refine (constructDefinition_spec ih _ _ _ _).mono ?_ ?_
          (fun ⟨c, h1, h2⟩ => ⟨c, .step hk (List.mem_of_getElem? hd) h1, h2⟩)
        · rintro p ns' ⟨h1, g, h2, h3⟩
          exact ⟨h1, g, .captured hk hn hm hd h2, h3⟩
        · intro hno g h
          cases h with
          | plain hk' hn' => simp_all
          | captured hk' hn' hm' hd' h' =>
            cases hk.symm.trans hk'; cases hd.symm.trans hd'; exact hno _ _ h'
          | named hk' hn' hm' => cases hk.symm.trans hk'; exact hm'.not_absent hm
    · rename_i hn1
      split
      · rename_i hn
        refine (constructDefinition_spec ih _ _ _ _).mono ?_ ?_ id
        · rintro p ns' ⟨h1, g, h2, h3⟩
          exact ⟨h1, _, .plain hk hn h2, h3⟩
        · intro hno g h
          cases h with
          | plain hk' hn' h' => exact hno _ _ h'
          | captured hk' hn' hm' => simp_all
          | named hk' hn' hm' => simp_all
      · rename_i hn2
        apply CPost.err
        intro g h
        cases h <;> simp_all

end Adx
