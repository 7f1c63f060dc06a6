import Verif.Proofs.InterpScript
/-
  Scripts with imports whose definitions do not change.
-/
namespace Adx.Interp

open Peg (body Cuts Cut Ready Sim Keeps)

variable {w : World} {R : Str → Prop} {d : Quotes} {usr : SCtxId} {root : MatcherId} {lo : Nat} {m : MatcherId} {g : Gram}
  {k : SCtxId} {bs : List (Str × Thing)}

/-- The definitions `bs` are those of the scope `k`, and using them does not change them. -/
structure Home (w : World) (d : Quotes) (R : Str → Prop) (k : SCtxId) (bs : List (Str × Thing)) : Prop where
  inside : ∃ lo, InScope w lo k bs
  tame : TameDefs R bs
  sane : SaneDefs d bs

/-- The matchers of scripts and the nonterminals that they are. -/
inductive Placed (w : World) (d : Quotes) (R : Str → Prop) (usr : SCtxId) (root : MatcherId) :
    MatcherId → Nat → Place → Nat → Prop
  | gram {lo x k g bs} (hb : Built w.nodes lo x g) (hs : Sane d g) (hq : Quiet R g) (hk : Home w d R k bs) :
      Placed w d R usr root x k (.gram bs g) 0
  | thing {lo slo x k y th bs} (hx : IsThing w lo slo x th) (hy : w.st.lookup k y = some (.matcher x)) (ht : Tame R y th)
      (hs : SaneThing d th) (hk : Home w d R k bs) : Placed w d R usr root x k (.thing bs th) 0
  | whole {lo slo sc n gs bs} (hf : IsFile w lo slo root sc n gs bs) (hq : QuietAll R gs) (hs : ∀ g ∈ gs, Sane d g)
      (hk : Home w d R sc bs) : Placed w d R usr root root usr (.whole n gs bs) 0
  | inside {a b i sc ps k gs bs} {lo : Nat} (ha : w.nodes[a]? = some (.setScope (some sc) b))
      (hb : w.nodes[b]? = some (.proxyChildren i "Flatten".toList false))
      (hi : w.nodes[i]? = some (.program ps "Program".toList false none false))
      (hps : BuiltAll w.nodes lo ps gs) (hq : QuietAll R gs) (hs : ∀ g ∈ gs, Sane d g) (hsc : Home w d R sc bs)
      (hk : k = usr ∨ ∃ bs', Home w d R k bs') : Placed w d R usr root a k (.inside gs bs) 0
  | flat {b i sc ps gs bs} {lo : Nat} (hb : w.nodes[b]? = some (.proxyChildren i "Flatten".toList false))
      (hi : w.nodes[i]? = some (.program ps "Program".toList false none false))
      (hps : BuiltAll w.nodes lo ps gs) (hq : QuietAll R gs) (hs : ∀ g ∈ gs, Sane d g) (hsc : Home w d R sc bs) :
      Placed w d R usr root b sc (.flat gs bs) 0
  | all {i sc ps gs bs} {lo : Nat} (hi : w.nodes[i]? = some (.program ps "Program".toList false none false))
      (hps : BuiltAll w.nodes lo ps gs) (hq : QuietAll R gs) (hs : ∀ g ∈ gs, Sane d g) (hsc : Home w d R sc bs) :
      Placed w d R usr root i sc (.all gs bs) 0
  | renamed {a x sc bs ident name} (ha : w.nodes[a]? = some (.map x (renameToken name) passFailure))
      (hx : w.st.lookup sc ident = some (.matcher x)) (hsc : Home w d R sc bs) :
      Placed w d R usr root a sc (.renamed bs ident name) 0

/-- Nothing that matters has changed. -/
structure Still (w : World) (R : Str → Prop) (usr : SCtxId) (v : Vars) (_ : Unit) : Prop where
  steady : Steady R w (heapOf v)
  user : usr < (heapOf v).sctxs.length

theorem Home.lt (h : Home w d R k bs) : k < w.st.sctxs.length := by
  obtain ⟨_, h⟩ := h.inside
  exact h.lt

/-- What a name stands for. -/
theorem Home.get (h : Home w d R k bs) (x : Str) :
    (lastDef bs x = none ∧ w.st.lookup k x = none) ∨
    ∃ th y, lastDef bs x = some th ∧ w.st.lookup k x = some (.matcher y) ∧ Placed w d R usr root y k (.thing bs th) 0 := by
  obtain ⟨lo, hi⟩ := h.inside
  cases hl : lastDef bs x with
  | none =>
    cases hi with
    | mk _ f hd ht hu => exact Or.inl ⟨rfl, hu x hl⟩
  | some th =>
    cases hi with
    | mk _ f hd ht hu =>
      cases h.tame with
      | mk htame =>
        cases h.sane with
        | mk hsane =>
          exact Or.inr ⟨th, f x, rfl, hd x th hl, .thing (ht x th hl) (hd x th hl) (htame x th hl) (hsane x th hl) h⟩

theorem Still.get {v : Vars} {u : Unit} (h : Still w R usr v u) (hk : k < w.st.sctxs.length) {x : Str} (hx : R x) :
    (heapOf v).lookup k x = w.st.lookup k x := h.steady.look k hk x hx

/-- A name for a matcher that is not called by this name, or stands for it already. -/
theorem Still.set {v : Vars} {u : Unit} (h : Still w R usr v u) (hk : k < (heapOf v).sctxs.length) {l : Str} {y : MatcherId}
    (hl : k < w.st.sctxs.length → R l → w.st.lookup k l = some (.matcher y)) :
    Still w R usr (heapNames.set v k l y) u := by
  obtain ⟨h1, h2, h3⟩ := C09_set_get (heapOf v) h.steady.ok k hk l (.matcher y)
  have hlen := bindVar_length h.steady.ok hk l (.matcher y)
  refine ⟨⟨?_, ?_, ?_⟩, ?_⟩
  · rw [heapOf_set]
    exact h.steady.ok.bindVar hk _ _
  · rw [heapOf_set, hlen]
    exact h.steady.alive
  · intro k' hk' x hx
    rw [heapOf_set]
    by_cases hkk : k' = k
    · subst hkk
      by_cases hxl : x = l
      · subst hxl
        rw [h1, hl hk' hx]
      · rw [h2 x hxl]
        exact h.get hk' hx
    · rw [h3 k' x hkk]
      exact h.get hk' hx
  · rw [heapOf_set, hlen]
    exact h.user

theorem placeExpr_eq (hnr : ∀ n c x, g ≠ .ref n c x) : placeExpr bs g = gramExpr (.gram bs) g := by
  cases g with
  | ref n c x => exact (hnr _ _ _ rfl).elim
  | _ => rfl

theorem built_call {ns : List Node} {l : Str} (hb : Built ns lo m g) (hs : Sane d g)
    (he : (tableGrammar (tableOf ns)).expr m = .call l) : ∃ n c, g = .ref n c l := by
  by_cases hr : ∃ n c y, g = .ref n c y
  · obtain ⟨n, c, y, rfl⟩ := hr
    rw [built_ref hb] at he
    cases he
    exact ⟨_, _, rfl⟩
  · exfalso
    have := built_like (f := fun g => g) (nm' := ⟨fun (_ : Unit) _ _ => none, fun _ _ _ _ => ()⟩)
      (Rel := fun _ _ _ _ => True) (Inv := fun _ _ => True) (k := 0) (k' := 0) hb hs (fun n c y he => hr ⟨n, c, y, he⟩)
      (fun _ _ _ _ => trivial)
    rw [he] at this
    generalize hg : gramExpr (fun g => g) g = e at this
    have nj : ∀ y, gramExpr (fun g => g) g ≠ .jump y := by
      intro y hy
      cases g with
      | group n c fi gs => cases fi <;> cases hy
      | _ => cases hy
    have nc : ∀ y, gramExpr (fun g => g) g ≠ .call y := by
      intro y hy
      cases g with
      | group n c fi gs => cases fi <;> cases hy
      | ref n c x => exact hr ⟨_, _, _, rfl⟩
      | _ => cases hy
    cases this with
    | call => exact nc _ hg
    | resolved => exact nj _ hg

theorem place_like (hb : Built w.nodes lo m g) (hs : Sane d g) (hq : QuietParts R g) (hk : Home w d R k bs) :
    Like heapNames noNames (Placed w d R usr root) (Still w R usr) k 0 ((tableGrammar (tableOf w.nodes)).expr m)
      (placeExpr bs g) := by
  by_cases hr : ∃ n c y, g = .ref n c y
  · obtain ⟨n, c, y, rfl⟩ := hr
    rw [built_ref hb]
    have hy : R y := by cases hq with | ref h => exact h
    unfold placeExpr
    dsimp only
    rcases hk.get (usr := usr) (root := root) y with ⟨h1, h2⟩ | ⟨th, z, h1, h2, h3⟩
    · rw [h1]
      refine .call fun st st' hinv => ?_
      have : heapNames.get st k y = none := by
        cases hg : heapNames.get st k y with
        | none => rfl
        | some z =>
          have := heap_get.mp hg
          rw [hinv.get hk.lt hy, h2] at this
          cases this
      rw [this]
      exact .none
    · rw [h1]
      refine .resolved fun st st' hinv => ⟨z, heap_get.mpr ?_, h3⟩
      rw [hinv.get hk.lt hy, h2]
  · have hnr : ∀ n c x, g ≠ .ref n c x := fun n c y he => hr ⟨n, c, y, he⟩
    rw [placeExpr_eq hnr]
    exact built_like hb hs hnr fun i g' hi hg' => .gram hi (hs.part hg') (hq.part hg') hk

theorem alike_fixed (hu : w.st.sctxs.length ≤ usr) :
    Alike (tableGrammar (tableOf w.nodes)) heapNames fixedGrammar noNames (Placed w d R usr root) (Still w R usr) := by
  refine ⟨?_, ?_⟩
  · intro x k t k' h
    cases h with
    | gram hb hs hq hk =>
      cases hq with
      | mk _ hq => exact place_like hb hs hq hk
    | thing hx hy ht hs hk =>
      cases hx with
      | own hb =>
        cases ht with
        | own _ hq =>
          cases hs with
          | own hs => exact place_like hb hs hq hk
      | file hf =>
        cases hf with
        | mk hl hs1 hm hla ha hlb hb hli hi hps hbs =>
          cases ht with
          | file _ hq htd =>
            cases hs with
            | file hs hsd =>
              rw [(layer_seq hm).1]
              exact .seq (.cons (.inside ha hb hi hps hq hs ⟨⟨_, hbs⟩, htd, hsd⟩ (Or.inr ⟨_, hk⟩)) .nil)
      | member hl hla hs1 hm ha hx hbs =>
        cases ht with
        | member htd =>
          cases hs with
          | member hsd =>
            rw [(layer_within hm).1]
            exact .within (.renamed ha hx ⟨⟨_, hbs⟩, htd, hsd⟩)
    | whole hf hq hs hk =>
      cases hf with
      | mk hl hs1 hm hla ha hlb hb hli hi hps hbs =>
        rw [(layer_seq hm).1]
        exact .seq (.cons (.inside ha hb hi hps hq hs hk (Or.inl rfl)) .nil)
    | inside ha hb hi hps hq hs hsc =>
      rw [(layer_within ha).1]
      exact .within (.flat hb hi hps hq hs hsc)
    | flat hb hi hps hq hs hsc =>
      rw [(layer_flat hb).1]
      exact .flat (.all hi hps hq hs hsc)
    | all hi hps hq hs hsc =>
      rw [(layer_seq hi).1]
      exact .seq (builtAll_rel (Nat.le_refl _) hps fun j g' hj hg' => .gram hj (hs g' hg') (hq.mem hg') hsc)
    | @renamed _ x _ bs ident name ha hx hsc =>
      rw [(layer_rename ha).1]
      show Like _ _ _ _ _ _ _ (match lastDef bs ident with | some th => _ | none => _)
      rcases hsc.get (usr := usr) (root := root) ident with ⟨h1, h2⟩ | ⟨th, z, h1, h2, h3⟩
      · rw [hx] at h2
        cases h2
      · rw [hx] at h2
        cases h2
        rw [h1]
        exact .rename h3
  · intro x k t k' st st' h hinv
    have hlt : ∀ {k bs}, Home w d R k bs → k < (heapOf st).sctxs.length := fun h => Nat.lt_of_lt_of_le h.lt hinv.steady.alive
    show Still w R usr (Interp.enter _ heapNames x k st) st'
    unfold Interp.enter
    cases h with
    | gram hb hs hq hk =>
      rw [built_label hb]
      cases hq with
      | mk hl _ =>
        cases he : gramLabel _ with
        | none => exact hinv
        | some l => exact hinv.set (hlt hk) fun _ hr => (hl l he hr).elim
    | thing hx hy ht hs hk =>
      cases hx with
      | own hb =>
        rw [built_label hb]
        cases ht with
        | own hl _ =>
          cases he : gramLabel _ with
          | none => exact hinv
          | some l =>
            refine hinv.set (hlt hk) fun _ hr => ?_
            rw [hl l he hr]
            exact hy
      | file hf =>
        cases hf with
        | mk hl hs1 hm hla ha hlb hb hli hi hps hbs =>
          rw [(layer_seq hm).2]
          cases ht with
          | file hn hq htd =>
            refine hinv.set (hlt hk) fun _ hr => ?_
            rw [hn hr]
            exact hy
      | member hl hla hs1 hm ha hx hbs =>
        rw [(layer_within hm).2]
        exact hinv
    | whole hf hq hs hk =>
      cases hf with
      | mk hl hs1 hm hla ha hlb hb hli hi hps hbs =>
        rw [(layer_seq hm).2]
        exact hinv.set hinv.user fun h => absurd h (Nat.not_lt_of_le hu)
    | inside ha =>
      rw [(layer_within ha).2]
      exact hinv
    | flat hb =>
      rw [(layer_flat hb).2]
      exact hinv
    | all hi =>
      rw [(layer_seq hi).2]
      exact hinv
    | renamed ha =>
      rw [(layer_rename ha).2]
      exact hinv

theorem placeExpr_re {l : Str} {find : Str → Option (Nat × Nat)} (hs : Sane d g)
    (h : placeExpr bs g = .re l find) : Cuts find := by
  by_cases hr : ∃ n c y, g = .ref n c y
  · obtain ⟨n, c, y, rfl⟩ := hr
    unfold placeExpr at h
    dsimp only at h
    split at h <;> cases h
  · rw [placeExpr_eq fun n c y he => hr ⟨n, c, y, he⟩] at h
    exact gramExpr_re hs h

theorem placeExpr_delim {l a b e : Str} (hs : Sane d g) (h : placeExpr bs g = .delim l a b e) : d a b e := by
  by_cases hr : ∃ n c y, g = .ref n c y
  · obtain ⟨n, c, y, rfl⟩ := hr
    unfold placeExpr at h
    dsimp only at h
    split at h <;> cases h
  · rw [placeExpr_eq fun n c y he => hr ⟨n, c, y, he⟩] at h
    exact gramExpr_delim hs h

/-- The engine on a script. -/
theorem fixed_run {slo : Nat} {sc : SCtxId} {n : Str} {gs : List Gram} {s : State} {c : Ctx} {p : Parser} {stop : Nat}
    {cfg : Cfg} {fuel : Nat} (hf : IsFile w lo slo m sc n gs bs) (hst : Steady R w s)
    (hc : Ready p stop c) (hcut : Cut p.src stop c.offset.start) (hb : blen p.src ≤ isizeMax)
    (hnew : w.st.sctxs.length ≤ c.scope) (hu : c.scope < s.sctxs.length)
    (hfree : ∀ x y, s.lookup c.scope x = some (.matcher y) → y = m)
    (hq : QuietAll R gs) (ht : TameDefs R bs) (hgs : ∀ g ∈ gs, Sane (AsciiBetween p.src) g) (hbs : SaneDefs (AsciiBetween p.src) bs) :
    Sim (tokenize (tableOf w.nodes) cfg fuel c m s) (runFixed p stop n gs bs fuel c.offset.start)
      (fun r s' x => SeesRoot s'.toks r x ∧ Keeps s.toks.length s s' ∧
        s'.toks.length = s.toks.length + work fixedGrammar noNames p stop fuel (.whole n gs bs) 0 c.offset.start () ∧
        Steady R w s') := by
  have hA := alike_fixed (d := AsciiBetween p.src) (R := R) (root := m) hnew
  have hhome : Home w (AsciiBetween p.src) R sc bs := by
    cases hf with
    | mk _ _ _ _ _ _ _ _ _ _ h => exact ⟨⟨_, h⟩, ht, hbs⟩
  have hI : Still w R c.scope (vars s) () := ⟨⟨heapOf_ok.mpr hst.ok, hst.alive, hst.look⟩, hu⟩
  have hS := run_like (cfg := cfg) (n := fuel) (c := c) (p := p) (stop := stop) (s := s) (C := R) hA ?_ ?_ ?_ hb
    (.whole hf hq hgs hhome) hI hc hcut ?_ ?_
  · unfold runFixed
    generalize eval fixedGrammar noNames p stop fuel (.whole n gs bs) 0 c.offset.start () = e at hS
    generalize tokenize (tableOf w.nodes) cfg fuel c m s = res at hS
    cases e with
    | none => cases res <;> exact hS
    | some x =>
      cases res with
      | ok r s' =>
        obtain ⟨h1, h2, h3, h4⟩ := hS
        exact ⟨h1, h2, h4, ⟨heapOf_ok.mp h3.steady.ok, h3.steady.alive, h3.steady.look⟩⟩
      | panic _ => exact hS
      | diverge => exact hS
  · intro x k y k' h
    cases h with
    | gram hb hs => exact built_shape hb hs
    | thing hx _ _ hs =>
      cases hx with
      | own hb => cases hs with | own hs => exact built_shape hb hs
      | file hf => cases hf with | mk _ _ hm => rw [table_at hm]; exact ⟨_, .seq⟩
      | member _ _ _ hm => rw [table_at hm]; exact ⟨_, .within⟩
    | whole hf => cases hf with | mk _ _ hm => rw [table_at hm]; exact ⟨_, .seq⟩
    | inside ha => rw [table_at ha]; exact ⟨_, .within⟩
    | flat hb' => rw [table_at hb']; exact ⟨_, .flat⟩
    | all hi => rw [table_at hi]; exact ⟨_, .seq⟩
    | renamed ha => rw [table_at ha]; exact ⟨_, .rename⟩
  · intro x k y k' l f h he
    cases h with
    | gram hb hs => exact placeExpr_re hs he
    | thing hx _ _ hs =>
      cases hs with
      | own hs => exact placeExpr_re hs he
      | _ => cases he
    | @renamed _ _ _ bs ident name =>
      change (match lastDef bs ident with | some th => Expr.rename name (Place.thing bs th) | none => .call ident) = _ at he
      cases hl : lastDef bs ident with
      | none => rw [hl] at he; cases he
      | some th => rw [hl] at he; cases he
    | _ => cases he
  · intro x k y k' h l a b e he
    cases h with
    | gram hb hs => exact placeExpr_delim hs he
    | thing hx _ _ hs =>
      cases hs with
      | own hs => exact placeExpr_delim hs he
      | _ => cases he
    | @renamed _ _ _ bs ident name =>
      change (match lastDef bs ident with | some th => Expr.rename name (Place.thing bs th) | none => .call ident) = _ at he
      cases hl : lastDef bs ident with
      | none => rw [hl] at he; cases he
      | some th => rw [hl] at he; cases he
    | _ => cases he
  · intro x k y k' l h he
    cases h with
    | gram hb hs hq =>
      obtain ⟨n, c, rfl⟩ := built_call hb hs he
      cases hq with
      | mk _ hq => cases hq with | ref h => exact h
    | thing hx _ ht hs =>
      cases hx with
      | own hb =>
        cases hs with
        | own hs =>
          obtain ⟨n, c, rfl⟩ := built_call hb hs he
          cases ht with
          | own _ hq => cases hq with | ref h => exact h
      | file hf => cases hf with | mk _ _ hm => rw [(layer_seq hm).1] at he; cases he
      | member _ _ _ hm => rw [(layer_within hm).1] at he; cases he
    | whole hf => cases hf with | mk _ _ hm => rw [(layer_seq hm).1] at he; cases he
    | inside ha => rw [(layer_within ha).1] at he; cases he
    | flat hb' => rw [(layer_flat hb').1] at he; cases he
    | all hi => rw [(layer_seq hi).1] at he; cases he
    | renamed ha => rw [(layer_rename ha).1] at he; cases he
  · rintro k ⟨x, y, k', h⟩ z hz t hzt
    have inner : ∀ {k bs}, Home w (AsciiBetween p.src) R k bs → s.lookup k z = some (.matcher t) →
        ∃ k y k', Placed w (AsciiBetween p.src) R c.scope m t k y k' := by
      intro k bs hh hzt
      rw [hst.look k hh.lt z hz] at hzt
      rcases hh.get (usr := c.scope) (root := m) z with ⟨-, h2⟩ | ⟨th, t', h1, h2, h3⟩
      · rw [hzt] at h2
        cases h2
      · rw [hzt] at h2
        cases h2
        exact ⟨_, _, _, h3⟩
    have outer : s.lookup c.scope z = some (.matcher t) → ∃ k y k', Placed w (AsciiBetween p.src) R c.scope m t k y k' := by
      intro hzt
      cases hfree _ _ hzt
      exact ⟨_, _, _, .whole hf hq hgs hhome⟩
    cases h with
    | gram _ _ _ hk => exact inner hk hzt
    | thing _ _ _ _ hk => exact inner hk hzt
    | whole => exact outer hzt
    | inside _ _ _ _ _ _ _ hk =>
      rcases hk with rfl | ⟨bs', hk⟩
      · exact outer hzt
      · exact inner hk hzt
    | flat _ _ _ _ _ hk => exact inner hk hzt
    | all _ _ _ _ hk => exact inner hk hzt
    | renamed _ _ hk => exact inner hk hzt

end Adx.Interp
