import Verif.Spec.Linked
import Verif.Proofs.InterpFixed
/-
  Scripts with imports whose definitions change.
-/
namespace Adx.Interp

open Peg (body Cuts Cut Ready Sim Keeps)

variable {w : World} {d : Quotes}

/-! ### Numbers of scopes -/

theorem branch_inj {k t k' t' : Nat} (h : branch k t = branch k' t') : k = k' ∧ t = t' :=
  Nat.pair_eq_pair.mp (Nat.add_right_cancel h)

theorem lt_branch (k t : Nat) : k < branch k t := Nat.lt_succ_of_le (Nat.le_succ_of_le (Nat.left_le_pair k t))

theorem branch_ne {k t : Nat} : branch k t ≠ 1 := by
  unfold branch
  omega

/-- Where the scopes of a script are on the heap.  The script has the definitions `bs0` in the
scope `sc0`, which has the number `k0`. -/
inductive Locus (w : World) : Nat → SCtxId → List (Str × Thing) → Nat → SCtxId → List (Str × Thing) → Prop
  | here {k sc bs} : Locus w k sc bs k sc bs
  | down {k0 sc0 bs0 x th t y lo sc' k sc bs} (hx : lastDef bs0 x = some th) (ht : th.tag = some t)
      (hl : w.st.lookup sc0 x = some (.matcher y)) (hw : WorksIn w.nodes lo y sc')
      (h : Locus w (branch k0 t) sc' th.defs k sc bs) : Locus w k0 sc0 bs0 k sc bs

theorem Locus.snoc {k0 sc0 bs0 k sc bs x th t y lo sc'} (h : Locus w k0 sc0 bs0 k sc bs) (hx : lastDef bs x = some th) (ht : th.tag = some t)
    (hl : w.st.lookup sc x = some (.matcher y)) (hw : WorksIn w.nodes lo y sc') : Locus w k0 sc0 bs0 (branch k t) sc' th.defs := by
  induction h with
  | here => exact .down hx ht hl hw .here
  | down hx' ht' hl' hw' _ ih => exact .down hx' ht' hl' hw' (ih hx hl)

/-- A scope is that of the script, or one that was imported into another. -/
theorem Locus.last {k0 sc0 bs0 k sc bs} (h : Locus w k0 sc0 bs0 k sc bs) :
    (k = k0 ∧ sc = sc0 ∧ bs = bs0) ∨ ∃ k1 sc1 bs1 x th t y lo, Locus w k0 sc0 bs0 k1 sc1 bs1 ∧ lastDef bs1 x = some th ∧ th.tag = some t ∧
      w.st.lookup sc1 x = some (.matcher y) ∧ WorksIn w.nodes lo y sc ∧ k = branch k1 t ∧ bs = th.defs := by
  induction h with
  | here => exact Or.inl ⟨rfl, rfl, rfl⟩
  | down hx ht hl hw _ ih =>
    rcases ih with ⟨rfl, rfl, rfl⟩ | ⟨k1, sc1, bs1, x1, th1, t1, y1, lo1, h1, h2⟩
    · exact Or.inr ⟨_, _, _, _, _, _, _, _, .here, hx, ht, hl, hw, rfl, rfl⟩
    · exact Or.inr ⟨k1, sc1, bs1, x1, th1, t1, y1, lo1, .down hx ht hl hw h1, h2⟩

theorem Locus.le {k0 sc0 bs0 k sc bs} (h : Locus w k0 sc0 bs0 k sc bs) : k0 ≤ k := by
  induction h with
  | here => exact Nat.le_refl _
  | down _ _ _ _ _ ih => exact Nat.le_of_lt (Nat.lt_of_lt_of_le (lt_branch _ _) ih)

/-- The scope of a matcher is determined. -/
theorem WorksIn.unique {ns : List Node} {lo lo' m : Nat} {sc sc' : SCtxId} (h : WorksIn ns lo m sc) (h' : WorksIn ns lo' m sc') : sc = sc' := by
  cases h with
  | member _ hm =>
    cases h' with
    | member _ hm' =>
      rw [hm] at hm'
      cases hm'
      rfl
    | file _ _ hm' =>
      rw [hm] at hm'
      cases hm'
  | file _ _ hm ha =>
    cases h' with
    | member _ hm' =>
      rw [hm] at hm'
      cases hm'
    | file _ _ hm' ha' =>
      rw [hm] at hm'
      cases hm'
      rw [ha] at ha'
      cases ha'
      rfl

/-- The first step down, among scopes that are a tree. -/
theorem Grafted.step {lo lo' : Nat} {sc : SCtxId} {bs : List (Str × Thing)} {g : Nat → SCtxId} {D : Nat → List (Str × Thing)} {f : Str → MatcherId}
    (look : ∀ x th t, lastDef bs x = some th → th.tag = some t → w.st.lookup sc x = some (.matcher (f x)))
    (works : ∀ x th t, lastDef bs x = some th → th.tag = some t → WorksIn w.nodes lo (f x) (g t))
    (same : ∀ b ∈ bs, ∀ t, b.2.tag = some t → b.2.defs = D t) {x : Str} {th : Thing} {t : Nat} {y : MatcherId} {sc' : SCtxId}
    (hx : lastDef bs x = some th) (ht : th.tag = some t) (hl : w.st.lookup sc x = some (.matcher y)) (hw : WorksIn w.nodes lo' y sc') :
    sc' = g t ∧ th.defs = D t ∧ HasTag bs t := by
  rw [look x th t hx ht] at hl
  cases hl
  exact ⟨WorksIn.unique hw (works x th t hx ht), same _ (lastDef_mem hx) t ht, _, lastDef_mem hx, ht⟩

/-- Scopes of a tree are trees, and inside it. -/
theorem Locus.grafted {k0 sc0 bs0 k sc bs lo hi} (h : Locus w k0 sc0 bs0 k sc bs) (hg : Grafted w lo sc0 hi bs0) :
    sc0 ≤ sc ∧ ∃ hi', hi' ≤ hi ∧ sc < hi' ∧ Grafted w lo sc hi' bs := by
  induction h generalizing hi with
  | here =>
    have hg' := hg
    cases hg with
    | mk _ _ _ lt => exact ⟨Nat.le_refl _, hi, Nat.le_refl _, lt, hg'⟩
  | down hx ht hl hw _ ih =>
    cases hg with
    | mk g e D lt le f look works same sub above below apart =>
      obtain ⟨rfl, h2, h3⟩ := Grafted.step look works same hx ht hl hw
      obtain ⟨h4, hi', h5, h6, h7⟩ := ih (h2 ▸ sub _ h3)
      exact ⟨Nat.le_trans (Nat.le_of_lt (above _ h3)) h4, hi', Nat.le_trans h5 (below _ h3), h6, h7⟩

/-- Scopes of the heap have one number. -/
theorem Locus.inj {lo : Nat} {sc0 hi : SCtxId} {bs0 : List (Str × Thing)} (hg : Grafted w lo sc0 hi bs0) :
    ∀ {k0 k sc bs k' bs'}, Locus w k0 sc0 bs0 k sc bs → Locus w k0 sc0 bs0 k' sc bs' → k = k' := by
  induction hg with
  | mk g e D lt le f look works same sub above below apart ih =>
    intro k0 k sc bs k' bs' h h'
    cases h with
    | here =>
      cases h' with
      | here => rfl
      | down hx ht hl hw h' =>
        obtain ⟨rfl, h2, h3⟩ := Grafted.step look works same hx ht hl hw
        have := (h'.grafted (h2 ▸ sub _ h3)).1
        exact (Nat.not_lt_of_le this (above _ h3)).elim
    | @down _ _ _ x th t y lo' sc' _ _ _ hx ht hl hw h =>
      obtain ⟨rfl, h2, h3⟩ := Grafted.step look works same hx ht hl hw
      cases h' with
      | here =>
        have := (h.grafted (h2 ▸ sub _ h3)).1
        exact (Nat.not_lt_of_le this (above _ h3)).elim
      | @down _ _ _ x' th' t' y' lo'' sc'' _ _ _ hx' ht' hl' hw' h' =>
        obtain ⟨rfl, h2', h3'⟩ := Grafted.step look works same hx' ht' hl' hw'
        obtain ⟨h4, _, h5, h6, -⟩ := h.grafted (h2 ▸ sub _ h3)
        obtain ⟨h4', _, h5', h6', -⟩ := h'.grafted (h2' ▸ sub _ h3')
        rcases Nat.lt_trichotomy t t' with hlt | rfl | hlt
        · exact (Nat.lt_irrefl _ (Nat.lt_of_lt_of_le h6 (Nat.le_trans h5 (Nat.le_trans (apart t t' h3 h3' hlt) h4')))).elim
        · exact ih _ h3 (h2 ▸ h) (h2' ▸ h')
        · exact (Nat.lt_irrefl _ (Nat.lt_of_lt_of_le h6' (Nat.le_trans h5' (Nat.le_trans (apart t' t h3' h3 hlt) h4)))).elim

/-- Numbers have one scope of the heap. -/
theorem Locus.unique {lo : Nat} {sc0 hi : SCtxId} {bs0 : List (Str × Thing)} (hg : Grafted w lo sc0 hi bs0) {k0 : Nat} :
    ∀ {k sc bs sc' bs'}, Locus w k0 sc0 bs0 k sc bs → Locus w k0 sc0 bs0 k sc' bs' → sc = sc' ∧ bs = bs' := by
  intro k
  induction k using Nat.strong_induction_on with
  | _ k ih =>
    intro sc bs sc' bs' h h'
    rcases h.last with ⟨h1, h2, h3⟩ | ⟨k1, sc1, bs1, x, th, t, y, lo1, hs, hx, ht, hl, hw, rfl, rfl⟩
    · rcases h'.last with ⟨h1', h2', h3'⟩ | ⟨k1, sc1, bs1, x, th, t, y, lo1, hs, hx, ht, hl, hw, rfl, rfl⟩
      · exact ⟨h2.trans h2'.symm, h3.trans h3'.symm⟩
      · have := hs.le
        have := lt_branch k1 t
        omega
    · rcases h'.last with ⟨h1', h2', h3'⟩ | ⟨k1', sc1', bs1', x', th', t', y', lo1', hs', hx', ht', hl', hw', he, rfl⟩
      · have := hs.le
        have := lt_branch k1 t
        omega
      · obtain ⟨rfl, rfl⟩ := branch_inj he
        obtain ⟨rfl, rfl⟩ := ih k1 (lt_branch _ _) hs hs'
        obtain ⟨_, _, _, _, hg'⟩ := hs.grafted hg
        cases hg' with
        | mk g e D lt le f look works same sub above below apart =>
          obtain ⟨rfl, h2, -⟩ := Grafted.step look works same hx ht hl hw
          obtain ⟨rfl, h2', -⟩ := Grafted.step look works same hx' ht' hl' hw'
          exact ⟨rfl, h2.trans h2'.symm⟩

/-! ### The scopes in the beginning -/

/-- The scopes of a script that has the definitions `bs0`, and the number `k0`. -/
inductive Inner : Nat → List (Str × Thing) → Nat → List (Str × Thing) → Prop
  | here {k bs} : Inner k bs k bs
  | down {k0 bs0 b t k bs} (hb : b ∈ bs0) (ht : b.2.tag = some t) (h : Inner (branch k0 t) b.2.defs k bs) : Inner k0 bs0 k bs

theorem Locus.has {k0 sc0 bs0 k sc bs} (h : Locus w k0 sc0 bs0 k sc bs) : Inner k0 bs0 k bs := by
  induction h with
  | here => exact .here
  | down hx ht _ _ _ ih => exact .down (lastDef_mem hx) ht ih

theorem Inner.last {k0 bs0 k bs} (h : Inner k0 bs0 k bs) :
    (k = k0 ∧ bs = bs0) ∨ ∃ k1 bs1 b t, Inner k0 bs0 k1 bs1 ∧ b ∈ bs1 ∧ b.2.tag = some t ∧ k = branch k1 t ∧ bs = b.2.defs := by
  induction h with
  | here => exact Or.inl ⟨rfl, rfl⟩
  | down hb ht _ ih =>
    rcases ih with ⟨rfl, rfl⟩ | ⟨k1, bs1, b1, t1, h1, h2⟩
    · exact Or.inr ⟨_, _, _, _, .here, hb, ht, rfl, rfl⟩
    · exact Or.inr ⟨k1, bs1, b1, t1, .down hb ht h1, h2⟩

theorem Inner.le {k0 bs0 k bs} (h : Inner k0 bs0 k bs) : k0 ≤ k := by
  induction h with
  | here => exact Nat.le_refl _
  | down _ _ _ ih => exact Nat.le_of_lt (Nat.lt_of_lt_of_le (lt_branch _ _) ih)

theorem Inner.grafted {k0 bs0 k bs lo sc0 hi} (h : Inner k0 bs0 k bs) (hg : Grafted w lo sc0 hi bs0) : ∃ sc hi', Grafted w lo sc hi' bs := by
  induction h generalizing sc0 hi with
  | here => exact ⟨_, _, hg⟩
  | down hb ht _ ih =>
    cases hg with
    | mk g e D lt le f look works same sub above below apart => exact ih (same _ hb _ ht ▸ sub _ ⟨_, hb, ht⟩)

theorem Inner.unique {lo : Nat} {sc0 hi : SCtxId} {bs0 : List (Str × Thing)} (hg : Grafted w lo sc0 hi bs0) {k0 : Nat} :
    ∀ {k bs bs'}, Inner k0 bs0 k bs → Inner k0 bs0 k bs' → bs = bs' := by
  intro k
  induction k using Nat.strong_induction_on with
  | _ k ih =>
    intro bs bs' h h'
    rcases h.last with ⟨h1, h3⟩ | ⟨k1, bs1, b, t, hs, hb, ht, rfl, rfl⟩
    · rcases h'.last with ⟨h1', h3'⟩ | ⟨k1, bs1, b, t, hs, hb, ht, rfl, rfl⟩
      · exact h3.trans h3'.symm
      · have := hs.le
        have := lt_branch k1 t
        omega
    · rcases h'.last with ⟨h1', h3'⟩ | ⟨k1', bs1', b', t', hs', hb', ht', he, rfl⟩
      · have := hs.le
        have := lt_branch k1 t
        omega
      · obtain ⟨rfl, rfl⟩ := branch_inj he
        obtain rfl := ih k1 (lt_branch _ _) hs hs'
        obtain ⟨_, _, hg'⟩ := hs.grafted hg
        cases hg' with
        | mk g e D lt le f look works same sub above below apart => exact (same b hb t ht).trans (same b' hb' t ht').symm

mutual

theorem mem_scopesThing {k : Nat} {e : Nat × List (Str × Thing)} : ∀ {th : Thing}, e ∈ scopesThing k th →
    ∃ t, th.tag = some t ∧ Inner (branch k t) th.defs e.1 e.2
  | .own _, h => nomatch h
  | .file t n gs bs, h => by
    unfold scopesThing at h
    rcases List.mem_cons.mp h with rfl | h
    · exact ⟨t, rfl, .here⟩
    · obtain ⟨b, hb, t', ht, h⟩ := mem_scopesDefs h
      exact ⟨t, rfl, .down hb ht h⟩
  | .member t bs _ _, h => by
    unfold scopesThing at h
    rcases List.mem_cons.mp h with rfl | h
    · exact ⟨t, rfl, .here⟩
    · obtain ⟨b, hb, t', ht, h⟩ := mem_scopesDefs h
      exact ⟨t, rfl, .down hb ht h⟩
termination_by structural th => th

theorem mem_scopesDef {k : Nat} {e : Nat × List (Str × Thing)} : ∀ {b : Str × Thing}, e ∈ scopesDef k b →
    ∃ t, b.2.tag = some t ∧ Inner (branch k t) b.2.defs e.1 e.2
  | (_, _), h => mem_scopesThing h
termination_by structural b => b

theorem mem_scopesDefs {k : Nat} {e : Nat × List (Str × Thing)} : ∀ {bs : List (Str × Thing)}, e ∈ scopesDefs k bs →
    ∃ b ∈ bs, ∃ t, b.2.tag = some t ∧ Inner (branch k t) b.2.defs e.1 e.2
  | [], h => nomatch h
  | b :: bs, h => by
    unfold scopesDefs at h
    rcases List.mem_append.mp h with h | h
    · exact ⟨b, List.mem_cons_self .., mem_scopesDef h⟩
    · obtain ⟨b', h1, h2⟩ := mem_scopesDefs h
      exact ⟨b', List.mem_cons_of_mem _ h1, h2⟩
termination_by structural bs => bs

end

theorem scopesDefs_mem {k : Nat} {e : Nat × List (Str × Thing)} {bs : List (Str × Thing)} {b : Str × Thing} (hb : b ∈ bs)
    (h : e ∈ scopesDef k b) : e ∈ scopesDefs k bs := by
  induction bs with
  | nil => exact nomatch hb
  | cons b' bs ih =>
    unfold scopesDefs
    rcases List.mem_cons.mp hb with rfl | hb
    · exact List.mem_append_left _ h
    · exact List.mem_append_right _ (ih hb)

theorem Inner.mem {k0 bs0 k bs} (h : Inner k0 bs0 k bs) : (k, bs) ∈ (k0, bs0) :: scopesDefs k0 bs0 := by
  induction h with
  | here => exact List.mem_cons_self ..
  | @down k0 bs0 b t k bs hb ht _ ih =>
    refine List.mem_cons_of_mem _ (scopesDefs_mem hb ?_)
    obtain ⟨x, th⟩ := b
    cases th with
    | own => cases ht
    | file => cases ht; exact ih
    | member => cases ht; exact ih

theorem scopesOf_inner {bs : List (Str × Thing)} {e : Nat × List (Str × Thing)} (h : e ∈ scopesOf bs) : Inner 1 bs e.1 e.2 := by
  rcases List.mem_cons.mp h with rfl | h
  · exact .here
  · obtain ⟨b, hb, t, ht, h⟩ := mem_scopesDefs h
    exact .down hb ht h

/-- The definitions of the scopes in the beginning. -/
theorem scopesOf_defs {lo : Nat} {sc0 hi : SCtxId} {bs0 : List (Str × Thing)} (hg : Grafted w lo sc0 hi bs0) {k : Nat} {bs : List (Str × Thing)}
    (h : Inner 1 bs0 k bs) : (scopesOf bs0).defs k = bs := by
  unfold Layout.defs
  cases hf : (scopesOf bs0).find? fun e => e.1 == k with
  | none => exact (List.find?_eq_none.mp hf _ h.mem (beq_self_eq_true k)).elim
  | some e =>
    obtain ⟨k', bs'⟩ := e
    have h1 := scopesOf_inner (List.mem_of_find?_eq_some hf)
    obtain rfl : k' = k := by simpa using List.find?_some hf
    exact h1.unique hg h

theorem defs_add {σ : Layout} {k k' : Nat} {x : Str} {th : Thing} :
    (σ.add k x th).defs k' = if k' = k then σ.defs k ++ [(x, th)] else σ.defs k' := by
  unfold Layout.add
  rw [Layout.defs, List.find?_cons]
  by_cases h : k' = k
  · subst h
    rw [if_pos rfl]
    dsimp only
    rw [beq_self_eq_true]
  · rw [if_neg h]
    dsimp only
    rw [beq_false_of_ne (Ne.symm h)]
    rfl

/-! ### Matchers and things -/

/-- The matcher `m` is this thing in the scope of number `k`.  The scopes are where `P`
says. -/
inductive IsLink (w : World) (d : Quotes) (P : Nat → SCtxId → List (Str × Thing) → Prop) : Nat → MatcherId → Thing → Prop
  | own {lo k m g} (h : Built w.nodes lo m g) (hs : Sane d g) : IsLink w d P k m (.own g)
  | file {lo k m a b i ps t n gs sc bs} (hm : w.nodes[m]? = some (.program [a] n true none false))
      (ha : w.nodes[a]? = some (.setScope (some sc) b)) (hb : w.nodes[b]? = some (.proxyChildren i "Flatten".toList false))
      (hi : w.nodes[i]? = some (.program ps "Program".toList false none false))
      (hps : BuiltAll w.nodes lo ps gs) (hs : ∀ g ∈ gs, Sane d g) (hsc : P (branch k t) sc bs) : IsLink w d P k m (.file t n gs bs)
  | member {k m a x t sc bs ident th name} (hm : w.nodes[m]? = some (.setScope (some sc) a))
      (ha : w.nodes[a]? = some (.map x (renameToken name) passFailure)) (hsc : P (branch k t) sc bs) (hd : lastDef bs ident = some th)
      (h : IsLink w d P (branch k t) x th) : IsLink w d P k m (.member t bs ident name)

/-- Different numbers are different scopes. -/
structure Spread (w : World) (P : Nat → SCtxId → List (Str × Thing) → Prop) : Prop where
  inj : ∀ {k k' sc bs bs'}, P k sc bs → P k' sc bs' → k = k'
  fn : ∀ {k sc sc' bs bs'}, P k sc bs → P k sc' bs' → sc = sc'
  lt : ∀ {k sc bs}, P k sc bs → sc < w.st.sctxs.length

/-- In the heap `s`, the names in the scopes of the scripts of `w` stand for what they stand for
in the layout. -/
structure Laid (w : World) (d : Quotes) (P : Nat → SCtxId → List (Str × Thing) → Prop) (s : State) (σ : Layout) : Prop where
  ok : ScopesOK s
  alive : w.st.sctxs.length ≤ s.sctxs.length
  names : ∀ {k sc bs}, P k sc bs → ∀ x, Option.Rel (IsLink w d P k) (heapNames.get (vars s) sc x) (lastDef (σ.defs k) x)

theorem InScope.look {w : World} {lo : Nat} {sc : SCtxId} {bs : List (Str × Thing)} (h : InScope w lo sc bs) {x : Str} {y : MatcherId}
    (hx : w.st.lookup sc x = some (.matcher y)) : ∃ th, lastDef bs x = some th ∧ IsThing w lo (sc + 1) y th := by
  cases h with
  | mk hsc f hd ht hu =>
    cases hl : lastDef bs x with
    | none =>
      rw [hu x hl] at hx
      cases hx
    | some th =>
      have h1 := ht x th hl
      rw [hd x th hl] at hx
      cases hx
      exact ⟨th, rfl, h1⟩

/-- The definitions at each scope. -/
theorem Locus.scope {k0 sc0 bs0 k sc bs lo} (h : Locus w k0 sc0 bs0 k sc bs) (hi : InScope w lo sc0 bs0) (hs : SaneDefs d bs0) :
    ∃ lo, InScope w lo sc bs ∧ SaneDefs d bs := by
  induction h generalizing lo with
  | here => exact ⟨lo, hi, hs⟩
  | @down k0 sc0 bs0 x th t y lo' sc' k sc bs hx ht hl hw _ ih =>
    obtain ⟨th', h1, h2⟩ := InScope.look hi hl
    rw [hx] at h1
    cases h1
    have hsd : SaneThing d th := by cases hs with | mk h => exact h x th hx
    cases h2 with
    | own => cases ht
    | file h =>
      cases h with
      | mk h1 h2 hm hla ha hlb hb hli hi' hps hbs =>
        obtain rfl := WorksIn.unique hw (.file h1 hla hm ha)
        cases hsd with
        | file _ hsd => exact ih hbs hsd
    | member h1 h2 h3 hm ha hx hbs =>
      obtain rfl := WorksIn.unique hw (.member h1 hm)
      cases hsd with
      | member hsd => exact ih hbs hsd

section

variable {k0 : Nat} {sc0 : SCtxId} {bs0 : List (Str × Thing)}

mutual

theorem IsThing.link {w : World} {d : Quotes} {lo slo : Nat} {y : MatcherId} {th : Thing} : IsThing w lo slo y th → SaneThing d th →
    ∀ {k : Nat} {sc : SCtxId} {bs : List (Str × Thing)} {x : Str}, Locus w k0 sc0 bs0 k sc bs → lastDef bs x = some th →
      w.st.lookup sc x = some (.matcher y) → IsLink w d (Locus w k0 sc0 bs0) k y th
  | .own h, .own hs, _, _, _, _, _, _, _ => .own h hs
  | .file (.mk h1 _ hm h2 ha _ hb _ hi hps hbs), .file hg hsd, _, _, _, _, hp, hx, hl =>
    .file hm ha hb hi hps hg (hp.snoc hx rfl hl (.file h1 h2 hm ha))
  | .member h1 _ _ hm ha hx hbs, .member hsd, _, _, _, _, hp, hx', hl =>
    have h2 := hp.snoc hx' rfl hl (.member h1 hm)
    have ⟨_, h3, h4⟩ := InScope.link hbs hsd h2 hx
    .member hm ha h2 h3 h4
termination_by structural h => h

theorem InScope.link {w : World} {d : Quotes} {lo : Nat} {sc : SCtxId} {bs : List (Str × Thing)} : InScope w lo sc bs → SaneDefs d bs →
    ∀ {k : Nat} {x : Str} {y : MatcherId}, Locus w k0 sc0 bs0 k sc bs → w.st.lookup sc x = some (.matcher y) →
      ∃ th, lastDef bs x = some th ∧ IsLink w d (Locus w k0 sc0 bs0) k y th
  | .mk hsc f hd ht hu, .mk hs, k, x, y, hp, hx => by
    cases hl : lastDef bs x with
    | none =>
      rw [hu x hl] at hx
      cases hx
    | some th =>
      have h1 := fun hx => IsThing.link (ht x th hl) (hs x th hl) hp hl hx
      have h2 := hd x th hl
      rw [hx] at h2
      cases h2
      exact ⟨th, rfl, h1 hx⟩
termination_by structural h => h

end

end

/-- The scopes of a script. -/
theorem spread {lo : Nat} {sc0 hi : SCtxId} {bs0 : List (Str × Thing)} (hg : Grafted w lo sc0 hi bs0) {k0 : Nat} :
    Spread w (Locus w k0 sc0 bs0) where
  inj := Locus.inj hg
  fn h h' := (Locus.unique hg h h').1
  lt h := by
    obtain ⟨_, _, _, h, hg⟩ := h.grafted hg
    cases hg with
    | mk _ _ _ _ le => exact Nat.lt_of_lt_of_le h le

/-- The layout of a script that was compiled. -/
theorem laid_start {lo lo' : Nat} {sc0 hi : SCtxId} {bs0 : List (Str × Thing)} (hok : ScopesOK w.st) (hin : InScope w lo' sc0 bs0) (hs : SaneDefs d bs0)
    (hg : Grafted w lo sc0 hi bs0) : Laid w d (Locus w 1 sc0 bs0) w.st (scopesOf bs0) where
  ok := hok
  alive := Nat.le_refl _
  names {k sc bs} hp x := by
    obtain ⟨lo, hin, hsd⟩ := hp.scope hin hs
    rw [scopesOf_defs hg hp.has]
    cases hl : lastDef bs x with
    | none =>
      cases hin with
      | mk _ _ _ _ hu =>
        rw [get_vars, hu x hl]
        exact .none
    | some th =>
      have hin' := hin
      cases hin with
      | mk _ f hd _ _ =>
        obtain ⟨th', h1, h2⟩ := InScope.link hin' hsd hp (hd x th hl)
        rw [hl] at h1
        cases h1
        rw [get_vars_iff.mpr (hd x th hl)]
        exact .some h2

/-! ### The engine and the interpreter -/

variable {P : Nat → SCtxId → List (Str × Thing) → Prop}

/-- A scope of the heap, and its number. -/
def AtScope (P : Nat → SCtxId → List (Str × Thing) → Prop) (usr : SCtxId) (k k' : Nat) : Prop := (k = usr ∧ k' = 0) ∨ ∃ bs, P k' k bs

/-- The matchers of scripts and the nonterminals that they are. -/
inductive Linked (w : World) (d : Quotes) (P : Nat → SCtxId → List (Str × Thing) → Prop) (usr : SCtxId) : MatcherId → Nat → Joint → Nat → Prop
  | whole {lo m a b i ps n gs sc bs} (hm : w.nodes[m]? = some (.program [a] n true none false))
      (ha : w.nodes[a]? = some (.setScope (some sc) b)) (hb : w.nodes[b]? = some (.proxyChildren i "Flatten".toList false))
      (hi : w.nodes[i]? = some (.program ps "Program".toList false none false))
      (hps : BuiltAll w.nodes lo ps gs) (hs : ∀ g ∈ gs, Sane d g) (hsc : P 1 sc bs) : Linked w d P usr m usr (.whole n gs) 0
  | gram {lo x g k k' bs} (h : Built w.nodes lo x g) (hs : Sane d g) (hk : P k' k bs) : Linked w d P usr x k (.gram g) k'
  | thing {x k th k' bs} (hl : IsLink w d P k' x th) (hk : P k' k bs) : Linked w d P usr x k (.thing k' th) k'
  | inside {lo a b i sc ps gs k k' j bs} (ha : w.nodes[a]? = some (.setScope (some sc) b))
      (hb : w.nodes[b]? = some (.proxyChildren i "Flatten".toList false))
      (hi : w.nodes[i]? = some (.program ps "Program".toList false none false))
      (hps : BuiltAll w.nodes lo ps gs) (hs : ∀ g ∈ gs, Sane d g) (hsc : P j sc bs) (hk : AtScope P usr k k') :
      Linked w d P usr a k (.inside gs j) k'
  | flat {lo b i ps gs k k' bs} (hb : w.nodes[b]? = some (.proxyChildren i "Flatten".toList false))
      (hi : w.nodes[i]? = some (.program ps "Program".toList false none false))
      (hps : BuiltAll w.nodes lo ps gs) (hs : ∀ g ∈ gs, Sane d g) (hk : P k' k bs) : Linked w d P usr b k (.flat gs) k'
  | all {lo i ps gs k k' bs} (hi : w.nodes[i]? = some (.program ps "Program".toList false none false))
      (hps : BuiltAll w.nodes lo ps gs) (hs : ∀ g ∈ gs, Sane d g) (hk : P k' k bs) : Linked w d P usr i k (.all gs) k'
  | renamed {a x bs ident th name k k' bs'} (ha : w.nodes[a]? = some (.map x (renameToken name) passFailure)) (hd : lastDef bs ident = some th)
      (h : IsLink w d P k' x th) (hk : P k' k bs') : Linked w d P usr a k (.renamed k' bs ident name) k'

theorem Linked.scope {usr : SCtxId} {x : MatcherId} {k k' : Nat} {j : Joint} (h : Linked w d P usr x k j k') : AtScope P usr k k' := by
  cases h with
  | whole => exact Or.inl ⟨rfl, rfl⟩
  | inside _ _ _ _ _ _ hk => exact hk
  | _ => exact Or.inr ⟨_, ‹_›⟩

/-- What stays true while the script runs. -/
structure Lies (w : World) (d : Quotes) (P : Nat → SCtxId → List (Str × Thing) → Prop) (usr : SCtxId) (v : Vars) (σ : Layout) : Prop where
  laid : Laid w d P (heapOf v) σ
  user : usr < (heapOf v).sctxs.length

/-- A new meaning of a name of the user. -/
theorem Lies.setUser {usr : SCtxId} {v : Vars} {σ : Layout} {x : Str} {y : MatcherId} (h : Lies w d P usr v σ)
    (hP : Spread w P) (hu : w.st.sctxs.length ≤ usr) : Lies w d P usr (heapNames.set v usr x y) σ := by
  obtain ⟨h1, h2, h3⟩ := C09_set_get (heapOf v) h.laid.ok usr h.user x (.matcher y)
  have hlen := bindVar_length h.laid.ok h.user x (.matcher y)
  refine ⟨⟨?_, ?_, ?_⟩, ?_⟩
  · rw [heapOf_set]
    exact h.laid.ok.bindVar h.user _ _
  · rw [heapOf_set, hlen]
    exact h.laid.alive
  · intro k sc bs hp z
    have hne : sc ≠ usr := fun he => Nat.not_lt_of_le hu (he ▸ hP.lt hp)
    rw [get_vars, heapOf_set, h3 sc z hne, ← get_vars]
    exact h.laid.names hp z
  · rw [heapOf_set, hlen]
    exact h.user

/-- A new meaning of a name of a script. -/
theorem Lies.set {usr : SCtxId} {v : Vars} {σ : Layout} {k k' : Nat} {x : Str} {y : MatcherId} {th : Thing} {bs : List (Str × Thing)}
    (h : Lies w d P usr v σ) (hP : Spread w P) (hk : P k' k bs) (hl : IsLink w d P k' y th) :
    Lies w d P usr (heapNames.set v k x y) (σ.add k' x th) := by
  have hlt : k < (heapOf v).sctxs.length := Nat.lt_of_lt_of_le (hP.lt hk) h.laid.alive
  obtain ⟨h1, h2, h3⟩ := C09_set_get (heapOf v) h.laid.ok k hlt x (.matcher y)
  have hlen := bindVar_length h.laid.ok hlt x (.matcher y)
  refine ⟨⟨?_, ?_, ?_⟩, ?_⟩
  · rw [heapOf_set]
    exact h.laid.ok.bindVar hlt _ _
  · rw [heapOf_set, hlen]
    exact h.laid.alive
  · intro j sc bs' hp z
    rw [get_vars, heapOf_set, defs_add]
    by_cases hj : j = k'
    · subst hj
      obtain rfl := hP.fn hk hp
      rw [if_pos rfl, lastDef_append]
      by_cases hz : z = x
      · subst hz
        rw [if_pos rfl, h1]
        exact .some hl
      · rw [if_neg hz, h2 z hz, ← get_vars]
        exact h.laid.names hp z
    · rw [if_neg hj, h3 sc z fun he => hj (hP.inj (he ▸ hp) hk), ← get_vars]
      exact h.laid.names hp z
  · rw [heapOf_set, hlen]
    exact h.user

theorem alike_linked {usr : SCtxId} (hP : Spread w P) (hu : w.st.sctxs.length ≤ usr) :
    Alike (tableGrammar (tableOf w.nodes)) heapNames linkedGrammar linkedNames (Linked w d P usr) (Lies w d P usr) where
  expr := by
    have own : ∀ {lo x g k k' bs}, Built w.nodes lo x g → Sane d g → P k' k bs →
        Like heapNames linkedNames (Linked w d P usr) (Lies w d P usr) k k' ((tableGrammar (tableOf w.nodes)).expr x) (gramExpr Joint.gram g) := by
      intro lo x g k k' bs hb hs hk
      by_cases hr : ∃ n c y, g = .ref n c y
      · obtain ⟨n, c, y, rfl⟩ := hr
        rw [built_ref hb]
        refine .call fun v σ hi => ?_
        have := hi.laid.names hk y
        show Option.Rel _ (heapNames.get (vars (heapOf v)) k y) ((lastDef (σ.defs k') y).map (Joint.thing k'))
        generalize heapNames.get (vars (heapOf v)) k y = a at this ⊢
        generalize lastDef (σ.defs k') y = b at this ⊢
        cases this with
        | none => exact .none
        | some h => exact .some (.thing h hk)
      · exact built_like (f := Joint.gram) hb hs (fun n c y he => hr ⟨n, c, y, he⟩) fun i g' hi hg' =>
          .gram hi (hs.part hg') hk
    intro x k j k' h
    cases h with
    | whole hm ha hb hi hps hs hsc =>
      rw [(layer_seq hm).1]
      exact .seq (.cons (.inside ha hb hi hps hs hsc (Or.inl ⟨rfl, rfl⟩)) .nil)
    | gram hb hs hk => exact own hb hs hk
    | thing hl hk =>
      cases hl with
      | own hb hs => exact own hb hs hk
      | file hm ha hb hi hps hs hsc =>
        rw [(layer_seq hm).1]
        exact .seq (.cons (.inside ha hb hi hps hs hsc (Or.inr ⟨_, hk⟩)) .nil)
      | member hm ha hsc hd h =>
        rw [(layer_within hm).1]
        exact .within (.renamed ha hd h hsc)
    | inside ha hb hi hps hs hsc hk =>
      rw [(layer_within ha).1]
      exact .within (.flat hb hi hps hs hsc)
    | flat hb hi hps hs hk =>
      rw [(layer_flat hb).1]
      exact .flat (.all hi hps hs hk)
    | all hi hps hs hk =>
      rw [(layer_seq hi).1]
      exact .seq (builtAll_rel (Nat.le_refl _) hps fun j g' hj hg' => .gram hj (hs g' hg') hk)
    | @renamed _ x bs ident th name _ _ _ ha hd h hk =>
      rw [(layer_rename ha).1]
      show Like _ _ _ _ _ _ _ (match lastDef bs ident with | some th => Expr.rename name (Joint.thing k' th) | none => .call ident)
      rw [hd]
      exact .rename (.thing h hk)
  enter := by
    have own : ∀ {lo x g k k' bs v σ}, Built w.nodes lo x g → Sane d g → P k' k bs → Lies w d P usr v σ →
        Lies w d P usr (match (tableGrammar (tableOf w.nodes)).label x with | some l => heapNames.set v k l x | none => v)
          (match gramLabel g with | some l => σ.add k' l (.own g) | none => σ) := by
      intro lo x g k k' bs v σ hb hs hk hi
      rw [built_label hb]
      cases gramLabel g with
      | none => exact hi
      | some l => exact hi.set hP hk (.own hb hs)
    intro x k j k' v σ h hi
    unfold Interp.enter
    cases h with
    | whole hm =>
      rw [(layer_seq hm).2]
      exact hi.setUser hP hu
    | gram hb hs hk => exact own hb hs hk hi
    | thing hl hk =>
      cases hl with
      | own hb hs => exact own hb hs hk hi
      | file hm ha hb hi' hps hs hsc =>
        rw [(layer_seq hm).2]
        exact hi.set hP hk (.file hm ha hb hi' hps hs hsc)
      | member hm ha hsc h =>
        rw [(layer_within hm).2]
        exact hi
    | inside ha =>
      rw [(layer_within ha).2]
      exact hi
    | flat hb =>
      rw [(layer_flat hb).2]
      exact hi
    | all hi' =>
      rw [(layer_seq hi').2]
      exact hi
    | renamed ha =>
      rw [(layer_rename ha).2]
      exact hi

theorem link_shape {k : Nat} {x : MatcherId} {th : Thing} (h : IsLink w d P k x th) : ∃ e, Shape (tableOf w.nodes x) e := by
  cases h with
  | own hb hs => exact built_shape hb hs
  | file hm => rw [table_at hm]; exact ⟨_, .seq⟩
  | member hm => rw [table_at hm]; exact ⟨_, .within⟩

/-- Every matcher that a name stands for in the scope of a script is a thing. -/
theorem Laid.get {s : State} {σ : Layout} (h : Laid w d P s σ) {k : Nat} {sc : SCtxId} {bs : List (Str × Thing)} (hp : P k sc bs) {x : Str}
    {y : MatcherId} (hx : s.lookup sc x = some (.matcher y)) : ∃ th, IsLink w d P k y th := by
  have := h.names hp x
  rw [get_vars_iff.mpr hx] at this
  generalize lastDef (σ.defs k) x = b at this
  cases this with
  | some h => exact ⟨_, h⟩

/-- The engine on a script. -/
theorem linked_run {lo slo : Nat} {n : Str} {gs : List Gram} {bs : List (Str × Thing)} {m : MatcherId} {sc : SCtxId} {s : State} {σ : Layout} {c : Ctx}
    {p : Parser} {stop : Nat} {cfg : Cfg} {fuel : Nat} (hf : IsFile w lo slo m sc n gs bs) (hsc : P 1 sc bs) (hP : Spread w P) (hla : Laid w d P s σ)
    (hc : Ready p stop c) (hcut : Cut p.src stop c.offset.start)
    (hb : blen p.src ≤ isizeMax) (hnew : w.st.sctxs.length ≤ c.scope) (hu : c.scope < s.sctxs.length)
    (hfree : ∀ x y, s.lookup c.scope x = some (.matcher y) → y = m) (hgs : ∀ g ∈ gs, Sane d g) (hd : Suits d p.src) :
    Sim (tokenize (tableOf w.nodes) cfg fuel c m s) (runLinked p stop n gs fuel c.offset.start σ)
      (fun r s' x => SeesRoot s'.toks r x.1 ∧ Keeps s.toks.length s s' ∧
        s'.toks.length = s.toks.length + work linkedGrammar linkedNames p stop fuel (.whole n gs) 0 c.offset.start σ ∧
        Laid w d P s' x.2) := by
  have hA := alike_linked (d := d) hP hnew
  have hI : Lies w d P c.scope (vars s) σ := ⟨⟨heapOf_ok.mpr hla.ok, hla.alive, hla.names⟩, hu⟩
  have hroot : Linked w d P c.scope m c.scope (.whole n gs) 0 := by
    cases hf with
    | mk _ _ hm _ ha _ hb' _ hi hps _ => exact .whole hm ha hb' hi hps hgs hsc
  have hre : ∀ {x k j k' l f}, Linked w d P c.scope x k j k' → linkedGrammar.expr j = .re l f → Cuts f := by
    intro x k j k' l f h he
    cases h with
    | gram hb hs => exact gramExpr_re hs he
    | thing hl hk =>
      cases hl with
      | own hb hs => exact gramExpr_re hs he
      | _ => cases he
    | @renamed _ x bs ident th name _ _ _ ha hd' =>
      rw [show linkedGrammar.expr (.renamed k' bs ident name) =
        match lastDef bs ident with | some th => Expr.rename name (.thing k' th) | none => .call ident from rfl, hd'] at he
      cases he
    | _ => cases he
  have hde : ∀ {x k j k'}, Linked w d P c.scope x k j k' → (linkedGrammar.expr j).Between p.src := by
    intro x k j k' h l a b e he
    cases h with
    | gram hb hs => exact hd _ _ _ (gramExpr_delim hs he)
    | thing hl hk =>
      cases hl with
      | own hb hs => exact hd _ _ _ (gramExpr_delim hs he)
      | _ => cases he
    | @renamed _ x bs ident th name _ _ _ ha hd' =>
      rw [show linkedGrammar.expr (.renamed k' bs ident name) =
        match lastDef bs ident with | some th => Expr.rename name (.thing k' th) | none => .call ident from rfl, hd'] at he
      cases he
    | _ => cases he
  have hsh : ∀ {x k j k'}, Linked w d P c.scope x k j k' → ∃ e, Shape (tableOf w.nodes x) e := by
    intro x k j k' h
    cases h with
    | whole hm => rw [table_at hm]; exact ⟨_, .seq⟩
    | gram hb hs => exact built_shape hb hs
    | thing hl => exact link_shape hl
    | inside ha => rw [table_at ha]; exact ⟨_, .within⟩
    | flat hb' => rw [table_at hb']; exact ⟨_, .flat⟩
    | all hi => rw [table_at hi]; exact ⟨_, .seq⟩
    | renamed ha => rw [table_at ha]; exact ⟨_, .rename⟩
  have hk : Knows (fun x => ∃ k y k', Linked w d P c.scope x k y k') (fun k => ∃ x y k', Linked w d P c.scope x k y k') (fun _ => True) s := by
    rintro k ⟨x, j, k', h⟩ z - t hzt
    rcases h.scope with ⟨rfl, -⟩ | ⟨_, hk⟩
    · cases hfree _ _ hzt
      exact ⟨_, _, _, hroot⟩
    · obtain ⟨th, hl⟩ := hla.get hk hzt
      exact ⟨_, _, _, .thing hl hk⟩
  have hS := run_like (cfg := cfg) (n := fuel) (c := c) (p := p) (stop := stop) (s := s) (C := fun _ => True) hA hsh hre hde hb
    hroot hI hc hcut (fun _ _ => trivial) hk
  unfold runLinked
  generalize eval linkedGrammar linkedNames p stop fuel (.whole n gs) 0 c.offset.start σ = e at hS
  generalize tokenize (tableOf w.nodes) cfg fuel c m s = res at hS
  cases e with
  | none => cases res <;> exact hS
  | some x =>
    cases res with
    | ok r s' =>
      obtain ⟨h1, h2, h3, h4⟩ := hS
      exact ⟨h1, h2, h4, ⟨heapOf_ok.mp h3.laid.ok, h3.laid.alive, h3.laid.names⟩⟩
    | panic _ => exact hS
    | diverge => exact hS

end Adx.Interp
