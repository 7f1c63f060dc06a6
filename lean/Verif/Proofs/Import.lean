import Verif.Proofs.Compile
import Verif.Proofs.Transport
import Verif.Spec.Graft
/-
  Scripts with imports: the matchers and scopes that the builder makes are what the
  tokens mean.
-/
namespace Adx

/-! ### Things stay what they are -/

/-- Matchers from `lo` on and scopes from `slo` on are the same. -/
structure Later (lo slo : Nat) (w w' : World) : Prop where
  nodes : AgreeFrom lo w.nodes w'.nodes
  alive : w.st.sctxs.length ≤ w'.st.sctxs.length
  look : ∀ k, slo ≤ k → k < w.st.sctxs.length → ∀ x, w'.st.lookup k x = w.st.lookup k x

theorem Later.weaken {lo slo lo' slo' : Nat} {w w' : World} (h : Later lo slo w w') (hl : lo ≤ lo')
    (hs : slo ≤ slo') : Later lo' slo' w w' :=
  ⟨h.nodes.weaken hl, h.alive, fun k hk => h.look k (Nat.le_trans hs hk)⟩

theorem InScope.lt {w : World} {lo : Nat} {sc : SCtxId} {bs : List (Str × Thing)} :
    InScope w lo sc bs → sc < w.st.sctxs.length
  | .mk h _ _ _ _ => h

mutual

theorem IsThing.mono {w w' : World} {lo slo : Nat} {m : MatcherId} {th : Thing} :
    IsThing w lo slo m th → Later lo slo w w' → IsThing w' lo slo m th
  | .own h, hw => .own (h.mono hw.nodes)
  | .file h, hw => .file (h.mono hw)
  | .member hl hla hs hm ha hx hbs, hw =>
    .member hl hla hs (hw.nodes _ _ hl hm) (hw.nodes _ _ hla ha)
      ((hw.look _ hs hbs.lt _).trans hx) (hbs.mono (hw.weaken (Nat.le_refl _) hs))

theorem IsFile.mono {w w' : World} {lo slo : Nat} {m : MatcherId} {sc : SCtxId} {n : Str}
    {gs : List Gram} {bs : List (Str × Thing)} :
    IsFile w lo slo m sc n gs bs → Later lo slo w w' → IsFile w' lo slo m sc n gs bs
  | .mk hl hs hm hla ha hlb hb hli hi hps hbs, hw =>
    .mk hl hs (hw.nodes _ _ hl hm) hla (hw.nodes _ _ (Nat.le_trans hl (Nat.le_of_succ_le hla)) ha) hlb
      (hw.nodes _ _ (Nat.le_trans hl (Nat.le_of_succ_le hlb)) hb)
      hli (hw.nodes _ _ (Nat.le_trans hl (Nat.le_of_succ_le hli)) hi) (hps.mono (hw.nodes.weaken (by omega)))
      (hbs.mono (hw.weaken (by omega) hs))

theorem InScope.mono {w w' : World} {lo : Nat} {sc : SCtxId} {bs : List (Str × Thing)} :
    InScope w lo sc bs → Later lo sc w w' → InScope w' lo sc bs
  | .mk hsc f hd ht hu, hw =>
    .mk (Nat.lt_of_lt_of_le hsc hw.alive) f
      (fun n th h => (hw.look sc (Nat.le_refl _) hsc n).trans (hd n th h))
      (fun n th h => (ht n th h).mono (hw.weaken (Nat.le_refl _) (Nat.le_succ _)))
      (fun n h => (hw.look sc (Nat.le_refl _) hsc n).trans (hu n h))

end

mutual

theorem IsThing.lower {w : World} {lo slo lo' slo' : Nat} {m : MatcherId} {th : Thing} :
    IsThing w lo slo m th → lo' ≤ lo → slo' ≤ slo → IsThing w lo' slo' m th
  | .own h, hl, _ => .own (h.lower hl)
  | .file h, hl, hs => .file (h.lower hl hs)
  | .member hl hla hs hm ha hx hbs, hl', hs' =>
    .member (Nat.le_trans hl' hl) (Nat.le_trans hl' hla) (Nat.le_trans hs' hs) hm ha hx (hbs.lower hl')

theorem IsFile.lower {w : World} {lo slo lo' slo' : Nat} {m : MatcherId} {sc : SCtxId} {n : Str}
    {gs : List Gram} {bs : List (Str × Thing)} :
    IsFile w lo slo m sc n gs bs → lo' ≤ lo → slo' ≤ slo → IsFile w lo' slo' m sc n gs bs
  | .mk hl hs hm hla ha hlb hb hli hi hps hbs, hl', hs' =>
    .mk (Nat.le_trans hl' hl) (Nat.le_trans hs' hs) hm hla ha hlb hb hli hi hps hbs

theorem InScope.lower {w : World} {lo lo' : Nat} {sc : SCtxId} {bs : List (Str × Thing)} :
    InScope w lo sc bs → lo' ≤ lo → InScope w lo' sc bs
  | .mk hsc f hd ht hu, hl =>
    .mk hsc f hd (fun n th h => (ht n th h).lower hl (Nat.le_refl _)) hu

end

/-! ### Scopes -/

theorem ScopesOK.newSCtx {s : State} (h : ScopesOK s) : ScopesOK s.newSCtx.2 := by
  have key : ∀ {sc : SCtxId} {st : List ScopeId}, s.newSCtx.2.sctxs[sc]? = some st → s.sctxs[sc]? = some st ∨ st = [] := by
    intro sc st hs
    have hs : (s.sctxs ++ [[]])[sc]? = some st := hs
    by_cases hlt : sc < s.sctxs.length
    · rw [List.getElem?_append_left hlt] at hs
      exact .inl hs
    · rw [List.getElem?_append_right (Nat.le_of_not_lt hlt)] at hs
      have := List.mem_of_getElem? hs
      simp at this
      exact .inr this
  refine ⟨?_, ?_, ?_⟩
  · intro sc st hs i hi
    rcases key hs with hs | rfl
    · exact h.valid sc st hs i hi
    · cases hi
  · intro sc st hs
    rcases key hs with hs | rfl
    · exact h.nodup sc st hs
    · exact List.nodup_nil
  · intro sc sc' st st' hs hs' hne i hi hi'
    rcases key hs with hs | rfl
    · rcases key hs' with hs' | rfl
      · exact h.apart sc sc' st st' hs hs' hne i hi hi'
      · cases hi'
    · cases hi

theorem ScopesOK.toks {s : State} (h : ScopesOK s) (ts : List Token) : ScopesOK { s with toks := ts } :=
  ⟨h.valid, h.nodup, h.apart⟩

theorem ScopesOK.bindVar {s : State} (h : ScopesOK s) {sc : SCtxId} (hsc : sc < s.sctxs.length) (k : Str) (v : Var) :
    ScopesOK (s.bindVar sc k v) := (scopeStep_refines h (.set sc k v) hsc).2.1

theorem bindVar_length {s : State} (h : ScopesOK s) {sc : SCtxId} (hsc : sc < s.sctxs.length) (k : Str) (v : Var) :
    (s.bindVar sc k v).sctxs.length = s.sctxs.length := (scopeStep_refines h (.set sc k v) hsc).2.2

/-- More scopes change none that is there. -/
theorem lookup_grow {s s' : State} (h : ScopesOK s) (h1 : s.scopes <+: s'.scopes) (h2 : s.sctxs <+: s'.sctxs)
    {k : SCtxId} (hk : k < s.sctxs.length) (x : Str) : s'.lookup k x = s.lookup k x := by
  unfold State.lookup
  have hst : s.sctxs[k]? = some s.sctxs[k] := List.getElem?_eq_getElem hk
  have hv := h.valid k _ hst
  have hst' : s'.sctxs[k]? = some s.sctxs[k] := by
    obtain ⟨y, hy⟩ := h2
    rw [← hy, List.getElem?_append_left hk]
    exact hst
  rw [hst, hst']
  simp only [Option.getD_some]
  generalize s.sctxs[k] = st at hv
  induction st with
  | nil => rfl
  | cons i st ih =>
    unfold lookupStack
    have hi : s'.scopes[i]? = s.scopes[i]? := by
      obtain ⟨y, hy⟩ := h1
      rw [← hy, List.getElem?_append_left (hv i (by simp))]
    rw [hi, ih fun j hj => hv j (by simp [hj])]

theorem lastDef_mem {β : Type} {bs : List (Str × β)} {x : Str} {b : β} (h : lastDef bs x = some b) : (x, b) ∈ bs := by
  unfold lastDef at h
  obtain ⟨y, hy, rfl⟩ := Option.map_eq_some_iff.mp h
  have h1 := List.mem_of_find?_eq_some hy
  have h2 := List.find?_some hy
  rw [List.mem_reverse] at h1
  have : y.1 = x := by simpa using h2
  rw [← this]
  exact h1

/-! ### Branches of scopes -/

theorem WorksIn.mono {ns ns' : List Node} {lo : Nat} {m : MatcherId} {sc : SCtxId} (h : WorksIn ns lo m sc)
    (hn : AgreeFrom lo ns ns') : WorksIn ns' lo m sc := by
  cases h with
  | member hl hm => exact .member hl (hn _ _ hl hm)
  | file hl hla hm ha => exact .file hl hla (hn _ _ hl hm) (hn _ _ (by omega) ha)

theorem WorksIn.lower {ns : List Node} {lo lo' : Nat} {m : MatcherId} {sc : SCtxId} (h : WorksIn ns lo m sc)
    (hl : lo' ≤ lo) : WorksIn ns lo' m sc := by
  cases h with
  | member hl' hm => exact .member (Nat.le_trans hl hl') hm
  | file hl' hla hm ha => exact .file (Nat.le_trans hl hl') hla hm ha

theorem Grafted.bounds {w : World} {lo : Nat} {sc hi : SCtxId} {bs : List (Str × Thing)} (h : Grafted w lo sc hi bs) :
    sc < hi ∧ hi ≤ w.st.sctxs.length := by
  cases h with
  | mk _ _ _ lt le => exact ⟨lt, le⟩

theorem Grafted.mono {w w' : World} {lo : Nat} {sc hi : SCtxId} {bs : List (Str × Thing)} :
    Grafted w lo sc hi bs → Later lo sc w w' → Grafted w' lo sc hi bs
  | .mk g e D lt le f look works same sub above below apart, hw =>
    .mk g e D lt (Nat.le_trans le hw.alive) f
      (fun x th t hx ht => (hw.look sc (Nat.le_refl _) (Nat.lt_of_lt_of_le lt le) x).trans (look x th t hx ht))
      (fun x th t hx ht => (works x th t hx ht).mono hw.nodes) same
      (fun t ht => (sub t ht).mono (hw.weaken (Nat.le_refl _) (Nat.le_of_lt (above t ht)))) above below apart

theorem Grafted.lower {w : World} {lo lo' : Nat} {sc hi : SCtxId} {bs : List (Str × Thing)} :
    Grafted w lo sc hi bs → lo' ≤ lo → Grafted w lo' sc hi bs
  | .mk g e D lt le f look works same sub above below apart, hl =>
    .mk g e D lt le f look (fun x th t hx ht => (works x th t hx ht).lower hl) same
      (fun t ht => (sub t ht).lower hl) above below apart

/-- There may be more scopes. -/
theorem Grafted.raise {w : World} {lo : Nat} {sc hi hi' : SCtxId} {bs : List (Str × Thing)} (h : Grafted w lo sc hi bs)
    (hh : hi ≤ hi') (hle : hi' ≤ w.st.sctxs.length) : Grafted w lo sc hi' bs := by
  cases h with
  | mk g e D lt le f look works same sub above below apart =>
    exact .mk g e D (Nat.lt_of_lt_of_le lt hh) hle f look works same sub above (fun t ht => Nat.le_trans (below t ht) hh) apart

theorem HasTag.snoc {bs : List (Str × Thing)} {k : Str} {th : Thing} {t : Nat} (h : HasTag (bs ++ [(k, th)]) t) :
    HasTag bs t ∨ th.tag = some t := by
  obtain ⟨b, hb, ht⟩ := h
  rcases List.mem_append.mp hb with hb | hb
  · exact .inl ⟨b, hb, ht⟩
  · cases List.mem_singleton.mp hb
    exact .inr ht

/-- The branches that `g`, `e` and `D` say. -/
structure Grafts (w : World) (lo : Nat) (sc hi : SCtxId) (g e : Nat → SCtxId) (D : Nat → List (Str × Thing))
    (bs : List (Str × Thing)) : Prop where
  lt : sc < hi
  le : hi ≤ w.st.sctxs.length
  works : ∀ x th t, lastDef bs x = some th → th.tag = some t →
    ∃ m, w.st.lookup sc x = some (.matcher m) ∧ WorksIn w.nodes lo m (g t)
  same : ∀ b ∈ bs, ∀ t, b.2.tag = some t → b.2.defs = D t
  sub : ∀ t, HasTag bs t → Grafted w lo (g t) (e t) (D t)
  above : ∀ t, HasTag bs t → sc < g t
  below : ∀ t, HasTag bs t → e t ≤ hi
  apart : ∀ t t', HasTag bs t → HasTag bs t' → t < t' → e t ≤ g t'

theorem Grafted.grafts {w : World} {lo : Nat} {sc hi : SCtxId} {bs : List (Str × Thing)} (h : Grafted w lo sc hi bs) :
    ∃ g e D, Grafts w lo sc hi g e D bs := by
  cases h with
  | mk g e D lt le f look works same sub above below apart =>
    exact ⟨g, e, D, lt, le, fun x th t hx ht => ⟨_, look x th t hx ht, works x th t hx ht⟩, same, sub, above, below, apart⟩

theorem Grafts.grafted {w : World} {lo : Nat} {sc hi : SCtxId} {g e : Nat → SCtxId} {D : Nat → List (Str × Thing)}
    {bs : List (Str × Thing)} (h : Grafts w lo sc hi g e D bs) : Grafted w lo sc hi bs := by
  have hf : ∀ x, ∃ m, ∀ th t, lastDef bs x = some th → th.tag = some t →
      w.st.lookup sc x = some (.matcher m) ∧ WorksIn w.nodes lo m (g t) := by
    intro x
    cases hx : lastDef bs x with
    | none => exact ⟨0, fun _ _ h => nomatch h⟩
    | some th =>
      cases ht : th.tag with
      | none => exact ⟨0, fun _ _ h h' => by cases h; rw [ht] at h'; cases h'⟩
      | some t =>
        obtain ⟨m, h1, h2⟩ := h.works x th t hx ht
        exact ⟨m, fun _ _ h h' => by cases h; rw [ht] at h'; cases h'; exact ⟨h1, h2⟩⟩
  exact .mk g e D h.lt h.le (fun x => (hf x).choose) (fun x th t hx ht => ((hf x).choose_spec th t hx ht).1)
    (fun x th t hx ht => ((hf x).choose_spec th t hx ht).2) h.same h.sub h.above h.below h.apart

theorem Grafts.bind {s : State} {ns : List Node} {lo : Nat} {sc hi : SCtxId} {g e : Nat → SCtxId} {D : Nat → List (Str × Thing)}
    {bs : List (Str × Thing)} {k : Str} {m : MatcherId} {th : Thing} (h : Grafts ⟨ns, s⟩ lo sc hi g e D bs) (hok : ScopesOK s)
    (hm : ∀ t, th.tag = some t → WorksIn ns lo m (g t) ∧ th.defs = D t ∧ Grafted ⟨ns, s⟩ lo (g t) (e t) (D t) ∧ sc < g t ∧ e t ≤ hi ∧
      ∀ t', HasTag bs t' → (t' < t → e t' ≤ g t) ∧ (t < t' → e t ≤ g t')) :
    Grafts ⟨ns, s.bindVar sc k (.matcher m)⟩ lo sc hi g e D (bs ++ [(k, th)]) := by
  have hsc : sc < s.sctxs.length := Nat.lt_of_lt_of_le h.lt h.le
  obtain ⟨h1, h2, h3⟩ := C09_set_get s hok sc hsc k (.matcher m)
  have hlater : Later lo (sc + 1) ⟨ns, s⟩ ⟨ns, s.bindVar sc k (.matcher m)⟩ := by
    refine ⟨fun i nd _ h => h, Nat.le_of_eq (bindVar_length hok hsc _ _).symm, fun j hj _ x => ?_⟩
    exact h3 j x (by rintro rfl; omega)
  refine ⟨h.lt, Nat.le_trans h.le hlater.alive, ?_, ?_, ?_, ?_, ?_, ?_⟩
  · intro x th' t hx ht
    rw [lastDef_snoc] at hx
    by_cases he : x = k
    · subst he
      rw [if_pos rfl] at hx
      cases hx
      exact ⟨m, h1, (hm t ht).1⟩
    · rw [if_neg he] at hx
      obtain ⟨m', h4, h5⟩ := h.works x th' t hx ht
      exact ⟨m', (h2 x he).trans h4, h5⟩
  · intro b hb t ht
    rcases List.mem_append.mp hb with hb | hb
    · exact h.same b hb t ht
    · cases List.mem_singleton.mp hb
      exact (hm t ht).2.1
  · intro t ht
    rcases ht.snoc with ht | ht
    · exact (h.sub t ht).mono (hlater.weaken (Nat.le_refl _) (h.above t ht))
    · exact (hm t ht).2.2.1.mono (hlater.weaken (Nat.le_refl _) (hm t ht).2.2.2.1)
  · intro t ht
    rcases ht.snoc with ht | ht
    · exact h.above t ht
    · exact (hm t ht).2.2.2.1
  · intro t ht
    rcases ht.snoc with ht | ht
    · exact h.below t ht
    · exact (hm t ht).2.2.2.2.1
  · intro t t' ht ht' hlt
    rcases ht.snoc with ht | ht <;> rcases ht'.snoc with ht' | ht'
    · exact h.apart t t' ht ht' hlt
    · exact ((hm t' ht').2.2.2.2.2 t ht).1 hlt
    · exact ((hm t ht).2.2.2.2.2 t' ht').2 hlt
    · cases ht.symm.trans ht'
      exact (Nat.lt_irrefl _ hlt).elim

/-- A definition of the script itself. -/
theorem Grafted.bindOwn {s : State} {ns : List Node} {lo : Nat} {sc hi : SCtxId} {bs : List (Str × Thing)} {k : Str}
    {m : MatcherId} {gr : Gram} (h : Grafted ⟨ns, s⟩ lo sc hi bs) (hok : ScopesOK s) :
    Grafted ⟨ns, s.bindVar sc k (.matcher m)⟩ lo sc hi (bs ++ [(k, .own gr)]) := by
  obtain ⟨g, e, D, h⟩ := h.grafts
  exact (h.bind hok fun t ht => by cases ht).grafted

/-- A branch for a statement that has not been there before. -/
theorem Grafts.branch {w : World} {lo : Nat} {sc hi : SCtxId} {g e : Nat → SCtxId} {D : Nat → List (Str × Thing)}
    {bs fbs : List (Str × Thing)} {isc ihi : SCtxId} {t : Nat} (h : Grafts w lo sc hi g e D bs) (ht : ¬ HasTag bs t) :
    Grafts w lo sc hi (fun t' => if t' = t then isc else g t') (fun t' => if t' = t then ihi else e t')
      (fun t' => if t' = t then fbs else D t') bs := by
  have hne : ∀ {t'}, HasTag bs t' → t' ≠ t := fun h he => ht (he ▸ h)
  refine ⟨h.lt, h.le, ?_, ?_, ?_, ?_, ?_, ?_⟩
  · intro x th t' hx hth
    rw [if_neg (hne ⟨_, lastDef_mem hx, hth⟩)]
    exact h.works x th t' hx hth
  · intro b hb t' hth
    rw [if_neg (hne ⟨b, hb, hth⟩)]
    exact h.same b hb t' hth
  · intro t' hth
    rw [if_neg (hne hth), if_neg (hne hth), if_neg (hne hth)]
    exact h.sub t' hth
  · intro t' hth
    rw [if_neg (hne hth)]
    exact h.above t' hth
  · intro t' hth
    rw [if_neg (hne hth)]
    exact h.below t' hth
  · intro t1 t2 h1 h2 hlt
    rw [if_neg (hne h1), if_neg (hne h2)]
    exact h.apart t1 t2 h1 h2 hlt

/-! ### The state of the build -/

/-- The state of the build of a script that started in the world `w0`, after some tokens
that bring `gs` and `bs`; the script is called `n`. -/
structure Means (w0 : World) (gs : List Gram) (bs : List (Str × Thing)) (n : Str) (b : Build) : Prop where
  going : Going w0 b
  ok : ScopesOK b.w.st
  root : b.w.nodes[w0.nodes.length]? = some (.program [w0.nodes.length + 3] n true none false)
  inner : ∃ ps, b.w.nodes[w0.nodes.length + 1]? = some (.program ps "Program".toList false none false) ∧
    BuiltAll b.w.nodes (w0.nodes.length + 4) ps gs
  flat : b.w.nodes[w0.nodes.length + 2]? = some (.proxyChildren (w0.nodes.length + 1) "Flatten".toList false)
  scope : b.w.nodes[w0.nodes.length + 3]? = some (.setScope (some w0.st.sctxs.length) (w0.nodes.length + 2))
  bound : InScope b.w (w0.nodes.length + 4) w0.st.sctxs.length bs
  graft : Grafted b.w (w0.nodes.length + 4) w0.st.sctxs.length b.w.st.sctxs.length bs
  tags : ∀ t, HasTag bs t → t < bs.length

variable {env : Env} {w0 : World} {gs : List Gram} {bs : List (Str × Thing)} {n : Str} {b b' : Build}
  {fromFile : Option Str} {imp : Str → Str → List Gram → List (Str × Thing) → Prop}

theorem Means.length_le (h : Means w0 gs bs n b) : w0.nodes.length + 4 ≤ b.w.nodes.length :=
  (List.getElem?_eq_some_iff.mp h.scope).1

theorem Means.grow (h : Means w0 gs bs n b) (hg : Going w0 b') (hok : ScopesOK b'.w.st)
    (hp : b.w.nodes <+: b'.w.nodes) (ha : b.w.st.sctxs.length ≤ b'.w.st.sctxs.length)
    (hl : ∀ k, k < b.w.st.sctxs.length → ∀ x, b'.w.st.lookup k x = b.w.st.lookup k x) :
    Means w0 gs bs n b' := by
  have hag := AgreeFrom.of_prefix hp
  have hat : ∀ {i nd}, b.w.nodes[i]? = some nd → b'.w.nodes[i]? = some nd :=
    fun h => hag 0 _ _ (Nat.zero_le _) h
  obtain ⟨ps, hi, hb⟩ := h.inner
  exact ⟨hg, hok, hat h.root, ⟨ps, hat hi, hb.mono (hag _)⟩, hat h.flat, hat h.scope,
    h.bound.mono ⟨hag _, ha, fun k _ hk => hl k hk⟩,
    (h.graft.mono ⟨hag _, ha, fun k _ hk => hl k hk⟩).raise ha (Nat.le_refl _), h.tags⟩

/-- A new definition. -/
theorem Means.bind (h : Means w0 gs bs n b) {k : Str} {m : MatcherId} {th : Thing}
    (hm : IsThing b.w (w0.nodes.length + 4) (w0.st.sctxs.length + 1) m th)
    (hgr : Grafted (b.bind w0.st.sctxs.length k m).w (w0.nodes.length + 4) w0.st.sctxs.length b.w.st.sctxs.length (bs ++ [(k, th)]))
    (ht : ∀ t, th.tag = some t → t ≤ bs.length) :
    Means w0 gs (bs ++ [(k, th)]) n (b.bind w0.st.sctxs.length k m) := by
  have hsc := h.bound.lt
  obtain ⟨h1, h2, h3⟩ := C09_set_get b.w.st h.ok w0.st.sctxs.length hsc k (.matcher m)
  have hlater : Later (w0.nodes.length + 4) (w0.st.sctxs.length + 1) b.w
      (b.bind w0.st.sctxs.length k m).w := by
    refine ⟨fun i nd _ h => h, Nat.le_of_eq (bindVar_length h.ok hsc _ _).symm, fun j hj _ x => ?_⟩
    exact h3 j x (by rintro rfl; omega)
  refine ⟨h.going.bind k m, h.ok.bindVar hsc _ _, h.root, h.inner, h.flat, h.scope, ?_, hgr.raise hlater.alive (Nat.le_refl _), ?_⟩
  rotate_left
  · intro t htag
    rw [List.length_append]
    rcases htag.snoc with h' | h'
    · exact Nat.lt_succ_of_lt (h.tags t h')
    · exact Nat.lt_succ_of_le (ht t h')
  cases hb : h.bound with
  | mk _ f hd ht hu =>
  refine .mk (by rw [show (b.bind w0.st.sctxs.length k m).w.st = b.w.st.bindVar w0.st.sctxs.length k (.matcher m) from rfl, bindVar_length h.ok hsc]; exact hsc)
    (fun x => if x = k then m else f x) ?_ ?_ ?_
  · intro x th' hx
    rw [lastDef_snoc] at hx
    show (b.w.st.bindVar w0.st.sctxs.length k (.matcher m)).lookup w0.st.sctxs.length x = _
    by_cases he : x = k
    · subst he; rw [if_pos rfl]; exact h1
    · rw [if_neg he] at hx ⊢
      rw [h2 x he]
      exact hd x th' hx
  · intro x th' hx
    rw [lastDef_snoc] at hx
    by_cases he : x = k
    · subst he
      rw [if_pos rfl] at hx ⊢
      cases hx
      exact hm.mono hlater
    · rw [if_neg he] at hx ⊢
      exact (ht x th' hx).mono hlater
  · intro x hx
    rw [lastDef_snoc] at hx
    show (b.w.st.bindVar w0.st.sctxs.length k (.matcher m)).lookup w0.st.sctxs.length x = _
    by_cases he : x = k
    · rw [if_pos he] at hx; cases hx
    · rw [if_neg he] at hx
      rw [h2 x he]
      exact hu x hx

/-- What a hook does for the token `x`, when it succeeds. -/
def HookBrings (env : Env) (fromFile : Option Str) (imp : Str → Str → List Gram → List (Str × Thing) → Prop)
    (w0 : World) (gs : List Gram) (bs : List (Str × Thing)) (n : Str) (x : TokId) :
    Except ParseError Unit × Build → Prop
  | (.ok _, b) => ∃ gs' bs', ItemBrings env fromFile imp w0.st.toks bs.length x gs' bs' ∧
      Means w0 (gs ++ gs') (bs ++ bs') (scriptName w0.st.toks [x] n) b
  | (.error _, _) => True

theorem Below.transport {l : List TokId} {toks toks' : List Token} (h : SameOn l toks toks') {x y : TokId}
    (hb : Below toks x y) (hx : x ∈ l) : Below toks' x y ∧ y ∈ l := by
  induction hb with
  | child hk hc => exact ⟨.child (h.at_ hx hk) hc, h.closed _ hx _ hk _ hc⟩
  | step hk hc _ ih =>
    obtain ⟨h1, h2⟩ := ih (h.closed _ hx _ hk _ hc)
    exact ⟨.step (h.at_ hx hk) hc h1, h2⟩

theorem Deep.transport {l : List TokId} {toks toks' : List Token} (h : SameOn l toks toks') {d : Nat} :
    ∀ {x : TokId}, Deep toks d x → x ∈ l → Deep toks' d x := by
  induction d with
  | zero => intros; trivial
  | succ d ih =>
    rintro x ⟨c, h1, h2⟩ hx
    obtain ⟨h3, h4⟩ := h1.transport h hx
    exact ⟨c, h3, ih h2 h4⟩

theorem scriptName_other {toks : List Token} {x : TokId} {k : Token} (hk : toks[x]? = some k)
    (hn : k.name ≠ "AdextopaScope".toList) (n : Str) : scriptName toks [x] n = n := by
  simp only [scriptName, hk, if_neg hn]

section hooks

variable {l : List TokId} {x : TokId} {k : Token} {depth : Nat}

theorem hookError_brings (h : Means w0 gs bs n b) (hs : SameOn l w0.st.toks b.w.st.toks) (hx : x ∈ l)
    (hk : w0.st.toks[x]? = some k) (hn : k.name = "Error".toList) :
    HookBrings env fromFile imp w0 gs bs n x (hookError x b) := by
  have ht := hs.at_ hx hk
  cases hm : k.getAttribute "__message".toList with
  | some msg =>
    have he : hookError x b = (.ok (), { b with errors := b.errors ++ [⟨msg, some k.matched⟩] }) := by
      simp only [hookError, Build.step, Bind.bind, C.bind', C.tok, ht, C.ofOpt, hm, pure, C.pure']
    rw [he]
    refine ⟨[], [], .own (.error hk hn hm), ?_⟩
    rw [List.append_nil, List.append_nil, scriptName_other hk (by rw [hn]; decide)]
    exact ⟨⟨h.going.nodes, h.going.toks, h.going.milds, h.going.root, h.going.inner, h.going.own⟩, h.ok, h.root,
      h.inner, h.flat, h.scope, h.bound, h.graft, h.tags⟩
  | none =>
    have he : hookError x b = (.error ⟨[], none⟩, { b with
        crash := some (some "called `Option::unwrap()` on a `None` value") }) := by
      simp only [hookError, Build.step, Bind.bind, C.bind', C.tok, ht, C.ofOpt, hm, C.panic]
    rw [he]
    trivial

theorem hookAdextopaScope_brings (h : Means w0 gs bs n b) (hs : SameOn l w0.st.toks b.w.st.toks) (hx : x ∈ l)
    (hk : w0.st.toks[x]? = some k) (hn : k.name = "AdextopaScope".toList) :
    HookBrings env fromFile imp w0 gs bs n x (hookAdextopaScope w0.nodes.length x b) := by
  have ht := hs.at_ hx hk
  have hitem : ItemBrings env fromFile imp w0.st.toks bs.length x [] [] := .own (.other hk (by rw [hn]; decide)
    (by rw [hn]; decide) (by rw [hn]; decide) (by rw [hn]; decide))
  have hg := hookAdextopaScope_safe h.going x
  cases hm : k.getAttribute "name".toList with
  | none =>
    have he : hookAdextopaScope w0.nodes.length x b = (.ok (), b) := by
      simp only [hookAdextopaScope, Build.step, Bind.bind, C.bind', C.tok, ht, hm, pure, C.pure']
    rw [he]
    refine ⟨[], [], hitem, ?_⟩
    rw [List.append_nil, List.append_nil]
    have : scriptName w0.st.toks [x] n = n := by
      simp only [scriptName, hk, hm, Option.getD_none, ite_self]
    rw [this]
    exact h
  | some n' =>
    have hlen := h.length_le
    have he : hookAdextopaScope w0.nodes.length x b = (.ok (), { b with w := { b.w with
        nodes := b.w.nodes.set w0.nodes.length (.program [w0.nodes.length + 3] n' true none false) } }) := by
      simp only [hookAdextopaScope, Build.step, Bind.bind, C.bind', C.tok, ht, hm, C.setName, setNameGo, h.root,
        Node.namePassedTo, Node.setOwnName]
    rw [he] at hg ⊢
    refine ⟨[], [], hitem, ?_⟩
    have hname : scriptName w0.st.toks [x] n = n' := by
      simp only [scriptName, hk, hm, if_pos hn, Option.getD_some]
    rw [List.append_nil, List.append_nil, hname]
    have hag : AgreeFrom (w0.nodes.length + 1) b.w.nodes
        (b.w.nodes.set w0.nodes.length (.program [w0.nodes.length + 3] n' true none false)) :=
      AgreeFrom.set (Nat.lt_succ_self _)
    obtain ⟨ps, hi, hb⟩ := h.inner
    exact ⟨hg, h.ok, List.getElem?_set_self (by omega), ⟨ps, hag _ _ (by omega) hi,
      hb.mono (hag.weaken (by omega))⟩, hag _ _ (by omega) h.flat, hag _ _ (by omega) h.scope,
      h.bound.mono ⟨hag.weaken (by omega), Nat.le_refl _, fun _ _ _ _ => rfl⟩,
      h.graft.mono ⟨hag.weaken (by omega), Nat.le_refl _, fun _ _ _ _ => rfl⟩, h.tags⟩

theorem hookAssignment_brings (h : Means w0 gs bs n b) (hs : SameOn l w0.st.toks b.w.st.toks) (hx : x ∈ l)
    (hk : w0.st.toks[x]? = some k) (hn : k.name = "AssignmentExpression".toList)
    (hd : ¬ Deep w0.st.toks depth x) :
    HookBrings env fromFile imp w0 gs bs n x (hookAssignment env depth w0.st.sctxs.length x b) := by
  have hname : scriptName w0.st.toks [x] n = n := scriptName_other hk (by rw [hn]; decide) n
  refine hookAssignment_effect (P := fun r => HookSafe w0 r → HookBrings env fromFile imp w0 gs bs n x r)
    rfl (hs.at_ hx hk) hn (fun hd' => hd (hd'.transport hs.symm hx)) ?_ ?_ (fun _ _ _ => trivial)
    (fun _ _ _ => trivial) (hookAssignment_safe h.going x)
  · intro ns hp hi hg
    refine ⟨[], [], .own (hi.transport hs.symm hx), ?_⟩
    rw [List.append_nil, List.append_nil, hname]
    exact h.grow hg h.ok hp (Nat.le_refl _) fun _ _ _ => rfl
  · intro ns n' m g hp hi hb hg
    refine ⟨[], [(n', .own g)], .own (bs := [(n', g)]) (hi.transport hs.symm hx), ?_⟩
    rw [List.append_nil, hname]
    have h0 : Means w0 gs bs n { b with w := { b.w with nodes := ns } } := by
      refine h.grow ?_ h.ok hp (Nat.le_refl _) fun _ _ _ => rfl
      refine ⟨hg.nodes, h.going.toks, hg.milds, hg.root, hg.inner, h.going.own⟩
    exact h0.bind (.own (hb.lower h.length_le)) (h0.graft.bindOwn h.ok) fun _ h => nomatch h

theorem hookPatternScope_brings (h : Means w0 gs bs n b) (hs : SameOn l w0.st.toks b.w.st.toks) (hx : x ∈ l)
    (hk : w0.st.toks[x]? = some k) (hn : k.name = "PatternScope".toList)
    (hd : ¬ Deep w0.st.toks depth x) :
    HookBrings env fromFile imp w0 gs bs n x (hookPatternScope env depth (w0.nodes.length + 1) x b) := by
  have hname : scriptName w0.st.toks [x] n = n := scriptName_other hk (by rw [hn]; decide) n
  obtain ⟨ps, hi, hb⟩ := h.inner
  refine hookPatternScope_effect (P := fun r => HookSafe w0 r → HookBrings env fromFile imp w0 gs bs n x r)
    rfl (hs.at_ hx hk) hn (fun hd' => hd (hd'.transport hs.symm hx))
    (Nat.add_lt_add_left (by decide : 1 < 4) _) h.length_le hi hb ?_ (fun _ _ _ => trivial)
    (fun _ _ _ => trivial) (hookPatternScope_safe h.going x)
  intro ns ps' gs' hlen hsame hitem hi' hb' hg
  refine ⟨gs', [], .own (hitem.transport hs.symm hx), ?_⟩
  rw [List.append_nil, hname]
  have hag : AgreeFrom (w0.nodes.length + 4) b.w.nodes ns := fun i nd hi he => hsame i nd (by omega) he
  exact ⟨hg, h.ok, hsame _ _ (by omega) h.root, ⟨ps', hi', hb'⟩, hsame _ _ (by omega) h.flat,
    hsame _ _ (by omega) h.scope, h.bound.mono ⟨hag, Nat.le_refl _, fun _ _ _ _ => rfl⟩,
    h.graft.mono ⟨hag, Nat.le_refl _, fun _ _ _ _ => rfl⟩, h.tags⟩

end hooks

/-! ### Import statements -/

section imports

variable {sc isc : SCtxId} {root : MatcherId} {file : Str} {ps : List MatcherId} {cur : Str}
  {it : Option (Nat × Nat)} {f : Bool}

/-- What one identifier does. -/
theorem importIdentifier_effect {c : TokId} (hr : b.w.nodes[root]? = some (.program ps cur true it f)) {u : Unit}
    {b1 : Build} (h : importIdentifier sc isc root file c b = (.ok u, b1)) :
    (∃ name, ImportNames b.w.st.toks c "_".toList name ∧ name ≠ "_".toList ∧
      b1 = Build.bind sc name root { b with w := { b.w with
        nodes := b.w.nodes.set root (.program ps name true it f) } }) ∨
    (∃ ident name x, ImportNames b.w.st.toks c ident name ∧ ident ≠ "_".toList ∧
      b.w.st.lookup isc ident = some (.matcher x) ∧
      b1 = Build.bind sc name (b.w.nodes.length + 1) { b with w := { b.w with
        nodes := b.w.nodes ++ [.map x (renameToken name) passFailure, .setScope (some isc) b.w.nodes.length] } }) := by
  revert h
  unfold importIdentifier
  refine step_spec (Q := fun p ns => ns = b.w.nodes ∧ ImportNames b.w.st.toks c p.1.getValue p.2)
    (E := True) (D := True)
    (P := fun r => r = (.ok u, b1) → _) ?_ ?_ ?_ ?_ ?_
  · apply CPost.bind
    refine CPost.tok (fun k hk => ?_) (fun _ => trivial)
    apply CPost.bind
    refine CPost.findChild (fun i hi => ?_) (fun hi => ?_)
    · apply CPost.bind
      refine CPost.ofOpt (fun i' hi' => ?_) (fun _ => trivial)
      cases hi'
      apply CPost.bind
      refine CPost.tok (fun ik hik => ?_) (fun _ => trivial)
      apply CPost.bind
      refine CPost.findChild (fun a ha => ?_) (fun ha => ?_)
      · apply CPost.bind
        refine CPost.tok (fun ak hak => ?_) (fun _ => trivial)
        exact ⟨rfl, .renamed hk hi hik ha hak⟩
      · exact ⟨rfl, .plain hk hi hik ha⟩
    · trivial
  · rintro ⟨ik, name⟩ ns ⟨rfl, hnames⟩
    dsimp only at hnames ⊢
    split
    · rename_i hid
      split
      · intro h; cases h
      · rename_i hne
        rw [hid] at hnames
        intro h
        have hstep : C.setName root name b.w.st.toks b.w.nodes =
            .ok () (b.w.nodes.set root (.program ps name true it f)) := by
          unfold C.setName setNameGo
          simp only [hr, Node.namePassedTo, Node.setOwnName]
        unfold Build.step at h
        rw [hstep] at h
        cases h
        exact .inl ⟨name, hnames, hne, rfl⟩
    · rename_i hid
      split
      · rename_i x hx
        intro h
        refine .inr ⟨ik.getValue, name, x, hnames, hid, hx, ?_⟩
        have h' : (Except.ok (), Build.bind sc name (b.w.nodes ++ [Node.map x (renameToken name) passFailure]).length
          { b with w := { b.w with nodes := (b.w.nodes ++ [Node.map x (renameToken name) passFailure]) ++
              [Node.setScope (some isc) b.w.nodes.length] } }) = ((.ok u, b1) : Except ParseError Unit × Build) := h
        cases h'
        simp
      · intro h; cases h
  · intro _ _ h; cases h
  · intro _ _ h; cases h
  · intro _ h; cases h

/-- What the identifiers bind, in terms of matchers: `look` is the scope of the imported
script, and `ns` the matchers in the end. -/
inductive Did (toks : List Token) (isc : SCtxId) (root : MatcherId) (look : Str → Option Var) (ns : List Node)
    (lo : Nat) (n : Str) : Str → List TokId → List (Str × MatcherId) → Prop
  | nil : Did toks isc root look ns lo n n [] []
  | root {cur c cs name ms} (h : ImportNames toks c "_".toList name) (hn : name ≠ "_".toList)
      (hs : Did toks isc root look ns lo n name cs ms) :
      Did toks isc root look ns lo n cur (c :: cs) ((name, root) :: ms)
  | member {cur c cs ident name m a x ms} (h : ImportNames toks c ident name) (hn : ident ≠ "_".toList)
      (hlm : lo ≤ m) (hla : lo ≤ a) (hm : ns[m]? = some (.setScope (some isc) a))
      (ha : ns[a]? = some (.map x (renameToken name) passFailure)) (hx : look ident = some (.matcher x))
      (hs : Did toks isc root look ns lo n cur cs ms) :
      Did toks isc root look ns lo n cur (c :: cs) ((name, m) :: ms)

theorem Did.lower {toks : List Token} {look : Str → Option Var} {ns : List Node} {lo lo' : Nat} {n cur : Str}
    {cs : List TokId} {ms : List (Str × MatcherId)} (h : Did toks isc root look ns lo n cur cs ms) (hl : lo' ≤ lo) :
    Did toks isc root look ns lo' n cur cs ms := by
  induction h with
  | nil => exact .nil
  | root h hn _ ih => exact .root h hn ih
  | member h hn hlm hla hm ha hx _ ih =>
    exact .member h hn (Nat.le_trans hl hlm) (Nat.le_trans hl hla) hm ha hx ih

/-- Bind names to matchers. -/
def bindAll (sc : SCtxId) (s : State) (ms : List (Str × MatcherId)) : State :=
  ms.foldl (fun s m => s.bindVar sc m.1 (.matcher m.2)) s

theorem importIdentifiers_effect (hne : isc ≠ sc) (cs : List TokId) : ∀ {b b' : Build} {cur : Str} {u : Unit},
    ScopesOK b.w.st → sc < b.w.st.sctxs.length → b.w.nodes[root]? = some (.program ps cur true it f) →
    importIdentifiers sc isc root file cs b = (.ok u, b') →
    ∃ ms n, b.w.nodes.length ≤ b'.w.nodes.length ∧
      (∀ i nd, i ≠ root → b.w.nodes[i]? = some nd → b'.w.nodes[i]? = some nd) ∧
      b'.w.nodes[root]? = some (.program ps n true it f) ∧
      b'.w.st = bindAll sc b.w.st ms ∧
      Did b.w.st.toks isc root (b.w.st.lookup isc) b'.w.nodes b.w.nodes.length n cur cs ms := by
  induction cs with
  | nil =>
    intro b b' cur u hok hsc hr h
    cases h
    exact ⟨[], cur, Nat.le_refl _, fun _ _ _ h => h, hr, rfl, .nil⟩
  | cons c cs ih =>
    intro b b' cur u hok hsc hr h
    have hlt : root < b.w.nodes.length := (List.getElem?_eq_some_iff.mp hr).1
    unfold importIdentifiers at h
    cases hx : importIdentifier sc isc root file c b with
    | mk r b1 =>
    rw [hx] at h
    cases r with
    | error e => cases h
    | ok u1 =>
    dsimp only at h
    rcases importIdentifier_effect hr hx with ⟨name, hn, hne', rfl⟩ | ⟨ident, name, x, hn, hne', hx', rfl⟩
    · have hlook : (b.w.st.bindVar sc name (.matcher root)).lookup isc = b.w.st.lookup isc :=
        funext fun y => (C09_set_get b.w.st hok sc hsc name (.matcher root)).2.2 isc y hne
      obtain ⟨ms, n, h1, h2, h3, h4, h5⟩ := ih (hok.bindVar hsc _ _)
        (by show sc < (b.w.st.bindVar sc name (.matcher root)).sctxs.length; rw [bindVar_length hok hsc]; exact hsc)
        (List.getElem?_set_self hlt) h
      refine ⟨(name, root) :: ms, n, ?_, ?_, h3, h4, .root hn hne' ?_⟩
      · have : (b.w.nodes.set root (.program ps name true it f)).length ≤ b'.w.nodes.length := h1
        simpa using this
      · intro i nd hi he
        exact h2 i nd hi (by
          show (b.w.nodes.set root _)[i]? = _
          rw [List.getElem?_set_ne (fun h => hi h.symm)]; exact he)
      · have h5' : Did (b.w.st.bindVar sc name (.matcher root)).toks isc root
          ((b.w.st.bindVar sc name (.matcher root)).lookup isc) b'.w.nodes
          (b.w.nodes.set root (.program ps name true it f)).length n name cs ms := h5
        rw [hlook, bindVar_toks, List.length_set] at h5'
        exact h5'
    · have hlook : (b.w.st.bindVar sc name (.matcher (b.w.nodes.length + 1))).lookup isc = b.w.st.lookup isc :=
        funext fun y => (C09_set_get b.w.st hok sc hsc name (.matcher (b.w.nodes.length + 1))).2.2 isc y hne
      obtain ⟨ms, n, h1, h2, h3, h4, h5⟩ := ih (hok.bindVar hsc _ _)
        (by show sc < (b.w.st.bindVar sc name (.matcher (b.w.nodes.length + 1))).sctxs.length; rw [bindVar_length hok hsc]; exact hsc)
        (by show (b.w.nodes ++ _)[root]? = _; rw [List.getElem?_append_left hlt]; exact hr) h
      have h1' : b.w.nodes.length + 2 ≤ b'.w.nodes.length := by
        have : (b.w.nodes ++ [Node.map x (renameToken name) passFailure, .setScope (some isc) b.w.nodes.length]).length ≤ b'.w.nodes.length := h1
        simpa using this
      refine ⟨(name, b.w.nodes.length + 1) :: ms, n, by omega, ?_, h3, h4,
        .member (a := b.w.nodes.length) (x := x) hn hne' (Nat.le_succ _) (Nat.le_refl _)
          (h2 _ _ (Nat.ne_of_gt (Nat.lt_succ_of_lt hlt)) ?_) (h2 _ _ (Nat.ne_of_gt hlt) ?_) hx' ?_⟩
      · intro i nd hi he
        exact h2 i nd hi (by
          show (b.w.nodes ++ _)[i]? = _
          rw [List.getElem?_append_left (List.getElem?_eq_some_iff.mp he).1]; exact he)
      · show (b.w.nodes ++ _)[b.w.nodes.length + 1]? = _
        rw [List.getElem?_append_right (by omega)]
        simp
      · show (b.w.nodes ++ _)[b.w.nodes.length]? = _
        rw [List.getElem?_append_right (Nat.le_refl _)]
        simp
      · have h5' : Did (b.w.st.bindVar sc name (.matcher (b.w.nodes.length + 1))).toks isc root
          ((b.w.st.bindVar sc name (.matcher (b.w.nodes.length + 1))).lookup isc) b'.w.nodes
          (b.w.nodes ++ [Node.map x (renameToken name) passFailure, .setScope (some isc) b.w.nodes.length]).length n cur cs ms := h5
        rw [hlook, bindVar_toks, List.length_append] at h5'
        exact h5'.lower (by omega)

/-- Several new definitions. -/
theorem Means.bindAll (ms : List (Str × MatcherId)) (ths : List (Str × Thing)) :
    ∀ {b : Build} {bs : List (Str × Thing)} {hi : SCtxId} {g e : Nat → SCtxId} {D : Nat → List (Str × Thing)} {t : Nat},
    Means w0 gs bs n b → hi = b.w.st.sctxs.length →
    Grafts b.w (w0.nodes.length + 4) w0.st.sctxs.length hi g e D bs → t ≤ bs.length →
    (∀ t', HasTag bs t' → t' ≤ t ∧ (t' < t → e t' ≤ g t)) → w0.st.sctxs.length < g t → e t ≤ hi →
    Grafted b.w (w0.nodes.length + 4) (g t) (e t) (D t) →
    List.Forall₂ (fun m th => m.1 = th.1 ∧ (IsThing b.w (w0.nodes.length + 4) (w0.st.sctxs.length + 1) m.2 th.2 ∧
      th.2.tag = some t ∧ th.2.defs = D t ∧ WorksIn b.w.nodes (w0.nodes.length + 4) m.2 (g t))) ms ths →
    Means w0 gs (bs ++ ths) n { b with w := { b.w with st := bindAll w0.st.sctxs.length b.w.st ms } } := by
  induction ms generalizing ths with
  | nil =>
    intro b bs hi g e D t h _ _ _ _ _ _ _ hf
    cases hf
    rw [List.append_nil]
    exact h
  | cons m ms ih =>
    intro b bs hi g e D t h hhi hG hle hold habove hbelow hsub hf
    cases hf with
    | @cons _ th _ ths h1 h2 =>
    obtain ⟨he, ht, htag, hdefs, hworks⟩ := h1
    obtain ⟨k, th⟩ := th
    obtain ⟨k', m⟩ := m
    dsimp only at he ht htag hdefs hworks
    subst he
    have hG' := hG.bind (k := k') (m := m) (th := th) h.ok fun t' ht' => by
      cases htag.symm.trans ht'
      exact ⟨hworks, hdefs, hsub, habove, hbelow, fun t' h' => ⟨(hold t' h').2, fun hlt => (Nat.lt_irrefl _
        (Nat.lt_of_lt_of_le hlt (hold t' h').1)).elim⟩⟩
    have hb := h.bind (k := k') ht (hhi ▸ hG'.grafted) fun t' ht' => by
      cases htag.symm.trans ht'
      exact hle
    have hsc := h.bound.lt
    have hlater : Later (w0.nodes.length + 4) (w0.st.sctxs.length + 1) b.w
        (b.bind w0.st.sctxs.length k' m).w := by
      refine ⟨fun i nd _ h => h, Nat.le_of_eq (bindVar_length h.ok hsc _ _).symm, fun j hj _ x => ?_⟩
      exact (C09_set_get b.w.st h.ok w0.st.sctxs.length hsc k' (.matcher m)).2.2 j x (by rintro rfl; omega)
    have := ih ths hb (hhi.trans (bindVar_length h.ok hsc _ _).symm) hG' (by rw [List.length_append]; omega) (fun t' h' => by
      rcases h'.snoc with h' | h'
      · exact hold t' h'
      · cases htag.symm.trans h'
        exact ⟨Nat.le_refl _, fun hlt => (Nat.lt_irrefl _ hlt).elim⟩) habove hbelow
      (hsub.mono (hlater.weaken (Nat.le_refl _) habove)) (h2.imp fun _ _ h => ⟨h.1, h.2.1.mono hlater, h.2.2⟩)
    rw [List.append_assoc] at this
    exact this

/-- What the identifiers bind is what they mean. -/
theorem Did.means {toks : List Token} {w : World} {lo : Nat} {n cur : Str} {fgs : List Gram} {fbs : List (Str × Thing)}
    {slo lo1 t : Nat} {cs : List TokId} {ms : List (Str × MatcherId)}
    (h : Did toks isc root (w.st.lookup isc) w.nodes lo n cur cs ms)
    (hf : IsFile w lo slo root isc n fgs fbs) (hlo : lo1 ≤ lo) :
    ∃ ths, Imports toks t fgs fbs n cur cs ths ∧
      List.Forall₂ (fun m th => m.1 = th.1 ∧ (IsThing w lo1 slo m.2 th.2 ∧ th.2.tag = some t ∧ th.2.defs = fbs ∧
        WorksIn w.nodes lo1 m.2 isc)) ms ths := by
  induction h with
  | nil => exact ⟨[], .nil, .nil⟩
  | @root cur c cs name ms h hn _ ih =>
    obtain ⟨ths, h1, h2⟩ := ih
    refine ⟨_, .root h hn h1, .cons ⟨rfl, .file (hf.lower hlo (Nat.le_refl _)), rfl, rfl, ?_⟩ h2⟩
    cases hf with
    | mk hl _ hm hla ha => exact .file (Nat.le_trans hlo hl) hla hm ha
  | @member cur c cs ident name m a x ms h hn hlm hla hm ha hx _ ih =>
    obtain ⟨ths, h1, h2⟩ := ih
    cases hf with
    | mk hl hs _ _ _ _ _ _ _ _ hbs =>
    have hd : ∃ th, lastDef fbs ident = some th := by
      cases hbs with
      | mk _ _ _ _ hu =>
      cases hd : lastDef fbs ident with
      | some th => exact ⟨th, rfl⟩
      | none =>
        rw [hu _ hd] at hx
        cases hx
    obtain ⟨th, hd⟩ := hd
    exact ⟨_, .member h hn hd h1, .cons ⟨rfl, .member (Nat.le_trans hlo hlm) (Nat.le_trans hlo hla) hs hm ha hx
      (hbs.lower (Nat.le_trans hlo (Nat.le_succ_of_le hl))), rfl, rfl, .member (Nat.le_trans hlo hlm) hm⟩ h2⟩

theorem SameOn.of_pre {toks toks' : List Token} {ts l : List TokId} (h : Pre toks ts l) (hp : toks <+: toks') :
    SameOn l toks toks' := by
  refine ⟨fun x hx => ?_, h.closed⟩
  obtain ⟨y, rfl⟩ := hp
  exact List.getElem?_append_left (h.valid x hx)

/-- What compiling an imported file does. -/
def FileBrings (imp : Str → Str → List Gram → List (Str × Thing) → Prop) (compileFile : Str → World → BuildRes) : Prop :=
  ∀ file w root isc w1, Milds w.nodes → ScopesOK w.st → compileFile file w = .ok root isc w1 →
    ScopesOK w1.st ∧ ∃ n gs bs, imp file n gs bs ∧ IsFile w1 w.nodes.length w.st.sctxs.length root isc n gs bs ∧
      Grafted w1 (root + 1) isc w1.st.sctxs.length bs

/-- What the identifiers of an import do, when the file is compiled. -/
theorem imported_means {w1 : World} {nf : Str} {fgs : List Gram} {fbs : List (Str × Thing)} {cs : List TokId} {u : Unit}
    (h : Means w0 gs bs n b) (hnodes : b.w.nodes <+: w1.nodes) (htoks : b.w.st.toks <+: w1.st.toks)
    (hroot : b.w.nodes.length ≤ root) (hown : OwnScope b.w.st isc w1.st) (hok1 : ScopesOK w1.st)
    (hfile : IsFile w1 b.w.nodes.length b.w.st.sctxs.length root isc nf fgs fbs)
    (hgraft : Grafted w1 (root + 1) isc w1.st.sctxs.length fbs)
    (hres : importIdentifiers w0.st.sctxs.length isc root file cs { b with w := w1 } = (.ok u, b'))
    (hg : Going w0 b') :
    ∃ n' ths, Imports w1.st.toks bs.length fgs fbs n' nf cs ths ∧ Means w0 gs (bs ++ ths) n b' := by
  have hsc := h.bound.lt
  have hne : isc ≠ w0.st.sctxs.length := by
    intro he
    have := hown.new
    rw [he] at this
    exact Nat.lt_irrefl _ (Nat.lt_of_lt_of_le hsc this)
  cases hfile with
  | mk hl hs hm hla ha hlb hb hli hi hps hbs =>
  obtain ⟨ms, n', hlen, hkeep, hroot', hst, hdid⟩ := importIdentifiers_effect hne cs
    (b := { b with w := w1 }) hok1 (Nat.lt_of_lt_of_le hsc hown.sctxs.length_le) hm hres
  dsimp only at hlen hkeep hst hdid
  have hag : AgreeFrom (root + 1) w1.nodes b'.w.nodes := fun i nd hi he => hkeep i nd (Nat.ne_of_gt hi) he
  have hpre : b.w.nodes <+: b'.w.nodes := by
    refine List.prefix_iff_getElem?.mpr fun i hi => hkeep i _ ?_ (List.prefix_iff_getElem?.mp hnodes i hi)
    exact Nat.ne_of_lt (Nat.lt_of_lt_of_le hi hroot)
  have hfile' : IsFile ⟨b'.w.nodes, w1.st⟩ b.w.nodes.length b.w.st.sctxs.length root isc n' fgs fbs :=
    .mk hl hs hroot' hla (hag _ _ hla ha) hlb (hag _ _ hlb hb) hli (hag _ _ hli hi) (hps.mono hag)
      (hbs.mono ⟨hag, Nat.le_refl _, fun _ _ _ _ => rfl⟩)
  have hM : Means w0 gs bs n { b' with w := ⟨b'.w.nodes, w1.st⟩ } := by
    refine h.grow ⟨hg.nodes, h.going.toks.trans htoks, hg.milds, hg.root, hg.inner,
      h.going.own.grow hown.scopes hown.sctxs⟩ hok1 hpre hown.sctxs.length_le ?_
    exact fun k hk x => lookup_grow h.ok hown.scopes hown.sctxs hk x
  have hdid' : Did w1.st.toks isc root (w1.st.lookup isc) b'.w.nodes b.w.nodes.length n' nf cs ms :=
    hdid.lower hnodes.length_le
  obtain ⟨ths, him, hfa⟩ := hdid'.means (w := ⟨b'.w.nodes, w1.st⟩) (t := bs.length) hfile' h.length_le
  have hnew : ¬ HasTag bs bs.length := fun h' => Nat.lt_irrefl _ (h.tags _ h')
  have hgraft' : Grafted ⟨b'.w.nodes, w1.st⟩ (w0.nodes.length + 4) isc w1.st.sctxs.length fbs :=
    (hgraft.mono (w' := ⟨b'.w.nodes, w1.st⟩) ⟨hag, Nat.le_refl _, fun _ _ _ _ => rfl⟩).lower (Nat.le_succ_of_le (Nat.le_trans h.length_le hroot))
  obtain ⟨g, e, D, hG⟩ := (h.graft.mono (w' := ⟨b'.w.nodes, w1.st⟩) ⟨AgreeFrom.of_prefix hpre _, hown.sctxs.length_le,
    fun k _ hk x => lookup_grow h.ok hown.scopes hown.sctxs hk x⟩).grafts
  have hG1 := hG.branch (isc := isc) (ihi := w1.st.sctxs.length) (fbs := fbs) hnew
  have hG2 : Grafts ⟨b'.w.nodes, w1.st⟩ (w0.nodes.length + 4) w0.st.sctxs.length w1.st.sctxs.length
      (fun t' => if t' = bs.length then isc else g t') (fun t' => if t' = bs.length then w1.st.sctxs.length else e t')
      (fun t' => if t' = bs.length then fbs else D t') bs :=
    ⟨Nat.lt_of_lt_of_le hG1.lt hown.sctxs.length_le, Nat.le_refl _, hG1.works, hG1.same, hG1.sub, hG1.above,
      fun t ht => Nat.le_trans (hG1.below t ht) hown.sctxs.length_le, hG1.apart⟩
  have hM' := Means.bindAll ms ths hM rfl hG2 (Nat.le_refl _) (fun t' h' => ⟨Nat.le_of_lt (h.tags t' h'), fun hlt => by
      rw [if_neg (Nat.ne_of_lt hlt), if_pos rfl]
      exact Nat.le_trans (hG.below t' h') hs⟩) (by rw [if_pos rfl]; exact Nat.lt_of_lt_of_le hsc hs)
    (by rw [if_pos rfl]) (by rw [if_pos rfl, if_pos rfl, if_pos rfl]; exact hgraft')
    (hfa.imp fun _ _ h' => ⟨h'.1, h'.2.1.lower (Nat.le_refl _) hsc, h'.2.2.1, by rw [if_pos rfl]; exact h'.2.2.2.1,
      by rw [if_pos rfl]; exact h'.2.2.2.2⟩)
  refine ⟨n', ths, him, ?_⟩
  have he : b' = { b' with w := { nodes := b'.w.nodes, st := Adx.bindAll w0.st.sctxs.length w1.st ms } } := by
    rw [← hst]
  rw [he]
  exact hM'

theorem hookImport_brings {compileFile : Str → World → BuildRes} {ts l : List TokId} {x : TokId} {k : Token}
    (hf : FileBrings imp compileFile) (hsafe : ∀ file w, Milds w.nodes → FileSafe w (compileFile file w))
    (h : Means w0 gs bs n b) (hp : Pre w0.st.toks ts l) (hx : x ∈ l)
    (hk : w0.st.toks[x]? = some k) (hn : k.name = "ImportStatement".toList) :
    HookBrings env fromFile imp w0 gs bs n x (hookImport env compileFile fromFile w0.st.sctxs.length x b) := by
  have hname : scriptName w0.st.toks [x] n = n := scriptName_other hk (by rw [hn]; decide) n
  have hsame := SameOn.of_pre hp h.going.toks
  have hg := hookImport_safe (env := env) (fromFile := fromFile) hsafe h.going x
  revert hg
  unfold hookImport
  cases fromFile with
  | none =>
    refine step_spec (Q := fun _ _ => True) (E := True) (D := True)
      (P := fun r => HookSafe w0 r → HookBrings env none imp w0 gs bs n x r) ?_ ?_ ?_ ?_ ?_
    · exact CPost.tok (fun _ _ => trivial) (fun _ => trivial)
    · intro k ns _ _; trivial
    · intro _ _ _; trivial
    · intro _ _ _; trivial
    · intro _ _; trivial
  | some base =>
    refine step_spec (Q := fun p ns => ns = b.w.nodes ∧ ∃ ids idk q qk joined,
        First b.w.st.toks ["ImportIdentifiers"] k.children ids ∧ b.w.st.toks[ids]? = some idk ∧
        First b.w.st.toks ["Path"] k.children q ∧ b.w.st.toks[q]? = some qk ∧
        env.relative base qk.getValue = some joined ∧ env.canonical joined = some p.2 ∧ p.1 = idk.children)
      (E := True) (D := True)
      (P := fun r => HookSafe w0 r → HookBrings env (some base) imp w0 gs bs n x r) ?_ ?_ ?_ ?_ ?_
    · apply CPost.bind
      refine CPost.tok (fun k' hk' => ?_) (fun _ => trivial)
      cases (hsame.at_ hx hk).symm.trans hk'
      apply CPost.bind
      refine CPost.findChild (fun ids hids => ?_) (fun _ => ?_)
      case refine_2 => trivial
      apply CPost.bind
      refine CPost.ofOpt (fun _ he => ?_) (fun _ => trivial)
      cases he
      apply CPost.bind
      refine CPost.tok (fun idk hidk => ?_) (fun _ => trivial)
      apply CPost.bind
      refine CPost.findChild (fun q hq => ?_) (fun _ => ?_)
      case refine_2 => trivial
      apply CPost.bind
      refine CPost.ofOpt (fun _ he => ?_) (fun _ => trivial)
      cases he
      apply CPost.bind
      refine CPost.tok (fun qk hqk => ?_) (fun _ => trivial)
      apply CPost.bind
      refine CPost.ofOpt (fun joined hj => ?_) (fun _ => trivial)
      apply CPost.bind
      refine CPost.ofOpt (fun file hc => ?_) (fun _ => trivial)
      exact ⟨rfl, ids, idk, q, qk, joined, hids, hidk, hq, hqk, hj, hc, rfl⟩
    · rintro ⟨ids, file⟩ ns ⟨rfl, idt, idk, q, qk, joined, hids, hidk, hq, hqk, hj, hc, rfl⟩
      dsimp only at hc ⊢
      have hs := hsafe file b.w h.going.milds
      cases hcf : compileFile file b.w with
      | err es => intro _; trivial
      | panic m => intro _; trivial
      | diverge => intro _; trivial
      | ok root isc w1 =>
      rw [hcf] at hs
      obtain ⟨hnodes, htoks, -, hroot, -, hown⟩ := hs
      obtain ⟨hok1, nf, fgs, fbs, himp, hfile, hgraft⟩ := hf file b.w root isc w1 h.going.milds h.ok hcf
      dsimp only
      cases hres : importIdentifiers w0.st.sctxs.length isc root file idk.children { b with w := w1 } with
      | mk r b' =>
      cases r with
      | error e => intro _; trivial
      | ok u =>
      intro hg
      have hsame1 := SameOn.of_pre hp (h.going.toks.trans htoks)
      obtain ⟨n', ths, him, hM⟩ := imported_means h hnodes htoks hroot hown hok1 hfile hgraft hres hg
      have hcl := hp.closed x hx k hk
      refine ⟨[], ths, .imported hk hn (hsame.symm.first hcl hids) (hsame.symm.at_ (hcl _ hids.mem) hidk)
        (hsame.symm.first hcl hq) (hsame.symm.at_ (hcl _ hq.mem) hqk) rfl hj hc himp
        (him.transport hsame1.symm ?_), ?_⟩
      · exact hp.closed idt (hcl _ hids.mem) idk (hsame.symm.at_ (hcl _ hids.mem) hidk)
      · rw [List.append_nil, hname]
        exact hM
    · intro _ _ _; trivial
    · intro _ _ _; trivial
    · intro _ _; trivial

end imports

/-! ### The visit -/

theorem scriptName_cons (toks : List Token) (x : TokId) (l : List TokId) (n : Str) :
    scriptName toks (x :: l) n = scriptName toks l (scriptName toks [x] n) := by
  simp only [scriptName]
  split
  · split <;> rfl
  · rfl

/-- What the visit of the tokens `l` does, when it succeeds. -/
def VisitBrings (env : Env) (fromFile : Option Str) (imp : Str → Str → List Gram → List (Str × Thing) → Prop)
    (w0 : World) (gs : List Gram) (bs : List (Str × Thing)) (n : Str) (l : List TokId) : VRes Build → Prop
  | .ok b => ∃ gs' bs', ScriptBrings env fromFile imp w0.st.toks bs.length l gs' bs' ∧
      Means w0 (gs ++ gs') (bs ++ bs') (scriptName w0.st.toks l n) b
  | _ => True

theorem callHooks_brings {compileFile : Str → World → BuildRes} {ts all : List TokId} {depth : Nat}
    (hf : FileBrings imp compileFile) (hsafe : ∀ file w, Milds w.nodes → FileSafe w (compileFile file w))
    (hp : Pre w0.st.toks ts all) (hd : w0.st.toks.length ≤ depth) (l : List TokId) :
    ∀ {gs : List Gram} {bs : List (Str × Thing)} {n : Str} {b : Build}, (∀ x ∈ l, x ∈ all) → Means w0 gs bs n b →
    VisitBrings env fromFile imp w0 gs bs n l (callHooks w0.st.toks
      (buildHooks env compileFile fromFile depth w0.nodes.length (w0.nodes.length + 1) w0.st.sctxs.length) l b) := by
  induction l with
  | nil =>
    intro gs bs n b _ h
    exact ⟨[], [], .nil, by rw [List.append_nil, List.append_nil]; exact h⟩
  | cons x l ih =>
    intro gs bs n b hl h
    have hx := hl x (by simp)
    obtain ⟨k, hk⟩ : ∃ k, w0.st.toks[x]? = some k := ⟨_, List.getElem?_eq_getElem (hp.valid x hx)⟩
    have hdx := hp.not_deep hx hd
    have hsame := SameOn.of_pre hp h.going.toks
    -- the token is done
    have after : ∀ {gs1 bs1 b1}, ItemBrings env fromFile imp w0.st.toks bs.length x gs1 bs1 →
        Means w0 (gs ++ gs1) (bs ++ bs1) (scriptName w0.st.toks [x] n) b1 →
        VisitBrings env fromFile imp w0 gs bs n (x :: l) (callHooks w0.st.toks
          (buildHooks env compileFile fromFile depth w0.nodes.length (w0.nodes.length + 1) w0.st.sctxs.length) l b1) := by
      intro gs1 bs1 b1 h1 h2
      have := ih (fun y hy => hl y (List.mem_cons_of_mem _ hy)) h2
      cases hc : callHooks w0.st.toks
          (buildHooks env compileFile fromFile depth w0.nodes.length (w0.nodes.length + 1) w0.st.sctxs.length) l b1 with
      | ok b' =>
        rw [hc] at this
        obtain ⟨gs2, bs2, h3, h4⟩ := this
        rw [List.length_append] at h3
        refine ⟨gs1 ++ gs2, bs1 ++ bs2, .cons h1 h3, ?_⟩
        rw [scriptName_cons, ← List.append_assoc, ← List.append_assoc]
        exact h4
      | err e b' => trivial
      | dangling => trivial
      | diverge => trivial
    -- a hook
    have key : ∀ hook : Hook Build,
        hookFor (buildHooks env compileFile fromFile depth w0.nodes.length (w0.nodes.length + 1) w0.st.sctxs.length)
          k.name = some hook →
        HookBrings env fromFile imp w0 gs bs n x (hook x b) →
        VisitBrings env fromFile imp w0 gs bs n (x :: l) (callHooks w0.st.toks
          (buildHooks env compileFile fromFile depth w0.nodes.length (w0.nodes.length + 1) w0.st.sctxs.length)
          (x :: l) b) := by
      intro hook hf hok
      have hb : (w0.st.toks[x]?).bind (fun k => hookFor
          (buildHooks env compileFile fromFile depth w0.nodes.length (w0.nodes.length + 1) w0.st.sctxs.length) k.name) =
          some hook := by
        rw [hk]; exact hf
      unfold callHooks
      rw [hb]
      dsimp only
      rcases ho : hook x b with ⟨r, b1⟩
      rw [ho] at hok
      cases r with
      | error e => trivial
      | ok u =>
        obtain ⟨gs1, bs1, h1, h2⟩ := hok
        exact after h1 h2
    by_cases h1 : k.name = "Error".toList
    · exact key _ (h1 ▸ hookFor_hit (pre := []) rfl (by decide)) (hookError_brings h hsame hx hk h1)
    by_cases h2 : k.name = "AdextopaScope".toList
    · exact key _ (h2 ▸ hookFor_hit (pre := [_]) rfl (by simp)) (hookAdextopaScope_brings h hsame hx hk h2)
    by_cases h3 : k.name = "AssignmentExpression".toList
    · exact key _ (h3 ▸ hookFor_hit (pre := [_, _]) rfl (by simp)) (hookAssignment_brings h hsame hx hk h3 hdx)
    by_cases h4 : k.name = "ImportStatement".toList
    · exact key _ (h4 ▸ hookFor_hit (pre := [_, _, _]) rfl (by simp)) (hookImport_brings hf hsafe h hp hx hk h4)
    by_cases h5 : k.name = "PatternScope".toList
    · exact key _ (h5 ▸ hookFor_hit (pre := [_, _, _, _]) rfl (by simp))
        (hookPatternScope_brings h hsame hx hk h5 hdx)
    have hb : (w0.st.toks[x]?).bind (fun k => hookFor
        (buildHooks env compileFile fromFile depth w0.nodes.length (w0.nodes.length + 1) w0.st.sctxs.length) k.name) =
        none := by
      rw [hk]
      refine hookFor_miss ?_ (by simp [buildHooks])
      simp only [buildHooks, List.map_cons, List.map_nil, List.mem_cons, List.not_mem_nil, or_false, not_or]
      exact ⟨h1, h2, h3, h4, h5⟩
    unfold callHooks
    rw [hb]
    exact after (.own (.other hk h1 h5 h3 h4)) (by
      rw [scriptName_other hk h2]
      simpa using h)

/-- The state of the build in the beginning. -/
theorem Means.start {w : World} {name : Str} (hm : Milds w.nodes) (hok : ScopesOK w.st) :
    Means w [] [] name
      ⟨⟨w.nodes ++ preamble w.nodes.length w.st.sctxs.length name, w.st.newSCtx.2⟩, [], none⟩ := by
  have hat : ∀ i, (w.nodes ++ preamble w.nodes.length w.st.sctxs.length name)[w.nodes.length + i]? =
      (preamble w.nodes.length w.st.sctxs.length name)[i]? := by
    intro i
    rw [List.getElem?_append_right (by omega), Nat.add_sub_cancel_left]
  refine ⟨⟨⟨_, rfl⟩, ⟨[], by simp [State.newSCtx]⟩, hm.append ?_, ⟨_, _, _, _, _, hat 0⟩, ⟨_, _, _, _, _, hat 1⟩,
    OwnScope.start _⟩, hok.newSCtx, hat 0, ⟨[], hat 1, .nil⟩, hat 2, hat 3,
    .mk (by simp [State.newSCtx]) (fun _ => 0) (fun _ _ h => by cases h) (fun _ _ h => by cases h) ?_,
    .mk (fun _ => 0) (fun _ => 0) (fun _ => []) (by simp [State.newSCtx]) (Nat.le_refl _) (fun _ => 0) (fun _ _ _ h => by cases h)
      (fun _ _ _ h => by cases h) (fun _ h => by cases h) (fun _ ⟨_, h, _⟩ => by cases h) (fun _ ⟨_, h, _⟩ => by cases h)
      (fun _ ⟨_, h, _⟩ => by cases h) (fun _ _ ⟨_, h, _⟩ => by cases h), fun _ ⟨_, h, _⟩ => by cases h⟩
  · intro nd hnd
    simp only [preamble, List.mem_cons, List.not_mem_nil, or_false] at hnd
    rcases hnd with rfl | rfl | rfl | rfl <;> trivial
  · intro n _
    show (w.st.newSCtx.2).lookup w.st.sctxs.length n = none
    unfold State.lookup State.newSCtx
    dsimp only
    rw [List.getElem?_concat_length]
    rfl

/-- What the build of a script makes is what its tokens bring. -/
theorem build_brings {compileFile : Str → World → BuildRes} {depth : Nat} {t : TokId} {k : Token} {ctx : Ctx}
    {name : Str} {w w' : World} {l : List TokId} {m : MatcherId} {sc : SCtxId}
    (hf : FileBrings imp compileFile) (hsafe : ∀ file w, Milds w.nodes → FileSafe w (compileFile file w))
    (hm : Milds w.nodes) (hok : ScopesOK w.st) (hk : w.st.toks[t]? = some k) (hn : k.name = "Script".toList)
    (hl : Pre w.st.toks [t] l) (hd : w.st.toks.length ≤ depth)
    (h : buildMatcherFromTokens env compileFile depth t ctx name fromFile w = .ok m sc w') :
    ScopesOK w'.st ∧ ∃ gs bs, ScriptBrings env fromFile imp w.st.toks 0 l gs bs ∧
      IsFile w' w.nodes.length w.st.sctxs.length m sc (scriptName w.st.toks l name) gs bs ∧
      Grafted w' (m + 1) sc w'.st.sctxs.length bs := by
  have hv := callHooks_brings (env := env) (fromFile := fromFile) hf hsafe hl hd l (fun _ h => h)
    (Means.start (name := name) hm hok)
  have he : buildMatcherFromTokens env compileFile depth t ctx name fromFile w =
      buildResult ctx w.nodes.length w.st.sctxs.length (callHooks w.st.toks
        (buildHooks env compileFile fromFile depth w.nodes.length (w.nodes.length + 1) w.st.sctxs.length) l
        ⟨⟨w.nodes ++ preamble w.nodes.length w.st.sctxs.length name, w.st.newSCtx.2⟩, [], none⟩) := by
    unfold buildMatcherFromTokens
    rw [hk]
    dsimp only
    rw [if_neg (by simpa using hn)]
    rw [← C31_visit_preorder _ _ hl hd]
    rfl
  rw [he] at h
  generalize callHooks w.st.toks
        (buildHooks env compileFile fromFile depth w.nodes.length (w.nodes.length + 1) w.st.sctxs.length) l
        ⟨⟨w.nodes ++ preamble w.nodes.length w.st.sctxs.length name, w.st.newSCtx.2⟩, [], none⟩ = r at h hv
  cases r with
  | ok b =>
    cases h
    obtain ⟨gs, bs, h1, h2⟩ := hv
    simp only [List.nil_append] at h2
    obtain ⟨ps, hi, hb⟩ := h2.inner
    exact ⟨h2.ok, gs, bs, h1, .mk (Nat.le_refl _) (Nat.le_refl _) h2.root (by simp) h2.scope (by simp) h2.flat
      (by simp) hi (hb.lower (by omega)) (h2.bound.lower (by omega)), h2.graft.lower (by omega)⟩
  | err e b => exact (buildResult_err h).elim
  | dangling => cases h
  | diverge => cases h

/-! ### The parse -/

theorem ok_keep {old : State} {sc : SCtxId} {lo : Nat} : VarKeep (lo ≤ ·) sc (fun s => (OwnScope old sc s ∧
    ∀ k m, s.lookup sc k = some (.matcher m) → lo ≤ m) ∧ ScopesOK s) := by
  have H := own_keep old sc lo
  have hlt : ∀ {s}, OwnScope old sc s → sc < s.sctxs.length := by
    intro s h
    rcases h.stack with h | ⟨_, h, _⟩ <;> exact (List.getElem?_eq_some_iff.mp h).1
  exact ⟨fun s ts h => ⟨H.toks s ts h.1, h.2.toks ts⟩,
    fun s k m h hm => ⟨H.bindM s k m h.1 hm, h.2.bindVar (hlt h.1.1) _ _⟩,
    fun s k m h => ⟨H.bindT s k m h.1, h.2.bindVar (hlt h.1.1) _ _⟩,
    fun s k m h => ⟨H.bindS s k m h.1, h.2.bindVar (hlt h.1.1) _ _⟩,
    fun s k m h => H.look s k m h.1⟩

attribute [local irreducible] Script.switchMatcher Script.programMatcher Script.script tokenize
  buildMatcherFromTokens String.toList

theorem setup_ok (env : Env) (parser : Parser) (name : Str) {w : World} (h : ScopesOK w.st) :
    ScopesOK (setup env parser name w).st := by
  have h0 := h.newSCtx
  have hl : w.st.sctxs.length < w.st.newSCtx.2.sctxs.length := by simp [State.newSCtx]
  have h1 := h0.bindVar hl "SwitchMatcher".toList (.matcher ((Script.switchMatcher env.uni).run w.nodes).1)
  exact h1.bindVar (by rw [bindVar_length h0 hl]; exact hl) _ _

/-- Parsing a script keeps scopes apart. -/
theorem parse_ok {env : Env} {parser : Parser} {name : Str} {w : World} {fuel : Nat} {r : Except Failure TokId}
    {st : State} (hok : ScopesOK w.st)
    (h : tokenize (tableOf (setup env parser name w).nodes) env.cfg fuel (setup env parser name w).ctx
      (setup env parser name w).start (setup env parser name w).st = .ok r st) : ScopesOK st := by
  obtain ⟨ys, h1, h2, h3, h4⟩ := setup_nodes env parser name w
  have H := ok_keep (old := w.st) (sc := w.st.sctxs.length) (lo := w.nodes.length)
  refine (tokenize_keep H env.cfg (fun m hm => ?_) h3 rfl _ _ _
    ⟨⟨setup_own env parser name w, h4⟩, setup_ok env parser name hok⟩ h).2
  rw [h1]
  unfold tableOf
  cases hn : (w.nodes ++ ys)[m]? with
  | none => trivial
  | some nd =>
    rw [List.getElem?_append_right hm] at hn
    exact (h2 nd (List.mem_of_getElem? hn)).keep H.toks

end Adx
