import Verif.Proofs.Construct
import Verif.Props.Visitor
import Verif.Props.Scopes
import Verif.Proofs.Post
/-
  The hooks of `build_matcher_from_tokens` do what the tokens of the script mean.
-/
namespace Adx

/-! ### Depth -/

theorem Deep.weaken {toks : List Token} : ∀ {d : Nat} {t : TokId}, Deep toks (d + 1) t →
    Deep toks d t := by
  intro d
  induction d with
  | zero => intro _ _; trivial
  | succ d ih =>
    rintro t ⟨c, h, h'⟩
    exact ⟨c, h, ih h'⟩

theorem Deep.le {toks : List Token} {d d' : Nat} {t : TokId} (h : Deep toks d t) (hd : d' ≤ d) :
    Deep toks d' t := by
  induction hd with
  | refl => exact h
  | step _ ih => exact ih h.weaken

theorem Below.step' {toks : List Token} {t c d : TokId} (h : Below toks t c) (h' : Below toks c d) :
    Below toks t d := by
  induction h with
  | child hk hc => exact .step hk hc h'
  | step hk hc _ ih => exact .step hk hc (ih h')

theorem Deep.weaken_below {toks : List Token} {d : Nat} {t c : TokId} (h : Deep toks d c)
    (hb : Below toks t c) : Deep toks d t := by
  cases d with
  | zero => trivial
  | succ d =>
    obtain ⟨e, h1, h2⟩ := h
    exact ⟨e, hb.step' h1, h2⟩

theorem Walk.at_mem {toks : List Token} {n : Nat} {ts l : List TokId} (h : Walk toks n ts l)
    {x : TokId} (hx : x ∈ l) : ∃ m l', m ≤ n ∧ Walk toks m [x] l' := by
  induction h with
  | nil => cases hx
  | @cons n t k ts l l' hk hc hs ih1 ih2 =>
    rcases List.mem_cons.mp hx with rfl | hx
    · exact ⟨n + 1, _, Nat.le_refl _, .cons hk hc (.nil _)⟩
    · rcases List.mem_append.mp hx with hx | hx
      · obtain ⟨m, l', hm, h⟩ := ih1 hx
        exact ⟨m, l', by omega, h⟩
      · exact ih2 hx

theorem Walk.at_root {toks : List Token} {n : Nat} {ts l : List TokId} (h : Walk toks n ts l)
    {x : TokId} (hx : x ∈ ts) : ∃ l', Walk toks n [x] l' := by
  induction h with
  | nil => cases hx
  | @cons n t k ts l l' hk hc hs ih1 ih2 =>
    rcases List.mem_cons.mp hx with rfl | hx
    · exact ⟨_, .cons hk hc (.nil _)⟩
    · exact ih2 hx

theorem Walk.descend {toks : List Token} {x y : TokId} (hb : Below toks x y) :
    ∀ {n : Nat} {l : List TokId}, Walk toks n [x] l → ∃ m l', m < n ∧ Walk toks m [y] l' := by
  induction hb with
  | child hk hc =>
    intro n l h
    cases h with
    | cons hk' h1 h2 =>
      cases hk.symm.trans hk'
      obtain ⟨l', h⟩ := h1.at_root hc
      exact ⟨_, l', Nat.lt_succ_self _, h⟩
  | step hk hc _ ih =>
    intro n l h
    cases h with
    | cons hk' h1 h2 =>
      cases hk.symm.trans hk'
      obtain ⟨l', h⟩ := h1.at_root hc
      obtain ⟨m, l', hm, h⟩ := ih h
      exact ⟨m, l', by omega, h⟩

theorem Walk.not_deep {toks : List Token} : ∀ {n : Nat} {x : TokId} {l : List TokId},
    Walk toks n [x] l → ¬ Deep toks n x := by
  intro n
  induction n with
  | zero => intro x l h; cases h
  | succ n ih =>
    rintro x l h ⟨c, hb, hd⟩
    obtain ⟨m, l', hm, h⟩ := h.descend hb
    have hmono : ∀ {m n : Nat} {l : List TokId}, Walk toks m [c] l → m ≤ n → Walk toks n [c] l := by
      intro m n l h hmn
      have key : ∀ {m ts l}, Walk toks m ts l → ∀ {n}, m ≤ n → Walk toks n ts l := by
        intro m ts l h
        induction h with
        | nil => intro n _; exact .nil n
        | cons hk _ _ ih1 ih2 =>
          intro n hn
          cases n with
          | zero => omega
          | succ n => exact .cons hk (ih1 (by omega)) (ih2 hn)
      exact key h hmn
    exact ih (hmono h (by omega)) hd

theorem Pre.not_deep {toks : List Token} {ts l : List TokId} (h : Pre toks ts l) {x : TokId}
    (hx : x ∈ l) {d : Nat} (hd : toks.length ≤ d) : ¬ Deep toks d x := by
  obtain ⟨m, l', hm, hw⟩ := (h.walk hd).at_mem hx
  exact fun h => hw.not_deep (h.le hm)

/-! ### Scopes -/

/-- The context exists, and its stack has at most one scope. -/
def Usable (s : State) (sc : SCtxId) : Prop :=
  s.sctxs[sc]? = some [] ∨ ∃ i, s.sctxs[sc]? = some [i] ∧ i < s.scopes.length

theorem Usable.bindVar {s : State} {sc : SCtxId} (h : Usable s sc) (k : Str) (v : Var) :
    Usable (s.bindVar sc k v) sc ∧
      ∀ x, (s.bindVar sc k v).lookup sc x = if x = k then some v else s.lookup sc x := by
  rcases h with h | ⟨i, h, hi⟩
  · have hlt : sc < s.sctxs.length := (List.getElem?_eq_some_iff.mp h).1
    have he : s.bindVar sc k v = { s with
        scopes := s.scopes ++ [AMap.insert [] k v]
        sctxs := s.sctxs.set sc [s.scopes.length] } := by
      unfold State.bindVar; simp [h]
    rw [he]
    refine ⟨.inr ⟨s.scopes.length, by simp [hlt], by simp⟩, ?_⟩
    intro x
    unfold State.lookup
    simp only [List.getElem?_set_self hlt, h, Option.getD_some, lookupStack]
    rw [List.getElem?_concat_length, Option.getD_some, AMap.get_insert]
    by_cases hx : x = k
    · simp [hx]
    · simp [hx, AMap.get]
  · have he : s.bindVar sc k v = { s with
        scopes := s.scopes.set i ((s.scopes[i]?.getD []).insert k v) } := by
      unfold State.bindVar; simp [h]
    rw [he]
    refine ⟨.inr ⟨i, h, by simpa using hi⟩, ?_⟩
    intro x
    unfold State.lookup
    simp only [h, Option.getD_some, lookupStack]
    rw [List.getElem?_set_self hi, Option.getD_some, AMap.get_insert]
    by_cases hx : x = k
    · simp [hx]
    · simp [hx]

/-! ### One hook -/

/-- The state of the build after some tokens that mean `gs` and `bs`, and of which the
error tokens report `es`.  `root` is the root matcher, `sc` the scope of the script. -/
structure Inv (toks : List Token) (ns0 : List Node) (sc : SCtxId) (gs : List Gram)
    (bs : List (Str × Gram)) (es : List ParseError) (b : Build) : Prop where
  toks_eq : b.w.st.toks = toks
  errors_eq : b.errors = es
  crash_eq : b.crash = none
  old : ns0 <+: b.w.nodes
  root : ∃ n, b.w.nodes[ns0.length]? = some (.program [ns0.length + 3] n true none false)
  inner : ∃ ps, b.w.nodes[ns0.length + 1]? = some (.program ps "Program".toList false none false) ∧
    BuiltAll b.w.nodes (ns0.length + 4) ps gs
  flat : b.w.nodes[ns0.length + 2]? = some (.proxyChildren (ns0.length + 1) "Flatten".toList false)
  scope : b.w.nodes[ns0.length + 3]? = some (.setScope (some sc) (ns0.length + 2))
  usable : Usable b.w.st sc
  bound : ∀ n, match lastDef bs n with
    | some g => ∃ m, b.w.st.lookup sc n = some (.matcher m) ∧ Built b.w.nodes (ns0.length + 4) m g
    | none => b.w.st.lookup sc n = none

variable {env : Env} {toks : List Token} {ns0 : List Node} {sc : SCtxId} {gs : List Gram}
  {bs : List (Str × Gram)} {es : List ParseError} {b : Build}

theorem Inv.length_le (h : Inv toks ns0 sc gs bs es b) : ns0.length + 4 ≤ b.w.nodes.length :=
  (List.getElem?_eq_some_iff.mp h.scope).1

/-- More matchers at the end change nothing. -/
theorem Inv.grow (h : Inv toks ns0 sc gs bs es b) {ns : List Node} (hp : b.w.nodes <+: ns) :
    Inv toks ns0 sc gs bs es { b with w := { b.w with nodes := ns } } := by
  have hag := AgreeFrom.of_prefix hp
  have hat : ∀ {i nd}, b.w.nodes[i]? = some nd → ns[i]? = some nd := fun h => hag 0 _ _ (Nat.zero_le _) h
  obtain ⟨n, hr⟩ := h.root
  obtain ⟨ps, hi, hb⟩ := h.inner
  refine ⟨h.toks_eq, h.errors_eq, h.crash_eq, h.old.trans hp, ⟨n, hat hr⟩, ⟨ps, hat hi, hb.mono (hag _)⟩,
    hat h.flat, hat h.scope, h.usable, ?_⟩
  intro n
  have := h.bound n
  cases hl : lastDef bs n with
  | none => rw [hl] at this; exact this
  | some g =>
    rw [hl] at this
    obtain ⟨m, h1, h2⟩ := this
    exact ⟨m, h1, h2.mono (hag _)⟩

theorem lastDef_snoc {β : Type} (bs : List (Str × β)) (k : Str) (g : β) (n : Str) :
    lastDef (bs ++ [(k, g)]) n = if n = k then some g else lastDef bs n := by
  unfold lastDef
  rw [List.reverse_append]
  simp only [List.reverse_cons, List.reverse_nil, List.nil_append, List.singleton_append,
    List.find?_cons]
  by_cases h : n = k
  · subst h; simp
  · have : (k == n) = false := by rw [beq_eq_false_iff_ne]; exact fun h' => h h'.symm
    simp [h, this]

/-- A new definition. -/
theorem Inv.bind (h : Inv toks ns0 sc gs bs es b) {k : Str} {m : MatcherId} {g : Gram}
    (hm : Built b.w.nodes (ns0.length + 4) m g) :
    Inv toks ns0 sc gs (bs ++ [(k, g)]) es (b.bind sc k m) := by
  obtain ⟨hu, hl⟩ := h.usable.bindVar k (.matcher m)
  refine ⟨?_, h.errors_eq, h.crash_eq, h.old, h.root, h.inner, h.flat, h.scope, hu, ?_⟩
  · show (b.w.st.bindVar sc k (.matcher m)).toks = toks
    rw [State.bindVar_toks]; exact h.toks_eq
  · intro n
    rw [lastDef_snoc]
    have hb := h.bound n
    show match (if n = k then some g else lastDef bs n) with
      | some g => ∃ m', (b.w.st.bindVar sc k (.matcher m)).lookup sc n = some (.matcher m') ∧
          Built b.w.nodes (ns0.length + 4) m' g
      | none => (b.w.st.bindVar sc k (.matcher m)).lookup sc n = none
    rw [hl n]
    by_cases hn : n = k
    · rw [if_pos hn, if_pos hn]
      exact ⟨m, rfl, hm⟩
    · rw [if_neg hn, if_neg hn]
      exact hb

/-- How a hook fails: the error it returns for the token `x`. -/
def Blame (toks : List Token) (x : TokId) (e : ParseError) : Prop :=
  ∃ k, toks[x]? = some k ∧
    ((k.name = "ImportStatement".toList ∧
        e = ⟨"Found import statement, but it is forbidden to use imports when not parsing from a file".toList,
          some k.matched⟩) ∨
      ((k.name = "AssignmentExpression".toList ∨ k.name = "PatternScope".toList) ∧
        ∃ m, e = ⟨"Error attempting to create matcher from parsed pattern token: ".toList ++ m, none⟩))

/-- What a hook does for the token `x`. -/
def HookOk (env : Env) (toks : List Token) (ns0 : List Node) (sc : SCtxId) (gs : List Gram)
    (bs : List (Str × Gram)) (es : List ParseError) (x : TokId) :
    Except ParseError Unit × Build → Prop
  | (.ok _, b) => ∃ gs' bs', ItemMeans env toks x gs' bs' ∧
      Inv toks ns0 sc (gs ++ gs') (bs ++ bs') (es ++ errorReports toks [x]) b
  | (.error e, b) => (∀ gs' bs', ¬ ItemMeans env toks x gs' bs') ∧ b.errors = es ∧
      b.crash ≠ some none ∧ (b.crash = none → Blame toks x e)

theorem step_spec {α : Type} {x : C α} {Q : α → List Node → Prop} {E D : Prop}
    (h : CPost x b.w.st.toks b.w.nodes Q E D) {P : Except ParseError Unit × Build → Prop}
    {k : α → Build → Except ParseError Unit × Build} {ke : Str → ParseError}
    (hk : ∀ a ns, Q a ns → P (k a { b with w := { b.w with nodes := ns } }))
    (he : ∀ e, E → P (.error (ke e), b))
    (hp : ∀ m, E → P (.error ⟨[], none⟩, { b with crash := some (some m) }))
    (hd : D → P (.error ⟨[], none⟩, { b with crash := some none })) :
    P (Build.step x b k ke) := by
  unfold CPost at h
  unfold Build.step
  cases hx : x b.w.st.toks b.w.nodes with
  | ok a ns => rw [hx] at h; exact hk a ns h
  | err e => rw [hx] at h; exact he e h
  | panic m => rw [hx] at h; exact hp m h
  | diverge => rw [hx] at h; exact hd h

theorem reports_other {x : TokId} {k : Token} (hk : toks[x]? = some k)
    (hn : k.name ≠ "Error".toList) : errorReports toks [x] = [] := by
  simp only [errorReports, hk, if_neg hn]

theorem hookError_spec (h : Inv toks ns0 sc gs bs es b) {x : TokId} {k : Token}
    (hk : toks[x]? = some k) (hn : k.name = "Error".toList) :
    HookOk env toks ns0 sc gs bs es x (hookError x b) := by
  have ht : b.w.st.toks[x]? = some k := by rw [h.toks_eq]; exact hk
  cases hm : k.getAttribute "__message".toList with
  | some msg =>
    have he : hookError x b = (.ok (), { b with errors := b.errors ++ [⟨msg, some k.matched⟩] }) := by
      simp only [hookError, Build.step, bind, C.bind', C.tok, ht, C.ofOpt, hm, pure, C.pure']
    rw [he]
    refine ⟨[], [], .error hk hn hm, ?_⟩
    simp only [List.append_nil]
    refine ⟨h.toks_eq, ?_, h.crash_eq, h.old, h.root, h.inner, h.flat, h.scope, h.usable, h.bound⟩
    simp only [errorReports, hk, if_pos hn, hm, h.errors_eq, Option.getD_some]
  | none =>
    have he : hookError x b = (.error ⟨[], none⟩, { b with
        crash := some (some "called `Option::unwrap()` on a `None` value") }) := by
      simp only [hookError, Build.step, bind, C.bind', C.tok, ht, C.ofOpt, hm, C.panic]
    rw [he]
    refine ⟨?_, h.errors_eq, by simp, by simp⟩
    intro gs' bs' h
    cases h <;> simp_all

theorem hookAdextopaScope_spec (h : Inv toks ns0 sc gs bs es b) {x : TokId} {k : Token}
    (hk : toks[x]? = some k) (hn : k.name = "AdextopaScope".toList) :
    HookOk env toks ns0 sc gs bs es x (hookAdextopaScope ns0.length x b) := by
  have ht : b.w.st.toks[x]? = some k := by rw [h.toks_eq]; exact hk
  have hne : k.name ≠ "Error".toList := by rw [hn]; decide
  have hitem : ItemMeans env toks x [] [] := .other hk hne (by rw [hn]; decide) (by rw [hn]; decide)
    (by rw [hn]; decide)
  cases hm : k.getAttribute "name".toList with
  | none =>
    have he : hookAdextopaScope ns0.length x b = (.ok (), b) := by
      simp only [hookAdextopaScope, Build.step, bind, C.bind', C.tok, ht, hm, pure, C.pure']
    rw [he]
    exact ⟨[], [], hitem, by simpa [reports_other hk hne] using h⟩
  | some n =>
    obtain ⟨n0, hr⟩ := h.root
    have hlen := h.length_le
    have he : hookAdextopaScope ns0.length x b = (.ok (), { b with w := { b.w with
        nodes := b.w.nodes.set ns0.length (.program [ns0.length + 3] n true none false) } }) := by
      simp only [hookAdextopaScope, Build.step, bind, C.bind', C.tok, ht, hm, C.setName, setNameGo, hr,
        Node.namePassedTo, Node.setOwnName]
    rw [he]
    refine ⟨[], [], hitem, ?_⟩
    simp only [List.append_nil, reports_other hk hne]
    have hag : AgreeFrom (ns0.length + 1) b.w.nodes
        (b.w.nodes.set ns0.length (.program [ns0.length + 3] n true none false)) :=
      AgreeFrom.set (Nat.lt_succ_self _)
    obtain ⟨ps, hi, hb⟩ := h.inner
    refine ⟨h.toks_eq, h.errors_eq, h.crash_eq, ?_, ⟨n, ?_⟩, ⟨ps, hag _ _ (by omega) hi,
      hb.mono (hag.weaken (by omega))⟩, hag _ _ (by omega) h.flat, hag _ _ (by omega) h.scope, h.usable, ?_⟩
    · obtain ⟨y, hy⟩ := h.old
      refine ⟨y.set 0 (.program [ns0.length + 3] n true none false), ?_⟩
      dsimp only
      rw [← hy, List.set_append_right _ _ (Nat.le_refl _), Nat.sub_self]
    · exact List.getElem?_set_self (by omega)
    · intro n
      have := h.bound n
      cases hl : lastDef bs n with
      | none => rw [hl] at this; exact this
      | some g =>
        rw [hl] at this
        obtain ⟨m, h1, h2⟩ := this
        exact ⟨m, h1, h2.mono (hag.weaken (by omega))⟩

theorem hookImport_none_spec (h : Inv toks ns0 sc gs bs es b) {x : TokId} {k : Token}
    (hk : toks[x]? = some k) (hn : k.name = "ImportStatement".toList)
    (compileFile : Str → World → BuildRes) :
    HookOk env toks ns0 sc gs bs es x (hookImport env compileFile none sc x b) := by
  have ht : b.w.st.toks[x]? = some k := by rw [h.toks_eq]; exact hk
  have he : hookImport env compileFile none sc x b = (.error
      ⟨"Found import statement, but it is forbidden to use imports when not parsing from a file".toList,
        some k.matched⟩, b) := by
    simp only [hookImport, Build.step, C.tok, ht, Build.fail]
  rw [he]
  refine ⟨?_, h.errors_eq, by simp [h.crash_eq], fun _ => ⟨k, hk, .inl ⟨hn, rfl⟩⟩⟩
  intro gs' bs' h
  cases h <;> simp_all

/-- What the hook for an assignment does. -/
theorem hookAssignment_effect {x : TokId} {k : Token} (ht : b.w.st.toks = toks)
    (hk : toks[x]? = some k) (hn : k.name = "AssignmentExpression".toList) {depth : Nat}
    (hd : ¬ Deep toks depth x) {P : Except ParseError Unit × Build → Prop}
    (hnone : ∀ ns, b.w.nodes <+: ns → ItemMeans env toks x [] [] →
      P (.ok (), { b with w := { b.w with nodes := ns } }))
    (hdef : ∀ ns n m g, b.w.nodes <+: ns → ItemMeans env toks x [] [(n, g)] →
      Built ns b.w.nodes.length m g →
      P (.ok (), Build.bind sc n m { b with w := { b.w with nodes := ns } }))
    (herr : ∀ e, (∀ gs' bs', ¬ ItemMeans env toks x gs' bs') → P (.error (patternError e), b))
    (hpanic : ∀ m, (∀ gs' bs', ¬ ItemMeans env toks x gs' bs') →
      P (.error ⟨[], none⟩, { b with crash := some (some m) })) :
    P (hookAssignment env depth sc x b) := by
  unfold hookAssignment
  refine step_spec (E := ∀ gs' bs', ¬ ItemMeans env toks x gs' bs') (D := Deep toks depth x)
    (Q := fun r ns => b.w.nodes <+: ns ∧
      match r with
      | some (n, m) => ∃ g, ItemMeans env toks x [] [(n, g)] ∧ Built ns b.w.nodes.length m g
      | none => ItemMeans env toks x [] []) ?_ ?_ herr hpanic ?_
  · rw [ht]
    apply CPost.bind
    apply CPost.tok
    case he => intro h; rw [hk] at h; cases h
    intro k' hk'
    cases hk.symm.trans hk'
    apply CPost.bind
    apply CPost.child
    case he => intro hc gs' bs' h; cases h <;> simp_all
    intro a ha
    apply CPost.bind
    apply CPost.tok
    case he => intro hc gs' bs' h; cases h <;> simp_all
    intro ak hak
    dsimp only
    apply CPost.bind
    apply CPost.child
    case he => intro hc gs' bs' h; cases h <;> simp_all
    intro v hv
    apply CPost.bind
    apply CPost.tok
    case he => intro hc gs' bs' h; cases h <;> simp_all
    intro vk hvk
    split
    · rename_i hvn
      apply CPost.bind
      apply CPost.mk
      exact CPost.pure ⟨⟨_, rfl⟩, _, .alias hk hn ha hak hv hvk hvn,
        .ref (Nat.le_refl _) List.getElem?_concat_length⟩
    rename_i hvn
    split
    · rename_i hvn'
      apply CPost.bind
      refine (constructDefinition_spec (constructPattern_spec env toks depth) _ _ _ _).mono ?_ ?_ ?_
      · rintro p ns ⟨h1, g, h2, h3⟩
        exact CPost.pure ⟨h1, g, .definition hk hn ha hak hv hvk hvn' h2, h3⟩
      · intro hno gs' bs' h
        cases h with
        | definition hk' hn' ha' hak' hv' hvk' hvn' h =>
          cases hk.symm.trans hk'; cases hv.symm.trans hv'
          exact hno _ _ h
        | _ => simp_all
      · rintro ⟨c, h1, h2⟩
        exact h2.weaken_below (.step hk (List.mem_of_getElem? hv) h1)
    · rename_i hvn'
      exact CPost.pure ⟨⟨[], by simp⟩, .otherValue hk hn ha hak hv hvk hvn hvn'⟩
  · rintro r ns ⟨hp, hr⟩
    cases r with
    | none => exact hnone ns hp hr
    | some p =>
      obtain ⟨n, m⟩ := p
      obtain ⟨g, h1, h2⟩ := hr
      exact hdef ns n m g hp h1 h2
  · intro h; exact absurd h hd

theorem hookAssignment_spec (h : Inv toks ns0 sc gs bs es b) {x : TokId} {k : Token}
    (hk : toks[x]? = some k) (hn : k.name = "AssignmentExpression".toList) {depth : Nat}
    (hd : ¬ Deep toks depth x) :
    HookOk env toks ns0 sc gs bs es x (hookAssignment env depth sc x b) := by
  have hne : k.name ≠ "Error".toList := by rw [hn]; decide
  refine hookAssignment_effect h.toks_eq hk hn hd ?_ ?_ ?_ ?_
  · intro ns hp hr
    exact ⟨[], [], hr, by simpa [reports_other hk hne] using h.grow hp⟩
  · intro ns n m g hp h1 h2
    refine ⟨[], [(n, g)], h1, ?_⟩
    rw [reports_other hk hne, List.append_nil, List.append_nil]
    exact (h.grow hp).bind (h2.lower h.length_le)
  · intro e hno
    exact ⟨hno, h.errors_eq, by simp [h.crash_eq], fun _ => ⟨k, hk, .inr ⟨.inl hn, e, rfl⟩⟩⟩
  · intro m hno
    exact ⟨hno, h.errors_eq, by simp, by simp⟩

theorem constructScope_spec {depth : Nat} {inScope : MatcherId} (cs : List TokId)
    {ps : List MatcherId} {gs : List Gram} {ns : List Node} {n : Str} {c f : Bool}
    {bad : Prop} (hbad : ∀ x ∈ cs, Deep toks depth x → bad) {lo : Nat} (hlo : inScope < lo)
    (hle : lo ≤ ns.length)
    (hi : ns[inScope]? = some (.program ps n c none f)) (hb : BuiltAll ns lo ps gs) :
    CPost (constructScope env depth inScope cs) toks ns
      (fun _ ns' => ns.length ≤ ns'.length ∧
        (∀ i nd, i ≠ inScope → ns[i]? = some nd → ns'[i]? = some nd) ∧
        ∃ ps' gs', ScopeMeans env toks cs gs' ∧
          ns'[inScope]? = some (.program ps' n c none f) ∧ BuiltAll ns' lo ps' (gs ++ gs'))
      (∀ gs', ¬ ScopeMeans env toks cs gs') bad := by
  induction cs generalizing ps gs ns with
  | nil => exact ⟨Nat.le_refl _, fun _ _ _ h => h, ps, [], .nil, hi, by simpa using hb⟩
  | cons t ts ih =>
    unfold constructScope
    apply CPost.bind
    apply CPost.tok
    case he => intro hc gs' h; cases h <;> simp_all
    intro k hk
    have hrest := fun {ns ps gs} => ih (ns := ns) (ps := ps) (gs := gs)
      (fun x hx => hbad x (List.mem_cons_of_mem _ hx))
    dsimp only
    split
    · rename_i hn
      apply CPost.bind
      refine (constructPattern_spec env toks depth t ns).mono ?_ ?_ (hbad t (by simp))
      · rintro p ns1 ⟨hp, g, hd, hg⟩
        have hi1 := AgreeFrom.of_prefix hp 0 _ _ (Nat.zero_le _) hi
        have hlen : ns.length ≤ ns1.length := hp.length_le
        apply CPost.bind
        have hadd : C.addPattern inScope p.1 toks ns1 =
            .ok () (ns1.set inScope (.program (ps ++ [p.1]) n c none f)) := by
          unfold C.addPattern; rw [hi1]
        unfold CPost
        rw [hadd]
        dsimp only
        have hlt : inScope < ns1.length := (List.getElem?_eq_some_iff.mp hi1).1
        have hag : AgreeFrom lo ns1 (ns1.set inScope (.program (ps ++ [p.1]) n c none f)) :=
          AgreeFrom.set hlo
        refine (hrest (ps := ps ++ [p.1]) (gs := gs ++ [g]) ?_ ?_ ?_).mono ?_ ?_ id
        · simp; omega
        · exact List.getElem?_set_self hlt
        · exact ((hb.mono (AgreeFrom.of_prefix hp _)).mono hag).append
            (.cons ((hg.lower hle).mono hag) .nil)
        · rintro _ ns2 ⟨h1, h2, ps', gs', h3, h4, h5⟩
          refine ⟨by simp at h1; omega, ?_, ps', g :: gs', .pattern hk hn hd h3, h4, by simpa using h5⟩
          intro i nd hne he
          refine h2 i nd hne ?_
          rw [List.getElem?_set_ne (fun h => hne h.symm)]
          exact AgreeFrom.of_prefix hp 0 _ _ (Nat.zero_le _) he
        · intro hno gs' h
          cases h with
          | pattern _ _ _ h => exact hno _ h
          | other _ hn' => simp_all
      · intro hno gs' h
        cases h with
        | pattern _ _ h _ => exact hno _ h
        | other _ hn' => simp_all
    · rename_i hn
      refine (hrest hle hi hb).mono ?_ ?_ id
      · rintro _ ns2 ⟨h1, h2, ps', gs', h3, h4, h5⟩
        exact ⟨h1, h2, ps', gs', .other hk hn h3, h4, h5⟩
      · intro hno gs' h
        cases h with
        | pattern _ hn' => simp_all
        | other _ _ h => exact hno _ h

/-- What the hook for a pattern scope does. -/
theorem hookPatternScope_effect {x : TokId} {k : Token} (ht : b.w.st.toks = toks)
    (hk : toks[x]? = some k) (hn : k.name = "PatternScope".toList) {depth : Nat}
    (hd : ¬ Deep toks depth x) {inner lo : Nat} {ps : List MatcherId} {n : Str} {c f : Bool}
    (hlo : inner < lo) (hle : lo ≤ b.w.nodes.length)
    (hi : b.w.nodes[inner]? = some (.program ps n c none f)) (hb : BuiltAll b.w.nodes lo ps gs)
    {P : Except ParseError Unit × Build → Prop}
    (hok : ∀ ns ps' gs', b.w.nodes.length ≤ ns.length →
      (∀ i nd, i ≠ inner → b.w.nodes[i]? = some nd → ns[i]? = some nd) →
      ItemMeans env toks x gs' [] → ns[inner]? = some (.program ps' n c none f) →
      BuiltAll ns lo ps' (gs ++ gs') → P (.ok (), { b with w := { b.w with nodes := ns } }))
    (herr : ∀ e, (∀ gs' bs', ¬ ItemMeans env toks x gs' bs') → P (.error (patternError e), b))
    (hpanic : ∀ m, (∀ gs' bs', ¬ ItemMeans env toks x gs' bs') →
      P (.error ⟨[], none⟩, { b with crash := some (some m) })) :
    P (hookPatternScope env depth inner x b) := by
  unfold hookPatternScope
  refine step_spec (E := ∀ gs' bs', ¬ ItemMeans env toks x gs' bs') (D := Deep toks depth x)
    (Q := fun _ ns' => b.w.nodes.length ≤ ns'.length ∧
        (∀ i nd, i ≠ inner → b.w.nodes[i]? = some nd → ns'[i]? = some nd) ∧
        ∃ ps' gs', ScopeMeans env toks k.children gs' ∧
          ns'[inner]? = some (.program ps' n c none f) ∧
          BuiltAll ns' lo ps' (gs ++ gs')) ?_ ?_ herr hpanic ?_
  · rw [ht]
    apply CPost.bind
    apply CPost.tok
    case he => intro h; rw [hk] at h; cases h
    intro k' hk'
    cases hk.symm.trans hk'
    refine (constructScope_spec k.children (bad := Deep toks depth x) ?_
      hlo hle hi hb).mono
      (fun _ _ h => h) ?_ id
    · intro c hc hdeep
      exact hdeep.weaken_below (.child hk hc)
    · intro hno gs' bs' h
      cases h with
      | scope hk' _ h => cases hk.symm.trans hk'; exact hno _ h
      | _ => simp_all
  · rintro _ ns ⟨hl, hk', ps', gs', h1, h2, h3⟩
    exact hok ns ps' gs' hl hk' (.scope hk hn h1) h2 h3
  · intro h; exact absurd h hd

theorem hookPatternScope_spec (h : Inv toks ns0 sc gs bs es b) {x : TokId} {k : Token}
    (hk : toks[x]? = some k) (hn : k.name = "PatternScope".toList) {depth : Nat}
    (hd : ¬ Deep toks depth x) :
    HookOk env toks ns0 sc gs bs es x (hookPatternScope env depth (ns0.length + 1) x b) := by
  have hne : k.name ≠ "Error".toList := by rw [hn]; decide
  obtain ⟨ps, hi, hb⟩ := h.inner
  refine hookPatternScope_effect h.toks_eq hk hn hd
    (Nat.add_lt_add_left (by decide : 1 < 4) _) h.length_le hi hb ?_ ?_ ?_
  · intro ns ps' gs' hl hk' h1 h2 h3
    refine ⟨gs', [], h1, ?_⟩
    rw [reports_other hk hne, List.append_nil, List.append_nil]
    obtain ⟨n0, hr⟩ := h.root
    have hag : AgreeFrom (ns0.length + 4) b.w.nodes ns := fun i nd hi he => hk' i nd (by omega) he
    refine ⟨h.toks_eq, h.errors_eq, h.crash_eq, ?_, ⟨n0, hk' _ _ (by omega) hr⟩, ⟨ps', h2, h3⟩,
      hk' _ _ (by omega) h.flat, hk' _ _ (by omega) h.scope, h.usable, ?_⟩
    · have hold := h.old
      refine List.prefix_iff_getElem?.mpr ?_
      intro i hi
      exact hk' i _ (by omega) (List.prefix_iff_getElem?.mp hold i hi)
    · intro n
      have := h.bound n
      cases hl : lastDef bs n with
      | none => rw [hl] at this; exact this
      | some g =>
        rw [hl] at this
        obtain ⟨m, h1, h2⟩ := this
        exact ⟨m, h1, h2.mono hag⟩
  · intro e hno
    exact ⟨hno, h.errors_eq, by simp [h.crash_eq], fun _ => ⟨k, hk, .inr ⟨.inr hn, e, rfl⟩⟩⟩
  · intro m hno
    exact ⟨hno, h.errors_eq, by simp, by simp⟩


/-! ### All hooks -/

variable {compileFile : Str → World → BuildRes}

theorem hookFor_hit {σ : Type} {hooks : List (Str × Hook σ)} {n : Str} {h : Hook σ}
    {pre post : List (Str × Hook σ)} (he : hooks = pre ++ (n, h) :: post)
    (hp : n ∉ pre.map Prod.fst) : hookFor hooks n = some h := by
  subst he
  unfold hookFor
  have : (pre ++ (n, h) :: post).find? (fun x => x.1 == n) = some (n, h) := by
    rw [List.find?_append]
    have hn : pre.find? (fun x => x.1 == n) = none := by
      rw [List.find?_eq_none]
      intro x hx
      simp only [beq_iff_eq]
      rintro rfl
      exact hp (List.mem_map_of_mem hx)
    rw [hn]
    simp
  rw [this]

theorem hookFor_miss {σ : Type} {hooks : List (Str × Hook σ)} {n : Str}
    (hn : n ∉ hooks.map Prod.fst) (hs : ['*'] ∉ hooks.map Prod.fst) : hookFor hooks n = none := by
  have key : ∀ n, n ∉ hooks.map Prod.fst → hooks.find? (fun x => x.1 == n) = none := by
    intro n hn
    rw [List.find?_eq_none]
    intro x hx
    simp only [beq_iff_eq]
    rintro rfl
    exact hn (List.mem_map_of_mem hx)
  unfold hookFor
  rw [key n hn, key _ hs]
  rfl

/-- The state of the visit of the tokens `l`. -/
def VisitOk (env : Env) (toks : List Token) (ns0 : List Node) (sc : SCtxId) (gs : List Gram)
    (bs : List (Str × Gram)) (es : List ParseError) (l : List TokId) : VRes Build → Prop
  | .ok b' => ∃ gs' bs', ScriptMeans env toks l gs' bs' ∧
      Inv toks ns0 sc (gs ++ gs') (bs ++ bs') (es ++ errorReports toks l) b'
  | .err e b' => ∃ l1 x l2 gs' bs', l = l1 ++ x :: l2 ∧ ScriptMeans env toks l1 gs' bs' ∧
      (∀ gs' bs', ¬ ItemMeans env toks x gs' bs') ∧ b'.errors = es ++ errorReports toks l1 ∧
      b'.crash ≠ some none ∧ (b'.crash = none → Blame toks x e)
  | .dangling => False
  | .diverge => False

/-- Visiting the tokens `l` of a script that was not read from a file. -/
theorem callHooks_build (l : List TokId) {depth : Nat}
    (hx : ∀ x ∈ l, ∃ k, toks[x]? = some k) (hd : ∀ x ∈ l, ¬ Deep toks depth x)
    (h : Inv toks ns0 sc gs bs es b) :
    VisitOk env toks ns0 sc gs bs es l
      (callHooks toks (buildHooks env compileFile none depth ns0.length (ns0.length + 1) sc) l b) := by
  induction l generalizing gs bs es b with
  | nil => exact ⟨[], [], .nil, by simpa [errorReports] using h⟩
  | cons x l ih =>
    obtain ⟨k, hk⟩ := hx x (by simp)
    have hdx := hd x (by simp)
    have ih := fun {gs bs es b} => ih (gs := gs) (bs := bs) (es := es) (b := b)
      (fun y hy => hx y (List.mem_cons_of_mem _ hy)) (fun y hy => hd y (List.mem_cons_of_mem _ hy))
    have hrep : ∀ l, errorReports toks (x :: l) = errorReports toks [x] ++ errorReports toks l := by
      intro l
      simp only [errorReports, hk]
      split <;> simp
    -- the token is done
    have after : ∀ {gs1 bs1 b1}, ItemMeans env toks x gs1 bs1 →
        Inv toks ns0 sc (gs ++ gs1) (bs ++ bs1) (es ++ errorReports toks [x]) b1 →
        VisitOk env toks ns0 sc gs bs es (x :: l) (callHooks toks
          (buildHooks env compileFile none depth ns0.length (ns0.length + 1) sc) l b1) := by
      intro gs1 bs1 b1 h1 h2
      have := ih h2
      cases hc : callHooks toks
          (buildHooks env compileFile none depth ns0.length (ns0.length + 1) sc) l b1 with
      | ok b' =>
        rw [hc] at this
        obtain ⟨gs2, bs2, h3, h4⟩ := this
        refine ⟨gs1 ++ gs2, bs1 ++ bs2, .cons h1 h3, ?_⟩
        rw [hrep, ← List.append_assoc, ← List.append_assoc, ← List.append_assoc]
        exact h4
      | err e b' =>
        rw [hc] at this
        obtain ⟨l1, y, l2, gs', bs', rfl, h3, h4, h5, h6⟩ := this
        refine ⟨x :: l1, y, l2, gs1 ++ gs', bs1 ++ bs', rfl, .cons h1 h3, h4, ?_, h6⟩
        rw [hrep, ← List.append_assoc]
        exact h5
      | dangling => rw [hc] at this; exact this
      | diverge => rw [hc] at this; exact this
    -- a hook
    have key : ∀ hook : Hook Build,
        hookFor (buildHooks env compileFile none depth ns0.length (ns0.length + 1) sc) k.name =
          some hook →
        HookOk env toks ns0 sc gs bs es x (hook x b) →
        VisitOk env toks ns0 sc gs bs es (x :: l) (callHooks toks
          (buildHooks env compileFile none depth ns0.length (ns0.length + 1) sc) (x :: l) b) := by
      intro hook hf hok
      have hb : (toks[x]?).bind (fun k => hookFor
          (buildHooks env compileFile none depth ns0.length (ns0.length + 1) sc) k.name) = some hook := by
        rw [hk]; exact hf
      unfold callHooks
      rw [hb]
      dsimp only
      rcases ho : hook x b with ⟨r, b1⟩
      rw [ho] at hok
      cases r with
      | error e =>
        obtain ⟨h1, h2, h3, h4⟩ := hok
        exact ⟨[], x, l, [], [], rfl, .nil, h1, by simpa [errorReports] using h2, h3, h4⟩
      | ok u =>
        obtain ⟨gs1, bs1, h1, h2⟩ := hok
        exact after h1 h2
    by_cases h1 : k.name = "Error".toList
    · exact key _ (h1 ▸ hookFor_hit (pre := []) rfl (by decide)) (hookError_spec h hk h1)
    by_cases h2 : k.name = "AdextopaScope".toList
    · exact key _ (h2 ▸ hookFor_hit (pre := [_]) rfl (by simp))
        (hookAdextopaScope_spec h hk h2)
    by_cases h3 : k.name = "AssignmentExpression".toList
    · exact key _ (h3 ▸ hookFor_hit (pre := [_, _]) rfl (by simp))
        (hookAssignment_spec h hk h3 hdx)
    by_cases h4 : k.name = "ImportStatement".toList
    · exact key _ (h4 ▸ hookFor_hit (pre := [_, _, _]) rfl (by simp))
        (hookImport_none_spec h hk h4 compileFile)
    by_cases h5 : k.name = "PatternScope".toList
    · exact key _ (h5 ▸ hookFor_hit (pre := [_, _, _, _]) rfl (by simp))
        (hookPatternScope_spec h hk h5 hdx)
    have hb : (toks[x]?).bind (fun k => hookFor
        (buildHooks env compileFile none depth ns0.length (ns0.length + 1) sc) k.name) = none := by
      rw [hk]
      refine hookFor_miss ?_ (by simp [buildHooks])
      simp only [buildHooks, List.map_cons, List.map_nil, List.mem_cons, List.not_mem_nil, or_false,
        not_or]
      exact ⟨h1, h2, h3, h4, h5⟩
    unfold callHooks
    rw [hb]
    exact after (.other hk h1 h5 h3 h4) (by simpa [reports_other hk h1] using h)

end Adx
