import Verif.Props.Scopes
import Verif.Props.Balance
import Verif.Proofs.Step
import Verif.Model.Edit
/-
  C26, C27: `Store`/`Fetch`, `Register`/`Ref`.
-/
namespace Adx

variable {T : Table} {cfg : Cfg} {m b : MatcherId} {c : Ctx} {sc : SCtxId} {s s' : State} {r : R}
  {name : Str} {cu : Bool}

/-- C26: `Store` never changes its body's result; its effects are the body's, and
afterwards, if the result is a token, the binding of the variable to that token.
(The body starts in the heap where the variable is already bound to the `Store`
itself, see the counterexample below.) -/
theorem C26_store (hm : T m = .store b name cu) :
    Runs T cfg m c sc s r s' ↔ ∃ s1, Runs T cfg b c sc (entered T m sc s) r s1 ∧
      ((∃ t, r = .ok (.token t) ∧ s' = s1.bindVar sc name (.token t)) ∨
       ((∀ t, r ≠ .ok (.token t)) ∧ s' = s1)) := by
  have hstep : ∀ f, execNode T cfg f (T m) c sc = (f b (c.withName name) sc >>= fun r =>
      execStore (fun _ _ _ => pure r) b name c sc) := by
    intro f; rw [hm]; rfl
  rw [runs_body hstep]
  simp only [runs_name]
  constructor
  · rintro ⟨r0, s1, h0, h1⟩
    unfold execStore at h1
    replace h1 : (match (generalizing := false) r0 with
      | .ok (.token t) => bindVar sc name (.token t) >>= fun _ => pure (.ok (.token t))
      | r => pure r : M R) s1 = .ok r s' := h1
    split at h1
    · rename_i t
      obtain ⟨_, s3, h3, h1⟩ := bind_ok.mp h1
      cases h3
      obtain ⟨rfl, rfl⟩ := pure_ok'.mp h1
      exact ⟨_, h0, Or.inl ⟨t, rfl, rfl⟩⟩
    · rename_i hne
      obtain ⟨rfl, rfl⟩ := pure_ok'.mp h1
      exact ⟨_, h0, Or.inr ⟨fun t ht => hne t ht, rfl⟩⟩
  · rintro ⟨s1, h0, ⟨t, rfl, rfl⟩ | ⟨hne, rfl⟩⟩
    · exact ⟨_, _, h0, rfl⟩
    · refine ⟨_, _, h0, ?_⟩
      unfold execStore
      refine bind_ok.mpr ⟨_, _, rfl, ?_⟩
      split
      · rename_i t
        exact (hne t rfl).elim
      · rfl

/-- C26: storing a text binds the variable to it and consumes nothing. -/
theorem C26_store_string {v : Str} (hm : T m = .storeStr v name cu) :
    Runs T cfg m c sc s r s' ↔
      r = .ok (.skip 0) ∧ s' = (entered T m sc s).bindVar sc name (.str v) := by
  have hk : ∀ f, execNode T cfg f (T m) c sc = execStoreStr v name sc := by
    intro f; rw [hm]; rfl
  rw [runs_own hk]
  unfold execStoreStr
  rw [bind_ok]
  constructor
  · rintro ⟨_, s1, h1, h2⟩
    cases h1
    exact pure_ok'.mp h2
  · rintro ⟨rfl, rfl⟩
    exact ⟨(), _, rfl, rfl⟩

theorem splitDot_nodot {n : Str} (h : '.' ∉ n) : splitDot n = [n] := by
  induction n with
  | nil => rfl
  | cons c cs ih =>
    have hc : c ≠ '.' := fun e => h (by simp [e])
    have := ih (fun hm => h (by simp [hm]))
    unfold splitDot
    split
    · rename_i heq
      cases heq
    · rename_i heq
      exact (hc (List.cons.inj heq).1).elim
    · rename_i heq
      obtain ⟨rfl, rfl⟩ := List.cons.inj heq
      rw [this]

theorem splitDot_dot {n p : Str} (h : '.' ∉ n) (h' : '.' ∉ p) :
    splitDot (n ++ '.' :: p) = [n, p] := by
  induction n with
  | nil =>
    show [] :: splitDot p = _
    rw [splitDot_nodot h']
  | cons c cs ih =>
    have hc : c ≠ '.' := fun e => h (by simp [e])
    have := ih (fun hm => h (by simp [hm]))
    rw [List.cons_append]
    unfold splitDot
    split
    · rename_i heq
      cases heq
    · rename_i heq
      exact (hc (List.cons.inj heq).1).elim
    · rename_i heq
      obtain ⟨rfl, rfl⟩ := List.cons.inj heq
      rw [this]

/-- What a token's sub-property `x.p` stands for. -/
def tokenProperty (k : Token) : String → Option Str
  | "captured_value" => some k.getValue
  | "matched_value" => some k.getMatchedValue
  | "start" => some (natStr k.matched.start)
  | "end" => some (natStr k.matched.stop)
  | "captured_start" => some (natStr k.captured.start)
  | "captured_end" => some (natStr k.captured.stop)
  | "range" => some (natStr k.matched.start ++ "..".toList ++ natStr k.matched.stop)
  | "captured_range" => some (natStr k.captured.start ++ "..".toList ++ natStr k.captured.stop)
  | _ => none

/-- Fetching a sub-property of a variable that holds a token. -/
theorem fetch_token_property {k : Token} {t : TokId} {p : String} {v : Str} (hn : '.' ∉ name)
    (hl : s.lookup sc name = some (.token t)) (hk : s.toks[t]? = some k)
    (hv : tokenProperty k p = some v) :
    fetchValue (.fetch (name ++ '.' :: p.toList)) sc s = .ok (.inl v) s := by
  have hp : '.' ∉ p.toList := by
    unfold tokenProperty at hv
    split at hv <;> first | (cases hv; done) | decide
  unfold fetchValue
  dsimp only
  rw [splitDot_dot hn hp]
  refine bind_ok.mpr ⟨some (.token t), s, ?_, ?_⟩
  · show Res.ok _ _ = _
    rw [← hl]
    rfl
  · dsimp only
    refine bind_ok.mpr ⟨k, s, getTok_ok.mpr ⟨hk, rfl⟩, ?_⟩
    unfold tokenProperty at hv
    split at hv <;> first | (cases hv; done) | (cases hv; rfl)

/-- C26: right after a `Store` whose body returned a token, every sub-property of the
variable has the value that the token has. -/
theorem C26_store_then_fetch (hm : T m = .store b name cu) (hT : ∀ m, PresNode Balanced (T m))
    (hs : ScopesOK s) (hsc : sc < s.sctxs.length) (hn : '.' ∉ name) {t : TokId} {k : Token}
    (h : Runs T cfg m c sc s (.ok (.token t)) s') (hk : s'.toks[t]? = some k)
    {p : String} {v : Str} (hv : tokenProperty k p = some v) :
    fetchValue (.fetch (name ++ '.' :: p.toList)) sc s' = .ok (.inl v) s' := by
  obtain ⟨s1, h1, ⟨t', ht, rfl⟩ | ⟨hne, _⟩⟩ := (C26_store hm).mp h
  · cases ht
    have hent : ScopesOK (entered T m sc s) ∧ (entered T m sc s).sctxs.length = s.sctxs.length := by
      unfold entered
      split
      · have := scopeStep_refines hs (.set sc (T m).name (.matcher m)) hsc
        exact ⟨this.2.1, this.2.2⟩
      · exact ⟨hs, rfl⟩
    obtain ⟨hc1, _, _, hc2⟩ := C08_scopes_balanced hT h1
    have hl := (C09_set_get s1 (hc2 hent.1) sc (by rw [hc1, hent.2]; exact hsc) name (.token t)).1
    exact fetch_token_property hn hl hk hv
  · exact (hne t rfl).elim

/-- C26: right after a text has been stored, fetching the variable gives the text. -/
theorem C26_store_string_then_fetch {x : Str} (hm : T m = .storeStr x name cu)
    (hs : ScopesOK s) (hsc : sc < s.sctxs.length) (hn : '.' ∉ name)
    (h : Runs T cfg m c sc s r s') : fetchValue (.fetch name) sc s' = .ok (.inl x) s' := by
  obtain ⟨_, rfl⟩ := (C26_store_string hm).mp h
  have hent : ScopesOK (entered T m sc s) ∧ (entered T m sc s).sctxs.length = s.sctxs.length := by
    unfold entered
    split
    · have := scopeStep_refines hs (.set sc (T m).name (.matcher m)) hsc
      exact ⟨this.2.1, this.2.2⟩
    · exact ⟨hs, rfl⟩
  have hl := (C09_set_get _ hent.1 sc (by rw [hent.2]; exact hsc) name (.str x)).1
  unfold fetchValue
  dsimp only
  rw [splitDot_nodot hn]
  refine bind_ok.mpr ⟨some (.str x), _, ?_, rfl⟩
  show Res.ok _ _ = _
  rw [← hl]
  rfl

theorem splitDot_head (n : Str) : '.' ∉ (splitDot n).headD [] := by
  induction n with
  | nil => exact List.not_mem_nil
  | cons c cs ih =>
    by_cases hc : c = '.'
    · subst hc
      exact List.not_mem_nil
    · have e : splitDot (c :: cs) = (match splitDot cs with | [] => [[c]] | p :: ps => (c :: p) :: ps) := by
        conv => lhs; unfold splitDot
        split
        · rename_i heq
          cases heq
        · rename_i heq
          exact (hc (List.cons.inj heq).1).elim
        · rename_i heq
          obtain ⟨rfl, rfl⟩ := List.cons.inj heq
          rfl
      rw [e]
      cases hs : splitDot cs with
      | nil => simpa using fun h => hc h.symm
      | cons p ps =>
        rw [hs] at ih
        simp only [List.headD_cons, List.mem_cons, not_or] at ih ⊢
        exact ⟨fun h => hc h.symm, ih⟩

/-- C26: the constructors make a `Store` for exactly the names without a dot. -/
theorem C26_names {x : MatcherId} {v : Str} {nd : Node} :
    (newStore name x = some nd ↔ '.' ∉ name ∧ nd = .store x name true) ∧
    (newStoreStr name v = some nd ↔ '.' ∉ name ∧ nd = .storeStr v name true) := by
  unfold newStore newStoreStr
  by_cases h : '.' ∈ name <;> simp [h, eq_comm]

/-- C26: whatever the constructors make can be fetched. -/
theorem C26_constructed {x : Str} (hm : newStoreStr name x = some (T m)) (hs : ScopesOK s) (hsc : sc < s.sctxs.length)
    (h : Runs T cfg m c sc s r s') : fetchValue (.fetch name) sc s' = .ok (.inl x) s' := by
  obtain ⟨h1, h2⟩ := C26_names (x := 0) |>.2.mp hm
  exact C26_store_string_then_fetch h2 hs hsc h1 h

/-- The same for tokens. -/
theorem C26_constructed_token (hm : newStore name b = some (T m)) (hT : ∀ m, PresNode Balanced (T m))
    (hs : ScopesOK s) (hsc : sc < s.sctxs.length) {t : TokId} {k : Token}
    (h : Runs T cfg m c sc s (.ok (.token t)) s') (hk : s'.toks[t]? = some k)
    {p : String} {v : Str} (hv : tokenProperty k p = some v) :
    fetchValue (.fetch (name ++ '.' :: p.toList)) sc s' = .ok (.inl v) s' := by
  obtain ⟨h1, h2⟩ := C26_names (v := []) |>.1.mp hm
  exact C26_store_then_fetch h2 hT hs hsc h1 h hk hv

/-- C26: other names would be of no use, no fetch reads a variable with a dot in its name. -/
theorem C26_dotted (hs : ScopesOK s) (hsc : sc < s.sctxs.length) (hn : '.' ∈ name) (v : Var) (f : Fetchable)
    (x : Str ⊕ MatcherId) :
    fetchValue f sc (s.bindVar sc name v) = .ok x (s.bindVar sc name v) ↔ fetchValue f sc s = .ok x s := by
  cases f with
  | str y => exact ⟨fun h => by cases h; rfl, fun h => by cases h; rfl⟩
  | matcher y => exact ⟨fun h => by cases h; rfl, fun h => by cases h; rfl⟩
  | fetch y =>
    have hl : (s.bindVar sc name v).lookup sc ((splitDot y).headD []) = s.lookup sc ((splitDot y).headD []) :=
      (C09_set_get s hs sc hsc name v).2.1 _ (fun e => splitDot_head y (e ▸ hn))
    have ht : (s.bindVar sc name v).toks = s.toks := by
      unfold State.bindVar
      split <;> rfl
    generalize s.bindVar sc name v = s1 at *
    have hp : ∀ z : Str ⊕ MatcherId, (pure z : M _) s1 = .ok x s1 ↔ (pure z : M _) s = .ok x s := fun z =>
      ⟨fun h => by cases h; rfl, fun h => by cases h; rfl⟩
    have hf : ∀ e : String, (M.panic e : M (Str ⊕ MatcherId)) s1 = .ok x s1 ↔ (M.panic e : M (Str ⊕ MatcherId)) s = .ok x s :=
      fun e => ⟨fun h => (nomatch h), fun h => (nomatch h)⟩
    unfold fetchValue
    dsimp only
    rw [bind_run (show lookupVar sc _ s1 = .ok _ s1 from rfl), bind_run (show lookupVar sc _ s = .ok _ s from rfl), hl]
    cases s.lookup sc ((splitDot y).headD []) with
    | none => exact hf _
    | some w =>
      cases w with
      | matcher m => exact hp _
      | str z =>
        dsimp only
        split
        · exact hf _
        · exact hp _
      | token t =>
        dsimp only
        rcases splitDot y with _ | ⟨_, _ | ⟨q, _ | _⟩⟩
        · exact hf _
        · exact hf _
        · dsimp only
          cases hk : s.toks[t]? with
          | none =>
            have h1 : getTok t s = .panic "dangling token reference" := by
              unfold getTok
              rw [hk]
            have h2 : getTok t s1 = .panic "dangling token reference" := by
              unfold getTok
              rw [ht, hk]
            constructor
            · intro h
              obtain ⟨_, _, h, -⟩ := bind_ok.mp h
              rw [h2] at h
              cases h
            · intro h
              obtain ⟨_, _, h, -⟩ := bind_ok.mp h
              rw [h1] at h
              cases h
          | some k =>
            rw [bind_run (getTok_ok.mpr ⟨by rw [ht, hk], rfl⟩ : getTok t s1 = .ok k s1),
              bind_run (getTok_ok.mpr ⟨hk, rfl⟩ : getTok t s = .ok k s)]
            iterate 8
              split
              · exact hp _
            exact hf _
        · exact hf _

/-- Non-vacuity, and a way around the check: `set_name` takes any name. -/
example : newStoreStr "ab".toList ['v'] = some (.storeStr ['v'] "ab".toList true) ∧ newStoreStr "a.b".toList ['v'] = none ∧
    newStore "a.b".toList 0 = none ∧
    (match newStoreStr "ab".toList ['v'] with
      | some (.storeStr v n cu) => (match (Node.storeStr v n cu).setOwnName "a.b".toList with
        | .storeStr v n cu => (v, n, cu) = (['v'], "a.b".toList, true)
        | _ => False)
      | _ => False) := by
  refine ⟨?_, ?_, ?_, ?_⟩ <;> rfl

/-- C26, back references: an `Equals` of a fetched property behaves exactly like the
`Equals` of the text that the property has at that moment. -/
theorem C26_equals_fetch {m' : MatcherId} {nm f v : Str}
    (hm : T m = .equals nm false (.fetch f)) (hm' : T m' = .equals nm false (.str v))
    (hv : fetchValue (.fetch f) sc s = .ok (.inl v) s) :
    Runs T cfg m c sc s r s' ↔ Runs T cfg m' c sc s r s' := by
  have hk : ∀ g, execNode T cfg g (T m) c sc = execEquals nm (.fetch f) c sc := by
    intro g; rw [hm]; rfl
  have hk' : ∀ g, execNode T cfg g (T m') c sc = execEquals nm (.str v) c sc := by
    intro g; rw [hm']; rfl
  rw [runs_own hk, runs_own hk', entered_plain (by rw [hm]; rfl), entered_plain (by rw [hm']; rfl)]
  unfold execEquals
  rw [bind_ok, bind_ok]
  constructor
  · rintro ⟨x, s1, h1, h2⟩
    rw [hv] at h1
    cases h1
    exact ⟨_, _, rfl, h2⟩
  · rintro ⟨x, s1, h1, h2⟩
    cases h1
    exact ⟨_, _, hv, h2⟩

/-- C26, falsified part: a failing `Store` has already overwritten the variable. -/
theorem C26_failing_store_counterexample :
    let T : Table := fun
      | 0 => .store 1 "x".toList true
      | _ => .equals "B".toList false (.str ['b'])
    let s : State := ⟨[], [[("x".toList, .str "old".toList)]], [[0]]⟩
    s.lookup 0 "x".toList = some (.str "old".toList) ∧
    ∃ s', Runs T ⟨true⟩ 0 (Ctx.new ⟨"a".toList, []⟩ 0 []) 0 s (.err .fail) s' ∧
      s'.lookup 0 "x".toList = some (.matcher 0) := by
  refine ⟨by decide +kernel, _, ⟨2, rfl⟩, by decide +kernel⟩

/-- Non-vacuity of C26: a token is stored and its properties are fetched. -/
example :
    let T : Table := fun
      | 0 => .program [1, 3, 4] "P".toList false none false
      | 1 => .store 2 "x".toList true
      | 2 => .equals "A".toList false (.str "ab".toList)
      | 3 => .equals "-".toList false (.str "-".toList)
      | _ => .equals "E".toList false (.fetch "x.captured_value".toList)
    let run (src : String) := exec T ⟨true⟩ 9 0 (Ctx.new ⟨src.toList, []⟩ 0 []) 0 ⟨[], [], [[]]⟩
    (run "ab-ab").holds (fun r _ => r = .ok (.token 0)) ∧
    (run "ab-ac").holds (fun r _ => r = .err .fail) := by
  decide +kernel

/-- Bind each matcher of a list under its own name. -/
def registerAll (T : Table) (sc : SCtxId) (ps : List MatcherId) (s : State) : State :=
  ps.foldl (fun s p => s.bindVar sc (T p).name (.matcher p)) s

/-- C27: `Register` binds each of its matchers under its name, and nothing else. -/
theorem C27_register {ps : List MatcherId} (hm : T m = .register ps) :
    Runs T cfg m c sc s r s' ↔ r = .ok (.skip 0) ∧ s' = registerAll T sc ps s := by
  have hk : ∀ f, execNode T cfg f (T m) c sc = execRegister T sc ps := by
    intro f; rw [hm]; rfl
  rw [runs_own hk, entered_plain (by rw [hm]; rfl)]
  clear hm hk
  induction ps generalizing s with
  | nil => exact pure_ok'
  | cons p ps ih =>
    unfold execRegister
    rw [bind_ok]
    constructor
    · rintro ⟨_, s1, h1, h2⟩
      cases h1
      exact ih.mp h2
    · intro h
      exact ⟨(), _, rfl, ih.mpr h⟩

theorem registerAll_lookup {ps : List MatcherId} (hs : ScopesOK s) (hsc : sc < s.sctxs.length) (k : Str) :
    (registerAll T sc ps s).lookup sc k =
      match ps.reverse.find? (fun p => (T p).name == k) with
      | some p => some (.matcher p)
      | none => s.lookup sc k := by
  induction ps generalizing s with
  | nil => rfl
  | cons p ps ih =>
    have h1 := scopeStep_refines hs (.set sc (T p).name (.matcher p)) hsc
    have hrec := ih (s := s.bindVar sc (T p).name (.matcher p)) h1.2.1 (by
      have := h1.2.2
      simp only [State.scopeStep] at this
      rw [this]; exact hsc)
    show (registerAll T sc ps (s.bindVar sc (T p).name (.matcher p))).lookup sc k = _
    rw [hrec, List.reverse_cons, List.find?_append]
    cases hf : ps.reverse.find? (fun p => (T p).name == k) with
    | some q => rfl
    | none =>
      dsimp only [Option.none_or]
      have hg := C09_set_get s hs sc hsc (T p).name (.matcher p)
      by_cases hk : (T p).name = k
      · subst hk
        rw [hg.1]
        simp
      · rw [hg.2.1 k (fun h => hk h.symm)]
        have : ((T p).name == k) = false := by simpa using hk
        simp [this]

/-- C27: after `Register`, a listed name refers to the last listed matcher of that
name; every other name refers to what it did before. -/
theorem C27_register_lookup {ps : List MatcherId} (hm : T m = .register ps) (hs : ScopesOK s)
    (hsc : sc < s.sctxs.length) (h : Runs T cfg m c sc s r s') (k : Str) :
    (∀ p ∈ ps, (T p).name = k → ∃ q ∈ ps, (T q).name = k ∧ s'.lookup sc k = some (.matcher q) ∧
      ∀ pre post, ps = pre ++ p :: post → (∀ u ∈ post, (T u).name ≠ k) → q = p) ∧
    ((∀ p ∈ ps, (T p).name ≠ k) → s'.lookup sc k = s.lookup sc k) := by
  obtain ⟨_, rfl⟩ := (C27_register hm).mp h
  rw [registerAll_lookup hs hsc]
  constructor
  · intro p hp hpk
    cases hf : ps.reverse.find? (fun p => (T p).name == k) with
    | none =>
      have := List.find?_eq_none.mp hf p (by simpa using hp)
      simp [hpk] at this
    | some q =>
      have hq := List.mem_of_find?_eq_some hf
      have hqn := List.find?_some hf
      refine ⟨q, by simpa using hq, by simpa using hqn, rfl, ?_⟩
      rintro pre post rfl hpost
      rw [List.reverse_append, List.reverse_cons, List.find?_append, List.find?_append] at hf
      have hnone : post.reverse.find? (fun p => (T p).name == k) = none := by
        rw [List.find?_eq_none]
        intro u hu
        simpa using hpost u (by simpa using hu)
      rw [hnone] at hf
      simp [hpk] at hf
      exact hf.symm
  · intro hno
    have hnone : ps.reverse.find? (fun p => (T p).name == k) = none := by
      rw [List.find?_eq_none]
      intro u hu
      simpa using hno u (by simpa using hu)
    rw [hnone]

/-- C27: a `Ref` to a name behaves exactly like the matcher the innermost binding of
the name refers to, at the same position; if there is no such binding, or it is not a
matcher, the result is an error. -/
theorem C27_ref {n : Str} (hm : T m = .ref (.str n) name cu) :
    Runs T cfg m c sc s r s' ↔
      (∃ b, (entered T m sc s).lookup sc n = some (.matcher b) ∧
        Runs T cfg b c sc (entered T m sc s) r s') ∨
      ((∀ b, (entered T m sc s).lookup sc n ≠ some (.matcher b)) ∧
        (∃ e, r = .err (.error e)) ∧ r = .err (.error
          ⟨"`Ref` matcher unable to locate target reference `".toList ++ n ++ "`".toList, none⟩) ∧
        s' = entered T m sc s) := by
  have hstep : ∀ f, execNode T cfg f (T m) c sc = execRef f (.str n) name c sc := by
    intro f; rw [hm]; rfl
  generalize hs1 : entered T m sc s = s1
  have hone : ∀ k, exec T cfg (k + 1) m c sc s = execRef (exec T cfg k) (.str n) name c sc s1 := by
    intro k; rw [exec_succ, hstep, hs1]
  have hrun : ∀ f b, s1.lookup sc n = some (.matcher b) →
      execRef f (.str n) name c sc s1 = f b (c.withName name) sc s1 := by
    intro f b hl
    show (match s1.lookup sc n with
      | some (.matcher m) => f m (c.withName name) sc
      | _ => _ : M R) s1 = _
    rw [hl]
  have herr : ∀ f, (∀ b, s1.lookup sc n ≠ some (.matcher b)) →
      execRef f (.str n) name c sc s1 = .ok (.err (.error
          ⟨"`Ref` matcher unable to locate target reference `".toList ++ n ++ "`".toList, none⟩)) s1 := by
    intro f hl
    show (match s1.lookup sc n with
      | some (.matcher m) => f m (c.withName name) sc
      | _ => pure (.err (.error
          ⟨"`Ref` matcher unable to locate target reference `".toList ++ n ++ "`".toList, none⟩)) : M R) s1 = _
    generalize s1.lookup sc n = v at hl
    rcases v with _ | v
    · rfl
    · cases v with
      | matcher b => exact (hl b rfl).elim
      | _ => rfl
  by_cases hl : ∃ b, s1.lookup sc n = some (.matcher b)
  · obtain ⟨b, hb⟩ := hl
    constructor
    · rintro ⟨k, hk⟩
      cases k with
      | zero => cases hk
      | succ k =>
        rw [hone, hrun _ b hb, exec_name] at hk
        exact Or.inl ⟨b, hb, k, hk⟩
    · rintro (⟨b', hb', k, hk⟩ | ⟨hno, _⟩)
      · rw [hb] at hb'
        cases hb'
        exact ⟨k + 1, by rw [hone, hrun _ b hb, exec_name]; exact hk⟩
      · exact (hno b hb).elim
  · have hno : ∀ b, s1.lookup sc n ≠ some (.matcher b) := fun b hb => hl ⟨b, hb⟩
    constructor
    · rintro ⟨k, hk⟩
      cases k with
      | zero => cases hk
      | succ k =>
        rw [hone, herr _ hno] at hk
        cases hk
        exact Or.inr ⟨hno, ⟨_, rfl⟩, rfl, rfl⟩
    · rintro (⟨b', hb', _⟩ | ⟨_, _, rfl, rfl⟩)
      · exact (hno b' hb').elim
      · exact ⟨1, by rw [hone, herr _ hno]⟩

/-- C27: a `Ref` holding a matcher directly behaves like that matcher. -/
theorem C27_ref_direct (hm : T m = .ref (.matcher b) name cu) :
    Runs T cfg m c sc s r s' ↔ Runs T cfg b c sc (entered T m sc s) r s' := by
  have hstep : ∀ f, execNode T cfg f (T m) c sc = (f b (c.withName name) sc >>= fun r => pure r) := by
    intro f
    rw [hm]
    funext s
    show f b (c.withName name) sc s = M.bind _ _ s
    unfold M.bind
    cases f b (c.withName name) sc s <;> rfl
  rw [runs_body hstep]
  simp only [runs_name]
  constructor
  · rintro ⟨r0, s1, h0, h1⟩
    obtain ⟨rfl, rfl⟩ := pure_ok'.mp h1
    exact h0
  · intro h
    exact ⟨r, s', h, rfl⟩

/-- Non-vacuity of C27: mutual recursion through names, and an unbound name. -/
example :
    let T : Table := fun
      | 0 => .program [1, 4] "P".toList false none false
      | 1 => .register [2, 3]
      | 2 => .program [5, 6] "X".toList true none false
      | 3 => .equals "Y".toList true (.str ['y'])
      | 4 => .ref (.str "X".toList) "Ref".toList false
      | 5 => .ref (.str "Y".toList) "Ref".toList false
      | _ => .ref (.str "Z".toList) "Ref".toList false
    let run (m : MatcherId) := exec T ⟨true⟩ 9 m (Ctx.new ⟨"y".toList, []⟩ 0 []) 0 ⟨[], [], [[]]⟩
    (run 0).holds (fun r s => (match r with | .err (.error _) => true | _ => false) = true ∧
      s.toks.map (·.name) = ["P".toList, "X".toList, "Y".toList]) := by
  decide +kernel

end Adx
