import Verif.Proofs.PegExec
import Verif.Props.Depth
/-
  C35: the engine agrees with a small interpreter of parsing expression grammars.
  C37: a parse does not depend on what earlier parses have left behind.
-/
namespace Adx.Peg

variable {T : Table} {cfg : Cfg} {ρ : Str → Option MatcherId} {S : MatcherId → Prop} {G : MatcherId → Expr}
  {p : Parser} {stop : Nat} {m : MatcherId} {c : Ctx} {sc : SCtxId} {s : State} {n : Nat}

theorem Shows.sees {toks : List Token} {lo : Nat} {r : R} {x : Result} (h : Shows toks lo r x) :
    Sees toks r x := by
  cases h with
  | fail => trivial
  | skip h => exact h
  | token h | splice h =>
    have := h.treeOf (n := toks.length + 1) (by omega)
    show Adx.treeOf _ _ _ = _
    rw [List.mapM_cons] at this
    cases h1 : Adx.treeOf toks (toks.length + 1) _ with
    | none => rw [h1] at this; cases this
    | some y => rw [h1] at this; cases this; rfl

/-! ### The interpreter and the depth of recursion -/

theorem parts_mono {ev ev' : MatcherId → Nat → Option Result}
    (h : ∀ m pos x, ev m pos = some x → ev' m pos = some x) {ms : List MatcherId} {r : Run} {y : Bool × Run}
    (hp : parts ev ms r = some y) : parts ev' ms r = some y := by
  induction ms generalizing r with
  | nil => exact hp
  | cons m ms ih =>
    unfold parts at hp ⊢
    obtain ⟨x, hx, hr⟩ := Option.bind_eq_some_iff.mp hp
    refine Option.bind_eq_some_iff.mpr ⟨x, h _ _ _ hx, ?_⟩
    cases x with
    | fail => exact hr
    | _ => exact ih hr

theorem choose_mono {ev ev' : MatcherId → Nat → Option Result}
    (h : ∀ m pos x, ev m pos = some x → ev' m pos = some x) {ms : List MatcherId} {pos : Nat} {y : Result}
    (hp : choose ev pos ms = some y) : choose ev' pos ms = some y := by
  induction ms with
  | nil => exact hp
  | cons m ms ih =>
    unfold choose at hp ⊢
    obtain ⟨x, hx, hr⟩ := Option.bind_eq_some_iff.mp hp
    refine Option.bind_eq_some_iff.mpr ⟨x, h _ _ _ hx, ?_⟩
    split at hr
    · exact ih hr
    · exact ih hr
    · exact hr

theorem rounds_mono {ev ev' : MatcherId → Nat → Option Result}
    (h : ∀ m pos x, ev m pos = some x → ev' m pos = some x) {ms : List MatcherId} {k : Nat} {r : Run}
    {y : Bool × Run} (hp : rounds ev ms k r = some y) : rounds ev' ms k r = some y := by
  induction k generalizing r with
  | zero => exact hp
  | succ k ih =>
    unfold rounds at hp ⊢
    obtain ⟨x, hx, hr⟩ := Option.bind_eq_some_iff.mp hp
    refine Option.bind_eq_some_iff.mpr ⟨x, parts_mono h hx, ?_⟩
    split at hr
    · exact hr
    · exact ih hr

theorem map_mono {α β : Type} {f : α → β} {o o' : Option α} {y : β} (h : ∀ x, o = some x → o' = some x)
    (hp : o.map f = some y) : o'.map f = some y := by
  obtain ⟨x, hx, rfl⟩ := Option.map_eq_some_iff.mp hp
  rw [h x hx]
  rfl

/-- More depth does not change what the interpreter says. -/
theorem eval_succ {G : MatcherId → Expr} {n : Nat} {m : MatcherId} {pos : Nat} {x : Result}
    (h : eval G p stop n m pos = some x) : eval G p stop (n + 1) m pos = some x := by
  induction n generalizing m pos x with
  | zero => cases h
  | succ n ih =>
    have ih' : ∀ m pos x, eval G p stop n m pos = some x → eval G p stop (n + 1) m pos = some x :=
      fun _ _ _ => ih
    unfold eval at h ⊢
    dsimp only at h ⊢
    split
    all_goals (rename_i heq; rw [heq] at h; dsimp only at h)
    · exact h
    · exact h
    · exact h
    · exact map_mono (fun _ => parts_mono ih') h
    · exact choose_mono ih' h
    · exact map_mono (fun _ => rounds_mono ih') h
    · exact map_mono (ih' _ _) h
    · exact map_mono (ih' _ _) h
    · exact map_mono (ih' _ _) h
    · exact map_mono (ih' _ _) h
    · exact ih' _ _ _ h
    · exact h

theorem eval_mono {n n' : Nat} (hn : n ≤ n') {pos : Nat} {x : Result} (h : eval G p stop n m pos = some x) :
    eval G p stop n' m pos = some x := by
  induction hn with
  | refl => exact h
  | step _ ih => exact eval_succ ih

/-- The interpreter is a function: at most one result. -/
theorem Evals.unique {pos : Nat} {x y : Result} (h : Evals G p stop m pos x) (h' : Evals G p stop m pos y) :
    x = y := by
  obtain ⟨n, h⟩ := h
  obtain ⟨n', h'⟩ := h'
  have h1 := eval_mono (Nat.le_max_left n n') h
  have h2 := eval_mono (Nat.le_max_right n n') h'
  rw [h1] at h2
  exact Option.some.inj h2

/-! ### Gathering errors where there are none -/

theorem modTok_same {t : TokId} {k : Token} {f : Token → Token} (hk : s.toks[t]? = some k) (hf : f k = k) :
    modTok t f s = .ok () s := by
  refine modTok_ok.mpr ⟨k, hk, ?_⟩
  rw [hf]
  cases s with
  | mk toks scopes ctxs =>
    dsimp only at hk ⊢
    congr 1
    obtain ⟨h1, h2⟩ := List.getElem?_eq_some_iff.mp hk
    rw [← h2]
    exact (List.set_getElem_self h1).symm

theorem splitErrors_none {toks : List Token} {lo : Nat} {ts : List TokId} {trees : List Tree}
    (h : Reps toks lo ts trees) (s : State) (hs : s.toks = toks) : splitErrors ts s = .ok (ts, []) s := by
  induction h with
  | nil => rfl
  | @cons lo t k ts cs trees hl hk hs' hf _ _ _ ih =>
    subst hs
    unfold splitErrors
    rw [bind_run (getTok_ok.mpr ⟨hk, rfl⟩), bind_run ih]
    have : k.flagsEnabled IS_ERROR = false := by
      unfold Token.flagsEnabled
      rw [hf]
      decide
    rw [this]
    rfl

theorem collect_none {toks : List Token} {lo : Nat} {ts : List TokId} {trees : List Tree}
    (h : Reps toks lo ts trees) (s : State) (hs : s.toks = toks) (root : TokId) {kr : Token}
    (hr : toks[root]? = some kr) : ∀ {n : Nat}, toks.length - lo < n →
    forEach (fun c => collectErrors n root c false) ts s = .ok () s := by
  subst hs
  induction h with
  | nil => intro n _; rfl
  | @cons lo t k ts cs trees hl hk hs' hf hc _ ih1 ih2 =>
    intro n hn
    cases n with
    | zero => omega
    | succ n =>
      have hlt : t < s.toks.length := (List.getElem?_eq_some_iff.mp hk).1
      have h1 : collectErrors (n + 1) root t false s = .ok () s := by
        unfold collectErrors
        rw [bind_run (getTok_ok.mpr ⟨hk, rfl⟩), bind_run (ih1 (n := n) (by omega)), if_neg (by decide),
          bind_run (getTok_ok.mpr ⟨hk, rfl⟩), bind_run (splitErrors_none hc s rfl)]
        show (modTok t _ >>= fun _ => _) s = _
        rw [bind_run (modTok_same hk rfl)]
        exact modTok_same hr (by simp)
      unfold forEach
      rw [bind_run h1]
      exact ih2 hn

theorem collectTop_none {lo : Nat} {t : TokId} {tree : Tree} (h : Reps s.toks lo [t] [tree]) :
    collectErrorsTop t s = .ok () s := by
  obtain ⟨k, -, hk, -, -, -, -, hc⟩ := h.root
  have hlt : t < s.toks.length := (List.getElem?_eq_some_iff.mp hk).1
  unfold collectErrorsTop
  rw [bind_run (show M.getState s = .ok s s from rfl)]
  unfold collectErrors
  rw [bind_run (getTok_ok.mpr ⟨hk, rfl⟩), bind_run (collect_none hc s rfl t hk (Nat.sub_lt (Nat.lt_of_le_of_lt (Nat.zero_le _) hlt) (Nat.succ_pos _))), if_pos rfl]
  rfl

/-! ### C35 -/

/-- **C35**, in lock step: at every depth of recursion the engine and the interpreter both
run out of depth, or both return and a user sees the same; the engine does not panic. -/
theorem C35_lock_step (hG : Grammar T ρ S G) (hb : blen p.src ≤ isizeMax)
    (hasc : ∀ m, S m → (G m).Between p.src) (hm : S m) (hc : Ready p stop c)
    (hcut : Cut p.src stop c.offset.start) (hr : Resolves ρ sc (entered T m sc s)) :
    Sim (exec T cfg n m c sc s) (eval G p stop n m c.offset.start) fun r s' x => Sees s'.toks r x :=
  (lock hG hb hasc n m hm c sc s hc hcut hr).mono fun _ _ _ h => h.1.sees

/-- **C35**: whatever the engine returns, the interpreter returns too. -/
theorem C35_sound (hG : Grammar T ρ S G) (hb : blen p.src ≤ isizeMax)
    (hasc : ∀ m, S m → (G m).Between p.src) (hm : S m) (hc : Ready p stop c)
    (hcut : Cut p.src stop c.offset.start) (hr : Resolves ρ sc (entered T m sc s)) {r : R} {s' : State}
    (h : Runs T cfg m c sc s r s') :
    ∃ x, Evals G p stop m c.offset.start x ∧ Sees s'.toks r x := by
  obtain ⟨n, h⟩ := h
  have := C35_lock_step (cfg := cfg) (n := n) hG hb hasc hm hc hcut hr
  rw [h] at this
  unfold Sim at this
  split at this
  · rename_i h1 h2
    cases h1
    exact ⟨_, ⟨n, h2⟩, this⟩
  · rename_i h1 _
    cases h1
  · exact this.elim

/-- **C35**: whatever the interpreter returns, the engine returns too. -/
theorem C35_complete (hG : Grammar T ρ S G) (hb : blen p.src ≤ isizeMax)
    (hasc : ∀ m, S m → (G m).Between p.src) (hm : S m) (hc : Ready p stop c)
    (hcut : Cut p.src stop c.offset.start) (hr : Resolves ρ sc (entered T m sc s)) {x : Result}
    (h : Evals G p stop m c.offset.start x) :
    ∃ r s', Runs T cfg m c sc s r s' ∧ Sees s'.toks r x := by
  obtain ⟨n, h⟩ := h
  have := C35_lock_step (cfg := cfg) (n := n) hG hb hasc hm hc hcut hr
  rw [h] at this
  unfold Sim at this
  split at this
  · rename_i h1 h2
    cases h2
    exact ⟨_, _, ⟨n, h1⟩, this⟩
  · rename_i _ h2
    cases h2
  · exact this.elim

/-- **C35**: the engine never panics. -/
theorem C35_no_panic (hG : Grammar T ρ S G) (hb : blen p.src ≤ isizeMax)
    (hasc : ∀ m, S m → (G m).Between p.src) (hm : S m) (hc : Ready p stop c)
    (hcut : Cut p.src stop c.offset.start) (hr : Resolves ρ sc (entered T m sc s)) :
    ¬ Panics T cfg m c sc s := by
  rintro ⟨n, e, h⟩
  have := C35_lock_step (cfg := cfg) (n := n) hG hb hasc hm hc hcut hr
  rw [h] at this
  unfold Sim at this
  split at this
  · rename_i h1 _; cases h1
  · rename_i h1 _; cases h1
  · exact this

/-- What a user of `tokenize` sees. -/
def SeesRoot (toks : List Token) : Except Failure TokId → Result → Prop
  | .ok t, x => treeOf toks (toks.length + 1) t = x.tree? ∧ x.tree? ≠ none
  | .error f, x => f = .fail ∧ x.tree? = none

/-- What `tokenize` adds. -/
theorem tokenize_sim (hG : Grammar T ρ S G) (hb : blen p.src ≤ isizeMax)
    (hasc : ∀ m, S m → (G m).Between p.src) (hm : S m) (hc : Ready p stop c)
    (hcut : Cut p.src stop c.offset.start) (hr : Resolves ρ c.scope (entered T m c.scope s)) :
    Sim (tokenize T cfg n c m s) (eval G p stop n m c.offset.start)
      (fun r s' x => SeesRoot s'.toks r x ∧ Keeps s.toks.length s s' ∧ Resolves ρ c.scope s' ∧
        s'.toks.length = s.toks.length + work G p stop n m c.offset.start) := by
  have h := lock (cfg := cfg) (stop := stop) hG hb hasc n m hm c c.scope s hc hcut hr
  rw [← Option.bind_fun_some (eval G p stop n m c.offset.start)]
  unfold tokenize
  refine h.bind fun r s1 x _ ⟨h1, h2, h3⟩ => ?_
  have hsee := h1.sees
  cases h1 with
  | fail => exact ⟨⟨rfl, rfl⟩, h2, h3⟩
  | skip _ => exact ⟨⟨rfl, rfl⟩, h2, h3⟩
  | token hr =>
    dsimp only
    rw [bind_run (collectTop_none hr)]
    exact ⟨⟨hsee, by simp [Result.tree?]⟩, h2, h3⟩
  | splice hr =>
    dsimp only
    rw [bind_run (collectTop_none hr)]
    exact ⟨⟨hsee, by simp [Result.tree?]⟩, h2, h3⟩

/-- **C35** for `tokenize`: its root token is the root of the interpreter's tree, and it
fails if the interpreter has none. -/
theorem C35_tokenize (hG : Grammar T ρ S G) (hb : blen p.src ≤ isizeMax)
    (hasc : ∀ m, S m → (G m).Between p.src) (hm : S m) (hc : Ready p stop c)
    (hcut : Cut p.src stop c.offset.start) (hr : Resolves ρ c.scope (entered T m c.scope s)) :
    Sim (tokenize T cfg n c m s) (eval G p stop n m c.offset.start) fun r s' x => SeesRoot s'.toks r x :=
  (tokenize_sim hG hb hasc hm hc hcut hr).mono fun _ _ _ h => h.1

/-! ### C37 -/

/-- Both fail, or both have the same tree. -/
def SameRoot (toks toks' : List Token) : Except Failure TokId → Except Failure TokId → Prop
  | .ok t, .ok t' => ∃ tree, treeOf toks (toks.length + 1) t = some tree ∧
      treeOf toks' (toks'.length + 1) t' = some tree
  | .error f, .error f' => f = f'
  | _, _ => False

theorem SeesRoot.same {toks toks' : List Token} {r r' : Except Failure TokId} {x : Result}
    (h : SeesRoot toks r x) (h' : SeesRoot toks' r' x) : SameRoot toks toks' r r' := by
  cases r with
  | ok t =>
    obtain ⟨h1, h2⟩ := h
    cases r' with
    | ok t' =>
      obtain ⟨tree, ht⟩ := Option.ne_none_iff_exists'.mp h2
      exact ⟨tree, by rw [h1, ht], by rw [h'.1, ht]⟩
    | error f => exact (h2 h'.2).elim
  | error f =>
    cases r' with
    | ok t' => exact (h'.2 h.2).elim
    | error f' => exact h.1.trans h'.1.symm

/-- **C37**: two parses of the same text with the same grammar, on whatever heaps, in
whatever scopes that bind the grammar's names, and even in different build modes: both
recurse without end, or both fail, or they yield the same tree. -/
theorem C37_same_tree (hG : Grammar T ρ S G) (hb : blen p.src ≤ isizeMax)
    (hasc : ∀ m, S m → (G m).Between p.src) (hm : S m)
    {c' : Ctx} {s' : State} {cfg' : Cfg} (hc : Ready p stop c) (hc' : Ready p stop c')
    (hpos : c.offset.start = c'.offset.start) (hcut : Cut p.src stop c.offset.start)
    (hr : Resolves ρ c.scope (entered T m c.scope s)) (hr' : Resolves ρ c'.scope (entered T m c'.scope s')) :
    match tokenize T cfg n c m s, tokenize T cfg' n c' m s' with
    | .ok r s1, .ok r' s1' => SameRoot s1.toks s1'.toks r r'
    | .diverge, .diverge => True
    | _, _ => False := by
  have h1 := C35_tokenize (cfg := cfg) (n := n) hG hb hasc hm hc hcut hr
  have h2 := C35_tokenize (cfg := cfg') (n := n) hG hb hasc hm hc' (hpos ▸ hcut) hr'
  rw [← hpos] at h2
  generalize tokenize T cfg n c m s = a at *
  generalize tokenize T cfg' n c' m s' = b at *
  generalize eval G p stop n m c.offset.start = x at *
  cases x with
  | none => cases a <;> cases b <;> first | trivial | exact h1.elim | exact h2.elim
  | some x =>
    cases a <;> cases b <;> first | exact h1.elim | exact h2.elim | exact SeesRoot.same h1 h2

/-- The names stay resolved when a matcher registers itself again. -/
theorem Resolves.again (hG : Grammar T ρ S G) (hm : S m) (hr : Resolves ρ sc s) :
    Resolves ρ sc (entered T m sc s) := by
  exact hr.enter hG hm

/-- **C37**: parsing again, on the heap that the first parse left behind, yields the same
tree, and leaves the first one as it was. -/
theorem C37_again (hG : Grammar T ρ S G) (hb : blen p.src ≤ isizeMax)
    (hasc : ∀ m, S m → (G m).Between p.src) (hm : S m) (hc : Ready p stop c)
    (hcut : Cut p.src stop c.offset.start) (hr : Resolves ρ c.scope (entered T m c.scope s))
    {r : Except Failure TokId} {s1 : State} (h : tokenize T cfg n c m s = .ok r s1) :
    ∃ r' s2, tokenize T cfg n c m s1 = .ok r' s2 ∧ SameRoot s1.toks s2.toks r r' ∧
      ∀ i, i < s1.toks.length → s2.toks[i]? = s1.toks[i]? := by
  have h1 := tokenize_sim (cfg := cfg) (n := n) hG hb hasc hm hc hcut hr
  rw [h] at h1
  unfold Sim at h1
  split at h1
  · rename_i a s1' x h2 hx
    cases h2
    obtain ⟨h3, h4, h5⟩ := h1
    have h6 := tokenize_sim (cfg := cfg) (n := n) hG hb hasc hm hc hcut (h5.1.again hG hm)
    rw [hx] at h6
    unfold Sim at h6
    split at h6
    · rename_i r' s2 x' h7 hx'
      cases hx'
      exact ⟨r', s2, h7, h3.same h6.1, h6.2.1.same⟩
    · rename_i hx'; cases hx'
    · exact h6.elim
  · rename_i h2 _; cases h2
  · exact h1.elim

/-! ### A recursive grammar -/

/-- `Paren = "(" Paren? ")"`, where the inner `Paren` is a reference by name. -/
def parenT : Table
  | 0 => .program [1, 2, 3] "Paren".toList true Option.none false
  | 1 => .equals "Open".toList true (.str "(".toList)
  | 2 => .optional 4
  | 3 => .equals "Close".toList true (.str ")".toList)
  | 4 => .ref (.str "Paren".toList) "Ref".toList false
  | _ => .null

/-- Its expressions. -/
def parenG : MatcherId → Expr
  | 0 => .seq "Paren".toList [1, 2, 3]
  | 1 => .lit "Open".toList "(".toList
  | 2 => .opt 4
  | 3 => .lit "Close".toList ")".toList
  | 4 => .call 0
  | _ => .empty

/-- Its names. -/
def parenρ (x : Str) : Option MatcherId := if x = "Paren".toList then some 0 else Option.none

theorem paren_grammar : Grammar parenT parenρ (fun _ => True) parenG := by
  refine ⟨fun m _ => ?_, fun _ _ _ _ => trivial, fun m _ hc x hx => ?_, fun m _ n c re h => ?_⟩
  · unfold parenT parenG
    split <;> rfl
  · revert hc hx
    unfold parenT
    split <;> intro hc hx <;> first | exact absurd hc (by decide) | skip
    · cases hx; rfl
    · exact nomatch (show Option.none = some x from hx)
    · exact nomatch (show Option.none = some x from hx)
  · revert h
    unfold parenT
    split <;> intro h <;> cases h

/-- The tree of `(())`, wherever it is. -/
def parenTree : Tree :=
  .node "Paren".toList ⟨0, 4⟩ ⟨0, 4⟩ "(())".toList "(())".toList Option.none [
    .node "Open".toList ⟨0, 1⟩ ⟨0, 1⟩ "(".toList "(".toList Option.none [],
    .node "Paren".toList ⟨1, 3⟩ ⟨1, 3⟩ "()".toList "()".toList Option.none [
      .node "Open".toList ⟨1, 2⟩ ⟨1, 2⟩ "(".toList "(".toList Option.none [],
      .node "Close".toList ⟨2, 3⟩ ⟨2, 3⟩ ")".toList ")".toList Option.none []],
    .node "Close".toList ⟨3, 4⟩ ⟨3, 4⟩ ")".toList ")".toList Option.none []]

theorem paren_eval : eval parenG ⟨"(()) ".toList, []⟩ 5 9 0 0 = some (.token parenTree) := rfl

theorem paren_cut : Cut "(()) ".toList 5 0 :=
  ⟨"(()) ".toList, [], [], rfl, rfl, rfl⟩

/-- The engine on `(()) `: whatever the heap and the other variables are, if there is a
scope to register names in, the result is the tree of `(())`. -/
theorem C35_example {sc : SCtxId} {s : State} {c : Ctx} (hc : c = (Ctx.new ⟨"(()) ".toList, []⟩ sc []))
    (hs : s.lookup sc "Paren".toList = some (.matcher 0)) :
    ∃ t s', tokenize parenT cfg 9 c 0 s = .ok (.ok t) s' ∧
      treeOf s'.toks (s'.toks.length + 1) t = some parenTree := by
  have hr : Resolves parenρ c.scope (entered parenT 0 c.scope s) := by
    refine Resolves.again paren_grammar trivial fun n m h => ?_
    unfold parenρ at h
    split at h
    · cases h; subst hc; subst n; exact hs
    · cases h
  have h := C35_tokenize (cfg := cfg) (n := 9) (p := ⟨"(()) ".toList, []⟩) (stop := 5) (c := c) paren_grammar
    (by decide) (fun m _ _ _ _ _ h => ?_) (m := 0) trivial (by subst hc; exact ⟨rfl, rfl, rfl⟩) (by subst hc; exact paren_cut) hr
  · rw [show c.offset.start = 0 by subst hc; rfl, paren_eval] at h
    unfold Sim at h
    split at h
    · rename_i a s1 b h1 h2
      cases h2
      cases a with
      | ok t => exact ⟨t, s1, h1, h.1⟩
      | error f => exact nomatch h.2
    · rename_i h2; cases h2
    · exact h.elim
  · revert h
    unfold parenG
    split <;> intro h <;> exact nomatch h

/-! ### A text with other characters -/

/-- `Line = "→" String`. -/
def arrowT : Table
  | 0 => .program [1, 2] "Line".toList true Option.none false
  | 1 => .equals "Arrow".toList true (.str "→".toList)
  | 2 => .sequence "String".toList true (.str "«".toList) (.str "»".toList) (.str "¬".toList)
  | _ => .null

/-- Its expressions. -/
def arrowG : MatcherId → Expr
  | 0 => .seq "Line".toList [1, 2]
  | 1 => .lit "Arrow".toList "→".toList
  | 2 => .delim "String".toList "«".toList "»".toList "¬".toList
  | _ => .empty

theorem arrow_grammar : Grammar arrowT (fun _ => Option.none) (fun _ => True) arrowG := by
  refine ⟨fun m _ => ?_, fun _ _ _ _ => trivial, fun m _ hc x hx => ?_, fun m _ n c re h => ?_⟩
  · unfold arrowT arrowG
    split <;> rfl
  · revert hc hx
    unfold arrowT
    split <;> intro hc hx <;> first | exact absurd hc (by decide) | exact nomatch (show Option.none = some x from hx)
  · revert h
    unfold arrowT
    split <;> intro h <;> cases h

/-- The engine on `→«a¬xb» ä`: only what lies between the delimiters has to be ASCII.
The value of the arrow is wrong, because texts are cut by characters (C01). -/
theorem C35_unicode_example {sc : SCtxId} {s : State} :
    ∃ t s' tree, tokenize arrowT cfg 9 (Ctx.new ⟨"→«a¬xb» ä".toList, []⟩ sc []) 0 s = .ok (.ok t) s' ∧
      treeOf s'.toks (s'.toks.length + 1) t = some tree ∧
      eval arrowG ⟨"→«a¬xb» ä".toList, []⟩ 15 9 0 0 = some (.token tree) ∧
      tree.matched = ⟨0, 12⟩ ∧ tree.children.map (fun | .node _ c m v _ _ _ => (m, c, v)) =
        [(⟨0, 3⟩, ⟨0, 3⟩, "→«a".toList), (⟨3, 12⟩, ⟨5, 10⟩, "axb".toList)] := by
  have h := C35_tokenize (cfg := cfg) (n := 9) (p := ⟨"→«a¬xb» ä".toList, []⟩) (stop := 15)
    (c := Ctx.new ⟨"→«a¬xb» ä".toList, []⟩ sc []) arrow_grammar (by decide) (fun m _ n a b e h => ?_) (m := 0) trivial
    ⟨rfl, rfl, rfl⟩ ⟨"→«a¬xb» ä".toList, [], [], rfl, rfl, rfl⟩ (s := s) (fun n m h => nomatch h)
  · have he : ∃ tree, eval arrowG ⟨"→«a¬xb» ä".toList, []⟩ 15 9 0 0 = some (.token tree) ∧
        tree.matched = ⟨0, 12⟩ ∧ tree.children.map (fun | .node _ c m v _ _ _ => (m, c, v)) =
          [(⟨0, 3⟩, ⟨0, 3⟩, "→«a".toList), (⟨3, 12⟩, ⟨5, 10⟩, "axb".toList)] := ⟨_, rfl, rfl, rfl⟩
    obtain ⟨tree, he, h1, h2⟩ := he
    rw [show (Ctx.new ⟨"→«a¬xb» ä".toList, []⟩ sc []).offset.start = 0 from rfl, he] at h
    unfold Sim at h
    split at h
    · rename_i a s1 b h3 h4
      cases h4
      cases a with
      | ok t => exact ⟨t, s1, tree, h3, h.1, he, h1, h2⟩
      | error f => exact nomatch h.2
    · rename_i h2; cases h2
    · exact h.elim
  · revert h
    unfold arrowG
    split <;> intro h <;> cases h
    exact asciiBetween_of_check (by decide +kernel)

/-! ### Where the interpreter, and hence the engine, departs from textbook grammars -/

/-- A sequence of discarded parts only is no match. -/
example : eval (fun | 0 => .seq [] [1] | 1 => .drop 2 | _ => .lit [] "a".toList) ⟨"a".toList, []⟩ 1 9 0 0 =
    some .fail := rfl

/-- A choice passes over an alternative that matches without consuming. -/
example : eval (fun | 0 => .choice [1, 2] | 1 => .empty | _ => .lit [] "a".toList) ⟨"b".toList, []⟩ 1 9 0 0 =
    some .fail := rfl

/-- A repetition with minimum zero that matches nothing is no match. -/
example : eval (fun | 0 => .loop [] [1] 0 9 | _ => .lit [] "a".toList) ⟨"b".toList, []⟩ 1 9 0 0 =
    some .fail := rfl

/-- A repetition with minimum two is content with one. -/
example : eval (fun | 0 => .loop [] [1] 2 9 | _ => .lit [] "a".toList) ⟨"ab".toList, []⟩ 2 9 0 0 =
    some (.token (.node [] ⟨0, 1⟩ ⟨0, 1⟩ "a".toList "a".toList Option.none [leaf ⟨"ab".toList, []⟩ [] ⟨0, 1⟩ ⟨0, 1⟩])) := rfl

/-- A repetition of two to three fails on two, stops after one round. -/
example : eval (fun | 0 => .loop [] [1] 2 3 | _ => .lit [] "a".toList) ⟨"aaa".toList, []⟩ 3 9 0 0 =
    some .fail := rfl

/-- After a flattened sequence whose last part is discarded, reading resumes before that
part. -/
example : eval (fun
    | 0 => .seq [] [1, 3] | 1 => .flat 2 | 2 => .seq [] [3, 4] | 3 => .lit [] "a".toList | 4 => .drop 5 | _ => .lit [] "b".toList) ⟨"aba".toList, []⟩ 3 9 0 0 = some .fail := rfl

end Adx.Peg
