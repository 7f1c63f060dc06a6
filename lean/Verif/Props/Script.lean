import Verif.Proofs.Hooks
/-
  C38, C39, C44: what a grammar script is turned into, and which errors are reported.
-/
namespace Adx

variable {env : Env} {toks : List Token} {compileFile : Str → World → BuildRes}

/-! ### C38: repeat specifiers -/

theorem Repeats.unique {t : TokId} {lo hi lo' hi' : Nat} (h : Repeats toks t lo hi)
    (h' : Repeats toks t lo' hi') : lo = lo' ∧ hi = hi' := by
  cases h with
  | any hk hn => cases h' <;> simp_all
  | some hk hn => cases h' <;> simp_all
  | upTo hk hn ha hak hs h1 =>
    cases h' with
    | any hk' hn' => simp_all
    | some hk' hn' => simp_all
    | upTo hk' hn' ha' hak' hs' h1' =>
      cases hk.symm.trans hk'; cases ha.unique ha'; simp_all
    | atLeast hk' hn' ha' hak' hs' => cases hk.symm.trans hk'; exact absurd hs hs'
    | between hk' hn' ha' hak' hs' => cases hk.symm.trans hk'; exact absurd hs hs'
  | atLeast hk hn ha hak hs hm h1 =>
    cases h' with
    | any hk' hn' => simp_all
    | some hk' hn' => simp_all
    | upTo hk' hn' ha' hak' hs' h1' => cases hk.symm.trans hk'; exact absurd hs' hs
    | atLeast hk' hn' ha' hak' hs' =>
      cases hk.symm.trans hk'; cases ha.unique ha'; simp_all
    | between hk' hn' ha' hak' hs' hb' => cases hk.symm.trans hk'; exact absurd hm hb'.not_absent
  | between hk hn ha hak hs hb hbk h1 h2 hle =>
    cases h' with
    | any hk' hn' => simp_all
    | some hk' hn' => simp_all
    | upTo hk' hn' ha' hak' hs' h1' => cases hk.symm.trans hk'; exact absurd hs' hs
    | atLeast hk' hn' ha' hak' hs' hm' => cases hk.symm.trans hk'; exact absurd hm' hb.not_absent
    | between hk' hn' ha' hak' hs' hb' hbk' =>
      cases hk.symm.trans hk'; cases ha.unique ha'; cases hb.unique hb'; simp_all

/-- C38: the range of a repeat specifier token is exactly the one that its token tree
denotes: `*` is `0..MAX`, `+` is `1..MAX`, `{n}` is `0..n` (sic), `{n,}` is `n..MAX`,
`{n,m}` is `n..m`; everything else is rejected. -/
theorem C38_range_iff {t : TokId} {ns ns' : List Node} {lo hi : Nat} :
    getRepeatSpecifierRange t toks ns = .ok (lo, hi) ns' ↔ ns' = ns ∧ Repeats toks t lo hi := by
  have h := getRepeatSpecifierRange_spec toks ns t
  unfold CPost at h
  constructor
  · intro he
    rw [he] at h
    exact h
  · rintro ⟨rfl, hr⟩
    cases he : getRepeatSpecifierRange t toks ns' with
    | ok r ns1 =>
      rw [he] at h
      obtain ⟨rfl, h⟩ := h
      obtain ⟨h1, h2⟩ := h.unique hr
      rw [← h1, ← h2]
    | err e => rw [he] at h; exact absurd hr (h _ _)
    | panic m => rw [he] at h; exact absurd hr (h _ _)
    | diverge => rw [he] at h; exact h.elim

/-- C38: a specifier that denotes no range is never turned into one: it is an error or a
panic, and never runs on. -/
theorem C38_range_reject {t : TokId} {ns : List Node} (h : ∀ lo hi, ¬ Repeats toks t lo hi) :
    (∃ e, getRepeatSpecifierRange t toks ns = .err e) ∨
      ∃ m, getRepeatSpecifierRange t toks ns = .panic m := by
  have hs := getRepeatSpecifierRange_spec toks ns t
  unfold CPost at hs
  cases he : getRepeatSpecifierRange t toks ns with
  | ok r ns1 => rw [he] at hs; exact absurd hs.2 (h _ _)
  | err e => exact .inl ⟨e, rfl⟩
  | panic m => exact .inr ⟨m, rfl⟩
  | diverge => rw [he] at hs; exact hs.elim

/-! ### C39, C44: building the matcher of a script -/

/-- The matchers that every script starts with. -/
def preamble (root : MatcherId) (sc : SCtxId) (name : Str) : List Node :=
  [.program [root + 3] name true none false,
   .program [] "Program".toList false none false,
   .proxyChildren (root + 1) "Flatten".toList false,
   .setScope (some sc) (root + 2)]

theorem Inv.start {w : World} {name : Str} :
    Inv w.st.toks w.nodes w.st.sctxs.length [] [] []
      ⟨⟨w.nodes ++ preamble w.nodes.length w.st.sctxs.length name, w.st.newSCtx.2⟩, [], none⟩ := by
  have hat : ∀ i, (w.nodes ++ preamble w.nodes.length w.st.sctxs.length name)[w.nodes.length + i]? =
      (preamble w.nodes.length w.st.sctxs.length name)[i]? := by
    intro i
    rw [List.getElem?_append_right (by omega), Nat.add_sub_cancel_left]
  refine ⟨rfl, rfl, rfl, ⟨_, rfl⟩, ⟨name, hat 0⟩, ⟨[], hat 1, .nil⟩, hat 2, hat 3, .inl ?_, ?_⟩
  · show (w.st.sctxs ++ [[]])[w.st.sctxs.length]? = some []
    exact List.getElem?_concat_length
  · intro n
    show (w.st.newSCtx.2).lookup w.st.sctxs.length n = none
    unfold State.lookup State.newSCtx
    dsimp only
    rw [List.getElem?_concat_length]
    rfl

/-- The visit of `build_matcher_from_tokens`, for a script that was not read from a
file. -/
theorem build_eq {depth : Nat} {t : TokId} {k : Token} {ctx : Ctx} {name : Str} {w : World}
    (hk : w.st.toks[t]? = some k) (hn : k.name = "Script".toList) {l : List TokId}
    (hl : Pre w.st.toks [t] l) (hd : w.st.toks.length ≤ depth) :
    ∃ r, VisitOk env w.st.toks w.nodes w.st.sctxs.length [] [] [] l r ∧
      buildMatcherFromTokens env compileFile depth t ctx name none w =
        buildResult ctx w.nodes.length w.st.sctxs.length r := by
  refine ⟨_, callHooks_build (compileFile := compileFile) (depth := depth) l ?_ ?_
    (Inv.start (name := name)), ?_⟩
  · intro x hx
    exact ⟨_, List.getElem?_eq_getElem (hl.valid x hx)⟩
  · intro x hx
    exact hl.not_deep hx hd
  · unfold buildMatcherFromTokens
    rw [hk]
    dsimp only
    rw [if_neg (by simpa using hn)]
    rw [← C31_visit_preorder _ _ hl hd]
    rfl

/-- C39: a token that is not a script is rejected. -/
theorem C39_not_script {depth : Nat} {t : TokId} {k : Token} {ctx : Ctx} {name : Str} {w : World}
    {fromFile : Option Str} (hk : w.st.toks[t]? = some k) (hn : k.name ≠ "Script".toList) :
    buildMatcherFromTokens env compileFile depth t ctx name fromFile w =
      .err [⟨"Expected provided token to be a `Script` token".toList, none⟩] := by
  unfold buildMatcherFromTokens
  rw [hk]
  dsimp only
  rw [if_pos hn]

theorem ScriptMeans.mem {l : List TokId} {gs : List Gram} {bs : List (Str × Gram)}
    (h : ScriptMeans env toks l gs bs) {x : TokId} (hx : x ∈ l) :
    ∃ gs bs, ItemMeans env toks x gs bs := by
  induction h with
  | nil => cases hx
  | cons h _ ih =>
    rcases List.mem_cons.mp hx with rfl | hx
    · exact ⟨_, _, h⟩
    · exact ih hx

theorem buildResult_err {ctx : Ctx} {root m : MatcherId} {sc sc' : SCtxId} {e : ParseError} {b : Build}
    {w : World} (h : buildResult ctx root sc (.err e b) = .ok m sc' w) : False := by
  unfold buildResult at h
  dsimp only at h
  cases hc : b.crash with
  | some c => rw [hc] at h; cases c <;> cases h
  | none =>
    rw [hc] at h
    dsimp only at h
    split at h
    · split at h <;> cases h
    · cases h

/-- C39: a script (not read from a file) is turned into a matcher exactly if every one of
its tokens has a meaning: a definition that cannot be built is never dropped silently. -/
theorem C39_ok_iff {depth : Nat} {t : TokId} {k : Token} {ctx : Ctx} {name : Str} {w : World}
    (hk : w.st.toks[t]? = some k) (hn : k.name = "Script".toList) {l : List TokId}
    (hl : Pre w.st.toks [t] l) (hd : w.st.toks.length ≤ depth) :
    (∃ m sc w', buildMatcherFromTokens env compileFile depth t ctx name none w = .ok m sc w') ↔
      ∃ gs bs, ScriptMeans env w.st.toks l gs bs := by
  obtain ⟨r, hr, he⟩ := build_eq (env := env) (compileFile := compileFile) (ctx := ctx)
    (name := name) hk hn hl hd
  rw [he]
  cases r with
  | ok b =>
    obtain ⟨gs, bs, h, _⟩ := hr
    exact ⟨fun _ => ⟨gs, bs, h⟩, fun _ => ⟨_, _, _, rfl⟩⟩
  | err e b =>
    obtain ⟨l1, x, l2, gs', bs', rfl, h1, h2, h3, h4, h5⟩ := hr
    constructor
    · rintro ⟨m, sc, w', h⟩
      exact (buildResult_err h).elim
    · rintro ⟨gs, bs, h⟩
      obtain ⟨gs1, bs1, h⟩ := h.mem (x := x) (by simp)
      exact absurd h (h2 _ _)
  | dangling => exact hr.elim
  | diverge => exact hr.elim

/-- C39: when the build of a script (not read from a file) reports errors, then some
token has no meaning; the errors are what the error tokens before it report, followed by
one error about this token. -/
theorem C39_err {depth : Nat} {t : TokId} {k : Token} {ctx : Ctx} {name : Str} {w : World}
    (hk : w.st.toks[t]? = some k) (hn : k.name = "Script".toList) {l : List TokId}
    (hl : Pre w.st.toks [t] l) (hd : w.st.toks.length ≤ depth) {es : List ParseError}
    (h : buildMatcherFromTokens env compileFile depth t ctx name none w = .err es) :
    ∃ l1 x l2 e text, l = l1 ++ x :: l2 ∧ (∃ gs bs, ScriptMeans env w.st.toks l1 gs bs) ∧
      (∀ gs bs, ¬ ItemMeans env w.st.toks x gs bs) ∧ Blame w.st.toks x e ∧
      ctx.errorString e.message (e.range.getD ⟨0, 0⟩) = some text ∧
      es = errorReports w.st.toks l1 ++ [⟨text, some (e.range.getD ⟨0, 0⟩)⟩] := by
  obtain ⟨r, hr, he⟩ := build_eq (env := env) (compileFile := compileFile) (ctx := ctx)
    (name := name) hk hn hl hd
  rw [he] at h
  cases r with
  | ok b => cases h
  | err e b =>
    obtain ⟨l1, x, l2, gs', bs', h0, h1, h2, h3, h4, h5⟩ := hr
    unfold buildResult at h
    dsimp only at h
    cases hc : b.crash with
    | some c =>
      rw [hc] at h
      cases c <;> cases h
    | none =>
      rw [hc] at h
      dsimp only at h
      have hbl := h5 hc
      have hm : e.message ≠ [] := by
        obtain ⟨k, _, ⟨_, rfl⟩ | ⟨_, m, rfl⟩⟩ := hbl
        · exact List.cons_ne_nil _ _
        · simp
      rw [if_pos hm] at h
      cases ht : ctx.errorString e.message (e.range.getD ⟨0, 0⟩) with
      | none => rw [ht] at h; cases h
      | some text =>
        rw [ht] at h
        cases h
        refine ⟨l1, x, l2, e, text, h0, ⟨gs', bs', h1⟩, h2, hbl, ht, ?_⟩
        rw [h3]
        rfl
  | dangling => exact hr.elim
  | diverge => exact hr.elim

/-- C39: building a script (not read from a file) always comes to an end. -/
theorem C39_terminates {depth : Nat} {t : TokId} {k : Token} {ctx : Ctx} {name : Str} {w : World}
    (hk : w.st.toks[t]? = some k) {l : List TokId}
    (hl : Pre w.st.toks [t] l) (hd : w.st.toks.length ≤ depth) :
    buildMatcherFromTokens env compileFile depth t ctx name none w ≠ .diverge := by
  by_cases hn : k.name = "Script".toList
  · obtain ⟨r, hr, he⟩ := build_eq (env := env) (compileFile := compileFile) (ctx := ctx)
      (name := name) hk hn hl hd
    rw [he]
    cases r with
    | ok b => simp [buildResult]
    | err e b =>
      obtain ⟨l1, x, l2, gs', bs', h0, h1, h2, h3, h4, h5⟩ := hr
      unfold buildResult
      dsimp only
      cases hc : b.crash with
      | some c =>
        cases c with
        | none => exact absurd hc h4
        | some m => simp
      | none =>
        dsimp only
        repeat' split
        all_goals simp
    | dangling => exact hr.elim
    | diverge => exact hr.elim
  · rw [C39_not_script hk hn]
    simp

/-- C44: the matcher of a script (not read from a file) is a program of its own that runs,
in the scope of the script, the patterns of all pattern scopes in order; each name of the
scope is bound to its last definition, and no other name is bound.  Old matchers are left
alone. -/
theorem C44_build {depth : Nat} {t : TokId} {k : Token} {ctx : Ctx} {name : Str} {w w' : World}
    (hk : w.st.toks[t]? = some k) (hn : k.name = "Script".toList) {l : List TokId}
    (hl : Pre w.st.toks [t] l) (hd : w.st.toks.length ≤ depth) {m : MatcherId} {sc : SCtxId}
    (h : buildMatcherFromTokens env compileFile depth t ctx name none w = .ok m sc w') :
    ∃ gs bs, ScriptMeans env w.st.toks l gs bs ∧
      w.nodes <+: w'.nodes ∧ w'.st.toks = w.st.toks ∧
      (∃ a b i n ps, w'.nodes[m]? = some (.program [a] n true none false) ∧
        w'.nodes[a]? = some (.setScope (some sc) b) ∧
        w'.nodes[b]? = some (.proxyChildren i "Flatten".toList false) ∧
        w'.nodes[i]? = some (.program ps "Program".toList false none false) ∧
        BuiltAll w'.nodes w.nodes.length ps gs) ∧
      (∀ n, match lastDef bs n with
        | some g => ∃ m, w'.st.lookup sc n = some (.matcher m) ∧ Built w'.nodes w.nodes.length m g
        | none => w'.st.lookup sc n = none) := by
  obtain ⟨r, hr, he⟩ := build_eq (env := env) (compileFile := compileFile) (ctx := ctx)
    (name := name) hk hn hl hd
  rw [he] at h
  cases r with
  | ok b =>
    cases h
    obtain ⟨gs, bs, h, hi⟩ := hr
    simp only [List.nil_append] at hi
    obtain ⟨n, hroot⟩ := hi.root
    obtain ⟨ps, h1, h2⟩ := hi.inner
    refine ⟨gs, bs, h, hi.old, hi.toks_eq,
      ⟨_, _, _, n, ps, hroot, hi.scope, hi.flat, h1, h2.lower (by omega)⟩, ?_⟩
    intro n
    have := hi.bound n
    cases hl : lastDef bs n with
    | none => rw [hl] at this; exact this
    | some g =>
      rw [hl] at this
      obtain ⟨m, h1, h2⟩ := this
      exact ⟨m, h1, h2.lower (by omega)⟩
  | err e b =>
    exfalso
    exact buildResult_err h
  | dangling => exact hr.elim
  | diverge => exact hr.elim

/-! ### Concrete scripts -/

/-- C39, falsified part: a script whose tokens are all error tokens is turned into a
matcher (that does nothing), and none of the errors is reported. -/
theorem C39_errors_dropped {depth : Nat} {t : TokId} {k : Token} {ctx : Ctx} {name : Str} {w : World}
    (hk : w.st.toks[t]? = some k) (hn : k.name = "Script".toList) {l : List TokId}
    (hl : Pre w.st.toks [t] (t :: l)) (hd : w.st.toks.length ≤ depth)
    (he : ∀ x ∈ l, ∃ e msg, w.st.toks[x]? = some e ∧ e.name = "Error".toList ∧
      e.getAttribute "__message".toList = some msg) :
    ∃ m sc w', buildMatcherFromTokens env compileFile depth t ctx name none w = .ok m sc w' := by
  refine (C39_ok_iff hk hn hl hd).mpr ⟨[], [], ?_⟩
  refine .cons (gs := []) (bs := []) (gs' := []) (bs' := []) (.other hk ?_ ?_ ?_ ?_) ?_
  · rw [hn]; decide
  · rw [hn]; decide
  · rw [hn]; decide
  · rw [hn]; decide
  · clear hl
    induction l with
    | nil => exact .nil
    | cons x l ih =>
      obtain ⟨e, msg, h1, h2, h3⟩ := he x (by simp)
      exact .cons (gs := []) (bs := []) (gs' := []) (bs' := []) (.error h1 h2 h3)
        (ih fun y hy => he y (by simp [hy]))

namespace ScriptExample

/-- A token of the source `src` with a name, range, children and attributes. -/
def tok (src name : String) (a b : Nat) (children : List TokId := []) (attrs : AMap Str := []) : Token :=
  { Token.mk' ⟨src.toList, []⟩ name.toList ⟨a, b⟩ with children, attributes := attrs }

def world (toks : List Token) : World := ⟨[], ⟨toks, [], [[]]⟩⟩

def noFiles : Env := ⟨⟨false⟩, Uni.ascii, fun _ => none, fun _ => none, fun _ _ => none, fun _ => none⟩

def run (toks : List Token) (src : String) : BuildRes :=
  buildMatcherFromTokens noFiles (fun _ _ => .diverge) 20 0 (Ctx.new ⟨src.toList, []⟩ 0 []) [] none (world toks)

/-- The number of matchers made, or the messages reported. -/
def see : BuildRes → Option (Nat ⊕ List (String × Option Range))
  | .ok _ _ w => some (.inl w.nodes.length)
  | .err es => some (.inr (es.map fun e => (String.ofList e.message, e.range)))
  | _ => none

/-- The tokens below some tokens, in the order of a walk. -/
def preOf (toks : List Token) : Nat → List TokId → Option (List TokId)
  | 0, _ => none
  | _ + 1, [] => some []
  | n + 1, t :: ts => do
    let k ← toks[t]?
    let l ← preOf toks n k.children
    let l' ← preOf toks n ts
    pure (t :: (l ++ l'))

theorem preOf_pre {toks : List Token} : ∀ {n : Nat} {ts l : List TokId},
    preOf toks n ts = some l → Pre toks ts l
  | 0, _, _, h => by cases h
  | _ + 1, [], _, h => by cases h; exact .nil
  | n + 1, t :: ts, _, h => by
    simp only [preOf, Option.bind_eq_bind, Option.bind_eq_some_iff, Option.pure_def] at h
    obtain ⟨k, h1, l, h2, l', h3, h4⟩ := h
    cases h4
    exact .cons h1 (preOf_pre h2) (preOf_pre h3)

/-- A script with an error token among its definitions. -/
def errorOnly : List Token :=
  [tok "<?>" "Script" 0 3 [1], tok "<?>" "Error" 0 3 [] [("__message".toList, "bad".toList)]]

-- `C39_errors_dropped` on it.
example : Pre errorOnly [0] [0, 1] ∧ see (run errorOnly "<?>") = some (.inl 4) :=
  ⟨preOf_pre (n := 9) (by decide +kernel), by decide +kernel⟩

/-- A definition whose matcher is the empty string literal, after an error token. -/
def badDefinition : List Token :=
  [tok "<=''>" "Script" 0 5 [1, 2],
   tok "<=''>" "Error" 0 3 [] [("__message".toList, "bad".toList)],
   tok "<=''>" "PatternScope" 0 5 [3],
   tok "<=''>" "PatternDefinition" 0 5 [4],
   tok "<=''>" "EqualsMatcher" 1 4 [5],
   tok "<=''>" "String" 3 3]

-- `C39_err` on it: now the error token is reported as well, and the position of the bad
-- definition is lost.
example : (see (run badDefinition "<=''>")).any fun r =>
    match r with
    | .inr [(m, some a), (_, some b)] => m == "bad" && a == ⟨0, 3⟩ && b == ⟨0, 0⟩
    | _ => false := by decide +kernel

/-- `<!--[adextopa ]x = <='a'>{2,3}--><x>` -/
def text : String := "<!--[adextopa ]x=<='a'>{2,3}--><x>"

def good : List Token :=
  [tok text "Script" 0 34 [1, 10],
   tok text "AdextopaScope" 0 31 [2],
   tok text "AssignmentExpression" 15 28 [3, 4],
   tok text "Identifier" 15 16,
   tok text "PatternDefinition" 17 28 [5, 7],
   tok text "EqualsMatcher" 18 22 [6],
   tok text "String" 20 21,
   tok text "RepeatRange" 23 28 [8, 13, 9],
   tok text "Minimum" 24 25,
   tok text "Maximum" 26 27,
   tok text "PatternScope" 31 34 [11],
   tok text "PatternDefinition" 31 34 [12],
   tok text "CustomMatcher" 32 33 [14],
   tok text "Seperator" 25 26,
   tok text "Identifier" 32 33]

-- The hypotheses of `C39_ok_iff` and `C44_build` hold for it, and the build succeeds.
example : Pre good [0] [0, 1, 2, 3, 4, 5, 6, 7, 8, 13, 9, 10, 11, 12, 14] ∧
    see (run good text) = some (.inl 8) := by
  exact ⟨preOf_pre (n := 20) (by decide +kernel), by decide +kernel⟩

-- C38 on it: `{2,3}` is the range `2..3`.
example : Repeats good 7 2 3 ∧ getRepeatSpecifierRange 7 good [] = .ok (2, 3) [] := by
  have : getRepeatSpecifierRange 7 good [] = .ok (2, 3) [] := by rfl
  exact ⟨(C38_range_iff.mp this).2, this⟩

end ScriptExample

end Adx
