import Verif.Proofs.Compile
import Verif.Proofs.Offset
/-
  C45: compiling grammar scripts from their text, with imports, and parsing with the
  result.
-/
namespace Adx

/-- The worlds of matchers that arise by compiling scripts, whatever happens to the
tokens and scopes in between. -/
inductive Compiled (env : Env) : World → Prop
  | start {s : State} : Compiled env ⟨[], s⟩
  | heap {w : World} {s : State} (h : Compiled env w) : Compiled env ⟨w.nodes, s⟩
  | script {w w' : World} {fuel : Nat} {parser : Parser} {name : Str} {fromFile : Option Str} {m : MatcherId}
      {sc : SCtxId} (h : Compiled env w) (hc : compileScript env fuel parser name fromFile w = .ok m sc w') : Compiled env w'

attribute [local irreducible] Script.switchMatcher Script.programMatcher Script.script tokenize
  buildMatcherFromTokens String.toList

variable {env : Env} {w w' : World} {fuel : Nat} {parser : Parser} {name src : Str} {fromFile : Option Str}
  {m : MatcherId} {sc : SCtxId} {es : List ParseError} {cfg : Cfg} {c : Ctx} {s s' : State} {r : R}

theorem Compiled.milds (h : Compiled env w) : Milds w.nodes := by
  induction h with
  | start => exact fun _ h => nomatch h
  | heap _ ih => exact ih
  | @script w w' fuel parser name fromFile m sc _ hc ih =>
    have := compile_safe env fuel parser name fromFile w ih
    rw [hc] at this
    exact this.2.2.1

/-! ### Failures -/

/-- C45: the number of a repeat is the number that its digits say, and if it does not fit
into 64 bits the script is rejected and the message says so. -/
theorem C45_number {toks : List Token} {ns : List Node} {ds : Str} {n : Nat} (h : Numeral ds n) :
    (n < 2 ^ 64 → C.parseUsize ds toks ns = .ok n ns) ∧
    (2 ^ 64 ≤ n → C.parseUsize ds toks ns = .err "number too large to fit in target type".toList) := by
  obtain ⟨h1, -⟩ := parseUsize_numeral h
  constructor
  · intro hn
    rw [if_pos hn] at h1
    unfold C.parseUsize
    rw [h1]
    rfl
  · intro hn
    rw [if_neg (Nat.not_lt.mpr hn)] at h1
    unfold C.parseUsize
    rw [h1]
    show CRes.err (parseIntError ds) = _
    have hd : ds ≠ [] ∧ ds.all Char.isDigit = true := by
      clear hn h1
      induction h with
      | digit h => exact ⟨by simp, by simp [h]⟩
      | more _ h ih => exact ⟨by simp, by rw [List.all_append, ih.2]; simp [h]⟩
    unfold parseIntError
    rw [if_neg hd.1, if_pos ⟨by rw [h1]; rfl, hd.2⟩]

/-- C45: a script that is rejected comes with at least one error, also if the error is
in an imported file. -/
theorem C45_errors (hw : Compiled env w) (h : compileScript env fuel parser name fromFile w = .err es) : es ≠ [] := by
  have := compile_safe env fuel parser name fromFile w hw.milds
  rw [h] at this
  exact this

/-! ### What was there before -/

/-- C45: compiling a script, with all its imports, leaves the matchers and tokens that
exist alone; its own matcher is new. -/
theorem C45_keeps (hw : Compiled env w) (h : compileScript env fuel parser name fromFile w = .ok m sc w') :
    (∀ (i : MatcherId) nd, w.nodes[i]? = some nd → w'.nodes[i]? = some nd) ∧
    (∀ (t : TokId) k, w.st.toks[t]? = some k → w'.st.toks[t]? = some k) ∧
    w.nodes.length ≤ m ∧ ∃ ps n cu it f, w'.nodes[m]? = some (.program ps n cu it f) := by
  have := compile_safe env fuel parser name fromFile w hw.milds
  rw [h] at this
  obtain ⟨⟨y, h1⟩, ⟨z, h2⟩, h3, h4, h5, -⟩ := this
  refine ⟨?_, ?_, h4, h5⟩
  · intro i nd hi
    rw [← h1, List.getElem?_append_left (List.getElem?_eq_some_iff.mp hi).1]
    exact hi
  · intro t k ht
    rw [← h2, List.getElem?_append_left (List.getElem?_eq_some_iff.mp ht).1]
    exact ht

/-- C45: compiling a script, with all its imports and parses, changes no variable of a
scope that exists; the scope of the script is a new one. -/
theorem C45_keeps_scopes (hw : Compiled env w) (h : compileScript env fuel parser name fromFile w = .ok m sc w') :
    (∀ (k : SCtxId) st, w.st.sctxs[k]? = some st → w'.st.sctxs[k]? = some st) ∧
    (∀ (i : ScopeId) vs, w.st.scopes[i]? = some vs → w'.st.scopes[i]? = some vs) ∧
    w.st.sctxs.length ≤ sc ∧
    (w'.st.sctxs[sc]? = some [] ∨ ∃ i, w.st.scopes.length ≤ i ∧ w'.st.sctxs[sc]? = some [i]) := by
  have := compile_safe env fuel parser name fromFile w hw.milds
  rw [h] at this
  obtain ⟨-, -, -, -, -, ⟨y, h1⟩, ⟨z, h2⟩, h3, h4⟩ := this
  refine ⟨?_, ?_, h3, ?_⟩
  · intro k st hk
    rw [← h2, List.getElem?_append_left (List.getElem?_eq_some_iff.mp hk).1]
    exact hk
  · intro i vs hi
    rw [← h1, List.getElem?_append_left (List.getElem?_eq_some_iff.mp hi).1]
    exact hi
  · rcases h4 with h4 | ⟨i, h4, h5, -⟩
    · exact .inl h4
    · exact .inr ⟨i, h5, h4⟩

/-! ### Scripts that are not read from a file -/

/-- The parse of a script text, by the grammar of scripts. -/
def parseScript (env : Env) (fuel : Nat) (parser : Parser) (name : Str) (w : World) : Res (Except Failure TokId) :=
  tokenize (tableOf (setup env parser name w).nodes) env.cfg fuel (setup env parser name w).ctx
    (setup env parser name w).start (setup env parser name w).st

/-- C45: when a script is turned into a matcher, then its text was parsed to a proper tree
of new tokens, every one of them has a meaning, and the matcher and the bindings are the
ones the tokens describe. -/
theorem C45_from_str (hw : Compiled env w) (h : compileScriptFromStr env (fuel + 1) src name w = .ok m sc w') :
    ∃ t k l gs bs s, parseScript env fuel ⟨src, []⟩ name w = .ok (.ok t) s ∧ w'.st.toks = s.toks ∧
      w'.st.toks[t]? = some k ∧ k.name = "Script".toList ∧ Pre w'.st.toks [t] l ∧ l.Nodup ∧
      (∀ u ∈ l, w.st.toks.length ≤ u) ∧ ScriptMeans env w'.st.toks l gs bs ∧
      (∃ a b i n ps, w'.nodes[m]? = some (.program [a] n true none false) ∧
        w'.nodes[a]? = some (.setScope (some sc) b) ∧
        w'.nodes[b]? = some (.proxyChildren i "Flatten".toList false) ∧
        w'.nodes[i]? = some (.program ps "Program".toList false none false) ∧
        BuiltAll w'.nodes w.nodes.length ps gs) ∧
      (∀ n, match lastDef bs n with
        | some g => ∃ m, w'.st.lookup sc n = some (.matcher m) ∧ Built w'.nodes w.nodes.length m g
        | none => w'.st.lookup sc n = none) := by
  unfold compileScriptFromStr at h
  rw [compileScript_succ] at h
  unfold parseScript
  have hm := setup_milds env ⟨src, []⟩ name hw.milds
  obtain ⟨ys, hys, -⟩ := setup_nodes env ⟨src, []⟩ name w
  have hle : w.nodes.length ≤ (setup env ⟨src, []⟩ name w).nodes.length := by
    rw [hys]; simp
  cases ht : tokenize (tableOf (setup env ⟨src, []⟩ name w).nodes) env.cfg fuel (setup env ⟨src, []⟩ name w).ctx
      (setup env ⟨src, []⟩ name w).start (setup env ⟨src, []⟩ name w).st with
  | panic m => rw [ht] at h; cases h
  | diverge => rw [ht] at h; cases h
  | ok r st =>
    rw [ht] at h
    cases r with
    | error f => cases f <;> cases h
    | ok t =>
      dsimp only at h
      obtain ⟨l, hp, hn, ha, -⟩ := C36_tokenize (fun m => (hm.table m).grafts) ht
      rw [setup_toks] at ha
      have htl := hp.valid t (hp.roots t (by simp))
      have hk : st.toks[t]? = some st.toks[t] := List.getElem?_eq_getElem htl
      by_cases hname : st.toks[t].name = "Script".toList
      · obtain ⟨gs, bs, h1, h2, h3, ⟨a, b, i, n, ps, h4, h5, h6, h7, h8⟩, h9⟩ :=
          C44_build (w := ⟨(setup env ⟨src, []⟩ name w).nodes, st⟩) hk hname hp (Nat.le_refl _) h
        dsimp only at h1 h3
        rw [h3]
        refine ⟨t, _, l, gs, bs, st, rfl, rfl, hk, hname, hp, hn, ha, h1, ⟨a, b, i, n, ps, h4, h5, h6, h7, h8.lower hle⟩, ?_⟩
        intro n
        have := h9 n
        cases hl : lastDef bs n with
        | none => rw [hl] at this; exact this
        | some g =>
          rw [hl] at this
          obtain ⟨m', g1, g2⟩ := this
          exact ⟨m', g1, g2.lower hle⟩
      · rw [C39_not_script (w := ⟨(setup env ⟨src, []⟩ name w).nodes, st⟩) hk hname] at h
        cases h

/-- The ways in which a script that is not read from a file is rejected, given the result of
its parse. -/
inductive Rejected (env : Env) (ctx : Ctx) (old : Nat) : Res (Except Failure TokId) → List ParseError → Prop
  /-- The grammar of scripts does not match. -/
  | fail {s : State} : Rejected env ctx old (.ok (.error .fail) s) [⟨"Failed to parse script with an unknown error. This is likely a bug. Please report this issue to the adextopa maintainers.".toList,
      none⟩]
  /-- The grammar of scripts reports a fatal error. -/
  | fatal {s : State} {e : ParseError} : Rejected env ctx old (.ok (.error (.error e)) s) [e]
  /-- The parse does not give a script. -/
  | notScript {s : State} {t : TokId} {k : Token} (hk : s.toks[t]? = some k) (hn : k.name ≠ "Script".toList) :
      Rejected env ctx old (.ok (.ok t) s) [⟨"Expected provided token to be a `Script` token".toList, none⟩]
  /-- Among the new tokens, in the order of the text, `x` is the first that has no meaning. -/
  | item {s : State} {t x : TokId} {l1 l2 : List TokId} {gs : List Gram} {bs : List (Str × Gram)}
      {e : ParseError} {text : Str}
      (hp : Pre s.toks [t] (l1 ++ x :: l2)) (hn : (l1 ++ x :: l2).Nodup) (ho : ∀ u ∈ l1 ++ x :: l2, old ≤ u)
      (h1 : ScriptMeans env s.toks l1 gs bs) (h2 : ∀ gs bs, ¬ ItemMeans env s.toks x gs bs)
      (h3 : Blame s.toks x e)
      (h4 : ctx.errorString e.message (e.range.getD ⟨0, 0⟩) = some text) :
      Rejected env ctx old (.ok (.ok t) s) (errorReports s.toks l1 ++ [⟨text, some (e.range.getD ⟨0, 0⟩)⟩])

/-- C45: the errors of a script that is rejected. -/
theorem C45_rejected (hw : Compiled env w) (h : compileScriptFromStr env (fuel + 1) src name w = .err es) :
    Rejected env (Ctx.new ⟨src, []⟩ w.st.sctxs.length name) w.st.toks.length
      (parseScript env fuel ⟨src, []⟩ name w) es := by
  unfold compileScriptFromStr at h
  rw [compileScript_succ] at h
  unfold parseScript
  have hm := setup_milds env ⟨src, []⟩ name hw.milds
  cases ht : tokenize (tableOf (setup env ⟨src, []⟩ name w).nodes) env.cfg fuel (setup env ⟨src, []⟩ name w).ctx
      (setup env ⟨src, []⟩ name w).start (setup env ⟨src, []⟩ name w).st with
  | panic m => rw [ht] at h; cases h
  | diverge => rw [ht] at h; cases h
  | ok r st =>
    rw [ht] at h
    cases r with
    | error f =>
      cases f with
      | fail => cases h; exact .fail
      | error e => cases h; exact .fatal
    | ok t =>
      dsimp only at h
      obtain ⟨l, hp, hn, ha, -⟩ := C36_tokenize (fun m => (hm.table m).grafts) ht
      rw [setup_toks] at ha
      have htl := hp.valid t (hp.roots t (by simp))
      have hk : st.toks[t]? = some st.toks[t] := List.getElem?_eq_getElem htl
      by_cases hname : st.toks[t].name = "Script".toList
      · obtain ⟨l1, x, l2, e, text, rfl, ⟨gs, bs, h1⟩, h2, h3, h4, rfl⟩ :=
          C39_err (w := ⟨(setup env ⟨src, []⟩ name w).nodes, st⟩) hk hname hp (Nat.le_refl _) h
        exact .item hp hn ha h1 h2 h3 h4
      · rw [C39_not_script (w := ⟨(setup env ⟨src, []⟩ name w).nodes, st⟩) hk hname] at h
        cases h
        exact .notScript hk hname

/-- C45: if compiling does not come to an end, then parsing the text does not. -/
theorem C45_terminates (hw : Compiled env w) (h : compileScriptFromStr env (fuel + 1) src name w = .diverge) :
    parseScript env fuel ⟨src, []⟩ name w = .diverge := by
  unfold compileScriptFromStr at h
  rw [compileScript_succ] at h
  have hm := setup_milds env ⟨src, []⟩ name hw.milds
  cases ht : tokenize (tableOf (setup env ⟨src, []⟩ name w).nodes) env.cfg fuel (setup env ⟨src, []⟩ name w).ctx
      (setup env ⟨src, []⟩ name w).start (setup env ⟨src, []⟩ name w).st with
  | panic m => rw [ht] at h; cases h
  | diverge => exact ht
  | ok r st =>
    rw [ht] at h
    cases r with
    | error f => cases f <;> cases h
    | ok t =>
      dsimp only at h
      obtain ⟨l, hp, hn, ha, -⟩ := C36_tokenize (fun m => (hm.table m).grafts) ht
      have htl := hp.valid t (hp.roots t (by simp))
      have hk : st.toks[t]? = some st.toks[t] := List.getElem?_eq_getElem htl
      exact absurd h (C39_terminates (w := ⟨(setup env ⟨src, []⟩ name w).nodes, st⟩) hk hp (Nat.le_refl _))

/-! ### Parsing with compiled scripts -/

/-- C45: parsing with compiled scripts leaves old tokens as they are (C05). -/
theorem C45_frame (hw : Compiled env w) (h : Runs (tableOf w.nodes) cfg m c sc s r s') :
    (∀ i, i < s.toks.length → s'.toks[i]? = s.toks[i]?) ∧
    (∀ t, r.tok = some t → t < s'.toks.length ∧ ∀ u, Reach s'.toks t u → s.toks.length ≤ u) := by
  obtain ⟨n, h⟩ := h
  exact C05_exec_frame (fun m => (hw.milds.table m).frame) h

/-- C45: the tokens that a compiled script returns are a proper tree of new tokens (C36). -/
theorem C45_tree (hw : Compiled env w) (h : Runs (tableOf w.nodes) cfg m c sc s r s') {t : TokId}
    (ht : r.tok = some t) : ∃ l, Pre s'.toks [t] l ∧ l.Nodup ∧ ∀ u ∈ l, s.toks.length ≤ u :=
  C36_tree (fun m => (hw.milds.table m).grafts) h ht

/-- C45: parsing with compiled scripts leaves the stacks of scopes as they are (C08). -/
theorem C45_scopes (hw : Compiled env w) (h : Runs (tableOf w.nodes) cfg m c sc s r s') :
    s'.sctxs.length = s.sctxs.length ∧
    (∀ (k : SCtxId) (st : List ScopeId), s.sctxs[k]? = some st →
      s'.sctxs[k]? = some st ∨ (st = [] ∧ ∃ i, s'.sctxs[k]? = some [i])) ∧
    (∀ i : ScopeId, i < s.scopes.length →
      (∀ (k : SCtxId) (st : List ScopeId), s.sctxs[k]? = some st → st.head? ≠ some i) →
      s'.scopes[i]? = s.scopes[i]?) ∧
    (ScopesOK s → ScopesOK s') :=
  C08_scopes_balanced (fun m => (hw.milds.table m).pres (balanced_varRel (tableOf w.nodes))) h

/-- C45: the texts stored in the tokens that a compiled script makes from an ASCII source are
the texts at their ranges (C01), whatever attributes the script gives to them. -/
theorem C45_text (hw : Compiled env w) (ha : Ascii c.parser.src) (h0 : s.toks = [])
    (h : Runs (tableOf w.nodes) cfg m c sc s r s') :
    ∀ (t : TokId) k, s'.toks[t]? = some k → k.parser = c.parser ∧
      k.capturedValue = charsIn k.captured.start k.captured.stop 0 c.parser.src ∧
      k.matchedValue = charsIn k.matched.start k.matched.stop 0 c.parser.src ∧
      (k.kind = .standard → k.Faithful c.parser) := by
  obtain ⟨n, h⟩ := h
  have hg := exec_good (Stored.inv c.parser) cfg (fun m => (hw.milds.table m).stored) n m c sc rfl s r s' h
  intro t k hk
  have := hg.all (fun t k hk => by rw [h0] at hk; cases hk) t k hk
  have h1 := this.captured.trans (text_ascii ha)
  have h2 := this.matched.trans (text_ascii ha)
  refine ⟨this.parser, h1, h2, fun hs => ⟨this.parser, ?_, ?_⟩⟩
  · rw [← h1]
    unfold Token.getCapturedValue
    rw [hs]
  · rw [← h2]
    unfold Token.getMatchedValue
    rw [hs]

/-! ### Examples -/

namespace CompileExample
open ScriptExample

/-- Files: `a` imports from `b`, `c` imports from `d`, which is broken. -/
def files : Env :=
  { noFiles with
    canonical := fun f => some f
    relative := fun _ f => some f
    read := fun f =>
      if f = "a".toList then some "<!--[adextopa version='1'] import { X as Y, _ as Z } from 'b' --><Y>".toList
      else if f = "b".toList then some "<!--[adextopa version='1'] X = <='u'> --><X>".toList
      else if f = "c".toList then some "<!--[adextopa version='1'] import { X } from 'd' --><X>".toList
      else if f = "d".toList then some "<!--[adextopa version='1'] X = <=''> --><X>".toList
      else none }

def empty : World := ⟨[], State.empty⟩

/-- The root and scope of the compiled script and the number of matchers, or the errors. -/
def view : BuildRes → Option ((Nat × Nat × Nat) ⊕ List (String × Option Range))
  | .ok m sc w => some (.inl (m, sc, w.nodes.length))
  | .err es => some (.inr (es.map fun e => (String.ofList e.message, e.range)))
  | _ => none

-- These are evaluated, not proved: the grammar of scripts has more than 800 matchers.
#guard view (compileScriptFromFile files 45 "a".toList empty) == some (.inl (868, 1, 1751))
#guard view (compileScriptFromFile files 45 "c".toList empty) == some (.inr [("Error: d@[1:1]: Error attempting to create matcher from parsed pattern token: Value can not be empty for an `Equals` pattern definition", some ⟨0, 0⟩)])
#guard view (compileScriptFromStr files 45 "(<='u'>)".toList [] empty) == some (.inl (868, 1, 873))
#guard view (compileScriptFromStr files 45 "<='u>".toList [] empty) == some (.inr [("Failed to parse script with an unknown error. This is likely a bug. Please report this issue to the adextopa maintainers.", none)])
#guard view (compileScriptFromStr files 45 "(<=''>)".toList [] empty) == some (.inr [("Error: @[1:1]: Error attempting to create matcher from parsed pattern token: Value can not be empty for an `Equals` pattern definition", some ⟨0, 0⟩)])

/-- Which texts a compiled script looks for, and the names it refers to. -/
def texts : BuildRes → Option (List (String × String))
  | .ok _ _ w => some ((w.nodes.drop 868).filterMap fun
    | .equals _ _ (.str x) => some ("equals", String.ofList x)
    | .regex _ _ r => some ("regex", String.ofList r.pattern)
    | .ref (.str x) _ _ => some ("ref", String.ofList x)
    | _ => none)
  | _ => none

/-- Every expression is one. -/
def anyRegex : Env := { files with regex := fun r => some ⟨r, fun _ => none⟩ }

/-- Whether it panics. -/
def panics : BuildRes → Bool
  | .panic _ => true
  | _ => false

-- Scripts with other than ASCII characters: everything behind such a character, even in a
-- comment, is read one character too late (C01), and quoted texts must not have any (C12).
#guard texts (compileScriptFromStr anyRegex 60 "# a\n<Xyz>".toList [] empty) == some [("ref", "Xyz")]
#guard texts (compileScriptFromStr anyRegex 60 "# ä\n<Xyz>".toList [] empty) == some [("ref", "yz>")]
#guard texts (compileScriptFromStr anyRegex 60 "# ä\n</ab/>".toList [] empty) == some [("regex", "b/")]
#guard texts (compileScriptFromStr anyRegex 60 "</ä/>".toList [] empty) == some [("regex", "ä/")]
#guard texts (compileScriptFromStr anyRegex 60 "<='u'> # ä\n".toList [] empty) == some [("equals", "u")]
#guard panics (compileScriptFromStr anyRegex 60 "<='ä'>".toList [] empty)

-- The hypotheses hold for the empty world.
example : Compiled files empty := .start

end CompileExample

end Adx
