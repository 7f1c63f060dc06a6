import Verif.Proofs.ElsewhereBuild
/-
  C59: what a script is compiled to, and what its matcher makes of a text, does not depend
  on what was compiled or parsed before.
-/
namespace Adx

attribute [local irreducible] Script.switchMatcher Script.programMatcher Script.script tokenize
  buildMatcherFromTokens String.toList compileScript

open Reloc

/-- The world in which nothing was done yet. -/
def World.empty : World := ⟨[], ⟨[], [], []⟩⟩

theorem inside_behind (w : World) : (behind w.nodes.length w.st).Inside .empty w := by
  refine ⟨⟨fun m n h => (nomatch h), fun m _ => ?_, fun i => ?_, Nat.zero_le _⟩,
    ⟨fun t => ?_, fun i => ?_, Nat.zero_le _, fun i => ?_, fun i => ?_, fun i => ?_, fun i => ?_⟩⟩
  · exact List.getElem?_eq_none (Nat.le_add_left _ _)
  · show 0 + i + _ = _ + i
    rw [Nat.zero_add, Nat.add_comm]
  · exact List.getElem?_eq_none (Nat.le_add_left _ _)
  · show 0 + i + _ = _ + i
    rw [Nat.zero_add, Nat.add_comm]
  · exact List.getElem?_eq_none (Nat.le_add_left _ _)
  · show 0 + i + _ = _ + i
    rw [Nat.zero_add, Nat.add_comm]
  · exact List.getElem?_eq_none (Nat.le_add_left _ _)
  · show 0 + i + _ = _ + i
    rw [Nat.zero_add, Nat.add_comm]

variable {env : Env} {fuel n depth : Nat} {parser p : Parser} {name pname : Str} {fromFile : Option Str} {cfg : Cfg}

/-- C59: a script, with all its imports, is compiled in every world as it is compiled first
thing: with the same errors, panic or endless run, or else to the same matchers, scopes and
tokens, at the places after what was there. -/
theorem C59_compile (w : World) :
    (behind w.nodes.length w.st).SameBuild (compileScript env fuel parser name fromFile .empty)
      (compileScript env fuel parser name fromFile w) :=
  compile_same (inj_behind _ _) (fun _ _ h => Nat.add_right_cancel h) fuel (fun _ h => nomatch h) (inside_behind w)

/-- C59: the same for any world of compiled scripts that is part of another world, under any
renumbering. -/
theorem C59_part {ρ : Reloc} (hi : ρ.Inj) (hm : Function.Injective ρ.mat) {w w' : World} (hw : Compiled env w)
    (h : ρ.Inside w w') : ρ.SameBuild (compileScript env fuel parser name fromFile w)
      (compileScript env fuel parser name fromFile w') :=
  compile_same hi hm fuel hw.milds h

/-- C59: the matcher that a script is compiled to, and all matchers that it is made of, are
those of a first compilation, each moved by the number of matchers that were there. -/
theorem C59_matchers {w w0 : World} {m0 : MatcherId} {sc0 : SCtxId}
    (h : compileScript env fuel parser name fromFile .empty = .ok m0 sc0 w0) :
    ∃ w', compileScript env fuel parser name fromFile w = .ok (m0 + w.nodes.length) (sc0 + w.st.sctxs.length) w' ∧
      w'.nodes.length = w0.nodes.length + w.nodes.length ∧
      (∀ (i : MatcherId) nd, w0.nodes[i]? = some nd → ∃ nd', w'.nodes[i + w.nodes.length]? = some nd' ∧
        (behind w.nodes.length w.st).NodeMoved True nd nd') ∧
      ∀ k, w'.st.lookup (sc0 + w.st.sctxs.length) k =
        (w0.st.lookup sc0 k).map (behind w.nodes.length w.st).var := by
  have := C59_compile (env := env) (fuel := fuel) (parser := parser) (name := name) (fromFile := fromFile) w
  rw [h] at this
  obtain ⟨w', h1, h2⟩ := this
  refine ⟨w', h1, ?_, h2.nodes.found, fun k => h2.st.lookup sc0 k⟩
  exact (h2.nodes.new 0).symm

/-- What the caller of `compile_script` sees, but for references. -/
inductive Verdict
  | compiled
  | rejected (es : List ParseError)
  | panic (e : String)
  | diverge
deriving DecidableEq

@[inherit_doc Verdict]
def BuildRes.verdict : BuildRes → Verdict
  | .ok _ _ _ => .compiled
  | .err es => .rejected es
  | .panic e => .panic e
  | .diverge => .diverge

theorem verdict_same {ρ : Reloc} {x y : BuildRes} (h : ρ.SameBuild x y) : y.verdict = x.verdict := by
  cases x with
  | ok m sc w => obtain ⟨w', rfl, -⟩ := h; rfl
  | err es => cases h; rfl
  | panic e => cases h; rfl
  | diverge => cases h; rfl

/-- C59: in any two worlds a script is accepted, or rejected with the same errors, or panics
with the same message, or is compiled without end, alike. -/
theorem C59_verdict (w w' : World) : (compileScript env fuel parser name fromFile w).verdict =
    (compileScript env fuel parser name fromFile w').verdict := by
  rw [verdict_same (C59_compile w), verdict_same (C59_compile w')]

/-- What the caller sees who compiles a script, and parses a text with its matcher and a new
context. -/
inductive Shown
  | rejected (es : List ParseError)
  | parsed (r : Except Failure (Option Tree))
  | panic (e : String)
  | diverge

@[inherit_doc Shown]
def showParse (depth : Nat) : Res (Except Failure TokId) → Shown
  | .ok x s => .parsed (Seen depth x s)
  | .panic e => .panic e
  | .diverge => .diverge

@[inherit_doc Shown]
def compileThenParse (env : Env) (fuel : Nat) (parser : Parser) (name : Str) (fromFile : Option Str) (cfg : Cfg) (n : Nat)
    (p : Parser) (pname : Str) (depth : Nat) (w : World) : Shown :=
  match compileScript env fuel parser name fromFile w with
  | .ok m _ w => showParse depth
      (tokenize (tableOf w.nodes) cfg n (Ctx.new p w.st.newSCtx.1 pname) m w.st.newSCtx.2)
  | .err es => .rejected es
  | .panic e => .panic e
  | .diverge => .diverge

theorem showParse_same {ρ : Reloc} {s' : State} {x y : Res (Except Failure TokId)}
    (h : ρ.Same True (fun x x' => x' = ρ.tokenized x) s' x y) : showParse depth y = showParse depth x := by
  cases x with
  | ok r s =>
    obtain ⟨r', s1', rfl, rfl, hp, -⟩ := h
    cases r with
    | ok t =>
      show Shown.parsed (.ok _) = Shown.parsed (.ok _)
      rw [C48_tree hp]
    | error f => rfl
  | panic e =>
    rw [show y = .panic e from h]
  | diverge =>
    rw [show y = .diverge from h trivial]

theorem parse_same {ρ : Reloc} (hi : ρ.Inj) {w w' : World} (hw : Milds w.nodes) (h : ρ.Inside w w') {m : MatcherId} :
    showParse depth (tokenize (tableOf w'.nodes) cfg n (Ctx.new p w'.st.newSCtx.1 pname) (ρ.mat m) w'.st.newSCtx.2) =
      showParse depth (tokenize (tableOf w.nodes) cfg n (Ctx.new p w.st.newSCtx.1 pname) m w.st.newSCtx.2) := by
  have := C48_tokenize_ends hi h.nodes.moved (fun m => (hw.table m).grafts) (cfg := cfg) (n := n)
    (c := Ctx.new p w.st.newSCtx.1 pname) (m := m) h.st.newSCtx
  have hc : ρ.ctx (Ctx.new p w.st.newSCtx.1 pname) = Ctx.new p w'.st.newSCtx.1 pname := by
    have : w'.st.newSCtx.1 = ρ.sctx w.st.newSCtx.1 := (h.st.sctxNew 0).symm
    rw [this]
    rfl
  rw [hc] at this
  exact showParse_same this

/-- C59: a script is compiled, and a text parsed with its matcher, to the same tree, failure,
errors, panic or endless run, whatever was compiled and parsed before. -/
theorem C59_parse (w w' : World) :
    compileThenParse env fuel parser name fromFile cfg n p pname depth w =
      compileThenParse env fuel parser name fromFile cfg n p pname depth w' := by
  have key : ∀ w, compileThenParse env fuel parser name fromFile cfg n p pname depth w =
      compileThenParse env fuel parser name fromFile cfg n p pname depth .empty := by
    intro w
    have hs := C59_compile (env := env) (fuel := fuel) (parser := parser) (name := name) (fromFile := fromFile) w
    have hm := compile_safe env fuel parser name fromFile .empty (fun _ h => nomatch h)
    unfold compileThenParse
    cases hr : compileScript env fuel parser name fromFile .empty with
    | ok m sc w0 =>
      rw [hr] at hs hm
      obtain ⟨w1, he, hw⟩ := hs
      rw [he]
      exact parse_same (inj_behind _ _) hm.2.2.1 hw
    | err es => rw [hr] at hs; rw [show compileScript _ _ _ _ _ w = _ from hs]
    | panic e => rw [hr] at hs; rw [show compileScript _ _ _ _ _ w = _ from hs]
    | diverge => rw [hr] at hs; rw [show compileScript _ _ _ _ _ w = _ from hs]
  rw [key w, key w']

/-! ### Examples -/

namespace ElsewhereExample
open CompileExample

/-- A world in which something was done: some matchers are there, one of them bound to the name
`Y`, a token, and two scope contexts. -/
def used : World :=
  ⟨[.null, .discard 0, .program [1] "P".toList false none false],
    ⟨[Token.mk' ⟨"zz".toList, []⟩ "Z".toList ⟨0, 1⟩], [[("Y".toList, .matcher 0)], []], [[1, 0], [0]]⟩⟩

/-- The root of the tree, and the roots below it. -/
def glance : Shown → Option (String × Range × List (String × Range))
  | .parsed (.ok (some (.node name _ matched _ _ _ cs))) =>
    some (String.ofList name, matched, cs.map fun (.node n _ m _ _ _ _) => (String.ofList n, m))
  | _ => none

-- These are evaluated, not proved.
#guard view (compileScriptFromFile files 45 "a".toList used) == some (.inl (868 + 3, 1 + 2, 1751 + 3))
#guard (compileScriptFromFile files 45 "c".toList used).verdict = (compileScriptFromFile files 45 "c".toList empty).verdict
#guard (compileScriptFromFile files 45 "c".toList used).verdict ≠ .compiled
#guard glance (compileThenParse files 45 ⟨"<!--[adextopa version='1'] import { X as Y, _ as Z } from 'b' -->(<Y>)".toList, "a".toList⟩
  "a".toList (some "a".toList) ⟨true⟩ 45 ⟨"uv".toList, []⟩ [] 45 used) == glance (compileThenParse files 45
  ⟨"<!--[adextopa version='1'] import { X as Y, _ as Z } from 'b' -->(<Y>)".toList, "a".toList⟩
  "a".toList (some "a".toList) ⟨true⟩ 45 ⟨"uv".toList, []⟩ [] 45 empty)
#guard glance (compileThenParse files 45 ⟨"<!--[adextopa version='1'] import { X as Y, _ as Z } from 'b' -->(<Y>)".toList, "a".toList⟩
  "a".toList (some "a".toList) ⟨true⟩ 45 ⟨"uv".toList, []⟩ [] 45 used) == some ("a", ⟨0, 1⟩, [("Y", ⟨0, 1⟩)])

end ElsewhereExample

end Adx
