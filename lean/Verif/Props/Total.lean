import Verif.Proofs.TotalParse
import Verif.Proofs.CalmHooks
import Verif.Props.Syntax
/-
  C52: compiling a script comes to an end for every text, and panics only for known reasons.
-/
namespace Adx

/-- `toks` are tokens to which the grammar of scripts parses the text, in some world, and
`l` are the ones of the tree. -/
def ParsesTo (env : Env) (parser : Parser) (toks : List Token) (l : List TokId) : Prop :=
  ∃ fuel name w t s, Milds w.nodes ∧ ScopesOK w.st ∧ parseScript env fuel parser name w = .ok (.ok t) s ∧
    toks = s.toks ∧ Pre s.toks [t] l

/-- The text, read from the file `base`, has an import statement for the file `full`. -/
def Loads (env : Env) (parser : Parser) (base full : Str) : Prop :=
  ∃ toks l path joined file, ParsesTo env parser toks l ∧ ImportsPath toks l path ∧
    env.relative base path = some joined ∧ env.canonical joined = some file ∧ env.canonical file = some full

/-- The text, and the text of every file that is imported from it, directly or not, is
ASCII, and no file is imported from itself. -/
inductive Loadable (env : Env) : Parser → Option Str → Prop
  | mk {parser fromFile} (ascii : Ascii parser.src) (size : blen parser.src ≤ isizeMax)
      (imports : ∀ base full src, fromFile = some base → Loads env parser base full → env.read full = some src →
        Loadable env ⟨src, full⟩ (some full)) : Loadable env parser fromFile

/-- Why compiling a text panics, and the message: there is a cause in the text, or an import
statement for which no file is found, or there is trouble with an imported file. -/
inductive Trouble (env : Env) : Parser → Option Str → String → Prop
  | text {parser fromFile toks l m} (hp : ParsesTo env parser toks l) (h : Cause env toks l m) :
      Trouble env parser fromFile m
  | parent {parser base toks l path} (hp : ParsesTo env parser toks l) (hi : ImportsPath toks l path)
      (hr : env.relative base path = none) :
      Trouble env parser (some base) "called `Option::unwrap()` on a `None` value"
  | unknown {parser base toks l path joined} (hp : ParsesTo env parser toks l) (hi : ImportsPath toks l path)
      (hr : env.relative base path = some joined) (hc : env.canonical joined = none) :
      Trouble env parser (some base) "called `Result::unwrap()` on an `Err` value"
  | lost {parser base toks l path joined file} (hp : ParsesTo env parser toks l) (hi : ImportsPath toks l path)
      (hr : env.relative base path = some joined) (hc : env.canonical joined = some file) (hf : env.canonical file = none) :
      Trouble env parser (some base) "called `Result::unwrap()` on an `Err` value"
  | unread {parser base full} (hl : Loads env parser base full) (hr : env.read full = none) :
      Trouble env parser (some base) "called `Result::unwrap()` on an `Err` value"
  | imported {parser base full src m} (hl : Loads env parser base full) (hr : env.read full = some src)
      (h : Trouble env ⟨src, full⟩ (some full) m) : Trouble env parser (some base) m

section

attribute [local irreducible] Script.switchMatcher Script.programMatcher Script.script tokenize
  buildMatcherFromTokens String.toList

variable {env : Env} {w : World} {parser : Parser} {name : Str}

/-- C52: the grammar of scripts parses every ASCII text, in every world, without a panic and
without running forever: it fails, gives an error, or gives a tree of tokens in which
everything that the builder relies on is in place. -/
theorem C52_parse (hm : Milds w.nodes) (hok : ScopesOK w.st) (ha : Ascii parser.src) (hs : blen parser.src ≤ isizeMax) :
    ∃ N r s, (∀ fuel, N ≤ fuel → parseScript env fuel parser name w = .ok r s) ∧ ScopesOK s ∧
      ∀ t, r = .ok t → ∃ k l, s.toks[t]? = some k ∧ (k.name = "Script".toList ∨ k.name = "Error".toList) ∧ Pre s.toks [t] l ∧
        l.Nodup ∧ (∀ u ∈ l, w.st.toks.length ≤ u) ∧ ∀ u ∈ l, ∀ j, s.toks[u]? = some j → Sound parser.src s.toks j := by
  obtain ⟨hS, hI⟩ := setup_is (env := env) (name := name) hm ha hs (errs := true)
  have hsc := setup_scoped (env := env) (name := name) hm hok ha hs (errs := true)
  have hhere : (scriptSetting env parser name w hm ha hs true).Here parser.src (setup env parser name w).ctx := by
    refine ⟨rfl, ?_, rfl⟩
    show (⟨0, _⟩ : Range) = ⟨blen parser.src - blen parser.src, _⟩
    rw [Nat.sub_self]
    rfl
  obtain ⟨r, s, hrun, -, h⟩ := Read.script_total rfl hS (List.suffix_rfl : (scriptSetting env parser name w hm ha hs true).Has parser.src)
    hhere hsc hI
  have key : ∃ n r s', tokenize (tableOf (setup env parser name w).nodes) env.cfg n (setup env parser name w).ctx
      (setup env parser name w).start (setup env parser name w).st = .ok r s' ∧
      ∀ t, r = .ok t → ∃ k, s'.toks[t]? = some k ∧ (k.name = "Script".toList ∨ k.name = "Error".toList) ∧
        ∀ l, Pre s'.toks [t] l → ∀ u ∈ l, ∀ j, s'.toks[u]? = some j → Sound parser.src s'.toks j := by
    obtain ⟨n, hrun'⟩ := id hrun
    have hrun' : exec (tableOf (setup env parser name w).nodes) env.cfg n (setup env parser name w).start
      (setup env parser name w).ctx (setup env parser name w).ctx.scope (setup env parser name w).st = .ok r s := hrun'
    rcases h with rfl | ⟨e, rfl⟩ | ⟨t, tree, rfl, hrep, hwell, hname⟩
    · refine ⟨n, .error .fail, s, ?_, fun t h => by cases h⟩
      unfold tokenize
      rw [bind_run hrun']
      rfl
    · refine ⟨n, .error (.error e), s, ?_, fun t h => by cases h⟩
      unfold tokenize
      rw [bind_run hrun']
      rfl
    · obtain ⟨l, hp, hnd, -⟩ := C36_tree (fun m => ((scriptSetting env parser name w hm ha hs true).mild m).grafts) hrun rfl
      have hname' : tree.name = "Script".toList ∨ tree.name = Read.errorName := hname.imp_left And.left
      obtain ⟨s', k, g1, g2, g3, g4⟩ := hrep.gathered hwell hname' hp hnd
      refine ⟨n, .ok t, s', ?_, ?_⟩
      · unfold tokenize
        rw [bind_run hrun']
        dsimp only
        rw [bind_run g1]
        rfl
      · rintro t' ⟨⟩
        exact ⟨k, g2, by rw [g3]; exact hname', g4⟩
  obtain ⟨n, r, s', htok, hres⟩ := key
  refine ⟨n, r, s', fun fuel hf => ?_, parse_ok hok htok, fun t ht => ?_⟩
  · unfold parseScript
    rw [C06_tokenize_depth_independent hf (by rw [htok]; nofun), htok]
  · subst ht
    obtain ⟨k, h1, h2, h3⟩ := hres t rfl
    obtain ⟨l, hp, hnd, hab, -⟩ := C36_tokenize (fun m => ((setup_milds env parser name hm).table m).grafts) htok
    rw [setup_toks] at hab
    exact ⟨k, l, h1, h2, hp, hnd, hab, h3 l hp⟩

theorem compile_settles {fromFile : Option Str} (h : Loadable env parser fromFile) : ∀ name,
    Settles (Trouble env parser fromFile) fun fuel w => compileScript env fuel parser name fromFile w := by
  induction h with
  | @mk parser fromFile ascii size imports ih =>
    intro name w hm hok
    obtain ⟨N, r, s, hrun, hok', htree⟩ := C52_parse (env := env) (name := name) hm hok ascii size
    have hpar : ∀ fuel, N ≤ fuel → tokenize (tableOf (setup env parser name w).nodes) env.cfg fuel (setup env parser name w).ctx
        (setup env parser name w).start (setup env parser name w).st = .ok r s := hrun
    cases r with
    | error f =>
      cases f with
      | fail =>
        have h : ∀ fuel, N + 1 ≤ fuel → compileScript env fuel parser name fromFile w = compileScript env (N + 1) parser name fromFile w := by
          intro fuel hf
          obtain ⟨fuel, rfl⟩ : ∃ f, fuel = f + 1 := ⟨fuel - 1, by omega⟩
          rw [compileScript_succ, compileScript_succ, hpar fuel (by omega), hpar N (Nat.le_refl _)]
        refine ⟨N + 1, _, h, ?_⟩
        rw [compileScript_succ, hpar N (Nat.le_refl _)]
        trivial
      | error e =>
        refine ⟨N + 1, .err [e], fun fuel hf => ?_, trivial⟩
        obtain ⟨fuel, rfl⟩ : ∃ f, fuel = f + 1 := ⟨fuel - 1, by omega⟩
        dsimp only
        rw [compileScript_succ, hpar fuel (by omega)]
    | ok t =>
      obtain ⟨k, l, hk, -, hp, -, -, hsound⟩ := htree t rfl
      have hpt : ParsesTo env parser s.toks l := ⟨N, name, w, t, s, hm, hok, hrun N (Nat.le_refl _), rfl, hp⟩
      have hfed : Fed parser.src s.toks l := by
        intro u hu
        obtain ⟨j, hj⟩ : ∃ j, s.toks[u]? = some j := ⟨_, List.getElem?_eq_getElem (hp.valid u hu)⟩
        exact ⟨_, hj, hsound u hu _ hj, hp.closed u hu _ hj⟩
      have hsafe : ∀ fuel file w, Milds w.nodes → FileSafe w (importFile env fuel file w) := by
        intro fuel file w hm
        unfold importFile
        cases env.canonical file with
        | none => trivial
        | some full =>
          dsimp only
          cases env.read full with
          | none => trivial
          | some src => exact compile_safe env fuel _ _ _ w hm
      have hreach : ∀ base path, fromFile = some base → ImportsPath s.toks l path →
          Reaches env (Trouble env parser fromFile) (importFile env) base path := by
        intro base path hb hi
        subst hb
        refine ⟨fun hr => .parent hpt hi hr, fun joined hr hc => .unknown hpt hi hr hc, fun joined file hr hc w hm hok => ?_⟩
        unfold importFile
        cases hf : env.canonical file with
        | none => exact ⟨0, _, fun _ _ => rfl, .lost hpt hi hr hc hf⟩
        | some full =>
          have hl : Loads env parser base full := ⟨_, _, _, _, _, hpt, hi, hr, hc, hf⟩
          dsimp only
          cases hrd : env.read full with
          | none => exact ⟨0, _, fun _ _ => rfl, .unread hl hrd⟩
          | some src =>
            obtain ⟨N, r, h1, h2⟩ := ih base full src rfl hl hrd file w hm hok
            refine ⟨N, r, h1, ?_⟩
            cases r with
            | panic m => exact .imported hl hrd h2
            | _ => exact h2
      obtain ⟨N', r', hrun', hr'⟩ := build_calm (ctx := (setup env parser name w).ctx) (name := name)
        (w := ⟨(setup env parser name w).nodes, s⟩) hsafe (fun m hc => .text hpt hc) hreach hfed ascii
        (setup_milds env parser name hm) hok' hk hp (Nat.le_refl _)
      refine ⟨max N N' + 1, r', fun fuel hf => ?_, hr'⟩
      obtain ⟨fuel, rfl⟩ : ∃ f, fuel = f + 1 := ⟨fuel - 1, by omega⟩
      dsimp only
      rw [compileScript_succ, hpar fuel (by omega)]
      exact hrun' fuel (by omega)

/-- Imports are no cycle if they lead to files of a smaller rank. -/
theorem loadable_of_rank (rank : Str → Nat)
    (hread : ∀ full src, env.read full = some src → Ascii src ∧ blen src ≤ isizeMax)
    (hrank : ∀ base path joined file full src, env.relative base path = some joined → env.canonical joined = some file →
      env.canonical file = some full → env.read full = some src → rank full < rank base)
    (parser : Parser) (ha : Ascii parser.src) (hs : blen parser.src ≤ isizeMax) (base : Str) : Loadable env parser (some base) := by
  induction h : rank base using Nat.strong_induction_on generalizing parser base with
  | _ n ih =>
    subst h
    refine .mk ha hs fun base' full src hb hl hr => ?_
    cases hb
    obtain ⟨toks, l, path, joined, file, -, -, h1, h2, h3⟩ := hl
    exact ih _ (hrank _ _ _ _ _ _ h1 h2 h3 hr) _ (hread _ _ hr).1 (hread _ _ hr).2 _ rfl

variable {fromFile : Option Str}

/-- C52: compiling a script comes to an end, for every ASCII text whose imports are no cycle:
the result is a matcher, or at least one error, or a panic for which there is a reason in
the text or an imported one. -/
theorem C52_compile (h : Loadable env parser fromFile) (hm : Milds w.nodes) (hok : ScopesOK w.st) :
    ∃ N r, (∀ fuel, N ≤ fuel → compileScript env fuel parser name fromFile w = r) ∧
      ((∃ m sc w', r = .ok m sc w') ∨ (∃ es, es ≠ [] ∧ r = .err es) ∨ ∃ msg, Trouble env parser fromFile msg ∧ r = .panic msg) := by
  obtain ⟨N, r, hrun, hr⟩ := compile_settles h name w hm hok
  refine ⟨N, r, hrun, ?_⟩
  have hs := compile_safe env N parser name fromFile w hm
  rw [show compileScript env N parser name fromFile w = r from hrun N (Nat.le_refl _)] at hs
  cases r with
  | ok m sc w' => exact .inl ⟨m, sc, w', rfl⟩
  | err es => exact .inr (.inl ⟨es, hs, rfl⟩)
  | panic m => exact .inr (.inr ⟨m, hr, rfl⟩)
  | diverge => exact hr.elim

/-- C52: `compile_script_from_str` comes to an end for every ASCII text, and panics only
because of an empty start or end of a sequence or a wrong regular expression. -/
theorem C52_str {src : Str} (ha : Ascii src) (hs : blen src ≤ isizeMax) (hm : Milds w.nodes) (hok : ScopesOK w.st) :
    ∃ N r, (∀ fuel, N ≤ fuel → compileScriptFromStr env fuel src name w = r) ∧
      ((∃ m sc w', r = .ok m sc w') ∨ (∃ es, es ≠ [] ∧ r = .err es) ∨
        ∃ msg toks l, ParsesTo env ⟨src, []⟩ toks l ∧ Cause env toks l msg ∧ r = .panic msg) := by
  obtain ⟨N, r, hrun, hr⟩ := C52_compile (name := name) (.mk (parser := ⟨src, []⟩) (fromFile := none) ha hs (by nofun)) hm hok
  refine ⟨N, r, hrun, ?_⟩
  rcases hr with hr | hr | ⟨msg, hr, rfl⟩
  · exact .inl hr
  · exact .inr (.inl hr)
  · cases hr with
    | text hp h => exact .inr (.inr ⟨msg, _, _, hp, h, rfl⟩)

/-- C52: the same for `compile_script_from_file`, where in addition files may be missing. -/
theorem C52_file {file full src : Str} (hc : env.canonical file = some full) (hr : env.read full = some src)
    (h : Loadable env ⟨src, full⟩ (some full)) (hm : Milds w.nodes) (hok : ScopesOK w.st) :
    ∃ N r, (∀ fuel, N ≤ fuel → compileScriptFromFile env fuel file w = r) ∧
      ((∃ m sc w', r = .ok m sc w') ∨ (∃ es, es ≠ [] ∧ r = .err es) ∨
        ∃ msg, Trouble env ⟨src, full⟩ (some full) msg ∧ r = .panic msg) := by
  obtain ⟨N, r, hrun, h⟩ := C52_compile (name := file) h hm hok
  refine ⟨N, r, fun fuel hf => ?_, h⟩
  unfold compileScriptFromFile
  rw [hc]
  dsimp only
  rw [hr]
  exact hrun fuel hf

end

/-! ### Examples -/

namespace TotalExample
open CompileExample

/-- How compiling ends. -/
inductive Fate
  | ok
  | err (es : List String)
  | panic (m : String)
  | diverge
  deriving BEq

def fate : BuildRes → Fate
  | .ok .. => .ok
  | .err es => .err (es.map fun e => String.ofList e.message)
  | .panic m => .panic m
  | .diverge => .diverge

def fateOf (src : String) : Fate := fate (compileScriptFromStr files 50 src.toList [] empty)

-- The hypotheses on the world hold for the empty one, and every text without imports is loadable.
example : Milds empty.nodes ∧ ScopesOK empty.st := by
  refine ⟨fun n h => (by cases h), ?_⟩
  constructor <;> simp [empty, State.empty]
example : Loadable { files with relative := fun base f => if base = "a".toList ∧ f ≠ "a".toList then some f else none }
    ⟨"<!--[adextopa version='1'] import { X as Y, _ as Z } from 'b' --><Y>".toList, "a".toList⟩ (some "a".toList) := by
  refine loadable_of_rank (fun f => if f = "a".toList then 1 else 0) ?_ ?_ _ (by unfold Ascii; decide) (by decide +kernel) _
  · intro full src h
    have : files.read full = some src := h
    simp only [files] at this
    split_ifs at this <;> cases this <;> exact ⟨by unfold Ascii; decide, by decide +kernel⟩
  · intro base path joined file full src h1 h2 h3 h4
    simp only [files] at h1 h2 h3
    split_ifs at h1 with h
    cases h1; cases h2; cases h3
    rw [if_pos h.1, if_neg h.2]
    exact Nat.zero_lt_one
example : Loadable files ⟨"(<='u'>)".toList, []⟩ none := .mk (by unfold Ascii; decide) (by decide +kernel) (by nofun)

#guard fateOf "(<%'a','b','c'>)" == .ok
#guard fateOf "(<%'','b','c'>)" == .panic "Sequence `start` pattern of \"\" makes no sense"
#guard fateOf "(<%'a','','c'>)" == .panic "Sequence `end` pattern of \"\" makes no sense"
#guard fateOf "(</(/>)" == .panic "called `Result::unwrap()` on an `Err` value"
#guard fateOf "<='a'> foo" == .err ["Expected provided token to be a `Script` token"]
-- Trouble with an imported file: it is not found, or it imports itself.
#guard fate (compileScriptFromFile { files with relative := fun _ _ => none } 50 "a".toList empty) ==
  .panic "called `Option::unwrap()` on a `None` value"
#guard fate (compileScriptFromFile { files with read := fun f => if f = "b".toList then none else files.read f } 50 "a".toList empty) ==
  .panic "called `Result::unwrap()` on an `Err` value"
#guard fate (compileScriptFromFile { files with read := fun _ => files.read "a".toList } 50 "a".toList empty) == .diverge

end TotalExample

end Adx
