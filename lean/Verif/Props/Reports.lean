import Verif.Proofs.Reports
import Verif.Props.Import
/-
  C39: which errors are reported for scripts that import others.
-/
namespace Adx

/-- What a file means, with imports up to the depth `d`. -/
def FileMeans (env : Env) (d : Nat) (file n : Str) (gs : List Gram) (bs : List (Str × Thing)) : Prop :=
  ∃ full src, env.canonical file = some full ∧ env.read full = some src ∧
    TextMeans env d ⟨src, full⟩ file (some full) n gs bs

/-- Which errors are reported for the text of a script, with imports up to some depth. -/
def TextReports (env : Env) : Nat → Parser → Str → Option Str → List ParseError → Prop
  | 0, _, _, _, _ => False
  | d + 1, parser, name, fromFile, es =>
    ∃ w fuel, Milds w.nodes ∧ ScopesOK w.st ∧ Reported env parser fromFile (FileMeans env d)
      (fun file es => ∃ full src, env.canonical file = some full ∧ env.read full = some src ∧
        TextReports env d ⟨src, full⟩ file (some full) es) (parseScript env fuel parser name w) es

/-- Which errors are reported for a file. -/
def FileReports (env : Env) (d : Nat) (file : Str) (es : List ParseError) : Prop :=
  ∃ full src, env.canonical file = some full ∧ env.read full = some src ∧
    TextReports env d ⟨src, full⟩ file (some full) es

section

attribute [local irreducible] Script.switchMatcher Script.programMatcher Script.script tokenize
  buildMatcherFromTokens String.toList

variable {env : Env} {w w' : World} {fuel : Nat} {parser : Parser} {name : Str} {fromFile : Option Str}
  {es : List ParseError}

theorem importFile_brings (env : Env) (fuel : Nat) : FileBrings (FileMeans env fuel) (importFile env fuel) := by
  intro file w root isc w1 hw hok h
  unfold importFile at h
  cases hc : env.canonical file with
  | none => rw [hc] at h; cases h
  | some full =>
    rw [hc] at h
    dsimp only at h
    cases hr : env.read full with
    | none => rw [hr] at h; cases h
    | some src =>
      rw [hr] at h
      dsimp only at h
      obtain ⟨h1, n, gs, bs, h2, h3⟩ := compile_brings env fuel _ _ _ w _ _ _ hw hok h
      exact ⟨h1, n, gs, bs, ⟨full, src, hc, hr, h2⟩, h3⟩

theorem importFile_safe (env : Env) (fuel : Nat) (file : Str) (w : World) (hw : Milds w.nodes) :
    FileSafe w (importFile env fuel file w) := by
  unfold importFile
  cases env.canonical file with
  | none => trivial
  | some full =>
    dsimp only
    cases env.read full with
    | none => trivial
    | some src => exact compile_safe env fuel _ _ _ w hw

theorem compile_reports_step
    (hrep : FileTells (FileReports env fuel) (importFile env fuel)) (hw : Milds w.nodes) (hok : ScopesOK w.st)
    (h : compileScript env (fuel + 1) parser name fromFile w = .err es) :
    Reported env parser fromFile (FileMeans env fuel) (FileReports env fuel) (parseScript env fuel parser name w)
      es := by
  rw [compileScript_succ] at h
  unfold parseScript
  have hm := setup_milds env parser name hw
  cases ht : tokenize (tableOf (setup env parser name w).nodes) env.cfg fuel (setup env parser name w).ctx
      (setup env parser name w).start (setup env parser name w).st with
  | panic m => rw [ht] at h; cases h
  | diverge => rw [ht] at h; cases h
  | ok r st =>
    rw [ht] at h
    cases r with
    | error f =>
      cases f with
      | fail => cases h; exact .fail
      | error e => cases h; exact .fatal
    | ok t =>
      dsimp only at h
      obtain ⟨l, hp, hn, -, -⟩ := C36_tokenize (fun m => (hm.table m).grafts) ht
      have htl := hp.valid t (hp.roots t (by simp))
      have hk : st.toks[t]? = some st.toks[t] := List.getElem?_eq_getElem htl
      by_cases hname : st.toks[t].name = "Script".toList
      · obtain ⟨l1, x, l2, gs, bs, more, o, last, rfl, h1, h2, h3, rfl⟩ :=
          build_tells (env := env) (w := ⟨(setup env parser name w).nodes, st⟩) (importFile_brings env fuel)
            (importFile_safe env fuel) hrep hm (parse_ok hok ht) hk hname hp (Nat.le_refl _) h
        exact .item hp hn h1 h2 h3
      · rw [C39_not_script (w := ⟨(setup env parser name w).nodes, st⟩) hk hname] at h
        cases h
        exact .notScript hk hname

theorem compile_reports (env : Env) (fuel : Nat) : ∀ parser name fromFile w es, Milds w.nodes → ScopesOK w.st →
    compileScript env (fuel + 1) parser name fromFile w = .err es →
    Reported env parser fromFile (FileMeans env fuel) (FileReports env fuel) (parseScript env fuel parser name w) es := by
  induction fuel with
  | zero =>
    intro parser name fromFile w es hw hok h
    have hrep : FileTells (FileReports env 0) (importFile env 0) := by
      intro file w es _ _ h
      unfold importFile at h
      cases hc : env.canonical file with
      | none => rw [hc] at h; cases h
      | some full =>
        rw [hc] at h
        dsimp only at h
        cases hr : env.read full with
        | none => rw [hr] at h; cases h
        | some src => rw [hr] at h; cases h
    exact compile_reports_step hrep hw hok h
  | succ fuel ih =>
    intro parser name fromFile w es hw hok h
    have hrep : FileTells (FileReports env (fuel + 1)) (importFile env (fuel + 1)) := by
      intro file w es hw hok h
      unfold importFile at h
      cases hc : env.canonical file with
      | none => rw [hc] at h; cases h
      | some full =>
        rw [hc] at h
        dsimp only at h
        cases hr : env.read full with
        | none => rw [hr] at h; cases h
        | some src =>
          rw [hr] at h
          exact ⟨full, src, hc, hr, w, fuel, hw, hok, ih _ _ _ _ _ hw hok h⟩
    exact compile_reports_step hrep hw hok h

/-- C39: the errors that are reported for a script, which may import files, are those of its
parse, or the reports of the error tokens before the first token that stops the build,
followed by the errors of the file that this token imports, if that is why, and otherwise by
one error that is said about it, at its place in the text.  For an imported file it is the
same. -/
theorem C39_imports (hw : Compiled env w) (hok : ScopesOK w.st)
    (h : compileScript env (fuel + 1) parser name fromFile w = .err es) :
    Reported env parser fromFile (FileMeans env fuel) (FileReports env fuel) (parseScript env fuel parser name w) es :=
  compile_reports env fuel parser name fromFile w es hw.milds hok h

/-- C39: the errors of a file. -/
theorem C39_file {file : Str} (hw : Compiled env w) (hok : ScopesOK w.st)
    (h : compileScriptFromFile env fuel file w = .err es) : FileReports env fuel file es := by
  unfold compileScriptFromFile at h
  cases hc : env.canonical file with
  | none => rw [hc] at h; cases h
  | some full =>
    rw [hc] at h
    dsimp only at h
    cases hr : env.read full with
    | none => rw [hr] at h; cases h
    | some src =>
      rw [hr] at h
      cases fuel with
      | zero => cases h
      | succ fuel => exact ⟨full, src, hc, hr, w, fuel, hw.milds, hok, C39_imports hw hok h⟩

/-- C39: the list of errors is never empty, however deep the import that failed: a caller that
gets an error can always see one. -/
theorem C39_nonempty (d : Nat) : ∀ parser name fromFile es, TextReports env d parser name fromFile es → es ≠ [] := by
  induction d with
  | zero => intro _ _ _ _ h; exact h.elim
  | succ d ih =>
    rintro parser name fromFile es ⟨w, fuel, -, -, h⟩
    generalize parseScript env fuel parser name w = r at h
    cases h with
    | fail => exact List.cons_ne_nil _ _
    | fatal => exact List.cons_ne_nil _ _
    | notScript => exact List.cons_ne_nil _ _
    | item _ _ _ h2 h3 =>
      intro he
      obtain ⟨he, h5⟩ := List.append_eq_nil_iff.mp he
      have h4 := (List.append_eq_nil_iff.mp he).2
      cases h3 with
      | some => cases h5
      | none =>
        cases h2 with
        | file _ hr =>
          obtain ⟨full, src, -, -, hr⟩ := hr
          exact ih _ _ _ _ hr h4

end

/-! ### Examples -/

namespace ReportsExample
open CompileExample

/-- Files: `e` has two errors, and `d` imports from it; `h` and `i` import from `g` what is not
there. -/
def badFiles : Env :=
  { files with
    read := fun f =>
      if f = "d".toList then some "<!--[adextopa version='1'] import { _ as X } from 'e' --><X>".toList
      else if f = "e".toList then some "<!--[adextopa x='1']-->(<=''>)".toList
      else if f = "g".toList then some "<!--[adextopa version='1'] X = <='u'> --><X>".toList
      else if f = "h".toList then some "<!--[adextopa version='1'] import { X, _ } from 'g' --><X>".toList
      else if f = "i".toList then some "<!--[adextopa version='1'] import { X as Z, Y } from 'g' --><X>".toList
      else none }

/-- The reported errors. -/
def errs (r : BuildRes) : Option (List (String × Option (Nat × Nat))) :=
  match r with
  | .err es => some (es.map fun e => (String.ofList e.message, e.range.map fun r => (r.start, r.stop)))
  | _ => none

-- These are evaluated, not proved.
#guard errs (compileScriptFromFile badFiles 45 "d".toList empty) ==
  some [("Error: e@[1:1-24]: Adextopa scope must have a 'version' attribute", some (0, 23)),
    ("Error: e@[1:1]: Error attempting to create matcher from parsed pattern token: Value can not be empty for an `Equals` pattern definition",
      some (0, 0))]
#guard errs (compileScriptFromFile badFiles 45 "h".toList empty) ==
  some [("Error: h@[1:40-41]: Error root import '_' must be named using 'import {{ _ as Name }}'", some (39, 40))]
#guard errs (compileScriptFromFile badFiles 45 "i".toList empty) ==
  some [("Error: i@[1:45-46]: Failed to import `Y` from 'g': Not found", some (44, 45))]
#guard errs (compileScriptFromStr badFiles 45 "<!--[adextopa version='1'] import { X } from 'g' --><X>".toList [] empty) ==
  some [("Error: @[1:28-49]: Found import statement, but it is forbidden to use imports when not parsing from a file",
    some (27, 48))]

/-- A token of the text `Yg`. -/
def tok (name : String) (a b : Nat) (cs : List TokId) : Token :=
  { Token.mkMatched ⟨"Yg".toList, "f".toList⟩ name.toList ⟨a, b⟩ ⟨a, b⟩ with children := cs }

/-- A script that imports `Y` from the file `g`. -/
def toks : List Token :=
  [tok "Script" 0 2 [1], tok "ImportStatement" 0 2 [2, 5], tok "ImportIdentifiers" 0 1 [3],
   tok "ImportIdentifier" 0 1 [4], tok "ImportName" 0 1 [], tok "Path" 1 2 []]

/-- The file `g` defines nothing. -/
def nothing (_ : Str) (w : World) : BuildRes :=
  .ok w.nodes.length w.st.sctxs.length ⟨w.nodes ++ preamble w.nodes.length w.st.sctxs.length [], w.st.newSCtx.2⟩

/-- Non-vacuity: building reports what the specification says. -/
example : errs (buildMatcherFromTokens files nothing 9 0 (Ctx.new ⟨"Yg".toList, "f".toList⟩ 0 []) []
      (some "f".toList) ⟨[], ⟨toks, [], []⟩⟩) =
      some [("Error: f@[1:1-2]: Failed to import `Y` from 'g': Not found", some (0, 1))] ∧
    Stops files (some "f".toList) (fun _ _ _ bs => bs = []) (fun _ _ => False) toks 1 []
      (some ⟨"Failed to import `Y` from 'g': Not found".toList, some ⟨0, 1⟩⟩) := by
  refine ⟨by decide +kernel, ?_⟩
  have h : ImportsFrom files (some "f".toList) toks 1 ([] ++ 3 :: []) "g".toList :=
    .mk (toks := toks) (ids := 2) (p := 5) (base := "f".toList) (joined := "g".toList)
      (k := tok "ImportStatement" 0 2 [2, 5]) (idk := tok "ImportIdentifiers" 0 1 [3]) (pk := tok "Path" 1 2 [])
      rfl rfl ⟨[], [5], rfl, by decide, by decide⟩ rfl ⟨[2], [], rfl, by decide, by decide⟩ rfl rfl (by decide +kernel)
      (by decide +kernel)
  refine .identifier (n := []) (gs := []) (bs := []) h rfl (by simp)
    (.missing (ik := tok "ImportName" 0 1 []) (name := ['Y'])
      (.plain (k := tok "ImportIdentifier" 0 1 [4]) (i := 4) rfl ⟨[], [], rfl, by decide, by decide⟩ rfl
        (by unfold Absent; decide)) (by decide) rfl)

end ReportsExample

end Adx
