import Verif.Proofs.BorrowBuild
/-
  C58: no `RefCell` is borrowed twice while a script is compiled.
-/
namespace Adx

variable {env : Env} {w : World} {fl : Borrows} {d fuel : Nat} {parser : Parser} {name : Str} {fromFile : Option Str}

/-- Tokens and matchers are at most shared, and those that are not there yet are not borrowed.
Scopes are not borrowed, nor is anything that belongs to the `d`th script or one inside it. -/
def AtRest (nt nm d : Nat) (fl : Borrows) : Prop :=
  ∀ c : Cell, match c with
    | .token t => (∃ n, fl c = .shared n) ∧ (nt ≤ t → fl c = .shared 0)
    | .matcher m => (∃ n, fl c = .shared n) ∧ (nm ≤ m → fl c = .shared 0)
    | .names _ | .scope _ => fl c = .shared 0
    | .context j | .errors j | .hook j _ => d ≤ j → fl c = .shared 0

theorem AtRest.unheld {nt nm : Nat} (h : AtRest nt nm d fl) : Unheld nt nm d d fl where
  token t := by
    obtain ⟨n, hn⟩ := (h (.token t)).1
    rw [hn]
    intro hx
    cases hx
  newToken t ht := (h (.token t)).2 ht
  names sc := h (.names sc)
  scope i := h (.scope i)
  matcher m := by
    obtain ⟨n, hn⟩ := (h (.matcher m)).1
    rw [hn]
    intro hx
    cases hx
  newMatcher m hm := (h (.matcher m)).2 hm
  context j hj := h (.context j) hj
  errors j hj := h (.errors j) hj
  hook j i hj := h (.hook j i) hj

theorem AtRest.free (nt nm d : Nat) : AtRest nt nm d Borrows.free := by
  intro c
  cases c with
  | token t => exact ⟨⟨0, rfl⟩, fun _ => rfl⟩
  | matcher m => exact ⟨⟨0, rfl⟩, fun _ => rfl⟩
  | names _ | scope _ => rfl
  | context _ | errors _ | hook _ _ => exact fun _ => rfl

/-- C58: compiling a script, with all its imports, borrows no cell that is borrowed already:
with the flags it does exactly what it does without, and in the end all flags are as they were.
This is also true inside of `d` imports, with what the outer scripts borrow meanwhile. -/
theorem C58_compile (hw : Compiled env w) (h : AtRest w.st.toks.length w.nodes.length d fl) :
    compileScriptB env fuel d parser name fromFile w fl = (compileScript env fuel parser name fromFile w).flagged fl :=
  compile_agrees env fuel d parser name fromFile w fl hw.milds h.unheld

/-- C58: there is never the panic for a borrowed cell. -/
theorem C58_no_conflict (hw : Compiled env w) (x : Cell) :
    compileScriptB env fuel 0 parser name fromFile w Borrows.free ≠ .conflict x := by
  rw [C58_compile hw (AtRest.free _ _ _)]
  cases compileScript env fuel parser name fromFile w <;> (intro h; cases h)

/-- C58: whatever a script is compiled to, it is compiled to without flags, and nothing is left
borrowed. -/
theorem C58_ok {m : MatcherId} {sc : SCtxId} {w' : World} {fl' : Borrows} (hw : Compiled env w) :
    compileScriptB env fuel 0 parser name fromFile w Borrows.free = .ok m sc w' fl' ↔
      compileScript env fuel parser name fromFile w = .ok m sc w' ∧ fl' = Borrows.free := by
  rw [C58_compile hw (AtRest.free _ _ _)]
  cases compileScript env fuel parser name fromFile w with
  | ok m1 sc1 w1 =>
    constructor
    · intro h
      cases h
      exact ⟨rfl, rfl⟩
    · rintro ⟨h, rfl⟩
      cases h
      rfl
  | err es => exact ⟨(fun h => by cases h), (fun h => by cases h.1)⟩
  | panic m => exact ⟨(fun h => by cases h), (fun h => by cases h.1)⟩
  | diverge => exact ⟨(fun h => by cases h), (fun h => by cases h.1)⟩

/-- C58: the same for building from any tree of tokens, whether a parse gave it or not, when
the imported files are compiled without conflict. -/
theorem C58_build {t : TokId} {l : List TokId} {ctx : Ctx} {depth : Nat} {cB : Str → World → Borrows → BuildBRes}
    (hw : Compiled env w) (hl : Pre w.st.toks [t] l) (h : AtRest w.st.toks.length w.nodes.length d fl)
    (hcB : ∀ file w fl, Milds w.nodes → AtRest w.st.toks.length w.nodes.length (d + 1) fl →
      cB file w fl = (importFile env fuel file w).flagged fl) :
    buildMatcherFromTokensB env d cB depth t ctx name fromFile w fl =
      (buildMatcherFromTokens env (importFile env fuel) depth t ctx name fromFile w).flagged fl := by
  refine build_agrees (fun file w fl hw hc => hcB file w fl hw ?_) (fun file w hw => ?_) hw.milds hl h.unheld
  · intro c
    have shared : ∀ {b : Borrow}, b ≠ .exclusive → ∃ n, b = .shared n := by
      intro b hb
      cases b with
      | shared n => exact ⟨n, rfl⟩
      | exclusive => exact absurd rfl hb
    cases c with
    | token t => exact ⟨shared (hc.token t), hc.newToken t⟩
    | matcher m => exact ⟨shared (hc.matcher m), hc.newMatcher m⟩
    | names sc => exact hc.names sc
    | scope i => exact hc.scope i
    | context j => exact hc.context j
    | errors j => exact hc.errors j
    | hook j i => exact hc.hook j i
  · unfold importFile
    cases env.canonical file with
    | none => trivial
    | some full =>
      dsimp only
      cases env.read full with
      | none => trivial
      | some src => exact compile_safe _ _ _ _ _ w hw

/-- C58: making the matcher of a pattern, from any tokens at all: they may contain each other. -/
theorem C58_pattern {toks : List Token} {ns : List Node} {depth : Nat} {t : TokId}
    (ht : ∀ t, fl (.token t) ≠ .exclusive) (hm : ∀ m, ns.length ≤ m → fl (.matcher m) = .shared 0) :
    constructPatternB env depth t toks ns fl =
      match constructPattern env depth t toks ns with
      | .ok a ns' => .ok a ns' fl
      | .err e => .err e fl
      | .panic m => .panic m
      | .diverge => .diverge := by
  have := agrees_constructPattern env toks depth t ns fl ⟨ht, hm⟩
  unfold CAgrees CB.lift at this
  rw [this]
  cases constructPattern env depth t toks ns <;> rfl

/-! ### Examples -/

namespace BorrowBuildExample
open ScriptExample CompileExample

/-- What compiling gave: the matcher and whether some cells are still borrowed, or the errors, or
the cell of a conflict. -/
def see : BuildBRes → Option ((Nat × Bool) ⊕ List String ⊕ Cell)
  | .ok m _ _ fl => some (.inl (m, (List.range 20).all fun i =>
      fl (.token i) = .shared 0 ∧ fl (.matcher i) = .shared 0 ∧ fl (.scope i) = .shared 0 ∧ fl (.names i) = .shared 0 ∧
      fl (.hook 0 i) = .shared 0))
  | .err es _ => some (.inr (.inl (es.map fun e => String.ofList e.message)))
  | .conflict c => some (.inr (.inr c))
  | _ => none

def noImport : Str → World → Borrows → BuildBRes := fun _ _ _ => .diverge

def runB (toks : List Token) (src : String) (fl : Borrows) : BuildBRes :=
  buildMatcherFromTokensB noFiles 0 noImport 15 0 (Ctx.new ⟨src.toList, []⟩ 0 []) "S".toList none (world toks) fl

example : see (runB good text Borrows.free) = some (.inl (0, true)) := by decide +kernel

/-- What may be borrowed outside is stated sharply: a token may be shared, but not borrowed
mutably; a new matcher, a scope that is written to, a hook may not be borrowed at all. -/
example :
    [(Cell.token 7, Borrow.shared 3), (.token 7, .exclusive), (.matcher 0, .shared 1), (.names 1, .shared 1),
      (.hook 0 4, .shared 1), (.hook 1 4, .shared 1)].map (fun x => see (runB good text (Borrows.free.set x.1 x.2))) =
    [some (.inl (0, false)), some (.inr (.inr (.token 7))), some (.inr (.inr (.matcher 0))), some (.inr (.inr (.names 1))),
      some (.inr (.inr (.hook 0 4))), some (.inl (0, true))] := by
  decide +kernel

/-- A group that is among its own patterns: there is no end, but no conflict either. -/
example :
    let toks := [tok "()" "PatternDefinition" 0 2 [1], tok "()" "ProgramMatcher" 0 2 [0]]
    (match constructPatternB noFiles 9 0 toks [] Borrows.free with
      | .diverge => true
      | _ => false) = true := by
  decide +kernel

-- Evaluated, not proved, as in `CompileExample`.
def compileB (file : String) (fl : Borrows) : BuildBRes :=
  match files.read file.toList with
  | some src => compileScriptB files 45 0 ⟨src, file.toList⟩ file.toList (some file.toList) empty fl
  | none => .diverge

#guard see (compileB "a" Borrows.free) = some (.inl (868, true))
#guard see (compileB "c" Borrows.free) = some (.inr (.inl ["Error: d@[1:1]: Error attempting to create matcher from parsed pattern token: Value can not be empty for an `Equals` pattern definition"]))
-- The errors of the importing script are written to when an import fails.
#guard see (compileB "c" (Borrows.free.set (.errors 0) (.shared 1))) = some (.inr (.inr (.errors 0)))
#guard see (compileB "a" (Borrows.free.set (.errors 0) (.shared 1))) = some (.inl (868, true))

end BorrowBuildExample

end Adx
