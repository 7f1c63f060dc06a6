import Verif.Proofs.EndlessLinked
import Verif.Props.Endless
import Verif.Props.LinkedExample
import Verif.Props.Render
/-
  C64: exactly which parses with scripts with imports do not come to an end, whatever their
  definitions.
-/
namespace Adx.Interp

open Peg (Cuts Cut Sim)
open Syntax (Text)

variable {w : World} {d : Quotes} {cfg : Cfg} {lo slo lo' stop fuel : Nat} {n name : Str} {gs : List Gram} {bs : List (Str × Thing)} {m : MatcherId}
  {sc hi : SCtxId} {s : State} {p : Parser}

/-! ### The interpreter -/

/-- After texts were parsed, names still stand for what is listed. -/
theorem after_names {U : Stock} {ps : List Parser} {σ σ' : Layout} (hw : HasJoint d U (.whole n gs) 0) (hn : HasNames d U σ)
    (h : After n gs ps σ σ') : HasNames d U σ' := by
  induction h with
  | nil => exact hn
  | @cons p ps σ x σ' fuel h _ ih =>
    exact ih (eval_ok (p := p) (stop := blen p.src) (linked_within (d := d) (U := U)) (Z := fun _ _ => True) (fun _ _ _ _ => trivial) fuel
      (.whole n gs) 0 hw 0 σ whole_cut hn x h).2.1

/-- **C64**: after any texts, there is no result at any depth exactly if something is tried
again at the same place, with names that stand for the same. -/
theorem C64_iff {ps : List Parser} {σ : Layout} {pos : Nat} (hgs : ∀ g ∈ gs, Sane d g) (hbs : SaneScopes d bs) (ha : After n gs ps (scopesOf bs) σ)
    (hpos : Cut p.src stop pos) : (∀ fuel, runLinked p stop n gs fuel pos σ = none) ↔ LinkedRecurs p stop n gs σ pos := by
  refine ⟨fun h => Classical.byContradiction fun hr => ?_, fun h fuel => linked_endless h⟩
  have := linked_finite (has_whole hgs) (after_names (has_whole hgs) (has_names hbs) ha) hpos hr
  rw [h] at this
  cases this

/-- **C64**: if there is no result at this depth of recursion, which depends on the script and
the length of the text only, then there is none. -/
theorem C64_depth {ps : List Parser} {σ : Layout} {pos : Nat} (hgs : ∀ g ∈ gs, Sane d g) (hbs : SaneScopes d bs) (ha : After n gs ps (scopesOf bs) σ)
    (hpos : Cut p.src stop pos) (hf : linkedDepth n gs bs stop ≤ fuel) (h : runLinked p stop n gs fuel pos σ = none) (fuel' : Nat) :
    runLinked p stop n gs fuel' pos σ = none := by
  refine (C64_iff hgs hbs ha hpos).mpr (Classical.byContradiction fun hr => ?_) fuel'
  have := linked_finite (has_whole hgs) (after_names (has_whole hgs) (has_names hbs) ha) hpos hr
  rw [stockOf_depth] at this
  obtain ⟨x, hx⟩ := Option.isSome_iff_exists.mp this
  have := eval_mono hf hx
  rw [show runLinked p stop n gs fuel pos σ = _ from this] at h
  cases h

/-! ### The engine -/

/-- **C64**: whatever has been parsed before and whatever this has done to the definitions, in
the script and in what it imports, a parse does not come to an end exactly if something is
tried again at the same place, and whether it does is known at a depth that depends on the
script and on the length of the text only. -/
theorem C64_any_time (hf : IsFile w lo slo m sc n gs bs) (hg : Grafted w lo' sc hi bs) (hok : ScopesOK w.st)
    (hgs : ∀ g ∈ gs, Sane d g) (hbs : SaneScopes d bs) {ps : List Parser} (hps : ∀ p ∈ ps, blen p.src ≤ isizeMax ∧ Suits d p.src)
    (h : Parses (tableOf w.nodes) cfg m ps w.st s) :
    ∃ σ, After n gs ps (scopesOf bs) σ ∧ ∀ p name, blen p.src ≤ isizeMax → Suits d p.src →
      Settled (fun fuel => tokenize (tableOf w.nodes) cfg fuel (Ctx.new p s.newSCtx.1 name) m s.newSCtx.2)
        (LinkedRecurs p (blen p.src) n gs σ 0) (linkedDepth n gs bs (blen p.src)) := by
  obtain ⟨σ, h1, h2⟩ := C63_any_time hf hg hok hgs hbs.own hps h
  refine ⟨σ, h1, fun p name hb hd => ⟨fun hr fuel => Sim.diverges (h2 p name fuel hb hd) (linked_endless hr), fun hr fuel hf => ?_⟩⟩
  have h := linked_finite (has_whole hgs) (after_names (has_whole hgs) (has_names hbs) h1) (whole_cut (src := p.src)) hr
  rw [stockOf_depth] at h
  obtain ⟨x, hx⟩ := Option.isSome_iff_exists.mp h
  obtain ⟨r, s', h, -⟩ := Sim.returns (h2 p name fuel hb hd) (eval_mono hf hx)
  exact ⟨r, s', h⟩

/-- **C64**, from the text of a script. -/
theorem C64_text {env : Env} {src file : Str} {fromFile : Option Str} (h : Text env src name fromFile n gs bs) (hm : Compiled env w)
    (hok : ScopesOK w.st) (hgs : ∀ g ∈ gs, Sane d g) (hbs : SaneScopes d bs) :
    ∃ N m sc w', (∀ fuel, N ≤ fuel → compileScript env fuel ⟨src, file⟩ name fromFile w = .ok m sc w') ∧
      ∀ cfg ps s, (∀ p ∈ ps, blen p.src ≤ isizeMax ∧ Suits d p.src) → Parses (tableOf w'.nodes) cfg m ps w'.st s →
        ∃ σ, After n gs ps (scopesOf bs) σ ∧ ∀ p nm, blen p.src ≤ isizeMax → Suits d p.src →
          Settled (fun fuel => tokenize (tableOf w'.nodes) cfg fuel (Ctx.new p s.newSCtx.1 nm) m s.newSCtx.2)
            (LinkedRecurs p (blen p.src) n gs σ 0) (linkedDepth n gs bs (blen p.src)) := by
  obtain ⟨N, m, sc, w', h1, h2, h3, h4⟩ := C49_plants (file := file) h w hm.milds hok
  exact ⟨N, m, sc, w', h1, fun cfg ps s hps hs => C64_any_time h3 h4 h2 hgs hbs hps hs⟩

/-- **C64** for texts of one byte per character: nothing is needed of the script. -/
theorem C64_text_ascii {env : Env} {src file : Str} {fromFile : Option Str} (hre : CutsAll env) (h : Text env src name fromFile n gs bs)
    (hm : Compiled env w) (hok : ScopesOK w.st) :
    ∃ N m sc w', (∀ fuel, N ≤ fuel → compileScript env fuel ⟨src, file⟩ name fromFile w = .ok m sc w') ∧
      ∀ cfg ps s, (∀ p ∈ ps, blen p.src ≤ isizeMax ∧ Ascii p.src) → Parses (tableOf w'.nodes) cfg m ps w'.st s →
        ∃ σ, After n gs ps (scopesOf bs) σ ∧ ∀ p nm, blen p.src ≤ isizeMax → Ascii p.src →
          Settled (fun fuel => tokenize (tableOf w'.nodes) cfg fuel (Ctx.new p s.newSCtx.1 nm) m s.newSCtx.2)
            (LinkedRecurs p (blen p.src) n gs σ 0) (linkedDepth n gs bs (blen p.src)) := by
  obtain ⟨N, m, sc, w', h3, h4⟩ := C64_text (file := file) h hm hok (text_sane hre h).1 (text_scopes hre h)
  refine ⟨N, m, sc, w', h3, fun cfg ps s hps hs => ?_⟩
  obtain ⟨σ, h5, h6⟩ := h4 cfg ps s (fun p hp => ⟨(hps p hp).1, suits_of_ascii (hps p hp).2⟩) hs
  exact ⟨σ, h5, fun p nm hb hp => h6 p nm hb (suits_of_ascii hp)⟩

/-! ### Examples -/

namespace LinkedExample
open SyntaxExample Example

/-- `b`, or `A`. -/
def either : Gram := oneOf "Name" [lit "b", nameOf "A"]

/-- `Name`, then the above. -/
def both : Gram := inOrder "A" [nameOf "Name", either]

/-- An imported script with the definitions of `A` and `Name`. -/
def turned : List (Str × Thing) := [("A".toList, .own both), ("Name".toList, .own (.equals "Name".toList true "a".toList))]

/-- It is imported for `A`, which is called `P`. -/
def turning : List (Str × Thing) := [("P".toList, .member 0 turned "A".toList "P".toList)]

/-- The first parse of `ab` comes to an end. -/
theorem turning_ends : ((runLinked ⟨"ab".toList, []⟩ 2 "S".toList [nameOf "P"] 12 0 (scopesOf turning)).bind fun x => Example.size x.1) = some (2, 1) := by
  decide +kernel

/-- In the scope of the import, `Name` now stands for the choice. -/
theorem turning_turns : ((runLinked ⟨"ab".toList, []⟩ 2 "S".toList [nameOf "P"] 12 0 (scopesOf turning)).map fun x =>
    (lastDef (x.2.defs 1) "P".toList, lastDef (x.2.defs (branch 1 0)) "A".toList, lastDef (x.2.defs (branch 1 0)) "Name".toList)) =
    some (some (.member 0 turned "A".toList "P".toList), some (.own both), some (.own either)) := by
  rfl

/-- With such definitions, trying `A` leads to trying `A` at the same position, if there is no
`b`. -/
theorem turned_again {σ : Layout} {j : Nat} (hb : lastDef (σ.defs j) "Name".toList = some (.own either)) :
    During linkedGrammar linkedNames ⟨"ab".toList, []⟩ 2 ⟨.thing j (.own both), j, 0, σ⟩
      ⟨.thing j (.own both), j, 0, (σ.add j "A".toList (.own both)).add j "Name".toList (.own either)⟩ := by
  refine .more (u := ⟨.gram (nameOf "Name"), j, 0, σ.add j "A".toList (.own both)⟩) ?_
    (.more (u := ⟨.thing j (.own either), j, 0, σ.add j "A".toList (.own both)⟩) ?_
    (.more (u := ⟨.gram (nameOf "A"), j, 0, (σ.add j "A".toList (.own both)).add j "Name".toList (.own either)⟩) ?_ (.one ?_)))
  · exact InParts.here
  · refine ⟨.thing j (.own either), ?_, rfl⟩
    show (lastDef ((σ.add j "A".toList (.own both)).defs j) "Name".toList).map (Joint.thing j) = _
    rw [defs_add, if_pos rfl, lastDef_append, if_neg (by decide), hb]
    rfl
  · exact InChoice.later (y := .fail) (st1 := (σ.add j "A".toList (.own both)).add j "Name".toList (.own either)) ⟨1, rfl⟩ (Or.inl rfl) .here
  · refine ⟨.thing j (.own both), ?_, rfl⟩
    show (lastDef (((σ.add j "A".toList (.own both)).add j "Name".toList (.own either)).defs j) "A".toList).map (Joint.thing j) = _
    rw [defs_add, if_pos rfl, lastDef_append, if_neg (by decide), defs_add, if_pos rfl, lastDef_append, if_pos rfl]
    rfl

theorem turned_recurs {σ : Layout} (hp : lastDef (σ.defs 1) "P".toList = some (.member 0 turned "A".toList "P".toList))
    (ha : lastDef (σ.defs (branch 1 0)) "A".toList = some (.own both)) (hb : lastDef (σ.defs (branch 1 0)) "Name".toList = some (.own either)) :
    LinkedRecurs ⟨"ab".toList, []⟩ 2 "S".toList [nameOf "P"] σ 0 := by
  refine ⟨⟨.thing (branch 1 0) (.own both), branch 1 0, 0, σ⟩, _, Or.inr ?_, turned_again hb, rfl, rfl, rfl, ?_⟩
  · refine .more (u := ⟨.inside [nameOf "P"] 1, 0, 0, σ⟩) ?_ (.more (u := ⟨.flat [nameOf "P"], 1, 0, σ⟩) ?_
      (.more (u := ⟨.all [nameOf "P"], 1, 0, σ⟩) ?_ (.more (u := ⟨.gram (nameOf "P"), 1, 0, σ⟩) ?_
      (.more (u := ⟨.thing 1 (.member 0 turned "A".toList "P".toList), 1, 0, σ⟩) ?_
      (.more (u := ⟨.renamed (branch 1 0) turned "A".toList "P".toList, branch 1 0, 0, σ⟩) ?_ (.one ?_))))))
    · exact InParts.here
    · exact rfl
    · exact rfl
    · exact InParts.here
    · refine ⟨.thing 1 (.member 0 turned "A".toList "P".toList), ?_, rfl⟩
      show (lastDef (σ.defs 1) "P".toList).map (Joint.thing 1) = _
      rw [hp]
      rfl
    · exact rfl
    · exact rfl
  · intro k x
    dsimp only
    rw [defs_add]
    split
    · subst k
      rw [lastDef_append, defs_add, if_pos rfl, lastDef_append]
      split
      · subst x
        exact hb
      · split
        · subst x
          exact ha
        · rfl
    · rw [defs_add, if_neg ‹_›]

/-- The interpreter: the first parse of `ab` comes to an end and the second does not. -/
theorem turning_second : ∃ x, runLinked ⟨"ab".toList, []⟩ 2 "S".toList [nameOf "P"] 12 0 (scopesOf turning) = some x ∧
    After "S".toList [nameOf "P"] [⟨"ab".toList, []⟩] (scopesOf turning) x.2 ∧
    ∀ fuel, runLinked ⟨"ab".toList, []⟩ 2 "S".toList [nameOf "P"] fuel 0 x.2 = none := by
  have h := turning_turns
  obtain ⟨x, h1, h2⟩ := Option.map_eq_some_iff.mp h
  simp only [Prod.mk.injEq] at h2
  exact ⟨x, h1, .cons (fuel := 12) h1 .nil, fun _ => linked_endless (turned_recurs h2.1 h2.2.1 h2.2.2)⟩

/-- What is counted: the terms of `A` and `Name` in the scope of the import and the pattern of the
script, the definitions, and the names `P`, `A` and `Name`, some of which are counted more than
once. -/
example : (linkedTerms [nameOf "P"] turning).length = 7 ∧ (linkedThings turning).length = 3 ∧
    linkedDepth "S".toList [nameOf "P"] turning 2 = 22 * 3 * 11 ^ 6 := by
  decide +kernel

open Render in
/-- The script that is imported.  A captured pattern with a name is always called `Name`. -/
def turnTree : Scr :=
  .headed 1 none
    [.own "A".toList (.mk .none .none (.program (.more (.captured (.mk .none .none (.ref "Name".toList) [] .once))
        (.one (.named "x".toList (.mk .none .none (.switch (.more (.captured (.mk .none .none (.equals "b".toList) [] .once))
          (.one (.captured (.mk .none .none (.ref "A".toList) [] .once))))) [] .once))))) [] .once),
      .own "Name".toList (.mk .none .none (.equals "a".toList) [] .once)]
    [.plain (.mk .none .none (.ref "A".toList) [] .once)]

/-- What it looks like. -/
theorem turnTree_text : turnTree.text =
    "<!--[adextopa version='1']\nA = <{(<Name>) (?'x' <[(<='b'>) | (<A>)]>)}>\nName = <='a'>\n-->\n<A>".toList := by
  decide +kernel

open Render in
/-- The script that imports it. -/
def useTree : Scr := .headed 1 none [.imports "e".toList [("A".toList, "P".toList)]] [.captured (.mk .none .none (.ref "P".toList) [] .once)]

theorem useTree_text : useTree.text = "<!--[adextopa version='1']\nimport { A as P, } from 'e'\n-->\n(<P>)".toList := by
  decide +kernel

/-- The files. -/
def turns : Env := { CompileExample.files with read := fun f => if f = "e".toList then some turnTree.text else none }

open Render in
theorem trees_good : turnTree.Good turns ∧ useTree.Good turns := by
  have n : Ident "Name".toList := ⟨⟨'N', _, rfl, rfl⟩, by decide⟩
  have a : Ident "A".toList := ⟨⟨'A', _, rfl, rfl⟩, by decide⟩
  have p : Ident "P".toList := ⟨⟨'P', _, rfl, rfl⟩, by decide⟩
  constructor
  · unfold turnTree Scr.Good
    simp [Stm.Good, Pat.Good, Def.Good, Leaf.Good, Pats.Good, Rep.Good, -String.reduceToList, *]
  · unfold useTree Scr.Good
    simp [Stm.Good, Pat.Good, Def.Good, Leaf.Good, Pats.Good, Rep.Good, -String.reduceToList, *]

theorem turns_means : Syntax.File turns "e".toList "e".toList (turnTree.grams turns) turned :=
  .mk (full := "e".toList) rfl rfl (.mk (nm := none) (by rw [turnTree_text]; unfold Ascii; decide) (by rw [turnTree_text]; decide)
    (C55_written turnTree trees_good.1) (.own (.own .nil)))

theorem use_ok : Text turns useTree.text "S".toList (some "s".toList) "S".toList [nameOf "P"] turning :=
  .mk (nm := none) (by rw [useTree_text]; unfold Ascii; decide) (by rw [useTree_text]; decide) (C55_written useTree trees_good.2)
    (.imports (joined := "e".toList) (file := "e".toList) rfl rfl turns_means (.member (by decide) rfl .nil) .nil)

theorem turning_sane : SaneScopes .none turning := by
  have hs : SaneDefs .none turned := .mk fun x th hx => by
    have := lastDef_mem hx
    unfold turned at this
    simp only [List.mem_cons, Prod.mk.injEq, List.not_mem_nil, or_false] at this
    rcases this with ⟨_, rfl⟩ | ⟨_, rfl⟩
    · refine .own (.group fun g hg => ?_)
      simp only [List.mem_cons, List.not_mem_nil, or_false] at hg
      rcases hg with rfl | rfl
      · exact .ref
      · refine .group fun g hg => ?_
        simp only [List.mem_cons, List.not_mem_nil, or_false] at hg
        rcases hg with rfl | rfl
        · exact .equals
        · exact .ref
    · exact .own .equals
  have he : ∀ e ∈ scopesOf turning, e = (1, turning) ∨ e = (branch 1 0, turned) := by
    intro e he
    simpa [scopesOf, turning, scopesDefs, scopesDef, scopesThing, turned] using he
  intro e hm
  rcases he e hm with rfl | rfl
  · refine .mk fun x th hx => ?_
    have := lastDef_mem hx
    unfold turning at this
    cases List.mem_singleton.mp this
    exact .member hs
  · exact hs

/-- **C64**: a script whose first parse of `ab` comes to an end and whose second parse of it
does not.  The imported script has `A = <{(<Name>) (?'x' <[(<='b'>) | (<A>)]>)}>` and
`Name = <='a'>`.  When the choice is tried, `Name` in the scope of the import comes to stand
for it, so that `A` starts with `A` from then on. -/
theorem C64_second {w : World} (hm : Compiled turns w) (hok : ScopesOK w.st) :
    ∃ N m sc w', (∀ fuel, N ≤ fuel → compileScript turns fuel ⟨useTree.text, "s".toList⟩ "S".toList (some "s".toList) w = .ok m sc w') ∧
    ∀ cfg, ∃ r s', tokenize (tableOf w'.nodes) cfg 12 (Ctx.new ⟨"ab".toList, []⟩ w'.st.newSCtx.1 []) m w'.st.newSCtx.2 = .ok r s' ∧
      ∀ nm fuel, tokenize (tableOf w'.nodes) cfg fuel (Ctx.new ⟨"ab".toList, []⟩ s'.newSCtx.1 nm) m s'.newSCtx.2 = .diverge := by
  obtain ⟨x, hx, -, hn⟩ := turning_second
  have hg : ∀ g ∈ [nameOf "P"], Sane .none g := fun g hg => by cases List.mem_singleton.mp hg; exact .ref
  obtain ⟨N, m, sc, w', h1, h2⟩ := C63_text (file := "s".toList) use_ok hm hok hg turning_sane.own
  refine ⟨N, m, sc, w', h1, fun cfg => ?_⟩
  obtain ⟨σ, h3, h4⟩ := (h2 cfg [] fun p hp => nomatch hp).2 _ .nil
  cases h3
  obtain ⟨r, s', h5, -⟩ := Sim.returns (h4 ⟨"ab".toList, []⟩ [] 12 (by decide) (fun _ _ _ h => h.elim)) hx
  refine ⟨r, s', h5, fun nm fuel => ?_⟩
  obtain ⟨σ, h6, h7⟩ := (h2 cfg [⟨"ab".toList, []⟩] fun p hp => by cases List.mem_singleton.mp hp; exact ⟨by decide, fun _ _ _ h => h.elim⟩).2 s' (.cons h5 .nil)
  cases C63_unique h6 (.cons (fuel := 12) hx .nil)
  exact Sim.diverges (h7 ⟨"ab".toList, []⟩ nm fuel (by decide) (fun _ _ _ h => h.elim)) (hn fuel)

end LinkedExample

end Adx.Interp
