import Verif.Props.Linked
/-
  C63: examples.
-/
namespace Adx.Interp.LinkedExample

open Peg (Sim)
open Syntax SyntaxExample CompileExample Example

/-- A file `e` whose definition `A` changes when it is used; `B` refers to `A`. -/
def shop : Env := { files with
  read := fun f => if f = "e".toList then some "<!--[adextopa version='1'] A = <='a'>* B = <A> --><A>".toList else none }

/-- What is defined there. -/
def stock : List (Str × Thing) :=
  [("A".toList, .own (.loop 0 usizeMax (.equals "A".toList true ['a']))), ("B".toList, .own (.ref "B".toList true "A".toList))]

theorem shop_ok : Syntax.Script shop "<!--[adextopa version='1'] A = <='a'>* B = <A> --><A>".toList none
    [.discard (.ref "Ref".toList false "A".toList)]
    [.own "A".toList (.loop 0 usizeMax (.equals "A".toList true ['a'])), .own "B".toList (.ref "B".toList true "A".toList)] := by
  refine .headed (w1 := "<!--[adextopa version='1'] A = <='a'>* B = <A> --><A>".toList) (w2 := "<A>".toList)
    (name := none) (.done (gap _ [] _ rfl) (by decide)) ?_ ?_
  · refine Header.mk (w := " version='1'] A = <='a'>* B = <A> --><A>".toList)
      (w1 := "version='1'] A = <='a'>* B = <A> --><A>".toList)
      (w2 := " A = <='a'>* B = <A> --><A>".toList) (v := ['1']) (as := [⟨"version".toList, ['1'], ['1']⟩]) (n := 1)
      (blanks _ [' '] _ rfl) ?_ rfl (.digit (ch := '1') rfl) (by decide) ?_ ?_
    · exact .cons (n := "version".toList) (w1 := "='1'] A = <='a'>* B = <A> --><A>".toList)
        (w2 := "'1'] A = <='a'>* B = <A> --><A>".toList)
        (w3 := "'1'] A = <='a'>* B = <A> --><A>".toList) (w4 := "] A = <='a'>* B = <A> --><A>".toList)
        (w5 := "] A = <='a'>* B = <A> --><A>".toList)
        (munch _ _ _ _ rfl) (by decide) (by decide) (blanks _ [] _ rfl) (blanks _ [] _ rfl)
        (.mk (.plain (by decide) (by decide) (.done _))) (gap _ [] _ rfl) (.nil (by simp [attrChar]))
    · refine .definition (w1 := "A = <='a'>* B = <A> --><A>".toList) (n := "A".toList)
        (w2 := " = <='a'>* B = <A> --><A>".toList) (w3 := " <='a'>* B = <A> --><A>".toList)
        (w4 := "<='a'>* B = <A> --><A>".toList) (w5 := " B = <A> --><A>".toList)
        (gap _ [' '] _ rfl) (identifier _ _ _ rfl rfl) (gap _ [' '] _ rfl) (gap _ [' '] _ rfl) ?_ ?_
      · exact Definition.mk (outer := .none) (inner := .none) (w1 := "='a'>* B = <A> --><A>".toList)
          (w2 := "='a'>* B = <A> --><A>".toList)
          (w3 := ">* B = <A> --><A>".toList) (w4 := ">* B = <A> --><A>".toList) (as := []) (r := some (0, usizeMax))
          (gap _ [] _ rfl)
          (.equals (.mk (.plain (by decide) (by decide) (.done _))) (by decide)) (gap _ [] _ rfl)
          (.nil (by simp [attrChar])) .any
      · refine .definition (w1 := "B = <A> --><A>".toList) (n := "B".toList)
          (w2 := " = <A> --><A>".toList) (w3 := " <A> --><A>".toList)
          (w4 := "<A> --><A>".toList) (w5 := " --><A>".toList)
          (gap _ [' '] _ rfl) (identifier _ _ _ rfl rfl) (gap _ [' '] _ rfl) (gap _ [' '] _ rfl) ?_ (.done (gap _ [' '] _ rfl))
        exact Definition.mk (outer := .none) (inner := .none) (w1 := "A> --><A>".toList) (w2 := "A> --><A>".toList)
          (w3 := "> --><A>".toList) (w4 := "> --><A>".toList) (as := []) (r := none) (gap _ [] _ rfl)
          (.custom (identifier _ _ _ rfl rfl)) (gap _ [] _ rfl) (.nil (by simp [attrChar])) (.once (by decide))
    · rintro w3 ⟨u, hu⟩
      have h1 := (Munch.unique hu (munch space _ [' '] "A = <='a'>* B = <A> --><A>".toList rfl)).2
      cases h1
  · refine .pattern (w1 := "<A>".toList) (w2 := []) (gap _ [] _ rfl) (.plain ?_) (.done (gap _ [] _ rfl))
    exact Definition.mk (outer := .none) (inner := .none) (w1 := "A>".toList) (w2 := "A>".toList)
        (w3 := ">".toList) (w4 := ">".toList) (as := []) (r := none) (gap _ [] _ rfl)
        (.custom (identifier _ _ _ rfl rfl)) (gap _ [] _ rfl) (.nil (by simp [attrChar])) (.once (by simp))

theorem shop_means : File shop "e".toList "e".toList [.discard (.ref "Ref".toList false "A".toList)] stock :=
  .mk (full := "e".toList) rfl rfl (.mk (nm := none) (by unfold Ascii; decide) (by decide) shop_ok (.own (.own .nil)))

/-- A use of `P`, a `b`, and a use of `Q`. -/
def visit : List Gram := [.ref "Ref".toList false "P".toList, .equals "Equals".toList false ['b'], .ref "Ref".toList false "Q".toList]

theorem visit_ok : Items shop "(<P>)(<='b'>)(<Q>)".toList visit := by
  refine .pattern (w1 := "(<P>)(<='b'>)(<Q>)".toList) (w2 := "(<='b'>)(<Q>)".toList) (gap _ [] _ rfl)
    (.captured (w1 := "<P>)(<='b'>)(<Q>)".toList) (w2 := ")(<='b'>)(<Q>)".toList) (gap _ [] _ rfl) ?_ (gap _ [] _ rfl))
    (.pattern (w1 := "(<='b'>)(<Q>)".toList) (w2 := "(<Q>)".toList) (gap _ [] _ rfl)
      (.captured (w1 := "<='b'>)(<Q>)".toList) (w2 := ")(<Q>)".toList) (gap _ [] _ rfl) ?_ (gap _ [] _ rfl))
    (.pattern (w1 := "(<Q>)".toList) (w2 := []) (gap _ [] _ rfl)
      (.captured (w1 := "<Q>)".toList) (w2 := ")".toList) (gap _ [] _ rfl) ?_ (gap _ [] _ rfl)) (.done (gap _ [] _ rfl))))
  · exact Definition.mk (outer := .none) (inner := .none) (w1 := "P>)(<='b'>)(<Q>)".toList) (w2 := "P>)(<='b'>)(<Q>)".toList)
      (w3 := ">)(<='b'>)(<Q>)".toList) (w4 := ">)(<='b'>)(<Q>)".toList) (as := []) (r := none) (gap _ [] _ rfl)
      (.custom (identifier _ _ _ rfl rfl)) (gap _ [] _ rfl) (.nil (by simp [attrChar])) (.once (by decide))
  · exact Definition.mk (outer := .none) (inner := .none) (w1 := "='b'>)(<Q>)".toList) (w2 := "='b'>)(<Q>)".toList)
      (w3 := ">)(<Q>)".toList) (w4 := ">)(<Q>)".toList) (as := []) (r := none) (gap _ [] _ rfl)
      (.equals (.mk (.plain (by decide) (by decide) (.done _))) (by decide)) (gap _ [] _ rfl)
      (.nil (by simp [attrChar])) (.once (by decide))
  · exact Definition.mk (outer := .none) (inner := .none) (w1 := "Q>)".toList) (w2 := "Q>)".toList)
      (w3 := ">)".toList) (w4 := ">)".toList) (as := []) (r := none) (gap _ [] _ rfl)
      (.custom (identifier _ _ _ rfl rfl)) (gap _ [] _ rfl) (.nil (by simp [attrChar])) (.once (by decide))

/-- One import statement for both definitions. -/
def jointly : Str := "<!--[adextopa version='1'] import { A as P, B as Q } from 'e' -->(<P>)(<='b'>)(<Q>)".toList

/-- One import statement for each. -/
def singly : Str := "<!--[adextopa version='1'] import { A as P } from 'e' import { B as Q } from 'e' -->(<P>)(<='b'>)(<Q>)".toList

theorem jointly_ok : Syntax.Script shop jointly none visit [.imports "e".toList [("A".toList, "P".toList), ("B".toList, "Q".toList)]] := by
  unfold jointly
  refine .headed (w1 := "<!--[adextopa version='1'] import { A as P, B as Q } from 'e' -->(<P>)(<='b'>)(<Q>)".toList)
    (w2 := "(<P>)(<='b'>)(<Q>)".toList) (name := none) (.done (gap _ [] _ rfl) (by decide)) ?_ visit_ok
  refine Header.mk (w := " version='1'] import { A as P, B as Q } from 'e' -->(<P>)(<='b'>)(<Q>)".toList)
    (w1 := "version='1'] import { A as P, B as Q } from 'e' -->(<P>)(<='b'>)(<Q>)".toList)
    (w2 := " import { A as P, B as Q } from 'e' -->(<P>)(<='b'>)(<Q>)".toList) (v := ['1']) (as := [⟨"version".toList, ['1'], ['1']⟩]) (n := 1)
    (blanks _ [' '] _ rfl) ?_ rfl (.digit (ch := '1') rfl) (by decide) ?_ ?_
  · exact .cons (n := "version".toList) (w1 := "='1'] import { A as P, B as Q } from 'e' -->(<P>)(<='b'>)(<Q>)".toList)
      (w2 := "'1'] import { A as P, B as Q } from 'e' -->(<P>)(<='b'>)(<Q>)".toList)
      (w3 := "'1'] import { A as P, B as Q } from 'e' -->(<P>)(<='b'>)(<Q>)".toList)
      (w4 := "] import { A as P, B as Q } from 'e' -->(<P>)(<='b'>)(<Q>)".toList)
      (w5 := "] import { A as P, B as Q } from 'e' -->(<P>)(<='b'>)(<Q>)".toList)
      (munch _ _ _ _ rfl) (by decide) (by decide) (blanks _ [] _ rfl) (blanks _ [] _ rfl)
      (.mk (.plain (by decide) (by decide) (.done _))) (gap _ [] _ rfl) (.nil (by simp [attrChar]))
  · refine .imports (w1 := " { A as P, B as Q } from 'e' -->(<P>)(<='b'>)(<Q>)".toList) (w2 := " A as P, B as Q } from 'e' -->(<P>)(<='b'>)(<Q>)".toList)
      (w3 := " from 'e' -->(<P>)(<='b'>)(<Q>)".toList) (w4 := " 'e' -->(<P>)(<='b'>)(<Q>)".toList) (w5 := "'e' -->(<P>)(<='b'>)(<Q>)".toList)
      (w6 := " -->(<P>)(<='b'>)(<Q>)".toList)
      (gap _ [' '] _ rfl) (blanks _ [' '] _ rfl) ?_ (blanks _ [' '] _ rfl) (blanks _ [' '] _ rfl)
      (.mk (.plain (by decide) (by decide) (.done _))) (.done (gap _ [' '] _ rfl))
    refine .more (w1 := "A as P, B as Q } from 'e' -->(<P>)(<='b'>)(<Q>)".toList) (w2 := " B as Q } from 'e' -->(<P>)(<='b'>)(<Q>)".toList)
      (gap _ [' '] _ rfl) ?_ (.last (w1 := "B as Q } from 'e' -->(<P>)(<='b'>)(<Q>)".toList) (w2 := " } from 'e' -->(<P>)(<='b'>)(<Q>)".toList)
      (gap _ [' '] _ rfl) ?_ (gap _ [' '] _ rfl))
    · exact .renamed (w1 := " as P, B as Q } from 'e' -->(<P>)(<='b'>)(<Q>)".toList) (w2 := "P, B as Q } from 'e' -->(<P>)(<='b'>)(<Q>)".toList)
        (w3 := ", B as Q } from 'e' -->(<P>)(<='b'>)(<Q>)".toList) (identifier _ _ _ rfl rfl)
        ⟨[' '], [' '], " P, B as Q } from 'e' -->(<P>)(<='b'>)(<Q>)".toList, munch _ _ _ _ rfl, by decide, munch _ _ _ _ rfl, by decide⟩
        (identifier _ _ _ rfl rfl) .comma
    · exact .renamed (w1 := " as Q } from 'e' -->(<P>)(<='b'>)(<Q>)".toList) (w2 := "Q } from 'e' -->(<P>)(<='b'>)(<Q>)".toList)
        (w3 := " } from 'e' -->(<P>)(<='b'>)(<Q>)".toList) (identifier _ _ _ rfl rfl)
        ⟨[' '], [' '], " Q } from 'e' -->(<P>)(<='b'>)(<Q>)".toList, munch _ _ _ _ rfl, by decide, munch _ _ _ _ rfl, by decide⟩
        (identifier _ _ _ rfl rfl) (.nothing (by decide))
  · rintro w3 ⟨u, hu⟩
    have h1 := (Munch.unique hu (munch space _ [' '] "import { A as P, B as Q } from 'e' -->(<P>)(<='b'>)(<Q>)".toList rfl)).2
    cases h1

set_option maxHeartbeats 1000000 in
theorem singly_ok : Syntax.Script shop singly none visit
    [.imports "e".toList [("A".toList, "P".toList)], .imports "e".toList [("B".toList, "Q".toList)]] := by
  unfold singly
  refine .headed (w1 := "<!--[adextopa version='1'] import { A as P } from 'e' import { B as Q } from 'e' -->(<P>)(<='b'>)(<Q>)".toList)
    (w2 := "(<P>)(<='b'>)(<Q>)".toList) (name := none) (.done (gap _ [] _ rfl) (by decide)) ?_ visit_ok
  refine Header.mk (w := " version='1'] import { A as P } from 'e' import { B as Q } from 'e' -->(<P>)(<='b'>)(<Q>)".toList)
    (w1 := "version='1'] import { A as P } from 'e' import { B as Q } from 'e' -->(<P>)(<='b'>)(<Q>)".toList)
    (w2 := " import { A as P } from 'e' import { B as Q } from 'e' -->(<P>)(<='b'>)(<Q>)".toList) (v := ['1'])
    (as := [⟨"version".toList, ['1'], ['1']⟩]) (n := 1)
    (blanks _ [' '] _ rfl) ?_ rfl (.digit (ch := '1') rfl) (by decide) ?_ ?_
  · exact .cons (n := "version".toList) (w1 := "='1'] import { A as P } from 'e' import { B as Q } from 'e' -->(<P>)(<='b'>)(<Q>)".toList)
      (w2 := "'1'] import { A as P } from 'e' import { B as Q } from 'e' -->(<P>)(<='b'>)(<Q>)".toList)
      (w3 := "'1'] import { A as P } from 'e' import { B as Q } from 'e' -->(<P>)(<='b'>)(<Q>)".toList)
      (w4 := "] import { A as P } from 'e' import { B as Q } from 'e' -->(<P>)(<='b'>)(<Q>)".toList)
      (w5 := "] import { A as P } from 'e' import { B as Q } from 'e' -->(<P>)(<='b'>)(<Q>)".toList)
      (munch _ _ _ _ rfl) (by decide) (by decide) (blanks _ [] _ rfl) (blanks _ [] _ rfl)
      (.mk (.plain (by decide) (by decide) (.done _))) (gap _ [] _ rfl) (.nil (by simp [attrChar]))
  · refine .imports (w1 := " { A as P } from 'e' import { B as Q } from 'e' -->(<P>)(<='b'>)(<Q>)".toList)
      (w2 := " A as P } from 'e' import { B as Q } from 'e' -->(<P>)(<='b'>)(<Q>)".toList)
      (w3 := " from 'e' import { B as Q } from 'e' -->(<P>)(<='b'>)(<Q>)".toList)
      (w4 := " 'e' import { B as Q } from 'e' -->(<P>)(<='b'>)(<Q>)".toList) (w5 := "'e' import { B as Q } from 'e' -->(<P>)(<='b'>)(<Q>)".toList)
      (w6 := " import { B as Q } from 'e' -->(<P>)(<='b'>)(<Q>)".toList)
      (gap _ [' '] _ rfl) (blanks _ [' '] _ rfl) ?_ (blanks _ [' '] _ rfl) (blanks _ [' '] _ rfl)
      (.mk (.plain (by decide) (by decide) (.done _))) ?_
    · refine .last (w1 := "A as P } from 'e' import { B as Q } from 'e' -->(<P>)(<='b'>)(<Q>)".toList)
        (w2 := " } from 'e' import { B as Q } from 'e' -->(<P>)(<='b'>)(<Q>)".toList) (gap _ [' '] _ rfl) ?_ (gap _ [' '] _ rfl)
      exact .renamed (w1 := " as P } from 'e' import { B as Q } from 'e' -->(<P>)(<='b'>)(<Q>)".toList)
        (w2 := "P } from 'e' import { B as Q } from 'e' -->(<P>)(<='b'>)(<Q>)".toList)
        (w3 := " } from 'e' import { B as Q } from 'e' -->(<P>)(<='b'>)(<Q>)".toList) (identifier _ _ _ rfl rfl)
        ⟨[' '], [' '], " P } from 'e' import { B as Q } from 'e' -->(<P>)(<='b'>)(<Q>)".toList, munch _ _ _ _ rfl, by decide, munch _ _ _ _ rfl,
          by decide⟩ (identifier _ _ _ rfl rfl) (.nothing (by decide))
    · refine .imports (w1 := " { B as Q } from 'e' -->(<P>)(<='b'>)(<Q>)".toList) (w2 := " B as Q } from 'e' -->(<P>)(<='b'>)(<Q>)".toList)
        (w3 := " from 'e' -->(<P>)(<='b'>)(<Q>)".toList) (w4 := " 'e' -->(<P>)(<='b'>)(<Q>)".toList) (w5 := "'e' -->(<P>)(<='b'>)(<Q>)".toList)
        (w6 := " -->(<P>)(<='b'>)(<Q>)".toList)
        (gap _ [' '] _ rfl) (blanks _ [' '] _ rfl) ?_ (blanks _ [' '] _ rfl) (blanks _ [' '] _ rfl)
        (.mk (.plain (by decide) (by decide) (.done _))) (.done (gap _ [' '] _ rfl))
      refine .last (w1 := "B as Q } from 'e' -->(<P>)(<='b'>)(<Q>)".toList) (w2 := " } from 'e' -->(<P>)(<='b'>)(<Q>)".toList)
        (gap _ [' '] _ rfl) ?_ (gap _ [' '] _ rfl)
      exact .renamed (w1 := " as Q } from 'e' -->(<P>)(<='b'>)(<Q>)".toList) (w2 := "Q } from 'e' -->(<P>)(<='b'>)(<Q>)".toList)
        (w3 := " } from 'e' -->(<P>)(<='b'>)(<Q>)".toList) (identifier _ _ _ rfl rfl)
        ⟨[' '], [' '], " Q } from 'e' -->(<P>)(<='b'>)(<Q>)".toList, munch _ _ _ _ rfl, by decide, munch _ _ _ _ rfl, by decide⟩
        (identifier _ _ _ rfl rfl) (.nothing (by decide))
  · rintro w3 ⟨u, hu⟩
    have h1 := (Munch.unique hu (munch space _ [' '] "import { A as P } from 'e' import { B as Q } from 'e' -->(<P>)(<='b'>)(<Q>)".toList rfl)).2
    cases h1

/-- What is imported after no definition, and after `t`. -/
def bag (t : Nat) : List (Str × Thing) :=
  [("P".toList, .member 0 stock "A".toList "P".toList), ("Q".toList, .member t stock "B".toList "Q".toList)]

/-- The two scripts mean the same, but for the import statements. -/
theorem bags_ok : Text shop jointly "S".toList (some "s".toList) "S".toList visit (bag 0) ∧
    Text shop singly "S".toList (some "s".toList) "S".toList visit (bag 1) := by
  refine ⟨.mk (nm := none) (by unfold Ascii jointly; decide) (by unfold jointly; decide) jointly_ok ?_,
    .mk (nm := none) (by unfold Ascii singly; decide) (by unfold singly; decide) singly_ok ?_⟩
  · exact .imports (joined := "e".toList) (file := "e".toList) rfl rfl shop_means
      (.member (by decide) rfl (.member (by decide) rfl .nil)) .nil
  · exact .imports (joined := "e".toList) (file := "e".toList) (ths := [("P".toList, .member 0 stock "A".toList "P".toList)])
      rfl rfl shop_means (.member (by decide) rfl .nil)
      (.imports (joined := "e".toList) (file := "e".toList) rfl rfl shop_means (.member (by decide) rfl .nil) .nil)

/-- The interpreter on `aabaa`.  In the scope of one import statement, the use of `P` changes
what `Q` refers to; in scopes of two it does so only in the next parse. -/
theorem bags_say :
    ((runLinked ⟨"aabaa".toList, []⟩ 5 "S".toList visit 20 0 (scopesOf (bag 0))).bind fun x => size x.1) = some (4, 3) ∧
    ((runLinked ⟨"aabaa".toList, []⟩ 5 "S".toList visit 20 0 (scopesOf (bag 1))).bind fun x => size x.1) = some (5, 3) ∧
    ((runLinked ⟨"aabaa".toList, []⟩ 5 "S".toList visit 20 0 (scopesOf (bag 1))).bind fun x =>
      (runLinked ⟨"aabaa".toList, []⟩ 5 "S".toList visit 20 0 x.2).bind fun y => size y.1) = some (4, 3) := by
  refine ⟨?_, ?_, ?_⟩ <;> decide +kernel

theorem bag_sane {t : Nat} : SaneDefs .none (bag t) := by
  have hs : SaneDefs .none stock := .mk fun x th hx => by
    have := lastDef_mem hx
    unfold stock at this
    simp only [List.mem_cons, Prod.mk.injEq, List.not_mem_nil, or_false] at this
    rcases this with ⟨_, rfl⟩ | ⟨_, rfl⟩
    · exact .own (.loop .equals)
    · exact .own .ref
  refine .mk fun x th hx => ?_
  have := lastDef_mem hx
  unfold bag at this
  simp only [List.mem_cons, Prod.mk.injEq, List.not_mem_nil, or_false] at this
  rcases this with ⟨_, rfl⟩ | ⟨_, rfl⟩
  · exact .member hs
  · exact .member hs

theorem visit_sane : ∀ g ∈ visit, Sane .none g := by
  intro g hg
  unfold visit at hg
  simp only [List.mem_cons, List.not_mem_nil, or_false] at hg
  rcases hg with rfl | rfl | rfl
  · exact .ref
  · exact .equals
  · exact .ref

/-- The first parse of a text. -/
theorem first_says {w : World} {src : Str} {t : Nat} {k : Nat × Nat} (h : Text shop src "S".toList (some "s".toList) "S".toList visit (bag t))
    (hs : ((runLinked ⟨"aabaa".toList, []⟩ 5 "S".toList visit 20 0 (scopesOf (bag t))).bind fun x => size x.1) = some k)
    (hm : Compiled shop w) (hok : ScopesOK w.st) :
    ∃ N m sc w', (∀ fuel, N ≤ fuel → compileScript shop fuel ⟨src, "s".toList⟩ "S".toList (some "s".toList) w = .ok m sc w') ∧
    ∀ cfg, ∃ t s' tk, tokenize (tableOf w'.nodes) cfg 20 (Ctx.new ⟨"aabaa".toList, []⟩ w'.st.newSCtx.1 []) m w'.st.newSCtx.2 = .ok (.ok t) s' ∧
      s'.toks[t]? = some tk ∧ tk.matched.stop = k.1 ∧ tk.children.length = k.2 := by
  obtain ⟨N, m, sc, w', h1, h2⟩ := C63_text (file := "s".toList) h hm hok visit_sane bag_sane
  refine ⟨N, m, sc, w', h1, fun cfg => ?_⟩
  obtain ⟨σ, h3, h4⟩ := (h2 cfg [] fun p hp => nomatch hp).2 _ .nil
  cases h3
  have h5 := h4 ⟨"aabaa".toList, []⟩ [] 20 (by decide) (fun _ _ _ h => h.elim)
  rw [show blen (Parser.mk "aabaa".toList []).src = 5 by decide] at h5
  generalize runLinked ⟨"aabaa".toList, []⟩ 5 "S".toList visit 20 0 (scopesOf (bag t)) = y at h5 hs
  cases y with
  | none => cases hs
  | some x =>
    cases hr : tokenize (tableOf w'.nodes) cfg 20 (Ctx.new ⟨"aabaa".toList, []⟩ w'.st.newSCtx.1 []) m w'.st.newSCtx.2 with
    | ok r s' =>
      rw [hr] at h5
      obtain ⟨t, tk, rfl, h6, h7, h8⟩ := size_token h5.1 (n := k.1) (k := k.2) hs
      exact ⟨t, s', tk, rfl, h6, h7, h8⟩
    | panic e => rw [hr] at h5; exact h5.elim
    | diverge => rw [hr] at h5; exact h5.elim

/-- **C63**: whether two definitions are imported by one statement, or by two, makes a
difference.  In the file `e` there are `A = <='a'>*` and `B = <A>`.  When `A` is used, the name
`A` in the scope of the import stands for one `a` from then on, and `B` of the same statement
refers to it: of `aabaa` only `aaba` is matched.  With one statement for each, there are two
scopes, and all of `aabaa` is matched. -/
theorem C63_sharing {w : World} (hm : Compiled shop w) (hok : ScopesOK w.st) :
    (∃ N m sc w', (∀ fuel, N ≤ fuel → compileScript shop fuel ⟨jointly, "s".toList⟩ "S".toList (some "s".toList) w = .ok m sc w') ∧
      ∀ cfg, ∃ t s' tk, tokenize (tableOf w'.nodes) cfg 20 (Ctx.new ⟨"aabaa".toList, []⟩ w'.st.newSCtx.1 []) m w'.st.newSCtx.2 = .ok (.ok t) s' ∧
        s'.toks[t]? = some tk ∧ tk.matched.stop = 4 ∧ tk.children.length = 3) ∧
    (∃ N m sc w', (∀ fuel, N ≤ fuel → compileScript shop fuel ⟨singly, "s".toList⟩ "S".toList (some "s".toList) w = .ok m sc w') ∧
      ∀ cfg, ∃ t s' tk, tokenize (tableOf w'.nodes) cfg 20 (Ctx.new ⟨"aabaa".toList, []⟩ w'.st.newSCtx.1 []) m w'.st.newSCtx.2 = .ok (.ok t) s' ∧
        s'.toks[t]? = some tk ∧ tk.matched.stop = 5 ∧ tk.children.length = 3) :=
  ⟨first_says bags_ok.1 bags_say.1 hm hok, first_says bags_ok.2 bags_say.2.1 hm hok⟩

end Adx.Interp.LinkedExample
