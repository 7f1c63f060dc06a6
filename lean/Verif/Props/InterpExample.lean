import Verif.Props.Interp
/-
  C50: when definitions change, and when they do not; examples.
-/
namespace Adx.Interp

open Peg (body Cuts Cut Ready Sim Keeps)
open Syntax (Text)

/-! ### The two interpreters -/

theorem gramExpr_like {N N' σ σ' : Type} {nm : Names σ N} {nm' : Names σ' N'} {Rel : N → Nat → N' → Nat → Prop}
    {Inv : σ → σ' → Prop} {k k' : Nat} {f : Gram → N} {f' : Gram → N'} {g : Gram} (hnr : ∀ n c x, g ≠ .ref n c x)
    (h : ∀ g' ∈ Gram.parts g, Rel (f g') k (f' g') k') : Like nm nm' Rel Inv k k' (gramExpr f g) (gramExpr f' g) := by
  have all : ∀ gs : List Gram, (∀ g' ∈ gs, Rel (f g') k (f' g') k') →
      List.Forall₂ (fun m m' => Rel m k m' k') (gs.map f) (gs.map f') := by
    intro gs hgs
    induction gs with
    | nil => exact .nil
    | cons g gs ih => exact .cons (hgs g (List.mem_cons_self ..)) (ih fun g' hg' => hgs g' (List.mem_cons_of_mem _ hg'))
  cases g with
  | equals => exact .lit
  | regex => exact .re
  | sequence => exact .delim
  | ref n c x => exact (hnr _ _ _ rfl).elim
  | null => exact .empty
  | group n c fi gs =>
    cases fi with
    | false => exact .seq (all gs h)
    | true => exact .choice (all gs h)
  | loop lo hi g => exact .loop (.cons (h g (List.mem_singleton.mpr rfl)) .nil)
  | opt g => exact .opt (h g (List.mem_singleton.mpr rfl))
  | not g => exact .neg (h g (List.mem_singleton.mpr rfl))
  | discard g => exact .drop (h g (List.mem_singleton.mpr rfl))
  | attrs m g => exact .give rfl (h g (List.mem_singleton.mpr rfl))

/-- The parts of a script, without and with the definitions. -/
inductive Twin (R : Str → Prop) (n : Str) (gs : List Gram) (bs : List (Str × Gram)) : Part → Nat → Place → Nat → Prop
  | gram {g} (hq : Quiet R g) : Twin R n gs bs (.gram g) 1 (.gram (bs.map fun b => (b.1, .own b.2)) g) 0
  | own {x g} (hx : lastDef bs x = some g) (hq : Tame R x (.own g)) :
      Twin R n gs bs (.gram g) 1 (.thing (bs.map fun b => (b.1, .own b.2)) (.own g)) 0
  | whole : Twin R n gs bs (.whole n gs) 0 (.whole n gs (bs.map fun b => (b.1, .own b.2))) 0
  | inside : Twin R n gs bs (.inside gs) 0 (.inside gs (bs.map fun b => (b.1, .own b.2))) 0
  | flat : Twin R n gs bs (.flat gs) 1 (.flat gs (bs.map fun b => (b.1, .own b.2))) 0
  | all : Twin R n gs bs (.all gs) 1 (.all gs (bs.map fun b => (b.1, .own b.2))) 0

theorem alike_twin {R : Str → Prop} {n : Str} {gs : List Gram} {bs : List (Str × Gram)} (hq : QuietAll R gs)
    (ht : TameDefs R (bs.map fun b => (b.1, .own b.2))) :
    Alike scriptGrammar scriptNames fixedGrammar noNames (Twin R n gs bs)
      (fun st _ => ∀ x, R x → lastDef st x = lastDef bs x) := by
  have key : ∀ g, QuietParts R g → Like scriptNames noNames (Twin R n gs bs) (fun st _ => ∀ x, R x → lastDef st x = lastDef bs x) 1 0
      (gramExpr Part.gram g) (placeExpr (bs.map fun b => (b.1, .own b.2)) g) := by
    intro g hg
    by_cases hr : ∃ n c y, g = .ref n c y
    · obtain ⟨_, c, y, rfl⟩ := hr
      have hy : R y := by cases hg with | ref h => exact h
      show Like _ _ _ _ 1 0 (.call y) _
      unfold placeExpr
      dsimp only
      rw [lastDef_map]
      cases hl : lastDef bs y with
      | none =>
        refine .call fun st st' hinv => ?_
        show Option.Rel _ ((lastDef st y).map Part.gram) _
        rw [hinv y hy, hl]
        exact .none
      | some g =>
        refine .resolved fun st st' hinv => ⟨.gram g, ?_, .own hl ?_⟩
        · show (lastDef st y).map Part.gram = _
          rw [hinv y hy, hl]
          rfl
        · cases ht with
          | mk h => exact h y _ (by rw [lastDef_map, hl]; rfl)
    · have hnr : ∀ n c x, g ≠ .ref n c x := fun n c y he => hr ⟨n, c, y, he⟩
      rw [placeExpr_eq hnr]
      exact gramExpr_like hnr fun g' hg' => .gram (hg.part hg')
  refine ⟨?_, ?_⟩
  · intro x k y k' h
    cases h with
    | gram hq => cases hq with | mk _ hq => exact key _ hq
    | own _ hq => cases hq with | own _ hq => exact key _ hq
    | whole => exact .seq (.cons .inside .nil)
    | inside => exact .within .flat
    | flat => exact .flat .all
    | all =>
      refine .seq ?_
      have : ∀ gs', QuietAll R gs' → List.Forall₂ (fun m m' => Twin R n gs bs m 1 m' 0) (gs'.map Part.gram)
          (gs'.map (Place.gram (bs.map fun b => (b.1, .own b.2)))) := by
        intro gs' h
        induction gs' with
        | nil => exact .nil
        | cons g gs' ih => cases h with | cons h hs => exact .cons (.gram h) (ih hs)
      exact this gs hq
  · intro x k y k' st st' h hinv
    have add : ∀ (g : Gram) (l : Str), (R l → lastDef bs l = some g) → ∀ z, R z → lastDef (st ++ [(l, g)]) z = lastDef bs z := by
      intro g l hl z hz
      rw [lastDef_append]
      split
      · rename_i he
        subst he
        exact (hl hz).symm
      · exact hinv z hz
    cases h with
    | @gram g hq =>
      cases hq with
      | mk hl _ =>
        unfold Interp.enter
        rw [show scriptGrammar.label (Part.gram g) = gramLabel g from rfl]
        cases he : gramLabel g with
        | none => exact hinv
        | some l => exact add g l fun hr => (hl l he hr).elim
    | @own x g hx hq =>
      cases hq with
      | own hl _ =>
        unfold Interp.enter
        rw [show scriptGrammar.label (Part.gram g) = gramLabel g from rfl]
        cases he : gramLabel g with
        | none => exact hinv
        | some l => exact add g l fun hr => by rw [hl l he hr]; exact hx
    | whole => exact hinv
    | inside => exact hinv
    | flat => exact hinv
    | all => exact hinv

/-- **C50**: if using a definition does not change what names stand for, then the interpreter
with definitions that change, and the one with definitions that do not, say the same. -/
theorem C50_same {R : Str → Prop} {p : Parser} {stop : Nat} {n : Str} {gs : List Gram} {bs : List (Str × Gram)} {fuel pos : Nat}
    (hq : QuietAll R gs) (ht : TameDefs R (bs.map fun b => (b.1, .own b.2))) :
    (runScript p stop n gs fuel pos bs).map Prod.fst = runFixed p stop n gs (bs.map fun b => (b.1, .own b.2)) fuel pos := by
  have h := (alike_twin (n := n) hq ht).eval (p := p) (stop := stop) fuel _ _ _ _ .whole pos bs () fun _ _ => rfl
  unfold runScript runFixed
  generalize eval scriptGrammar scriptNames p stop fuel (.whole n gs) 0 pos bs = a at h
  generalize eval fixedGrammar noNames p stop fuel (.whole n gs (bs.map fun b => (b.1, .own b.2))) 0 pos () = b at h
  cases h with
  | none => rfl
  | some h => exact congrArg some h.1

/-! ### Examples -/

namespace Example
open SyntaxExample Syntax CompileExample

/-- Two uses of `A`, with a `b` between. -/
def twice : List Gram := [.ref "Ref".toList false "A".toList, .equals "Equals".toList false ['b'], .ref "Ref".toList false "A".toList]

/-- The patterns of both scripts. -/
theorem items_ok : Items files "(<A>)(<='b'>)(<A>)".toList twice := by
  refine .pattern (w1 := "(<A>)(<='b'>)(<A>)".toList) (w2 := "(<='b'>)(<A>)".toList) (gap _ [] _ rfl)
    (.captured (w1 := "<A>)(<='b'>)(<A>)".toList) (w2 := ")(<='b'>)(<A>)".toList) (gap _ [] _ rfl) ?_ (gap _ [] _ rfl))
    (.pattern (w1 := "(<='b'>)(<A>)".toList) (w2 := "(<A>)".toList) (gap _ [] _ rfl)
      (.captured (w1 := "<='b'>)(<A>)".toList) (w2 := ")(<A>)".toList) (gap _ [] _ rfl) ?_ (gap _ [] _ rfl))
    (.pattern (w1 := "(<A>)".toList) (w2 := []) (gap _ [] _ rfl)
      (.captured (w1 := "<A>)".toList) (w2 := ")".toList) (gap _ [] _ rfl) ?_ (gap _ [] _ rfl)) (.done (gap _ [] _ rfl))))
  · exact Definition.mk (outer := .none) (inner := .none) (w1 := "A>)(<='b'>)(<A>)".toList) (w2 := "A>)(<='b'>)(<A>)".toList)
      (w3 := ">)(<='b'>)(<A>)".toList) (w4 := ">)(<='b'>)(<A>)".toList) (as := []) (r := none) (gap _ [] _ rfl)
      (.custom (identifier _ _ _ rfl rfl)) (gap _ [] _ rfl) (.nil (by simp [attrChar])) (.once (by decide))
  · exact Definition.mk (outer := .none) (inner := .none) (w1 := "='b'>)(<A>)".toList) (w2 := "='b'>)(<A>)".toList)
      (w3 := ">)(<A>)".toList) (w4 := ">)(<A>)".toList) (as := []) (r := none) (gap _ [] _ rfl)
      (.equals (.mk (.plain (by decide) (by decide) (.done _))) (by decide)) (gap _ [] _ rfl)
      (.nil (by simp [attrChar])) (.once (by decide))
  · exact Definition.mk (outer := .none) (inner := .none) (w1 := "A>)".toList) (w2 := "A>)".toList)
      (w3 := ">)".toList) (w4 := ">)".toList) (as := []) (r := none) (gap _ [] _ rfl)
      (.custom (identifier _ _ _ rfl rfl)) (gap _ [] _ rfl) (.nil (by simp [attrChar])) (.once (by decide))

/-- `A` is one `a`. -/
theorem one_ok : Syntax.Script files "<!--[adextopa version='1'] A = <='a'> -->(<A>)(<='b'>)(<A>)".toList none twice
    [.own "A".toList (.equals "A".toList true ['a'])] := by
  refine .headed (w1 := "<!--[adextopa version='1'] A = <='a'> -->(<A>)(<='b'>)(<A>)".toList) (w2 := "(<A>)(<='b'>)(<A>)".toList)
    (name := none) (.done (gap _ [] _ rfl) (by decide)) ?_ items_ok
  refine Header.mk (w := " version='1'] A = <='a'> -->(<A>)(<='b'>)(<A>)".toList)
    (w1 := "version='1'] A = <='a'> -->(<A>)(<='b'>)(<A>)".toList)
    (w2 := " A = <='a'> -->(<A>)(<='b'>)(<A>)".toList) (v := ['1']) (as := [⟨"version".toList, ['1'], ['1']⟩]) (n := 1)
    (blanks _ [' '] _ rfl) ?_ rfl (.digit (ch := '1') rfl) (by decide) ?_ ?_
  · exact .cons (n := "version".toList) (w1 := "='1'] A = <='a'> -->(<A>)(<='b'>)(<A>)".toList)
      (w2 := "'1'] A = <='a'> -->(<A>)(<='b'>)(<A>)".toList)
      (w3 := "'1'] A = <='a'> -->(<A>)(<='b'>)(<A>)".toList) (w4 := "] A = <='a'> -->(<A>)(<='b'>)(<A>)".toList)
      (w5 := "] A = <='a'> -->(<A>)(<='b'>)(<A>)".toList)
      (munch _ _ _ _ rfl) (by decide) (by decide) (blanks _ [] _ rfl) (blanks _ [] _ rfl)
      (.mk (.plain (by decide) (by decide) (.done _))) (gap _ [] _ rfl) (.nil (by simp [attrChar]))
  · refine .definition (w1 := "A = <='a'> -->(<A>)(<='b'>)(<A>)".toList) (n := "A".toList)
      (w2 := " = <='a'> -->(<A>)(<='b'>)(<A>)".toList) (w3 := " <='a'> -->(<A>)(<='b'>)(<A>)".toList)
      (w4 := "<='a'> -->(<A>)(<='b'>)(<A>)".toList) (w5 := " -->(<A>)(<='b'>)(<A>)".toList)
      (gap _ [' '] _ rfl) (identifier _ _ _ rfl rfl) (gap _ [' '] _ rfl) (gap _ [' '] _ rfl) ?_ (.done (gap _ [' '] _ rfl))
    exact Definition.mk (outer := .none) (inner := .none) (w1 := "='a'> -->(<A>)(<='b'>)(<A>)".toList)
      (w2 := "='a'> -->(<A>)(<='b'>)(<A>)".toList)
      (w3 := "> -->(<A>)(<='b'>)(<A>)".toList) (w4 := "> -->(<A>)(<='b'>)(<A>)".toList) (as := []) (r := none) (gap _ [] _ rfl)
      (.equals (.mk (.plain (by decide) (by decide) (.done _))) (by decide)) (gap _ [] _ rfl)
      (.nil (by simp [attrChar])) (.once (by decide))
  · rintro w3 ⟨u, hu⟩
    have h1 := (Munch.unique hu (munch space _ [' '] "A = <='a'> -->(<A>)(<='b'>)(<A>)".toList rfl)).2
    cases h1

/-- `A` is any number of `a`. -/
theorem many_ok : Syntax.Script files "<!--[adextopa version='1'] A = <='a'>* -->(<A>)(<='b'>)(<A>)".toList none twice
    [.own "A".toList (.loop 0 usizeMax (.equals "A".toList true ['a']))] := by
  refine .headed (w1 := "<!--[adextopa version='1'] A = <='a'>* -->(<A>)(<='b'>)(<A>)".toList) (w2 := "(<A>)(<='b'>)(<A>)".toList)
    (name := none) (.done (gap _ [] _ rfl) (by decide)) ?_ items_ok
  refine Header.mk (w := " version='1'] A = <='a'>* -->(<A>)(<='b'>)(<A>)".toList)
    (w1 := "version='1'] A = <='a'>* -->(<A>)(<='b'>)(<A>)".toList)
    (w2 := " A = <='a'>* -->(<A>)(<='b'>)(<A>)".toList) (v := ['1']) (as := [⟨"version".toList, ['1'], ['1']⟩]) (n := 1)
    (blanks _ [' '] _ rfl) ?_ rfl (.digit (ch := '1') rfl) (by decide) ?_ ?_
  · exact .cons (n := "version".toList) (w1 := "='1'] A = <='a'>* -->(<A>)(<='b'>)(<A>)".toList)
      (w2 := "'1'] A = <='a'>* -->(<A>)(<='b'>)(<A>)".toList)
      (w3 := "'1'] A = <='a'>* -->(<A>)(<='b'>)(<A>)".toList) (w4 := "] A = <='a'>* -->(<A>)(<='b'>)(<A>)".toList)
      (w5 := "] A = <='a'>* -->(<A>)(<='b'>)(<A>)".toList)
      (munch _ _ _ _ rfl) (by decide) (by decide) (blanks _ [] _ rfl) (blanks _ [] _ rfl)
      (.mk (.plain (by decide) (by decide) (.done _))) (gap _ [] _ rfl) (.nil (by simp [attrChar]))
  · refine .definition (w1 := "A = <='a'>* -->(<A>)(<='b'>)(<A>)".toList) (n := "A".toList)
      (w2 := " = <='a'>* -->(<A>)(<='b'>)(<A>)".toList) (w3 := " <='a'>* -->(<A>)(<='b'>)(<A>)".toList)
      (w4 := "<='a'>* -->(<A>)(<='b'>)(<A>)".toList) (w5 := " -->(<A>)(<='b'>)(<A>)".toList)
      (gap _ [' '] _ rfl) (identifier _ _ _ rfl rfl) (gap _ [' '] _ rfl) (gap _ [' '] _ rfl) ?_ (.done (gap _ [' '] _ rfl))
    exact Definition.mk (outer := .none) (inner := .none) (w1 := "='a'>* -->(<A>)(<='b'>)(<A>)".toList)
      (w2 := "='a'>* -->(<A>)(<='b'>)(<A>)".toList)
      (w3 := ">* -->(<A>)(<='b'>)(<A>)".toList) (w4 := ">* -->(<A>)(<='b'>)(<A>)".toList) (as := []) (r := some (0, usizeMax))
      (gap _ [] _ rfl)
      (.equals (.mk (.plain (by decide) (by decide) (.done _))) (by decide)) (gap _ [] _ rfl)
      (.nil (by simp [attrChar])) .any
  · rintro w3 ⟨u, hu⟩
    have h1 := (Munch.unique hu (munch space _ [' '] "A = <='a'>* -->(<A>)(<='b'>)(<A>)".toList rfl)).2
    cases h1

/-- Where the token of a result ends, and how many children it has. -/
def size : Result → Option (Nat × Nat)
  | .token t => some (t.matched.stop, t.children.length)
  | _ => none

theorem size_token {toks : List Token} {r : Except Failure TokId} {x : Result} {n k : Nat} (h : SeesRoot toks r x)
    (hx : size x = some (n, k)) : ∃ t tk, r = .ok t ∧ toks[t]? = some tk ∧ tk.matched.stop = n ∧ tk.children.length = k := by
  cases x with
  | token it =>
    cases r with
    | error f => cases f <;> exact h.elim
    | ok t =>
      have h : itemOf toks (toks.length + 1) t = some it := h
      unfold itemOf at h
      cases htk : toks[t]? with
      | none => rw [htk] at h; cases h
      | some tk =>
        rw [htk] at h
        dsimp only at h
        cases hcs : tk.children.mapM (itemOf toks toks.length) with
        | none => rw [hcs] at h; cases h
        | some cs =>
          rw [hcs] at h
          cases h
          cases hx
          have hlen : ∀ {l : List TokId} {cs : List Item}, l.mapM (itemOf toks toks.length) = some cs → l.length = cs.length := by
            intro l
            induction l with
            | nil => intro cs h; cases h; rfl
            | cons a l ih =>
              intro cs h
              rw [List.mapM_cons] at h
              obtain ⟨y, -, h⟩ := Option.bind_eq_some_iff.mp h
              obtain ⟨ys, hys, h⟩ := Option.bind_eq_some_iff.mp h
              cases h
              rw [List.length_cons, List.length_cons, ih hys]
          exact ⟨t, tk, rfl, htk, rfl, hlen hcs⟩
  | _ => cases hx

/-- The interpreters on `aabaa`, when `A` is any number of `a`: with definitions that change
the second `A` is only one `a`. -/
theorem change_says :
    ((runScript ⟨"aabaa".toList, []⟩ 5 "S".toList twice 12 0 [("A".toList, .loop 0 usizeMax (.equals "A".toList true ['a']))]).bind
      fun x => size x.1) = some (4, 3) ∧
    ((runFixed ⟨"aabaa".toList, []⟩ 5 "S".toList twice
      [("A".toList, .own (.loop 0 usizeMax (.equals "A".toList true ['a'])))] 12 0).bind size) = some (5, 3) := by
  constructor <;> decide +kernel

/-- **C50**: a definition with a repetition changes when it is used.  The script
`A = <='a'>*`, `(<A>)(<='b'>)(<A>)` is compiled, and of the text `aabaa` it matches only
`aaba`: the name `A` is that of the matcher inside the repetition, and this matcher takes
the name when it is tried. -/
theorem C50_definitions_change {w : World} (hm : Compiled files w) (hok : ScopesOK w.st) :
    ∃ N m sc w', (∀ fuel, N ≤ fuel →
      compileScriptFromStr files fuel "<!--[adextopa version='1'] A = <='a'>* -->(<A>)(<='b'>)(<A>)".toList "S".toList w = .ok m sc w') ∧
    ∀ cfg, ∃ t s' tk, tokenize (tableOf w'.nodes) cfg 12 (Ctx.new ⟨"aabaa".toList, []⟩ w'.st.newSCtx.1 []) m w'.st.newSCtx.2 = .ok (.ok t) s' ∧
      s'.toks[t]? = some tk ∧ tk.matched.stop = 4 ∧ tk.children.length = 3 := by
  obtain ⟨N, m, sc, w', h1, h2⟩ := C50_text_first (name := "S".toList) (d := .none)
    (bs := [("A".toList, .loop 0 usizeMax (.equals "A".toList true ['a']))])
    (by unfold Ascii; decide) (by decide) many_ok hm hok
    (fun g hg => by
      unfold twice at hg
      simp only [List.mem_cons, List.not_mem_nil, or_false] at hg
      rcases hg with rfl | rfl | rfl
      · exact .ref
      · exact .equals
      · exact .ref)
    (fun x g hx => by
      unfold lastDef at hx
      rw [List.reverse_singleton, List.find?_singleton] at hx
      split at hx
      · cases hx
        exact .loop .equals
      · cases hx)
  refine ⟨N, m, sc, w', h1, fun cfg => ?_⟩
  have h3 := h2 cfg ⟨"aabaa".toList, []⟩ [] 12 (by decide) (fun _ _ _ h => h.elim)
  have h4 := change_says.1
  rw [show blen (Parser.mk "aabaa".toList []).src = 5 by decide, show (none : Option Str).getD "S".toList = "S".toList from rfl] at h3
  generalize runScript ⟨"aabaa".toList, []⟩ 5 "S".toList twice 12 0 [("A".toList, .loop 0 usizeMax (.equals "A".toList true ['a']))] = y at h3 h4
  cases y with
  | none => cases h4
  | some x =>
    cases hr : tokenize (tableOf w'.nodes) cfg 12 (Ctx.new ⟨"aabaa".toList, []⟩ w'.st.newSCtx.1 []) m w'.st.newSCtx.2 with
    | ok r s' =>
      rw [hr] at h3
      obtain ⟨t, tk, rfl, h5, h6, h7⟩ := size_token h3 h4
      exact ⟨t, s', tk, rfl, h5, h6, h7⟩
    | panic e => rw [hr] at h3; exact h3.elim
    | diverge => rw [hr] at h3; exact h3.elim

/-- The interpreter on `aba`, when `A` is one `a`. -/
theorem one_says : ((runFixed ⟨"aba".toList, []⟩ 3 "S".toList twice [("A".toList, .own (.equals "A".toList true ['a']))] 12 0).bind size) =
    some (3, 3) := by
  decide +kernel

/-- A script whose definitions do not change: whatever has been parsed before, it matches
all of `aba`. -/
theorem C50_example {w : World} (hm : Compiled files w) (hok : ScopesOK w.st) :
    ∃ N m sc w', (∀ fuel, N ≤ fuel →
      compileScript files fuel ⟨"<!--[adextopa version='1'] A = <='a'> -->(<A>)(<='b'>)(<A>)".toList, []⟩ "S".toList none w =
        .ok m sc w') ∧
    ∀ cfg s, Used (tableOf w'.nodes) cfg m (fun _ => True) w'.st s →
      ∃ t s' tk, tokenize (tableOf w'.nodes) cfg 12 (Ctx.new ⟨"aba".toList, []⟩ s.newSCtx.1 []) m s.newSCtx.2 = .ok (.ok t) s' ∧
        s'.toks[t]? = some tk ∧ tk.matched.stop = 3 ∧ tk.children.length = 3 := by
  have one : ∀ {th : Thing} {x : Str}, lastDef [("A".toList, Thing.own (.equals "A".toList true ['a']))] x = some th →
      x = "A".toList ∧ th = .own (.equals "A".toList true ['a']) := by
    intro th x hx
    unfold lastDef at hx
    rw [List.reverse_singleton, List.find?_singleton] at hx
    split at hx
    · rename_i he
      cases hx
      exact ⟨(beq_iff_eq.mp he).symm, rfl⟩
    · cases hx
  obtain ⟨N, m, sc, w', h1, h2⟩ := C50_text (R := fun x => x = "A".toList) (d := .none) (file := [])
    (.mk (name := "S".toList) (by unfold Ascii; decide) (by decide) one_ok (.own .nil)) hm hok
    (.cons (.mk (fun l h => by cases h) (.ref rfl)) (.cons (.mk (fun l h => by cases h) .equals)
      (.cons (.mk (fun l h => by cases h) (.ref rfl)) .nil)))
    (.mk fun x th hx => by
      obtain ⟨rfl, rfl⟩ := one hx
      exact .own (fun l hl hr => hr) .equals)
    (fun g hg => by
      unfold twice at hg
      simp only [List.mem_cons, List.not_mem_nil, or_false] at hg
      rcases hg with rfl | rfl | rfl
      · exact .ref
      · exact .equals
      · exact .ref)
    (.mk fun x th hx => by
      obtain ⟨rfl, rfl⟩ := one hx
      exact .own .equals)
  refine ⟨N, m, sc, w', h1, fun cfg s hu => ?_⟩
  have hu' : Used (tableOf w'.nodes) cfg m (Suits .none) w'.st s := by
    induction hu with
    | refl => exact .refl
    | parse _ hb _ ht ih => exact .parse ih hb (fun _ _ _ h => h.elim) ht
  have h3 := h2 cfg s ⟨"aba".toList, []⟩ [] 12 hu' (by decide) (fun _ _ _ h => h.elim)
  have h4 := one_says
  rw [show blen (Parser.mk "aba".toList []).src = 3 by decide, show (none : Option Str).getD "S".toList = "S".toList from rfl] at h3
  generalize runFixed ⟨"aba".toList, []⟩ 3 "S".toList twice [("A".toList, .own (.equals "A".toList true ['a']))] 12 0 = y at h3 h4
  cases y with
  | none => cases h4
  | some x =>
    cases hr : tokenize (tableOf w'.nodes) cfg 12 (Ctx.new ⟨"aba".toList, []⟩ s.newSCtx.1 []) m s.newSCtx.2 with
    | ok r s' =>
      rw [hr] at h3
      obtain ⟨t, tk, rfl, h5, h6, h7⟩ := size_token h3 h4
      exact ⟨t, s', tk, rfl, h5, h6, h7⟩
    | panic e => rw [hr] at h3; exact h3.elim
    | diverge => rw [hr] at h3; exact h3.elim

end Example

end Adx.Interp
