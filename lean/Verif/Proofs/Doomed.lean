import Verif.Spec.Doomed
import Verif.Proofs.Linked
/-
  Left recursion in scripts with imports.
-/
namespace Adx.Interp

variable {X : Nat → Str → Prop} {σ : Layout} {k : Nat} {g : Gram} {gs : List Gram} {th : Thing} {x l : Str} {p : Parser} {stop pos fuel : Nat}
  {n : Str}

/-- The nonterminals that begin with trying a name in `X`. -/
def StartsJoint (X : Nat → Str → Prop) : Joint → Nat → Prop
  | .gram g, k => Starts (X k) g
  | .thing j th, k => k = j ∧ StartsThing X j th
  | .whole _ gs, _ => ∃ g gs', gs = g :: gs' ∧ Starts (X 1) g
  | .inside gs j, _ => ∃ g gs', gs = g :: gs' ∧ Starts (X j) g
  | .flat gs, k => ∃ g gs', gs = g :: gs' ∧ Starts (X k) g
  | .all gs, k => ∃ g gs', gs = g :: gs' ∧ Starts (X k) g
  | .renamed j bs i _, k => k = j ∧ ∃ th, lastDef bs i = some th ∧ StartsThing X j th

theorem Vicious.add (h : Vicious X σ) (ht : StartsThing X k th) : Vicious X (σ.add k l th) := by
  intro j x hx
  rw [defs_add]
  split
  · rename_i he
    subst he
    rw [lastDef_append]
    split
    · exact ⟨th, rfl, ht⟩
    · exact h j x hx
  · exact h j x hx

theorem vicious_enter {m : Joint} (hm : StartsJoint X m k) (h : Vicious X σ) : Vicious X (Interp.enter linkedGrammar linkedNames m k σ) := by
  unfold Interp.enter
  cases m with
  | gram g =>
    show Vicious X (match gramLabel g with | some l => _ | none => σ)
    cases gramLabel g with
    | none => exact h
    | some l => exact Vicious.add h (.own hm)
  | thing i th =>
    obtain ⟨rfl, hm⟩ := hm
    cases th with
    | own g =>
      show Vicious X (match gramLabel g with | some l => _ | none => σ)
      cases gramLabel g with
      | none => exact h
      | some l => exact Vicious.add h hm
    | file t n gs bs => exact Vicious.add h hm
    | member => exact h
  | _ => exact h

theorem vicious_gram (hg : Starts (X k) g) (hσ : Vicious X σ)
    (ih : ∀ {m k pos σ}, StartsJoint X m k → Vicious X σ → eval linkedGrammar linkedNames p stop fuel m k pos σ = none) :
    evalExpr (eval linkedGrammar linkedNames p stop fuel) linkedNames p stop k pos σ (gramExpr Joint.gram g) = none := by
  cases hg with
  | @ref _ _ x hx =>
    obtain ⟨th, h1, h2⟩ := hσ k x hx
    show evalExpr (eval linkedGrammar linkedNames p stop fuel) linkedNames p stop k pos σ (.call x) = none
    dsimp only [evalExpr]
    rw [show linkedNames.get σ k x = (lastDef (σ.defs k) x).map (Joint.thing k) from rfl, h1]
    exact ih ⟨rfl, h2⟩ hσ
  | @group _ _ first g gs h =>
    cases first with
    | false =>
      show (parts (eval linkedGrammar linkedNames p stop fuel) k (.gram g :: gs.map .gram) (.start pos) σ).map _ = none
      unfold parts
      rw [ih (m := .gram g) h hσ]
      rfl
    | true =>
      show choose (eval linkedGrammar linkedNames p stop fuel) k pos (.gram g :: gs.map .gram) σ = none
      unfold choose
      rw [ih (m := .gram g) h hσ]
      rfl
  | @loop lo hi g hl h =>
    show (rounds (eval linkedGrammar linkedNames p stop fuel) k [.gram g] (hi - lo) (.start pos) σ).map _ = none
    obtain ⟨j, hj⟩ : ∃ j, hi - lo = j + 1 := ⟨hi - lo - 1, by omega⟩
    rw [hj]
    unfold rounds parts
    rw [ih (m := .gram g) h hσ]
    rfl
  | @opt g h | @not g h | @discard g h | @attrs _ g h =>
    show andThen _ (eval linkedGrammar linkedNames p stop fuel (.gram g) k pos σ) = none
    rw [ih (m := .gram g) h hσ]
    rfl

theorem vicious_none (fuel : Nat) : ∀ {m : Joint} {k pos : Nat} {σ : Layout}, StartsJoint X m k → Vicious X σ →
    eval linkedGrammar linkedNames p stop fuel m k pos σ = none := by
  induction fuel with
  | zero => intros; rfl
  | succ fuel ih =>
    intro m k pos σ hm hσ
    unfold eval
    replace hσ := vicious_enter hm hσ
    generalize Interp.enter linkedGrammar linkedNames m k σ = σ at hσ
    cases m with
    | gram g => exact vicious_gram hm hσ ih
    | thing i th =>
      obtain ⟨rfl, hm⟩ := hm
      cases hm with
      | own h => exact vicious_gram h hσ ih
      | @file _ t n g gs bs h =>
        show (parts (eval linkedGrammar linkedNames p stop fuel) k [.inside (g :: gs) (branch k t)] (.start pos) σ).map _ = none
        unfold parts
        rw [ih (m := .inside (g :: gs) (branch k t)) ⟨g, gs, rfl, h⟩ hσ]
        rfl
      | @member _ t bs i n th hd h =>
        exact ih (m := .renamed (branch k t) bs i n) (k := branch k t) ⟨rfl, th, hd, h⟩ hσ
    | whole n gs =>
      show (parts (eval linkedGrammar linkedNames p stop fuel) k [.inside gs 1] (.start pos) σ).map _ = none
      unfold parts
      rw [ih (m := .inside gs 1) hm hσ]
      rfl
    | inside gs j => exact ih (m := .flat gs) (k := j) hm hσ
    | flat gs =>
      show andThen _ (eval linkedGrammar linkedNames p stop fuel (.all gs) k pos σ) = none
      rw [ih (m := .all gs) hm hσ]
      rfl
    | all gs =>
      obtain ⟨g, gs, rfl, h⟩ := hm
      show (parts (eval linkedGrammar linkedNames p stop fuel) k (.gram g :: gs.map .gram) (.start pos) σ).map _ = none
      unfold parts
      rw [ih (m := .gram g) h hσ]
      rfl
    | renamed j bs i n =>
      obtain ⟨rfl, th, hd, h⟩ := hm
      show evalExpr (eval linkedGrammar linkedNames p stop fuel) linkedNames p stop k pos σ
        (match lastDef bs i with | some th => .rename n (.thing k th) | none => .call i) = none
      rw [hd]
      show andThen _ (eval linkedGrammar linkedNames p stop fuel (.thing k th) k pos σ) = none
      rw [ih (m := .thing k th) ⟨rfl, h⟩ hσ]
      rfl

end Adx.Interp
