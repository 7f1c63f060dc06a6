import Verif.Proofs.Doomed
import Verif.Props.Sound
/-
  C72, the other way: left recursion in scripts with imports.
-/
namespace Adx.Interp

open Syntax (Text)

variable {X : Nat → Str → Prop} {d : Quotes} {n name : Str} {g : Gram} {gs : List Gram} {bs : List (Str × Thing)} {w : World}

/-- **C72**, the other way: if the first pattern of a script begins with a name, and this leads
from name to name without end, through the scopes of what is imported, then the script does
not come to an end, with any text, at any depth of recursion. -/
theorem C72_left_recursion {env : Env} {src file : Str} {fromFile : Option Str} (h : Text env src name fromFile n (g :: gs) bs)
    (hm : Compiled env w) (hok : ScopesOK w.st) (hgs : ∀ g' ∈ g :: gs, Sane d g') (hbs : SaneDefs d bs) (hg : Starts (X 1) g)
    (hX : Vicious X (scopesOf bs)) :
    ∃ N m sc w', (∀ fuel, N ≤ fuel → compileScript env fuel ⟨src, file⟩ name fromFile w = .ok m sc w') ∧
      ∀ cfg p nm fuel, blen p.src ≤ isizeMax → Suits d p.src →
        tokenize (tableOf w'.nodes) cfg fuel (Ctx.new p w'.st.newSCtx.1 nm) m w'.st.newSCtx.2 = .diverge := by
  obtain ⟨N, m, sc, w', h1, h2⟩ := C63_text (file := file) h hm hok hgs hbs
  refine ⟨N, m, sc, w', h1, fun cfg p nm fuel hb hd => ?_⟩
  obtain ⟨σ, ha, h3⟩ := (h2 cfg [] (fun p hp => by cases hp)).2 _ .nil
  cases ha
  exact Sim.diverges (h3 p nm fuel hb hd) (vicious_none fuel (m := .whole n (g :: gs)) ⟨g, gs, rfl, hg⟩ hX)

/-- **C72**: no plans are right for the names of such a script. -/
theorem C72_no_plans {plan : Nat → Plan} (hb : ∀ k, Blank (plan k).blank) (hgs : ∀ g' ∈ g :: gs, Sane d g')
    (hbs : ∀ b ∈ bs, Deep d b.2) (hg : Starts (X 1) g) (hX : Vicious X (scopesOf bs)) : sound plan .none (g :: gs) bs = false := by
  cases h : sound plan .none (g :: gs) bs with
  | false => rfl
  | true =>
    obtain ⟨D, base, hA⟩ := sound_meets h
    obtain ⟨x, hx⟩ := C72_run (A := ⟨plan, fun _ => D, base⟩) (p := ⟨[], []⟩) (stop := 0) (pos := 0) (n := []) hb hA hgs hbs .nil
      (whole_cut (src := [])) (Nat.le_refl _)
    rw [show runLinked ⟨[], []⟩ 0 [] (g :: gs) _ 0 (scopesOf bs) = none from
      vicious_none _ (m := .whole [] (g :: gs)) ⟨g, gs, rfl, hg⟩ hX] at hx
    cases hx

namespace LinkedExample

open Example (inOrder oneOf nameOf lit)

/-- A script imports a definition that begins with another, which begins with the first. -/
def circle : List (Str × Thing) :=
  [("P".toList, .member 0 [("A".toList, .own (inOrder "A" [nameOf "B", lit "a"])), ("B".toList, .own (oneOf "B" [nameOf "A", lit "b"]))]
    "A".toList "P".toList)]

theorem circle_vicious : Vicious (fun k x => k = 1 ∧ x = "P".toList ∨ k = branch 1 0 ∧ (x = "A".toList ∨ x = "B".toList)) (scopesOf circle) := by
  have hA : Starts (fun x => branch 1 0 = 1 ∧ x = "P".toList ∨ branch 1 0 = branch 1 0 ∧ (x = "A".toList ∨ x = "B".toList))
      (inOrder "A" [nameOf "B", lit "a"]) := .group (.ref (.inr ⟨rfl, .inr rfl⟩))
  have hB : Starts (fun x => branch 1 0 = 1 ∧ x = "P".toList ∨ branch 1 0 = branch 1 0 ∧ (x = "A".toList ∨ x = "B".toList))
      (oneOf "B" [nameOf "A", lit "b"]) := .group (.ref (.inr ⟨rfl, .inl rfl⟩))
  rintro k x (⟨rfl, rfl⟩ | ⟨rfl, rfl | rfl⟩)
  · exact ⟨_, rfl, .member rfl (.own hA)⟩
  · exact ⟨_, rfl, .own hA⟩
  · exact ⟨_, rfl, .own hB⟩

/-- It never returns, and there are no plans for it. -/
theorem C72_circle : (∀ p stop fuel pos, runLinked p stop "S".toList [nameOf "P"] fuel pos (scopesOf circle) = none) ∧
    Atlas.found (fun _ => true) [nameOf "P"] circle = false :=
  ⟨fun _ _ fuel _ => vicious_none fuel ⟨_, [], rfl, .ref (.inl ⟨rfl, rfl⟩)⟩ circle_vicious, by decide +kernel⟩

end LinkedExample

end Adx.Interp
