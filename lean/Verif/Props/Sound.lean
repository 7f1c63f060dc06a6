import Verif.Proofs.Sound
import Verif.Props.Atlas
/-
  C72: what is asked of a script is asked of each scope alone.
-/
namespace Adx.Interp

open Syntax (Text)

variable {plan : Nat → Plan} {n name : Str} {gs : List Gram} {bs : List (Str × Thing)} {w : World}

/-- **C72**: the numbers of an atlas are no condition, only its plans are. -/
theorem C72_plans {W : Demand} : sound plan W gs bs = true ↔ ∃ size base, Atlas.meets ⟨plan, size, base⟩ W gs bs = true :=
  ⟨fun h => let ⟨D, base, h⟩ := sound_meets h; ⟨_, base, h⟩, fun ⟨_, _, h⟩ => meets_sound h⟩

/-- **C72**: if no scope alone is left recursive, every parse comes to an end. -/
theorem C72_sound {env : Env} {src file : Str} {fromFile : Option Str} (hre : CutsAll env) (h : Text env src name fromFile n gs bs)
    (hm : Compiled env w) (hok : ScopesOK w.st) (hb : ∀ k, Blank (plan k).blank) (hA : sound plan .none gs bs = true) :
    ∃ K N m sc w', (∀ fuel, N ≤ fuel → compileScript env fuel ⟨src, file⟩ name fromFile w = .ok m sc w') ∧
      ∀ cfg ps, (∀ p ∈ ps, blen p.src ≤ isizeMax ∧ Ascii p.src) →
        (∃ s, Parses (tableOf w'.nodes) cfg m ps w'.st s) ∧
        ∀ s, Parses (tableOf w'.nodes) cfg m ps w'.st s → ∀ p nm fuel, blen p.src ≤ isizeMax → Ascii p.src →
          (blen p.src + 1) * K ≤ fuel →
          ∃ r s', tokenize (tableOf w'.nodes) cfg fuel (Ctx.new p s.newSCtx.1 nm) m s.newSCtx.2 = .ok r s' := by
  obtain ⟨D, base, h'⟩ := sound_meets hA
  exact ⟨_, C72_ascii (A := ⟨plan, fun _ => D, base⟩) hre h hm hok hb h'⟩

/-- **C72**: a script that is not recursive is frugal, and one that is frugal comes to an end. -/
theorem C72_demands {A : Atlas} {K : Nat} : (A.tiers K gs bs = true → A.frugal K gs bs = true) ∧
    (A.frugal K gs bs = true → A.ok gs bs = true) := by
  unfold Atlas.tiers Atlas.frugal Atlas.ok
  rw [Bool.and_eq_true, Bool.and_eq_true]
  exact ⟨fun h => ⟨h.1, meets_le ⟨fun _ _ h => tiers_bounds.term _ _ h, fun _ _ _ _ => rfl, fun _ h => h⟩ h.2⟩,
    fun h => meets_le ⟨fun _ _ _ => rfl, fun _ _ _ _ => rfl, fun _ _ => rfl⟩ h.2⟩

namespace LinkedExample

/-- The plans for the script whose definitions change are right for each scope; not if `B` is
not above `A`, nor if `A` may match without consuming and the name it is imported under is said not to. -/
theorem map_sound : sound map.plan .none visit (bag 1) = true ∧ sound map.plan (.tiers 3) visit (bag 1) = true ∧
    sound (fun _ => ⟨[], fun _ => true⟩) .none visit (bag 1) = false ∧
    sound (fun k => if k = 1 then map.plan 1 else ⟨[("A".toList, (0, true)), ("B".toList, (1, false))], fun _ => true⟩) .none visit (bag 1) = false := by
  decide +kernel

end LinkedExample

end Adx.Interp
