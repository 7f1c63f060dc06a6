import Verif.Spec.Sound
import Verif.Proofs.Atlas
/-
  Plans that are right for each scope can be completed to an atlas that is right.
-/
namespace Adx.Interp

variable {plan : Nat → Plan} {W : Demand} {k : Nat} {x : Str} {gs : List Gram} {bs : List (Str × Thing)}

/-- The numbers of the atlas, if there are only scopes up to `M` and terms of depth up to `D`. -/
def Stacked (plan : Nat → Plan) (D M : Nat) (base : Nat → Nat) : Prop :=
  ∀ k t, branch k t ≤ M → Atlas.cap ⟨plan, fun _ => D, base⟩ (branch k t) + 5 ≤ base k

/-- What holds for all large enough numbers. -/
def Late (plan : Nat → Plan) (Q : Atlas → Prop) : Prop :=
  ∃ D0 M0, ∀ D M base, D0 ≤ D → M0 ≤ M → Stacked plan D M base → Q ⟨plan, fun _ => D, base⟩

theorem Late.and {Q Q' : Atlas → Prop} (h : Late plan Q) (h' : Late plan Q') : Late plan fun A => Q A ∧ Q' A := by
  obtain ⟨D, M, h⟩ := h
  obtain ⟨D', M', h'⟩ := h'
  exact ⟨max D D', max M M', fun d m b hd hm hb => ⟨h d m b (by omega) (by omega) hb, h' d m b (by omega) (by omega) hb⟩⟩

theorem Late.imp {Q Q' : Atlas → Prop} (h : Late plan Q) (hi : ∀ D base, Q ⟨plan, fun _ => D, base⟩ → Q' ⟨plan, fun _ => D, base⟩) : Late plan Q' := by
  obtain ⟨D, M, h⟩ := h
  exact ⟨D, M, fun d m b hd hm hb => hi d b (h d m b hd hm hb)⟩

theorem late_cap {t : Nat} : Late plan fun A => A.cap (branch k t) + 5 ≤ A.base k :=
  ⟨0, branch k t, fun _ _ _ _ hm hb => hb k t hm⟩

theorem late_terms (h : ((plan k).obeysAll gs && gs.all (W.term (plan k)) && W.few gs) = true) :
    Late plan fun A => A.okTerms W k gs = true := by
  rw [Bool.and_eq_true, Bool.and_eq_true, List.all_eq_true] at h
  exact ⟨sizes gs, 0, fun D M base hD _ _ => terms_iff.mpr ⟨⟨⟨h.1.1, hD⟩, h.1.2⟩, h.2⟩⟩

mutual

theorem late_thing {k : Nat} {x : Str} : ∀ {th : Thing}, soundThing plan W k x th = true → Late plan fun A => A.okThing W k x th = true
  | .own g, h => by
    unfold soundThing at h
    rw [Bool.and_eq_true, Bool.and_eq_true, Bool.and_eq_true] at h
    refine ⟨size g, 0, fun D M base hD _ _ => ?_⟩
    unfold Atlas.okThing
    dsimp only
    rw [Bool.and_eq_true, Bool.and_eq_true, Bool.and_eq_true, Bool.and_eq_true, decide_eq_true_iff]
    exact ⟨⟨⟨h.1.1, hD⟩, h.1.2⟩, h.2⟩
  | .file t n gs bs, h => by
    unfold soundThing at h
    rw [Bool.and_eq_true] at h
    refine ((late_cap (k := k) (t := t)).and ((late_terms h.1).and (late_defs h.2))).imp fun D base hA => ?_
    unfold Atlas.okThing
    dsimp only
    rw [Bool.and_eq_true, Bool.and_eq_true, decide_eq_true_iff]
    exact ⟨⟨hA.1, hA.2.1⟩, hA.2.2⟩
  | .member t bs i n, h => by
    unfold soundThing at h
    rw [Bool.and_eq_true] at h
    refine ((late_cap (k := k) (t := t)).and (late_defs h.2)).imp fun D base hA => ?_
    unfold Atlas.okThing
    dsimp only
    rw [Bool.and_eq_true, Bool.and_eq_true, decide_eq_true_iff]
    exact ⟨⟨Nat.le_trans (Nat.add_le_add_left (by decide) _) hA.1, h.1⟩, hA.2⟩
termination_by structural th => th

theorem late_def {k : Nat} : ∀ {b : Str × Thing}, soundDef plan W k b = true → Late plan fun A => A.okDef W k b = true
  | (x, th), h => by
    unfold soundDef at h
    refine (late_thing h).imp fun D base hA => ?_
    unfold Atlas.okDef
    exact hA
termination_by structural b => b

theorem late_defs {k : Nat} : ∀ {bs : List (Str × Thing)}, soundDefs plan W k bs = true → Late plan fun A => A.okDefs W k bs = true
  | [], _ => ⟨0, 0, fun _ _ _ _ _ _ => by unfold Atlas.okDefs; rfl⟩
  | b :: bs, h => by
    unfold soundDefs at h
    rw [Bool.and_eq_true] at h
    refine ((late_def h.1).and (late_defs h.2)).imp fun D base hA => ?_
    unfold Atlas.okDefs
    rw [Bool.and_eq_true]
    exact hA
termination_by structural bs => bs

end

theorem branch_lt {k t : Nat} : k < branch k t := by
  have := Nat.left_le_pair k t
  unfold branch
  omega

theorem tops (plan : Nat → Plan) : ∀ M, ∃ T, ∀ k ≤ M, (plan k).top ≤ T
  | 0 => ⟨(plan 0).top, fun k hk => by obtain rfl := Nat.le_zero.mp hk; exact Nat.le_refl _⟩
  | M + 1 => by
    obtain ⟨T, h⟩ := tops plan M
    refine ⟨max T (plan (M + 1)).top, fun k hk => ?_⟩
    rcases Nat.lt_or_eq_of_le hk with hk | rfl
    · exact Nat.le_trans (h k (by omega)) (Nat.le_max_left ..)
    · exact Nat.le_max_right ..

/-- There are such numbers. -/
theorem stacked (plan : Nat → Plan) (D M : Nat) : ∃ base, Stacked plan D M base := by
  obtain ⟨T, hT⟩ := tops plan M
  refine ⟨fun k => (M - k) * ((T + 1) * (D + 1) + D + 5), fun k t hk => ?_⟩
  have h1 : ((plan (branch k t)).top + 1) * (D + 1) ≤ (T + 1) * (D + 1) := Nat.mul_le_mul_right _ (Nat.succ_le_succ (hT _ hk))
  have h2 := branch_lt (k := k) (t := t)
  have h3 := Nat.mul_le_mul_right ((T + 1) * (D + 1) + D + 5) (show M - branch k t + 1 ≤ M - k by omega)
  rw [Nat.succ_mul] at h3
  unfold Atlas.cap
  dsimp only
  omega

/-- Plans that are right for each scope are enough. -/
theorem sound_meets (h : sound plan W gs bs = true) : ∃ D base, Atlas.meets ⟨plan, fun _ => D, base⟩ W gs bs = true := by
  unfold sound at h
  rw [Bool.and_eq_true] at h
  obtain ⟨D, M, h⟩ := (late_terms h.1).and (late_defs h.2)
  obtain ⟨base, hb⟩ := stacked plan D M
  refine ⟨D, base, ?_⟩
  unfold Atlas.meets
  rw [Bool.and_eq_true]
  exact h D M base (Nat.le_refl _) (Nat.le_refl _) hb

mutual

theorem thing_sound {A : Atlas} {k : Nat} {x : Str} : ∀ {th : Thing}, A.okThing W k x th = true → soundThing A.plan W k x th = true
  | .own g, h => by
    unfold Atlas.okThing at h
    rw [Bool.and_eq_true, Bool.and_eq_true, Bool.and_eq_true] at h
    unfold soundThing
    rw [Bool.and_eq_true, Bool.and_eq_true]
    exact ⟨⟨h.1.1.1, h.1.2⟩, h.2⟩
  | .file t n gs bs, h => by
    unfold Atlas.okThing at h
    rw [Bool.and_eq_true, Bool.and_eq_true] at h
    unfold soundThing
    have h1 := terms_iff.mp h.1.2
    rw [Bool.and_eq_true, Bool.and_eq_true, Bool.and_eq_true, List.all_eq_true]
    exact ⟨⟨⟨h1.1.1.1, h1.1.2⟩, h1.2⟩, defs_sound h.2⟩
  | .member t bs i n, h => by
    unfold Atlas.okThing at h
    rw [Bool.and_eq_true, Bool.and_eq_true] at h
    unfold soundThing
    rw [Bool.and_eq_true]
    exact ⟨h.1.2, defs_sound h.2⟩
termination_by structural th => th

theorem def_sound {A : Atlas} {k : Nat} : ∀ {b : Str × Thing}, A.okDef W k b = true → soundDef A.plan W k b = true
  | (x, th), h => by
    unfold Atlas.okDef at h
    unfold soundDef
    exact thing_sound h
termination_by structural b => b

theorem defs_sound {A : Atlas} {k : Nat} : ∀ {bs : List (Str × Thing)}, A.okDefs W k bs = true → soundDefs A.plan W k bs = true
  | [], _ => by unfold soundDefs; rfl
  | b :: bs, h => by
    unfold Atlas.okDefs at h
    rw [Bool.and_eq_true] at h
    unfold soundDefs
    rw [Bool.and_eq_true]
    exact ⟨def_sound h.1, defs_sound h.2⟩
termination_by structural bs => bs

end

/-- And nothing less is. -/
theorem meets_sound {A : Atlas} (h : A.meets W gs bs = true) : sound A.plan W gs bs = true := by
  unfold Atlas.meets at h
  rw [Bool.and_eq_true] at h
  have h1 := terms_iff.mp h.1
  unfold sound
  rw [Bool.and_eq_true, Bool.and_eq_true, Bool.and_eq_true, List.all_eq_true]
  exact ⟨⟨⟨h1.1.1.1, h1.1.2⟩, h1.2⟩, defs_sound h.2⟩

/-! ### Weaker demands -/

/-- A demand that asks for less. -/
structure Demand.Le (W' W : Demand) : Prop where
  term : ∀ P g, W.term P g = true → W'.term P g = true
  own : ∀ P x g, W.own P x g = true → W'.own P x g = true
  few : ∀ gs, W.few gs = true → W'.few gs = true

theorem terms_le {A : Atlas} {W' : Demand} (hW : Demand.Le W' W) (h : A.okTerms W k gs = true) : A.okTerms W' k gs = true :=
  let ⟨⟨h1, h2⟩, h3⟩ := terms_iff.mp h
  terms_iff.mpr ⟨⟨h1, fun g hg => hW.term _ g (h2 g hg)⟩, hW.few _ h3⟩

mutual

theorem thing_le {A : Atlas} {W' : Demand} (hW : Demand.Le W' W) {k : Nat} {x : Str} : ∀ {th : Thing}, A.okThing W k x th = true →
    A.okThing W' k x th = true
  | .own g, h => by
    unfold Atlas.okThing at h ⊢
    rw [Bool.and_eq_true, Bool.and_eq_true] at h ⊢
    exact ⟨⟨h.1.1, hW.term _ _ h.1.2⟩, hW.own _ _ _ h.2⟩
  | .file t n gs bs, h => by
    unfold Atlas.okThing at h ⊢
    rw [Bool.and_eq_true, Bool.and_eq_true] at h ⊢
    exact ⟨⟨h.1.1, terms_le hW h.1.2⟩, defs_le hW h.2⟩
  | .member t bs i n, h => by
    unfold Atlas.okThing at h ⊢
    rw [Bool.and_eq_true] at h ⊢
    exact ⟨h.1, defs_le hW h.2⟩
termination_by structural th => th

theorem def_le {A : Atlas} {W' : Demand} (hW : Demand.Le W' W) {k : Nat} : ∀ {b : Str × Thing}, A.okDef W k b = true → A.okDef W' k b = true
  | (x, th), h => by
    unfold Atlas.okDef at h ⊢
    exact thing_le hW h
termination_by structural b => b

theorem defs_le {A : Atlas} {W' : Demand} (hW : Demand.Le W' W) {k : Nat} : ∀ {bs : List (Str × Thing)}, A.okDefs W k bs = true →
    A.okDefs W' k bs = true
  | [], _ => by unfold Atlas.okDefs; rfl
  | b :: bs, h => by
    unfold Atlas.okDefs at h ⊢
    rw [Bool.and_eq_true] at h ⊢
    exact ⟨def_le hW h.1, defs_le hW h.2⟩
termination_by structural bs => bs

end

theorem meets_le {A : Atlas} {W' : Demand} (hW : Demand.Le W' W) (h : A.meets W gs bs = true) : A.meets W' gs bs = true := by
  unfold Atlas.meets at h ⊢
  rw [Bool.and_eq_true] at h ⊢
  exact ⟨terms_le hW h.1, defs_le hW h.2⟩

end Adx.Interp
