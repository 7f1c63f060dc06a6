import Verif.Spec.Atlas
import Verif.Proofs.Toil
import Verif.Proofs.Linked
/-
  Scripts with imports that are not left recursive, whatever their definitions.
-/
namespace Adx.Interp

open Peg (Cuts Cut)

variable {A : Atlas} {d : Quotes} {g g' : Gram} {gs : List Gram} {bs : List (Str × Thing)} {x l : Str} {th : Thing}
  {W : Demand} {k K R : Nat} {σ : Layout}

theorem okDefs_mem' (h : A.okDefs W k bs = true) (hm : (x, th) ∈ bs) : A.okThing W k x th = true := by
  induction bs with
  | nil => cases hm
  | cons b bs ih =>
    unfold Atlas.okDefs at h
    rw [Bool.and_eq_true] at h
    rcases List.mem_cons.mp hm with rfl | hm
    · have := h.1
      unfold Atlas.okDef at this
      exact this
    · exact ih h.2 hm

/-- The terms of a scope that the atlas is right for. -/
structure Charted (A : Atlas) (d : Quotes) (W : Demand) (k : Nat) (g : Gram) : Prop where
  fine : Fine (A.plan k) (A.size k) d g
  term : W.term (A.plan k) g = true

/-- A demand on terms holds for their parts, and for what is named there. -/
structure Passes (W : Demand) : Prop where
  part : ∀ P g g', W.term P g = true → g' ∈ Gram.parts g → W.term P g' = true
  label : ∀ P g l, W.term P g = true → gramLabel g = some l → W.own P l g = true

theorem Charted.part (hQ : Passes W) (h : Charted A d W k g) (hg : g' ∈ Gram.parts g) : Charted A d W k g' :=
  ⟨h.fine.part hg, hQ.part _ _ _ h.term hg⟩

theorem terms_iff : A.okTerms W k gs = true ↔
    (((A.plan k).obeysAll gs = true ∧ sizes gs ≤ A.size k) ∧ ∀ g ∈ gs, W.term (A.plan k) g = true) ∧ W.few gs = true := by
  unfold Atlas.okTerms
  rw [Bool.and_eq_true, Bool.and_eq_true, Bool.and_eq_true, decide_eq_true_iff, List.all_eq_true]

theorem charted_terms (h : A.okTerms W k gs = true) (hs : ∀ g ∈ gs, Sane d g) : ∀ g ∈ gs, Charted A d W k g := by
  obtain ⟨⟨⟨h1, h2⟩, h3⟩, -⟩ := terms_iff.mp h
  exact fun g hg => ⟨⟨obeysAll_mem h1 hg, Nat.le_trans (sizes_mem hg) h2, hs g hg⟩, h3 g hg⟩

/-- What names stand for. -/
structure ChartedThing (A : Atlas) (d : Quotes) (W : Demand) (k : Nat) (x : Str) (th : Thing) : Prop where
  ok : A.okThing W k x th = true
  deep : Deep d th

theorem own_iff : ChartedThing A d W k x (.own g) ↔ ((A.plan k).fits x g = true ∧ W.own (A.plan k) x g = true) ∧ Charted A d W k g := by
  constructor
  · rintro ⟨h1, h2⟩
    unfold Atlas.okThing at h1
    rw [Bool.and_eq_true, Bool.and_eq_true, Bool.and_eq_true, Bool.and_eq_true, decide_eq_true_iff] at h1
    cases h2 with
    | own hs => exact ⟨⟨h1.1.1.1.1, h1.2⟩, ⟨h1.1.1.1.2, h1.1.1.2, hs⟩, h1.1.2⟩
  · rintro ⟨h1, h2⟩
    refine ⟨?_, .own h2.fine.sane⟩
    unfold Atlas.okThing
    rw [Bool.and_eq_true, Bool.and_eq_true, Bool.and_eq_true, Bool.and_eq_true, decide_eq_true_iff]
    exact ⟨⟨⟨⟨h1.1, h2.fine.obeys⟩, h2.fine.size⟩, h2.term⟩, h1.2⟩

theorem file_inv {t : Nat} {n : Str} (h : ChartedThing A d W k x (.file t n gs bs)) :
    A.cap (branch k t) + 5 ≤ A.base k ∧ (∀ g ∈ gs, Charted A d W (branch k t) g) ∧ W.few gs = true := by
  obtain ⟨h1, h2⟩ := h
  unfold Atlas.okThing at h1
  rw [Bool.and_eq_true, Bool.and_eq_true, decide_eq_true_iff] at h1
  cases h2 with
  | file hg hb => exact ⟨h1.1.1, charted_terms h1.1.2 hg, (terms_iff.mp h1.1.2).2⟩

theorem file_any {t : Nat} {n : Str} (h : ChartedThing A d W k x (.file t n gs bs)) :
    ChartedThing A d W k l (.file t n gs bs) := by
  obtain ⟨h1, h2⟩ := h
  refine ⟨?_, h2⟩
  unfold Atlas.okThing at h1 ⊢
  exact h1

theorem member_inv {t : Nat} {i n : Str} (h : ChartedThing A d W k x (.member t bs i n)) :
    A.cap (branch k t) + 3 ≤ A.base k ∧ ((A.plan (branch k t)).skips i = true → (A.plan k).skips x = true) ∧
      ∀ y th, lastDef bs y = some th → ChartedThing A d W (branch k t) y th := by
  obtain ⟨h1, h2⟩ := h
  unfold Atlas.okThing at h1
  rw [Bool.and_eq_true, Bool.and_eq_true, decide_eq_true_iff, Bool.or_eq_true] at h1
  cases h2 with
  | member hb =>
    refine ⟨h1.1.1, fun hi => ?_, fun y th hy => ⟨okDefs_mem' h1.2 (lastDef_mem hy), hb _ (lastDef_mem hy)⟩⟩
    rcases h1.1.2 with h | h
    · rw [hi] at h
      cases h
    · exact h

/-- Definitions that the atlas is right for. -/
def ChartedAll (A : Atlas) (d : Quotes) (W : Demand) (σ : Layout) : Prop :=
  ∀ k x th, lastDef (σ.defs k) x = some th → ChartedThing A d W k x th

theorem ChartedAll.add (h : ChartedAll A d W σ) (ht : ChartedThing A d W k l th) :
    ChartedAll A d W (σ.add k l th) := by
  intro j x th' hx
  rw [defs_add] at hx
  split at hx
  · rename_i he
    subst he
    rw [lastDef_append] at hx
    split at hx
    · rename_i he
      cases hx
      subst he
      exact ht
    · exact h j x th' hx
  · exact h j x th' hx

/-- The nonterminals. -/
def ChartedPart (A : Atlas) (d : Quotes) (W : Demand) (R : Nat) : Joint → Nat → Prop
  | .gram g, k => Charted A d W k g ∧ A.cap k ≤ R
  | .thing j th, k => k = j ∧ (∃ x, ChartedThing A d W j x th) ∧ A.cap j ≤ R
  | .whole _ gs, k => k = 0 ∧ ((∀ g ∈ gs, Charted A d W 1 g) ∧ W.few gs = true) ∧ A.cap 1 + 4 ≤ R
  | .inside gs j, _ => ((∀ g ∈ gs, Charted A d W j g) ∧ W.few gs = true) ∧ A.cap j + 3 ≤ R
  | .flat gs, k => ((∀ g ∈ gs, Charted A d W k g) ∧ W.few gs = true) ∧ A.cap k + 2 ≤ R
  | .all gs, k => ((∀ g ∈ gs, Charted A d W k g) ∧ W.few gs = true) ∧ A.cap k + 1 ≤ R
  | .renamed j bs _ _, k => k = j ∧ (∀ x th, lastDef bs x = some th → ChartedThing A d W j x th) ∧ A.cap j + 1 ≤ R

/-- May it match without consuming? -/
def idleJoint (A : Atlas) : Joint → Nat → Prop
  | .gram g, k => (A.plan k).idle g = true
  | .thing j (.own g), _ => (A.plan j).idle g = true
  | .thing j (.member t _ ident _), _ => (A.plan (branch j t)).skips ident = true
  | .renamed j _ ident _, _ => (A.plan j).skips ident = true
  | _, _ => False

/-- Ranks. -/
def rankJoint (A : Atlas) : Joint → Nat → Nat
  | .gram g, k => A.base k + (A.plan k).height g * (A.size k + 1) + size g
  | .thing j (.own g), _ => A.base j + (A.plan j).height g * (A.size j + 1) + size g
  | .thing j (.file t _ _ _), _ => A.cap (branch j t) + 4
  | .thing j (.member t _ _ _), _ => A.cap (branch j t) + 2
  | .whole _ _, _ => A.cap 1 + 4
  | .inside _ j, _ => A.cap j + 3
  | .flat _, k => A.cap k + 2
  | .all _, k => A.cap k + 1
  | .renamed j _ _ _, _ => A.cap j + 1

theorem base_cap : A.base k ≤ A.cap k := by unfold Atlas.cap; omega

theorem rank_joint (h : Charted A d W k g) : A.base k + (A.plan k).height g * (A.size k + 1) + size g ≤ A.cap k := by
  have h1 := Nat.mul_le_mul_right (A.size k + 1) (height_le (P := A.plan k) g)
  have h2 := h.fine.size
  unfold Atlas.cap
  omega

theorem rank_thing (h : ChartedThing A d W k x th) {j : Nat} : rankJoint A (.thing k th) j ≤ A.cap k := by
  cases th with
  | own g => exact rank_joint (own_iff.mp h).2
  | file t n gs bs =>
    have h1 := (file_inv h).1
    have h2 := base_cap (A := A) (k := k)
    show A.cap (branch k t) + 4 ≤ _
    omega
  | member t bs i n =>
    have h1 := (member_inv h).1
    have h2 := base_cap (A := A) (k := k)
    show A.cap (branch k t) + 2 ≤ _
    omega

theorem idle_joint (h : ChartedThing A d W k x th) {j : Nat} (hi : idleJoint A (.thing k th) j) : (A.plan k).skips x = true := by
  cases th with
  | own g => exact (fits_iff.mp (own_iff.mp h).1.1).2 hi
  | file => exact hi.elim
  | member t bs i n => exact (member_inv h).2.1 hi

theorem joint_uses {q : Joint} {j : Nat} (hr : ¬ ∃ n c y, g = .ref n c y) {I : Layout → Prop}
    (h : (gramExpr Joint.gram g).Reaches linkedNames I k q j) : j = k ∧ ∃ g' ∈ Gram.parts g, q = .gram g' := by
  have h' : j = k ∧ q ∈ (gramExpr Joint.gram g).uses := by
    cases g with
    | ref n c y => exact (hr ⟨n, c, y, rfl⟩).elim
    | group n c first gs => cases first <;> exact h
    | _ => exact h
  exact ⟨h'.1, gramExpr_uses h'.2⟩

theorem joint_call {q : Joint} {y : Str} {I : Layout → Prop} {j : Nat}
    (h : (Expr.call y : Expr Joint).Reaches linkedNames I k q j) : j = k ∧ ∃ st th, I st ∧ lastDef (st.defs k) y = some th ∧ q = .thing k th := by
  obtain ⟨rfl, st, hi, h⟩ := h
  obtain ⟨th, h1, rfl⟩ := Option.map_eq_some_iff.mp (show (lastDef (st.defs _) y).map (Joint.thing _) = some q from h)
  exact ⟨rfl, st, th, hi, h1, rfl⟩

theorem joint_reach (hQ : Passes W) (hg : Charted A d W k g) (hR : A.cap k ≤ R) {q : Joint} {j : Nat}
    (h : (gramExpr Joint.gram g).Reaches linkedNames (ChartedAll A d W) k q j) : ChartedPart A d W R q j := by
  by_cases hr : ∃ n c y, g = .ref n c y
  · obtain ⟨n, c, y, rfl⟩ := hr
    obtain ⟨rfl, st, th, hi, h1, rfl⟩ := joint_call h
    exact ⟨rfl, ⟨y, hi _ y th h1⟩, hR⟩
  · obtain ⟨rfl, g', h1, rfl⟩ := joint_uses hr h
    exact ⟨hg.part hQ h1, hR⟩

theorem linked_closed (hQ : Passes W) : Closed linkedGrammar linkedNames (ChartedPart A d W R) (ChartedAll A d W) where
  reaches m k hm q j h := by
    cases m with
    | gram g => exact joint_reach hQ hm.1 hm.2 h
    | thing i th =>
      obtain ⟨rfl, ⟨x, hx⟩, hR⟩ := hm
      have hb := base_cap (A := A) (k := k)
      cases th with
      | own g => exact joint_reach hQ (own_iff.mp hx).2 hR h
      | file t n gs bs =>
        obtain ⟨rfl, h⟩ := h
        cases List.mem_singleton.mp h
        obtain ⟨h1, h2⟩ := file_inv hx
        exact ⟨h2, by omega⟩
      | member t bs i n =>
        obtain ⟨rfl, rfl⟩ := h
        obtain ⟨h1, -, h2⟩ := member_inv hx
        exact ⟨rfl, h2, by omega⟩
    | whole n gs =>
      obtain ⟨rfl, h⟩ := h
      cases List.mem_singleton.mp h
      obtain ⟨-, h1, h2⟩ := hm
      exact ⟨h1, by omega⟩
    | inside gs i =>
      obtain ⟨rfl, rfl⟩ := h
      exact ⟨hm.1, by have := hm.2; omega⟩
    | flat gs =>
      obtain ⟨rfl, h⟩ := h
      cases List.mem_singleton.mp h
      exact ⟨hm.1, by have := hm.2; omega⟩
    | all gs =>
      obtain ⟨rfl, h⟩ := h
      obtain ⟨g, h1, rfl⟩ := List.mem_map.mp h
      exact ⟨hm.1.1 g h1, by have := hm.2; omega⟩
    | renamed i bs y n =>
      obtain ⟨rfl, hd, hR⟩ := hm
      have h' : (match lastDef bs y with | some th => Expr.rename n (Joint.thing k th) | none => .call y).Reaches linkedNames
        (ChartedAll A d W) k q j := h
      cases hy : lastDef bs y with
      | none =>
        rw [hy] at h'
        obtain ⟨rfl, st, th, hi, h1, rfl⟩ := joint_call h'
        exact ⟨rfl, ⟨y, hi _ y th h1⟩, by omega⟩
      | some th =>
        rw [hy] at h'
        obtain ⟨rfl, h'⟩ := h'
        cases List.mem_singleton.mp h'
        exact ⟨rfl, ⟨y, hd y th hy⟩, by omega⟩
  enter m k st hm hi := by
    unfold Interp.enter
    cases m with
    | gram g =>
      show ChartedAll A d W (match gramLabel g with | some l => _ | none => st)
      cases hl : gramLabel g with
      | none => exact hi
      | some l => exact ChartedAll.add hi (own_iff.mpr ⟨⟨obeys_label hm.1.fine.obeys hl, hQ.label _ _ _ hm.1.term hl⟩, hm.1⟩)
    | thing i th =>
      obtain ⟨rfl, ⟨x, hx⟩, -⟩ := hm
      cases th with
      | own g =>
        show ChartedAll A d W (match gramLabel g with | some l => _ | none => st)
        cases hl : gramLabel g with
        | none => exact hi
        | some l =>
          have h2 := (own_iff.mp hx).2
          exact ChartedAll.add hi (own_iff.mpr ⟨⟨obeys_label h2.fine.obeys hl, hQ.label _ _ _ h2.term hl⟩, h2⟩)
      | file t n gs bs => exact ChartedAll.add hi (file_any hx)
      | member => exact hi
    | _ => exact hi
  regex m k hm n f he := by
    cases m with
    | gram g => exact gramExpr_re hm.1.fine.sane he
    | thing i th =>
      obtain ⟨rfl, ⟨x, hx⟩, -⟩ := hm
      cases th with
      | own g => exact gramExpr_re (own_iff.mp hx).2.fine.sane he
      | file => cases he
      | member => cases he
    | renamed i bs y l =>
      have he' : (match lastDef bs y with | some th => Expr.rename l (Joint.thing i th) | none => .call y) = .re n f := he
      split at he' <;> cases he'
    | _ => cases he
  delim m k hm n a b e he := by
    have key : ∀ {g}, Sane d g → gramExpr Joint.gram g = .delim n a b e → a ≠ [] ∧ b ≠ [] := by
      intro g hs he
      cases hs with
      | @sequence _ _ _ _ _ hd ha hb => cases he; exact ⟨ha, hb⟩
      | @group _ _ first _ _ => cases first <;> cases he
      | _ => cases he
    cases m with
    | gram g => exact key hm.1.fine.sane he
    | thing i th =>
      obtain ⟨rfl, ⟨x, hx⟩, -⟩ := hm
      cases th with
      | own g => exact key (own_iff.mp hx).2.fine.sane he
      | file => cases he
      | member => cases he
    | renamed i bs y l =>
      have he' : (match lastDef bs y with | some th => Expr.rename l (Joint.thing i th) | none => .call y) = .delim n a b e := he
      split at he' <;> cases he'
    | _ => cases he

theorem joint_idle (hb : Blank (A.plan k).blank)
    (h : (gramExpr Joint.gram g).Idles linkedNames (ChartedAll A d W) (idleJoint A) k) : (A.plan k).idle g = true := by
  cases g with
  | regex n c re => obtain ⟨w, h⟩ := h; exact hb re w h
  | ref n c y =>
    obtain ⟨st, m, hi, h1, h2⟩ := h
    obtain ⟨th, h3, rfl⟩ := Option.map_eq_some_iff.mp (show (lastDef (st.defs k) y).map (Joint.thing k) = some m from h1)
    exact idle_joint (hi k y th h3) h2
  | group n c first gs => cases first <;> exact h.elim
  | loop lo hi g => obtain ⟨rfl, rfl⟩ := h; rfl
  | null => rfl
  | opt => rfl
  | not => rfl
  | equals => exact h.elim
  | sequence => exact h.elim
  | discard g => exact h
  | attrs a g => exact h

theorem joint_first {q : Joint} {j : Nat}
    (h : (gramExpr Joint.gram g).First linkedNames (ChartedAll A d W) (idleJoint A) k q j) :
    rankJoint A q j < A.base k + (A.plan k).height g * (A.size k + 1) + size g := by
  have key : ∀ g' ∈ Gram.parts g, (A.plan k).height g' ≤ (A.plan k).height g →
      rankJoint A (.gram g') k < A.base k + (A.plan k).height g * (A.size k + 1) + size g := by
    intro g' h1 h2
    have h3 := Nat.mul_le_mul_right (A.size k + 1) h2
    have h4 := part_size h1
    dsimp only [rankJoint]
    omega
  cases g with
  | ref n c y =>
    obtain ⟨rfl, st, th, hi, h1, rfl⟩ := joint_call h
    have hx := hi _ y th h1
    have h0 : (A.plan j).height (.ref n c y) = (A.plan j).level y + 1 := by unfold Plan.height; rfl
    cases th with
    | own g' =>
      obtain ⟨h2, h3⟩ := own_iff.mp hx
      have h4 := Nat.mul_le_mul_right (A.size j + 1) (fits_iff.mp h2.1).1
      have h5 := h3.fine.size
      dsimp only [rankJoint]
      rw [h0, Nat.succ_mul]
      omega
    | file t n gs bs =>
      have := (file_inv hx).1
      dsimp only [rankJoint]
      omega
    | member t bs i n =>
      have := (member_inv hx).1
      dsimp only [rankJoint]
      omega
  | group n c first gs =>
    cases first with
    | true =>
      obtain ⟨rfl, h⟩ := h
      obtain ⟨g', h1, rfl⟩ := List.mem_map.mp h
      exact key g' h1 (heights_mem h1)
    | false =>
      obtain ⟨rfl, h⟩ := h
      have h' : ∃ g' ∈ gs, q = .gram g' ∧ Lead (fun g => (A.plan j).idle g = true) gs g' := by
        clear key
        induction gs with
        | nil => exact h.elim
        | cons a gs ih =>
          rcases h with rfl | ⟨h1, h2⟩
          · exact ⟨a, by simp, rfl, Or.inl rfl⟩
          · obtain ⟨g', h3, h4, h5⟩ := ih h2
            exact ⟨g', by simp [h3], h4, Or.inr ⟨h1, h5⟩⟩
      obtain ⟨g', h1, rfl, h2⟩ := h'
      exact key g' h1 (heights_lead (fun _ h => h) h2)
  | loop lo hi g =>
    obtain ⟨rfl, h⟩ := h
    rcases h with rfl | ⟨-, h⟩
    · exact key g (by simp [Gram.parts]) (Nat.le_refl _)
    · exact h.elim
  | opt g | not g | discard g | attrs a g =>
    obtain ⟨rfl, h⟩ := h
    cases List.mem_singleton.mp h
    exact key g (by simp [Gram.parts]) (Nat.le_refl _)
  | null | equals | regex | sequence =>
    obtain ⟨rfl, h⟩ := h
    cases h

theorem linked_ranked (hb : ∀ k, Blank (A.plan k).blank) : Ranked linkedGrammar linkedNames (ChartedPart A d W R)
    (ChartedAll A d W) (idleJoint A) (rankJoint A) R where
  bound m k hm := by
    cases m with
    | gram g => exact Nat.le_trans (rank_joint hm.1) hm.2
    | thing i th =>
      obtain ⟨rfl, ⟨x, hx⟩, hR⟩ := hm
      exact Nat.le_trans (rank_thing hx) hR
    | whole n gs => exact hm.2.2
    | inside gs i => exact hm.2
    | flat gs => exact hm.2
    | all gs => exact hm.2
    | renamed i bs y n => exact hm.2.2
  idle m k hm h := by
    cases m with
    | gram g => exact joint_idle (hb k) h
    | thing i th =>
      obtain ⟨rfl, ⟨x, hx⟩, -⟩ := hm
      cases th with
      | own g => exact joint_idle (hb k) h
      | file => exact h.elim
      | member => exact h
    | renamed i bs y n =>
      obtain ⟨rfl, hd, -⟩ := hm
      have h' : (match lastDef bs y with | some th => Expr.rename n (Joint.thing k th) | none => .call y).Idles linkedNames
        (ChartedAll A d W) (idleJoint A) k := h
      cases hy : lastDef bs y with
      | none =>
        rw [hy] at h'
        obtain ⟨st, m, hi, h1, h2⟩ := h'
        obtain ⟨th, h3, rfl⟩ := Option.map_eq_some_iff.mp (show (lastDef (st.defs k) y).map (Joint.thing k) = some m from h1)
        exact idle_joint (hi k y th h3) h2
      | some th =>
        rw [hy] at h'
        exact idle_joint (hd y th hy) h'
    | whole => exact h.elim
    | inside => exact h
    | flat => exact h
    | all => exact h.elim
  less m k hm q j h := by
    cases m with
    | gram g => exact joint_first h
    | thing i th =>
      obtain ⟨rfl, ⟨x, hx⟩, -⟩ := hm
      cases th with
      | own g => exact joint_first h
      | file t n gs bs =>
        obtain ⟨rfl, h⟩ := h
        rcases h with rfl | ⟨h, -⟩
        · exact Nat.lt_succ_self _
        · exact h.elim
      | member t bs i n =>
        obtain ⟨rfl, rfl⟩ := h
        exact Nat.lt_succ_self _
    | whole n gs =>
      obtain ⟨rfl, h⟩ := h
      rcases h with rfl | ⟨h, -⟩
      · exact Nat.lt_succ_self _
      · exact h.elim
    | inside gs i =>
      obtain ⟨rfl, rfl⟩ := h
      exact Nat.lt_succ_self _
    | flat gs =>
      obtain ⟨rfl, h⟩ := h
      cases List.mem_singleton.mp h
      exact Nat.lt_succ_self _
    | all gs =>
      obtain ⟨rfl, h⟩ := h
      have h' : ∃ g' ∈ gs, q = .gram g' := by
        clear hm
        induction gs with
        | nil => exact h.elim
        | cons a gs ih =>
          rcases h with rfl | ⟨h1, h2⟩
          · exact ⟨a, by simp, rfl⟩
          · obtain ⟨g', h3, h4⟩ := ih h2
            exact ⟨g', by simp [h3], h4⟩
      obtain ⟨g', h1, rfl⟩ := h'
      exact Nat.lt_succ_of_le (rank_joint (hm.1.1 g' h1))
    | renamed i bs y n =>
      obtain ⟨rfl, hd, -⟩ := hm
      have h' : (match lastDef bs y with | some th => Expr.rename n (Joint.thing k th) | none => .call y).Reaches linkedNames
          (ChartedAll A d W) k q j := by
        have h' : (match lastDef bs y with | some th => Expr.rename n (Joint.thing k th) | none => .call y).First linkedNames
          (ChartedAll A d W) (idleJoint A) k q j := h
        cases hy : lastDef bs y with
        | none => rw [hy] at h'; exact h'
        | some th => rw [hy] at h'; exact h'
      cases hy : lastDef bs y with
      | none =>
        rw [hy] at h'
        obtain ⟨rfl, st, th, hi, h1, rfl⟩ := joint_call h'
        exact Nat.lt_succ_of_le (rank_thing (hi _ y th h1))
      | some th =>
        rw [hy] at h'
        obtain ⟨rfl, h'⟩ := h'
        cases List.mem_singleton.mp h'
        exact Nat.lt_succ_of_le (rank_thing (hd y th hy))

/-! ### The beginning -/

theorem deep_thing (h : Deep d th) : SaneThing d th := by
  induction h with
  | own h => exact .own h
  | file hg _ ih => exact .file hg (.mk fun x th hx => ih _ (lastDef_mem hx))
  | member _ ih => exact .member (.mk fun x th hx => ih _ (lastDef_mem hx))

theorem deep_defs (h : ∀ b ∈ bs, Deep d b.2) : SaneDefs d bs := .mk fun _ _ hx => deep_thing (h _ (lastDef_mem hx))

theorem charted_inner {k0 : Nat} {bs0 : List (Str × Thing)} (h : Inner k0 bs0 k bs) :
    A.okDefs W k0 bs0 = true → (∀ b ∈ bs0, Deep d b.2) → A.okDefs W k bs = true ∧ ∀ b ∈ bs, Deep d b.2 := by
  induction h with
  | here => exact fun h1 h2 => ⟨h1, h2⟩
  | @down k0 bs0 b t k bs hb ht _ ih =>
    intro h1 h2
    obtain ⟨x, th⟩ := b
    have h3 := okDefs_mem' h1 hb
    have h4 := h2 _ hb
    cases th with
    | own => cases ht
    | file t' n gs bs' =>
      cases ht
      unfold Atlas.okThing at h3
      rw [Bool.and_eq_true] at h3
      cases h4 with
      | file _ hb' => exact ih h3.2 hb'
    | member t' bs' i n =>
      cases ht
      unfold Atlas.okThing at h3
      rw [Bool.and_eq_true] at h3
      cases h4 with
      | member hb' => exact ih h3.2 hb'

theorem charted_start (h1 : A.okDefs W 1 bs = true) (h2 : ∀ b ∈ bs, Deep d b.2) : ChartedAll A d W (scopesOf bs) := by
  intro k x th hx
  unfold Layout.defs at hx
  cases hf : (scopesOf bs).find? fun e => e.1 == k with
  | none =>
    rw [hf] at hx
    cases hx
  | some e =>
    rw [hf] at hx
    obtain ⟨k', bs'⟩ := e
    have h3 := scopesOf_inner (List.mem_of_find?_eq_some hf)
    obtain rfl : k' = k := by simpa using List.find?_some hf
    obtain ⟨h4, h5⟩ := charted_inner h3 h1 h2
    exact ⟨okDefs_mem' h4 (lastDef_mem hx), h5 _ (lastDef_mem hx)⟩

/-! ### Costs -/

theorem joint_narrow {P : Plan} (hK : 0 < K) (hs : P.spare K g = true) : (gramExpr Joint.gram g).uses.length ≤ K := by
  cases g with
  | group n c first gs =>
    unfold Plan.spare at hs
    rw [Bool.and_eq_true, decide_eq_true_iff] at hs
    cases first <;>
    · show (gs.map _).length ≤ K
      rw [List.length_map]
      exact hs.1
  | loop => exact hK
  | opt => exact hK
  | not => exact hK
  | discard => exact hK
  | attrs => exact hK
  | _ => exact Nat.zero_le _

theorem joint_moves {P : Plan} (hs : P.spare K g = true) {n : Str} {ms : List Joint} {lo : Nat} {hi : Nat}
    (he : gramExpr Joint.gram g = .loop n ms lo hi) : ∃ g', .gram g' ∈ ms ∧ ¬ P.idle g' = true := by
  cases g with
  | loop lo hi g =>
    cases he
    unfold Plan.spare at hs
    rw [Bool.and_eq_true, Bool.not_eq_true'] at hs
    exact ⟨g, List.mem_singleton.mpr rfl, by rw [hs.1]; exact Bool.false_ne_true⟩
  | group n c first gs => cases first <;> cases he
  | _ => cases he

theorem spare_passes : Passes (.spare K) := ⟨fun _ _ _ h hg => part_spare h hg, fun _ _ _ _ _ => rfl⟩

theorem tiers_iff {P : Plan} : (Demand.tiers K).term P g = true ↔ P.spare K g = true ∧ Tiered P g := by
  unfold Demand.tiers Tiered
  rw [Bool.and_eq_true, List.all_eq_true]
  exact and_congr_right fun _ => forall₂_congr fun _ _ => decide_eq_true_iff

theorem tiers_passes : Passes (.tiers K) where
  part _ _ _ h hg := tiers_iff.mpr (tiered_kept.part (tiers_iff.mp h) hg)
  label _ _ _ h hl := decide_eq_true (tiered_kept.label (tiers_iff.mp h) hl)

/-- A demand that bounds the cost. -/
structure Bounds (W : Demand) (K : Nat) : Prop where
  term : ∀ P g, W.term P g = true → P.spare K g = true
  few : ∀ gs, W.few gs = true → gs.length ≤ K

theorem spare_bounds : Bounds (.spare K) K := ⟨fun _ _ h => h, fun _ h => of_decide_eq_true h⟩

theorem tiers_bounds : Bounds (.tiers K) K := ⟨fun _ _ h => (tiers_iff.mp h).1, fun _ h => of_decide_eq_true h⟩

theorem linked_modest (hW : Bounds W K) (hb : ∀ k, Blank (A.plan k).blank) (hK : 0 < K) :
    Modest linkedGrammar linkedNames (ChartedPart A d W R) (ChartedAll A d W) (idleJoint A) K where
  narrow m k hm := by
    cases m with
    | gram g => exact joint_narrow hK (hW.term _ _ hm.1.term)
    | thing i th =>
      obtain ⟨rfl, ⟨x, hx⟩, -⟩ := hm
      cases th with
      | own g => exact joint_narrow hK (hW.term _ _ (own_iff.mp hx).2.term)
      | file => exact hK
      | member => exact hK
    | whole => exact hK
    | inside => exact hK
    | flat => exact hK
    | all gs =>
      show (gs.map _).length ≤ K
      rw [List.length_map]
      exact hW.few _ hm.1.2
    | renamed i bs y n =>
      show (match lastDef bs y with | some th => Expr.rename n (Joint.thing i th) | none => .call y).uses.length ≤ K
      cases lastDef bs y with
      | none => exact Nat.zero_le _
      | some th => exact hK
  idle := (linked_ranked hb).idle
  moves m k hm name ms lo hi he := by
    cases m with
    | gram g =>
      obtain ⟨g', h1, h2⟩ := joint_moves (hW.term _ _ hm.1.term) he
      exact ⟨_, h1, h2⟩
    | thing i th =>
      obtain ⟨rfl, ⟨x, hx⟩, -⟩ := hm
      cases th with
      | own g =>
        obtain ⟨g', h1, h2⟩ := joint_moves (hW.term _ _ (own_iff.mp hx).2.term) he
        exact ⟨_, h1, h2⟩
      | file => cases he
      | member => cases he
    | renamed i bs y n =>
      have he' : (match lastDef bs y with | some th => Expr.rename n (Joint.thing i th) | none => .call y) = .loop name ms lo hi := he
      split at he' <;> cases he'
    | _ => cases he

variable {p : Parser} {stop pos fuel : Nat} {n : Str}

/-- The interpreter returns, and the atlas stays right. -/
theorem linked_total (hQ : Passes W) (hb : ∀ k, Blank (A.plan k).blank) (hgs : ∀ g ∈ gs, Charted A d W 1 g) (hfew : W.few gs = true)
    (hσ : ChartedAll A d W σ) (hpos : Cut p.src stop pos) (hf : (stop - pos + 1) * A.perByte ≤ fuel) :
    ∃ x, runLinked p stop n gs fuel pos σ = some x := by
  refine eval_total (p := p) (stop := stop) (linked_closed (R := A.cap 1 + 4) hQ) (linked_ranked hb) (m := .whole n gs) (k := 0)
    ⟨rfl, ⟨hgs, hfew⟩, Nat.le_refl _⟩ hpos hσ ?_
  unfold depthFor
  show (stop - pos) * (A.cap 1 + 4 + 1) + (A.cap 1 + 4) + 1 ≤ fuel
  rw [Nat.add_assoc, ← Nat.succ_mul]
  exact hf

theorem linked_stays (hQ : Passes W) (hb : ∀ k, Blank (A.plan k).blank) (hgs : ∀ g ∈ gs, Charted A d W 1 g) (hfew : W.few gs = true)
    (hσ : ChartedAll A d W σ) (hpos : Cut p.src stop pos) {x : Result × Layout} (h : runLinked p stop n gs fuel pos σ = some x) :
    ChartedAll A d W x.2 :=
  (eval_ok (p := p) (stop := stop) (linked_closed (R := A.cap 1 + 4) hQ) (linked_ranked hb).idle fuel (.whole n gs) 0
    ⟨rfl, ⟨hgs, hfew⟩, Nat.le_refl _⟩ pos σ hpos hσ x h).2.1

theorem linked_work_le (hW : Bounds W K) (hQ : Passes W) (hb : ∀ k, Blank (A.plan k).blank) (hK : 0 < K) (hgs : ∀ g ∈ gs, Charted A d W 1 g)
    (hl : W.few gs = true) (hσ : ChartedAll A d W σ) (hpos : Cut p.src stop pos) :
    work linkedGrammar linkedNames p stop fuel (.whole n gs) 0 pos σ ≤ ((stop - pos + 1) * K + 1) ^ fuel :=
  work_le (lev := fun n _ _ => n) (linked_closed (R := A.cap 1 + 4) hQ) (linked_modest hW hb hK) (fun n _ _ => Nat.succ_pos n)
    (fun n _ _ _ _ _ _ => Nat.lt_succ_self n)
    (m := .whole n gs) (k := 0) ⟨rfl, ⟨hgs, hl⟩, Nat.le_refl _⟩ hpos hσ (Nat.le_refl _)

/-! ### Scripts that are not recursive -/

/-- Levels of nonterminals. -/
def tierJoint (A : Atlas) : Joint → Nat → Nat
  | .gram g, k => A.base k + (A.plan k).depth g * (A.size k + 1) + size g
  | .thing j (.own g), _ => A.base j + (A.plan j).depth g * (A.size j + 1) + size g
  | .thing j (.file t _ _ _), _ => A.cap (branch j t) + 4
  | .thing j (.member t _ _ _), _ => A.cap (branch j t) + 2
  | .whole _ _, _ => A.cap 1 + 4
  | .inside _ j, _ => A.cap j + 3
  | .flat _, k => A.cap k + 2
  | .all _, k => A.cap k + 1
  | .renamed j _ _ _, _ => A.cap j + 1

theorem tier_joint (h : Charted A d W k g) : A.base k + (A.plan k).depth g * (A.size k + 1) + size g ≤ A.cap k := by
  have h1 := Nat.mul_le_mul_right (A.size k + 1) (depth_le (P := A.plan k) g)
  have h2 := h.fine.size
  unfold Atlas.cap
  omega

theorem tier_thing (h : ChartedThing A d W k x th) {j : Nat} : tierJoint A (.thing k th) j ≤ A.cap k := by
  cases th with
  | own g => exact tier_joint (own_iff.mp h).2
  | file t n gs bs =>
    have h1 := (file_inv h).1
    have h2 := base_cap (A := A) (k := k)
    show A.cap (branch k t) + 4 ≤ _
    omega
  | member t bs i n =>
    have h1 := (member_inv h).1
    have h2 := base_cap (A := A) (k := k)
    show A.cap (branch k t) + 2 ≤ _
    omega

theorem joint_tier {q : Joint} {j : Nat} (h : (gramExpr Joint.gram g).Reaches linkedNames (ChartedAll A d (.tiers K)) k q j) :
    tierJoint A q j < A.base k + (A.plan k).depth g * (A.size k + 1) + size g := by
  by_cases hr : ∃ n c y, g = .ref n c y
  · obtain ⟨n, c, y, rfl⟩ := hr
    obtain ⟨rfl, st, th, hi, h1, rfl⟩ := joint_call h
    have hx := hi _ y th h1
    have h0 : (A.plan j).depth (.ref n c y) = (A.plan j).level y + 1 := by unfold Plan.depth; rfl
    cases th with
    | own g' =>
      obtain ⟨h2, h3⟩ := own_iff.mp hx
      have h4 := Nat.mul_le_mul_right (A.size j + 1) (of_decide_eq_true (show decide ((A.plan j).depth g' ≤ (A.plan j).level y) = true from h2.2))
      have h5 := h3.fine.size
      dsimp only [tierJoint]
      rw [h0, Nat.succ_mul]
      omega
    | file t n gs bs =>
      have := (file_inv hx).1
      dsimp only [tierJoint]
      omega
    | member t bs i n =>
      have := (member_inv hx).1
      dsimp only [tierJoint]
      omega
  · obtain ⟨rfl, g', h1, rfl⟩ := joint_uses hr h
    have h3 := Nat.mul_le_mul_right (A.size j + 1) (part_depth (P := A.plan j) h1)
    have h4 := part_size h1
    dsimp only [tierJoint]
    omega

theorem joint_less {m q : Joint} {j : Nat} (hm : ChartedPart A d (.tiers K) R m k)
    (h : (linkedGrammar.expr m).Reaches linkedNames (ChartedAll A d (.tiers K)) k q j) : tierJoint A q j < tierJoint A m k := by
  cases m with
  | gram g => exact joint_tier h
  | thing i th =>
    obtain ⟨rfl, ⟨x, hx⟩, -⟩ := hm
    cases th with
    | own g => exact joint_tier h
    | file t n gs bs =>
      obtain ⟨rfl, h⟩ := h
      cases List.mem_singleton.mp h
      exact Nat.lt_succ_self _
    | member t bs i n =>
      obtain ⟨rfl, rfl⟩ := h
      exact Nat.lt_succ_self _
  | whole n gs =>
    obtain ⟨rfl, h⟩ := h
    cases List.mem_singleton.mp h
    exact Nat.lt_succ_self _
  | inside gs i =>
    obtain ⟨rfl, rfl⟩ := h
    exact Nat.lt_succ_self _
  | flat gs =>
    obtain ⟨rfl, h⟩ := h
    cases List.mem_singleton.mp h
    exact Nat.lt_succ_self _
  | all gs =>
    obtain ⟨rfl, h⟩ := h
    obtain ⟨g, h1, rfl⟩ := List.mem_map.mp h
    exact Nat.lt_succ_of_le (tier_joint (hm.1.1 g h1))
  | renamed i bs y n =>
    obtain ⟨rfl, hd, -⟩ := hm
    have h' : (match lastDef bs y with | some th => Expr.rename n (Joint.thing k th) | none => .call y).Reaches linkedNames
      (ChartedAll A d (.tiers K)) k q j := h
    cases hy : lastDef bs y with
    | none =>
      rw [hy] at h'
      obtain ⟨rfl, st, th, hi, h1, rfl⟩ := joint_call h'
      exact Nat.lt_succ_of_le (tier_thing (hi _ y th h1))
    | some th =>
      rw [hy] at h'
      obtain ⟨rfl, h'⟩ := h'
      cases List.mem_singleton.mp h'
      exact Nat.lt_succ_of_le (tier_thing (hd y th hy))

theorem linked_work_tiers (hb : ∀ k, Blank (A.plan k).blank) (hK : 0 < K) (hgs : ∀ g ∈ gs, Charted A d (.tiers K) 1 g)
    (hl : (Demand.tiers K).few gs = true) (hσ : ChartedAll A d (.tiers K) σ) (hpos : Cut p.src stop pos) :
    work linkedGrammar linkedNames p stop fuel (.whole n gs) 0 pos σ ≤ ((stop - pos + 1) * K + 1) ^ A.perByte :=
  work_le (lev := fun _ m k => tierJoint A m k + 1) (linked_closed (R := A.cap 1 + 4) tiers_passes) (linked_modest tiers_bounds hb hK)
    (fun _ _ _ => Nat.succ_pos _) (fun _ _ _ hm _ _ h => Nat.succ_lt_succ (joint_less hm h))
    (m := .whole n gs) (k := 0) ⟨rfl, ⟨hgs, hl⟩, Nat.le_refl _⟩ hpos hσ (Nat.le_refl _)

end Adx.Interp
