import Verif.Proofs.ScriptRank
import Verif.Proofs.InterpFixed
/-
  Scripts with imports that are not left recursive: their terms have ranks.
-/
namespace Adx.Interp

open Peg (Cuts Cut)

variable {pl : List (Str × Thing) → Plan} {P : Plan} {d : Quotes} {g g' : Gram} {gs : List Gram} {bs : List (Str × Thing)} {x : Str}
  {th : Thing}

theorem okDefs_mem (h : okDefs pl P bs = true) (hm : (x, th) ∈ bs) : okThing pl P x th = true := by
  induction bs with
  | nil => cases hm
  | cons b bs ih =>
    unfold okDefs at h
    rw [Bool.and_eq_true] at h
    rcases List.mem_cons.mp hm with rfl | hm
    · have := h.1
      unfold okDef at this
      exact this
    · exact ih h.2 hm

theorem costs_mem (hm : (x, th) ∈ bs) : cost pl th ≤ costs pl bs := by
  induction bs with
  | nil => cases hm
  | cons b bs ih =>
    unfold costs
    rcases List.mem_cons.mp hm with rfl | hm
    · have := Nat.le_max_left (costOf pl (x, th)) (costs pl bs)
      rwa [show costOf pl (x, th) = cost pl th by unfold costOf; rfl] at this ⊢
    · exact Nat.le_trans (ih hm) (Nat.le_max_right _ _)

theorem ownSizes_mem (hm : (x, .own g) ∈ bs) : size g ≤ ownSizes bs := by
  induction bs with
  | nil => cases hm
  | cons b bs ih =>
    rcases List.mem_cons.mp hm with rfl | hm'
    · exact Nat.le_max_left _ _
    · clear hm
      obtain ⟨y, th⟩ := b
      cases th with
      | own g' => exact Nat.le_trans (ih hm') (Nat.le_max_right _ _)
      | file => exact ih hm'
      | member => exact ih hm'

/-- Ranks of what is in scripts. -/
def rankPlace (pl : List (Str × Thing) → Plan) : Place → Nat
  | .gram bs g => costs pl bs + (pl bs).height g * (ownSizes bs + 1) + size g
  | .thing bs (.own g) => costs pl bs + (pl bs).height g * (ownSizes bs + 1) + size g
  | .thing _ (.file _ _ gs bs) => costs pl bs + ((pl bs).top + 1) * (ownSizes bs + 1) + max (ownSizes bs) (sizes gs) + 4
  | .thing _ (.member _ bs _ _) => costs pl bs + ((pl bs).top + 1) * (ownSizes bs + 1) + ownSizes bs + 2
  | .whole _ gs bs => costs pl bs + ((pl bs).top + 1) * (ownSizes bs + 1) + max (ownSizes bs) (sizes gs) + 4
  | .inside gs bs => costs pl bs + ((pl bs).top + 1) * (ownSizes bs + 1) + max (ownSizes bs) (sizes gs) + 3
  | .flat gs bs => costs pl bs + ((pl bs).top + 1) * (ownSizes bs + 1) + max (ownSizes bs) (sizes gs) + 2
  | .all gs bs => costs pl bs + ((pl bs).top + 1) * (ownSizes bs + 1) + max (ownSizes bs) (sizes gs) + 1
  | .renamed bs _ _ => costs pl bs + ((pl bs).top + 1) * (ownSizes bs + 1) + ownSizes bs + 1

/-- A bound for all ranks that can be reached. -/
def capPlace (pl : List (Str × Thing) → Plan) : Place → Nat
  | .gram bs g => costs pl bs + ((pl bs).top + 1) * (ownSizes bs + 1) + max (ownSizes bs) (size g)
  | .thing bs (.own g) => costs pl bs + ((pl bs).top + 1) * (ownSizes bs + 1) + max (ownSizes bs) (size g)
  | q => rankPlace pl q

theorem rank_cap {q : Place} : rankPlace pl q ≤ capPlace pl q := by
  have key : ∀ (bs : List (Str × Thing)) (g : Gram), costs pl bs + (pl bs).height g * (ownSizes bs + 1) + size g ≤
      costs pl bs + ((pl bs).top + 1) * (ownSizes bs + 1) + max (ownSizes bs) (size g) := by
    intro bs g
    have h1 := Nat.mul_le_mul_right (ownSizes bs + 1) (height_le (P := pl bs) g)
    have h2 := Nat.le_max_right (ownSizes bs) (size g)
    omega
  cases q with
  | gram bs g => exact key bs g
  | thing bs th =>
    cases th with
    | own g => exact key bs g
    | file => exact Nat.le_refl _
    | member => exact Nat.le_refl _
  | _ => exact Nat.le_refl _

/-- Definitions that the plans are right for. -/
structure FineThings (pl : List (Str × Thing) → Plan) (d : Quotes) (bs : List (Str × Thing)) : Prop where
  ok : okDefs pl (pl bs) bs = true
  sane : SaneDefs d bs

/-- What is in scripts that the plans are right for. -/
def FinePlace (pl : List (Str × Thing) → Plan) (d : Quotes) : Place → Prop
  | .gram bs g => Sane d g ∧ FineThings pl d bs
  | .thing bs th => (∃ x, lastDef bs x = some th) ∧ FineThings pl d bs
  | .whole _ gs bs => (∀ g ∈ gs, Sane d g) ∧ FineThings pl d bs
  | .inside gs bs => (∀ g ∈ gs, Sane d g) ∧ FineThings pl d bs
  | .flat gs bs => (∀ g ∈ gs, Sane d g) ∧ FineThings pl d bs
  | .all gs bs => (∀ g ∈ gs, Sane d g) ∧ FineThings pl d bs
  | .renamed bs _ _ => FineThings pl d bs

theorem FineThings.sane_at (h : FineThings pl d bs) (hx : lastDef bs x = some th) : SaneThing d th := by
  cases h.sane with
  | mk h => exact h x th hx

theorem FineThings.ok_at (h : FineThings pl d bs) (hx : lastDef bs x = some th) : okThing pl (pl bs) x th = true :=
  okDefs_mem h.ok (lastDef_mem hx)

/-- May it match without consuming? -/
def idlePlace (pl : List (Str × Thing) → Plan) : Place → Prop
  | .gram bs g => (pl bs).idle g = true
  | .thing bs (.own g) => (pl bs).idle g = true
  | .thing _ (.member _ bs ident _) => (pl bs).skips ident = true
  | .renamed bs ident _ => (pl bs).skips ident = true
  | _ => False

/-- What a name stands for may match without consuming only if the name may. -/
theorem idle_name (h : FineThings pl d bs) (hx : lastDef bs x = some th) (hi : idlePlace pl (.thing bs th)) :
    (pl bs).skips x = true := by
  have ho := h.ok_at hx
  cases th with
  | own g => unfold okThing at ho; exact (fits_iff.mp ho).2 hi
  | file => exact hi.elim
  | member t bs' ident name =>
    unfold okThing at ho
    rw [Bool.and_eq_true, Bool.or_eq_true] at ho
    rcases ho.1 with h1 | h1
    · rw [show (pl bs').skips ident = true from hi] at h1
      cases h1
    · exact h1

/-- The terms of things, and how they are reached. -/
theorem reach_gram (hg : Sane d g) (hb : FineThings pl d bs) {q : Place} {j : Nat}
    (h : (placeExpr bs g).Reaches noNames (fun _ => True) 0 q j) :
    j = 0 ∧ FinePlace pl d q ∧ capPlace pl q ≤ capPlace pl (.gram bs g) := by
  by_cases hr : ∃ n c y, g = .ref n c y
  · obtain ⟨n, c, y, rfl⟩ := hr
    unfold placeExpr at h
    dsimp only at h
    cases hy : lastDef bs y with
    | none =>
      rw [hy] at h
      obtain ⟨-, st, -, h⟩ := h
      cases h
    | some th =>
      rw [hy] at h
      obtain ⟨rfl, h⟩ := h
      cases List.mem_singleton.mp h
      refine ⟨rfl, ⟨⟨y, hy⟩, hb⟩, ?_⟩
      have hm := lastDef_mem hy
      have hc := costs_mem (pl := pl) hm
      cases th with
      | own g' =>
        have := ownSizes_mem hm
        dsimp only [capPlace, size]
        omega
      | file t n gs bs' =>
        unfold cost at hc
        dsimp only [capPlace, rankPlace]
        omega
      | member t bs' i n =>
        unfold cost at hc
        dsimp only [capPlace, rankPlace]
        omega
  · have hnr : ∀ n c x, g ≠ .ref n c x := fun n c y he => hr ⟨n, c, y, he⟩
    rw [placeExpr_eq hnr] at h
    have h' : j = 0 ∧ q ∈ (gramExpr (Place.gram bs) g).uses := by
      cases g with
      | ref n c y => exact (hr ⟨n, c, y, rfl⟩).elim
      | group n c first gs => cases first <;> exact h
      | _ => exact h
    obtain ⟨rfl, h'⟩ := h'
    obtain ⟨g', h1, rfl⟩ := gramExpr_uses h'
    refine ⟨rfl, ⟨hg.part h1, hb⟩, ?_⟩
    have := part_size h1
    dsimp only [capPlace]
    omega

theorem first_gram (hb : FineThings pl d bs) {q : Place} {j : Nat}
    (h : (placeExpr bs g).First noNames (fun _ => True) (fun q _ => idlePlace pl q) 0 q j) :
    rankPlace pl q < rankPlace pl (.gram bs g) := by
  have key : ∀ g' ∈ Gram.parts g, (pl bs).height g' ≤ (pl bs).height g → rankPlace pl (.gram bs g') < rankPlace pl (.gram bs g) := by
    intro g' h1 h2
    have h3 := Nat.mul_le_mul_right (ownSizes bs + 1) h2
    have h4 := part_size h1
    dsimp only [rankPlace]
    omega
  cases g with
  | ref n c y =>
    unfold placeExpr at h
    dsimp only at h
    cases hy : lastDef bs y with
    | none =>
      rw [hy] at h
      obtain ⟨-, st, -, h⟩ := h
      cases h
    | some th =>
      rw [hy] at h
      obtain ⟨rfl, h⟩ := h
      cases List.mem_singleton.mp h
      have hm := lastDef_mem hy
      have hc := costs_mem (pl := pl) hm
      have ho := hb.ok_at hy
      have h0 : (pl bs).height (.ref n c y) = (pl bs).level y + 1 := by unfold Plan.height; rfl
      cases th with
      | own g' =>
        unfold okThing at ho
        have h1 := Nat.mul_le_mul_right (ownSizes bs + 1) (fits_iff.mp ho).1
        have h2 := ownSizes_mem hm
        dsimp only [rankPlace]
        rw [h0, Nat.succ_mul]
        omega
      | file t n gs bs' =>
        unfold cost at hc
        dsimp only [rankPlace]
        omega
      | member t bs' i n =>
        unfold cost at hc
        dsimp only [rankPlace]
        omega
  | group n c first gs =>
    cases first with
    | true =>
      obtain ⟨rfl, h⟩ := h
      obtain ⟨g', h1, rfl⟩ := List.mem_map.mp h
      exact key g' h1 (heights_mem h1)
    | false =>
      obtain ⟨rfl, h⟩ := h
      have h' : ∃ g' ∈ gs, q = .gram bs g' ∧ Lead (fun g => (pl bs).idle g = true) gs g' := by
        clear key
        induction gs with
        | nil => exact h.elim
        | cons a gs ih =>
          rcases h with rfl | ⟨h1, h2⟩
          · exact ⟨a, by simp, rfl, Or.inl rfl⟩
          · obtain ⟨g', h3, h4, h5⟩ := ih h2
            exact ⟨g', by simp [h3], h4, Or.inr ⟨h1, h5⟩⟩
      obtain ⟨g', h1, rfl, h2⟩ := h'
      exact key g' h1 (heights_lead (fun _ h => h) h2)
  | loop lo hi g =>
    obtain ⟨rfl, h⟩ := h
    rcases h with rfl | ⟨-, h⟩
    · exact key g (by simp [Gram.parts]) (Nat.le_refl _)
    · exact h.elim
  | opt g | not g | discard g | attrs a g =>
    obtain ⟨rfl, h⟩ := h
    cases List.mem_singleton.mp h
    exact key g (by simp [Gram.parts]) (Nat.le_refl _)
  | null | equals | regex | sequence =>
    obtain ⟨rfl, h⟩ := h
    cases h

theorem idle_gram (hbl : Blank (pl bs).blank) (hb : FineThings pl d bs)
    (h : (placeExpr bs g).Idles noNames (fun _ => True) (fun q _ => idlePlace pl q) 0) : (pl bs).idle g = true := by
  cases g with
  | regex n c re => obtain ⟨w, h⟩ := h; exact hbl re w h
  | ref n c y =>
    unfold placeExpr at h
    dsimp only at h
    cases hy : lastDef bs y with
    | none =>
      rw [hy] at h
      obtain ⟨st, m, -, h1, -⟩ := h
      cases h1
    | some th =>
      rw [hy] at h
      exact idle_name hb hy h
  | group n c first gs => cases first <;> exact h.elim
  | loop lo hi g => obtain ⟨rfl, rfl⟩ := h; rfl
  | null => rfl
  | opt => rfl
  | not => rfl
  | equals => exact h.elim
  | sequence => exact h.elim
  | discard g => exact h
  | attrs a g => exact h

theorem fixed_closed {R : Nat} : Closed fixedGrammar noNames (fun q k => k = 0 ∧ FinePlace pl d q ∧ capPlace pl q ≤ R) (fun _ => True) where
  reaches m k hm x j h := by
    obtain ⟨rfl, hm, hR⟩ := hm
    have one : ∀ {q}, Expr.Reaches noNames (fun _ => True) 0 (.within 0 q) x j → j = 0 ∧ x = q := fun h => h
    cases m with
    | gram bs g =>
      obtain ⟨h1, h2, h3⟩ := reach_gram hm.1 hm.2 h
      exact ⟨h1, h2, Nat.le_trans h3 hR⟩
    | thing bs th =>
      obtain ⟨⟨y, hy⟩, hb⟩ := hm
      have hsane := hb.sane_at hy
      have ho := hb.ok_at hy
      cases th with
      | own g =>
        cases hsane with
        | own hs =>
          obtain ⟨h1, h2, h3⟩ := reach_gram hs hb h
          exact ⟨h1, h2, Nat.le_trans h3 hR⟩
      | file t n gs bs' =>
        cases hsane with
        | file hs hs' =>
          obtain ⟨rfl, h⟩ := h
          cases List.mem_singleton.mp h
          unfold okThing at ho
          exact ⟨rfl, ⟨hs, ho, hs'⟩, Nat.le_trans (Nat.le_succ _) hR⟩
      | member t bs' i n =>
        cases hsane with
        | member hs' =>
          obtain ⟨rfl, rfl⟩ := h
          unfold okThing at ho
          rw [Bool.and_eq_true] at ho
          exact ⟨rfl, ⟨ho.2, hs'⟩, Nat.le_trans (Nat.le_succ _) hR⟩
    | whole n gs bs =>
      obtain ⟨rfl, h⟩ := h
      cases List.mem_singleton.mp h
      exact ⟨rfl, hm, Nat.le_trans (Nat.le_succ _) hR⟩
    | inside gs bs =>
      obtain ⟨rfl, rfl⟩ := h
      exact ⟨rfl, hm, Nat.le_trans (Nat.le_succ _) hR⟩
    | flat gs bs =>
      obtain ⟨rfl, h⟩ := h
      cases List.mem_singleton.mp h
      exact ⟨rfl, hm, Nat.le_trans (Nat.le_succ _) hR⟩
    | all gs bs =>
      obtain ⟨rfl, h⟩ := h
      obtain ⟨g, h1, rfl⟩ := List.mem_map.mp h
      refine ⟨rfl, ⟨hm.1 g h1, hm.2⟩, Nat.le_trans ?_ hR⟩
      have := sizes_mem h1
      dsimp only [capPlace, rankPlace]
      omega
    | renamed bs i n =>
      have h' : (match lastDef bs i with | some th => Expr.rename n (Place.thing bs th) | none => .call i).Reaches noNames (fun _ => True) 0 x j := h
      cases hy : lastDef bs i with
      | none =>
        rw [hy] at h'
        obtain ⟨-, st, -, h⟩ := h'
        cases h
      | some th =>
        rw [hy] at h'
        obtain ⟨rfl, h'⟩ := h'
        cases List.mem_singleton.mp h'
        refine ⟨rfl, ⟨⟨i, hy⟩, hm⟩, Nat.le_trans ?_ hR⟩
        have hm' := lastDef_mem hy
        have hc := costs_mem (pl := pl) hm'
        cases th with
        | own g' =>
          have := ownSizes_mem hm'
          dsimp only [capPlace, rankPlace]
          omega
        | file t n gs bs' =>
          unfold cost at hc
          dsimp only [capPlace, rankPlace]
          omega
        | member t bs' i n =>
          unfold cost at hc
          dsimp only [capPlace, rankPlace]
          omega
  enter m k st hm hi := trivial
  regex m k hm n f he := by
    obtain ⟨rfl, hm, -⟩ := hm
    have key : ∀ {bs g}, Sane d g → placeExpr bs g = .re n f → Cuts f := by
      intro bs g hs he
      by_cases hr : ∃ n c y, g = .ref n c y
      · obtain ⟨n, c, y, rfl⟩ := hr
        unfold placeExpr at he
        dsimp only at he
        split at he <;> cases he
      · rw [placeExpr_eq fun n c y he => hr ⟨n, c, y, he⟩] at he
        exact gramExpr_re hs he
    cases m with
    | gram bs g => exact key hm.1 he
    | thing bs th =>
      obtain ⟨⟨y, hy⟩, hb⟩ := hm
      have hsane := hb.sane_at hy
      cases th with
      | own g => cases hsane with | own hs => exact key hs he
      | file => cases he
      | member => cases he
    | renamed bs i l =>
      have he' : (match lastDef bs i with | some th => Expr.rename l (Place.thing bs th) | none => .call i) = .re n f := he
      split at he' <;> cases he'
    | _ => cases he
  delim m k hm n a b e he := by
    obtain ⟨rfl, hm, -⟩ := hm
    have key : ∀ {bs g}, Sane d g → placeExpr bs g = .delim n a b e → a ≠ [] ∧ b ≠ [] := by
      intro bs g hs he
      cases hs with
      | @sequence _ _ _ _ _ hd ha hb => cases he; exact ⟨ha, hb⟩
      | @group _ _ first _ _ => cases first <;> cases he
      | @ref _ _ y =>
        unfold placeExpr at he
        dsimp only at he
        split at he <;> cases he
      | _ => cases he
    cases m with
    | gram bs g => exact key hm.1 he
    | thing bs th =>
      obtain ⟨⟨y, hy⟩, hb⟩ := hm
      have hsane := hb.sane_at hy
      cases th with
      | own g => cases hsane with | own hs => exact key hs he
      | file => cases he
      | member => cases he
    | renamed bs i l =>
      have he' : (match lastDef bs i with | some th => Expr.rename l (Place.thing bs th) | none => .call i) = .delim n a b e := he
      split at he' <;> cases he'
    | _ => cases he

theorem fixed_ranked (hbl : ∀ bs, Blank (pl bs).blank) {R : Nat} : Ranked fixedGrammar noNames
    (fun q k => k = 0 ∧ FinePlace pl d q ∧ capPlace pl q ≤ R) (fun _ => True) (fun q _ => idlePlace pl q) (fun q _ => rankPlace pl q) R where
  bound m k hm := Nat.le_trans rank_cap hm.2.2
  idle m k hm h := by
    obtain ⟨rfl, hm, -⟩ := hm
    cases m with
    | gram bs g => exact idle_gram (hbl bs) hm.2 h
    | thing bs th =>
      cases th with
      | own g => exact idle_gram (g := g) (hbl bs) hm.2 h
      | file => exact h.elim
      | member t bs' i n => exact h
    | renamed bs i n =>
      have h' : (match lastDef bs i with | some th => Expr.rename n (Place.thing bs th) | none => .call i).Idles noNames (fun _ => True)
        (fun q _ => idlePlace pl q) 0 := h
      cases hy : lastDef bs i with
      | none =>
        rw [hy] at h'
        obtain ⟨st, m, -, h1, -⟩ := h'
        cases h1
      | some th =>
        rw [hy] at h'
        exact idle_name hm hy h'
    | whole => exact h.elim
    | inside => exact h
    | flat => exact h
    | all => exact h.elim
  less m k hm x j h := by
    obtain ⟨rfl, hm, -⟩ := hm
    cases m with
    | gram bs g => exact first_gram hm.2 h
    | thing bs th =>
      cases th with
      | own g => exact first_gram (g := g) hm.2 h
      | file t n gs bs' =>
        obtain ⟨rfl, h⟩ := h
        rcases h with rfl | ⟨h, -⟩
        · exact Nat.lt_succ_self _
        · exact h.elim
      | member t bs' i n =>
        obtain ⟨rfl, rfl⟩ := h
        exact Nat.lt_succ_self _
    | whole n gs bs =>
      obtain ⟨rfl, h⟩ := h
      rcases h with rfl | ⟨h, -⟩
      · exact Nat.lt_succ_self _
      · exact h.elim
    | inside gs bs =>
      obtain ⟨rfl, rfl⟩ := h
      exact Nat.lt_succ_self _
    | flat gs bs =>
      obtain ⟨rfl, h⟩ := h
      cases List.mem_singleton.mp h
      exact Nat.lt_succ_self _
    | all gs bs =>
      obtain ⟨rfl, h⟩ := h
      have h' : ∃ g' ∈ gs, x = .gram bs g' := by
        obtain ⟨hg, -⟩ := hm
        clear hg
        induction gs with
        | nil => exact h.elim
        | cons a gs ih =>
          rcases h with rfl | ⟨h1, h2⟩
          · exact ⟨a, by simp, rfl⟩
          · obtain ⟨g', h3, h4⟩ := ih h2
            exact ⟨g', by simp [h3], h4⟩
      obtain ⟨g', h1, rfl⟩ := h'
      have h2 := rank_cap (pl := pl) (q := .gram bs g')
      have h3 := sizes_mem h1
      dsimp only [capPlace] at h2
      show rankPlace pl (.gram bs g') < _
      have h4 : rankPlace pl (.all gs bs) =
        costs pl bs + ((pl bs).top + 1) * (ownSizes bs + 1) + max (ownSizes bs) (sizes gs) + 1 := rfl
      omega
    | renamed bs i n =>
      have h' : (match lastDef bs i with | some th => Expr.rename n (Place.thing bs th) | none => .call i).First noNames (fun _ => True)
        (fun q _ => idlePlace pl q) 0 x j := h
      cases hy : lastDef bs i with
      | none =>
        rw [hy] at h'
        obtain ⟨-, st, -, h⟩ := h'
        cases h
      | some th =>
        rw [hy] at h'
        obtain ⟨rfl, h'⟩ := h'
        cases List.mem_singleton.mp h'
        have hm' := lastDef_mem hy
        have hc := costs_mem (pl := pl) hm'
        have h2 := rank_cap (pl := pl) (q := .thing bs th)
        have h4 : rankPlace pl (.renamed bs i n) = costs pl bs + ((pl bs).top + 1) * (ownSizes bs + 1) + ownSizes bs + 1 := rfl
        show rankPlace pl (.thing bs th) < rankPlace pl (.renamed bs i n)
        cases th with
        | own g' =>
          have := ownSizes_mem hm'
          dsimp only [capPlace] at h2
          omega
        | file t n gs bs' =>
          unfold cost at hc
          dsimp only [capPlace, rankPlace] at h2 ⊢
          omega
        | member t bs' i n =>
          unfold cost at hc
          dsimp only [capPlace, rankPlace] at h2 ⊢
          omega

/-- A script with imports returns. -/
theorem fixed_total {p : Parser} {stop pos fuel : Nat} {n : Str} (hbl : ∀ bs, Blank (pl bs).blank)
    (hgs : ∀ g ∈ gs, Sane d g) (hbs : SaneDefs d bs) (hok : okDefs pl (pl bs) bs = true) (hpos : Cut p.src stop pos)
    (hf : (stop - pos + 1) * cost pl (.file 0 n gs bs) ≤ fuel) : ∃ x, runFixed p stop n gs bs fuel pos = some x := by
  obtain ⟨x, hx⟩ := eval_total (p := p) (stop := stop) (n := fuel) (m := .whole n gs bs) (k := 0) (st := ())
    (fixed_closed (pl := pl) (d := d) (R := rankPlace pl (.whole n gs bs))) (fixed_ranked hbl) ⟨rfl, ⟨hgs, hok, hbs⟩, Nat.le_refl _⟩ hpos
    trivial (by
      unfold depthFor
      rw [Nat.add_assoc, ← Nat.succ_mul]
      refine Nat.le_trans (Nat.le_of_eq ?_) hf
      unfold cost
      rfl)
  exact ⟨x.1, by unfold runFixed; rw [hx]; rfl⟩

end Adx.Interp
