import Verif.Proofs.InterpRank
import Verif.Proofs.InterpScript
import Verif.Proofs.InterpSane
/-
  Scripts that are not left recursive: their terms have ranks.
-/
namespace Adx.Interp

open Peg (Cuts Cut)

variable {P : Plan} {D : Nat} {d : Quotes} {g g' : Gram} {gs : List Gram} {bs : List (Str × Gram)} {x l : Str}

/-! ### Terms -/

theorem level_le_top : P.level x ≤ P.top := by
  obtain ⟨ns, blank⟩ := P
  unfold Plan.level Plan.top
  dsimp only
  induction ns with
  | nil => exact Nat.zero_le _
  | cons b ns ih =>
    obtain ⟨y, v⟩ := b
    unfold AMap.get
    rw [List.foldr_cons]
    split
    · exact Nat.le_max_left _ _
    · exact Nat.le_trans ih (Nat.le_max_right _ _)

theorem heights_mem (h : g ∈ gs) : P.height g ≤ P.heights true gs := by
  induction gs with
  | nil => cases h
  | cons a gs ih =>
    unfold Plan.heights
    rw [Bool.true_or, if_pos rfl]
    rcases List.mem_cons.mp h with rfl | h
    · exact Nat.le_max_left _ _
    · exact Nat.le_trans (ih h) (Nat.le_max_right _ _)

theorem heights_lead {Z : Gram → Prop} (hZ : ∀ g, Z g → P.idle g = true) (h : Lead Z gs g) : P.height g ≤ P.heights false gs := by
  induction gs with
  | nil => exact h.elim
  | cons a gs ih =>
    unfold Plan.heights
    rcases h with rfl | ⟨h1, h2⟩
    · exact Nat.le_max_left _ _
    · rw [hZ a h1, Bool.or_true, if_pos rfl]
      exact Nat.le_trans (ih h2) (Nat.le_max_right _ _)

mutual

theorem height_le : ∀ g : Gram, P.height g ≤ P.top + 1
  | .equals _ _ _ => Nat.zero_le _
  | .regex _ _ _ => Nat.zero_le _
  | .sequence _ _ _ _ _ => Nat.zero_le _
  | .ref _ _ _ => Nat.succ_le_succ level_le_top
  | .null => Nat.zero_le _
  | .group _ _ first gs => heights_le first gs
  | .loop _ _ g => height_le g
  | .opt g => height_le g
  | .not g => height_le g
  | .discard g => height_le g
  | .attrs _ g => height_le g

theorem heights_le (first : Bool) : ∀ gs : List Gram, P.heights first gs ≤ P.top + 1
  | [] => Nat.zero_le _
  | g :: gs => by
    unfold Plan.heights
    refine Nat.max_le.mpr ⟨height_le g, ?_⟩
    split
    · exact heights_le first gs
    · exact Nat.zero_le _

end

theorem sizes_mem (h : g ∈ gs) : size g ≤ sizes gs := by
  induction gs with
  | nil => cases h
  | cons a gs ih =>
    unfold sizes
    rcases List.mem_cons.mp h with rfl | h
    · exact Nat.le_max_left _ _
    · exact Nat.le_trans (ih h) (Nat.le_max_right _ _)

theorem obeysAll_mem (h : P.obeysAll gs = true) (hg : g ∈ gs) : P.obeys g = true := by
  induction gs with
  | nil => cases hg
  | cons a gs ih =>
    unfold Plan.obeysAll at h
    rw [Bool.and_eq_true] at h
    rcases List.mem_cons.mp hg with rfl | hg
    · exact h.1
    · exact ih h.2 hg

theorem part_size (h : g' ∈ Gram.parts g) : size g' < size g := by
  cases g <;> simp only [Gram.parts, List.mem_singleton, List.not_mem_nil] at h
  case group => exact Nat.lt_succ_of_le (sizes_mem h)
  all_goals subst h; exact Nat.lt_succ_self _

theorem part_obeys (hg : P.obeys g = true) (h : g' ∈ Gram.parts g) : P.obeys g' = true := by
  cases g <;> simp only [Gram.parts, List.mem_singleton, List.not_mem_nil] at h
  case group =>
    unfold Plan.obeys at hg
    rw [Bool.and_eq_true] at hg
    exact obeysAll_mem hg.2 h
  all_goals subst h; exact hg

theorem obeys_label (hg : P.obeys g = true) (h : gramLabel g = some l) : P.fits l g = true := by
  cases g <;> simp only [gramLabel] at h <;> (try split at h) <;> (try cases h)
  case group =>
    unfold Plan.obeys at hg
    rw [Bool.and_eq_true] at hg
    simpa [*] using hg.1
  all_goals
    unfold Plan.obeys at hg
    simpa [*] using hg

theorem fits_iff : P.fits x g = true ↔ P.height g ≤ P.level x ∧ (P.idle g = true → P.skips x = true) := by
  unfold Plan.fits
  rw [Bool.and_eq_true, decide_eq_true_iff, Bool.or_eq_true]
  refine and_congr Iff.rfl ?_
  cases P.idle g <;> simp

/-! ### Scripts -/

/-- The terms of a script that the plan is right for. -/
structure Fine (P : Plan) (D : Nat) (d : Quotes) (g : Gram) : Prop where
  obeys : P.obeys g = true
  size : size g ≤ D
  sane : Sane d g

theorem Fine.part (h : Fine P D d g) (hg : g' ∈ Gram.parts g) : Fine P D d g' :=
  ⟨part_obeys h.obeys hg, Nat.le_of_lt (Nat.lt_of_lt_of_le (part_size hg) h.size), h.sane.part hg⟩

/-- Definitions that the plan is right for. -/
def FineDefs (P : Plan) (D : Nat) (d : Quotes) (bs : List (Str × Gram)) : Prop :=
  ∀ x g, lastDef bs x = some g → P.fits x g = true ∧ Fine P D d g

theorem FineDefs.add (h : FineDefs P D d bs) (hg : Fine P D d g) (hl : gramLabel g = some l) : FineDefs P D d (bs ++ [(l, g)]) := by
  intro x g' hx
  rw [lastDef_append] at hx
  split at hx
  · rename_i he
    cases hx
    subst he
    exact ⟨obeys_label hg.obeys hl, hg⟩
  · exact h x g' hx

/-- The nonterminals of a script. -/
def FinePart (P : Plan) (D : Nat) (d : Quotes) : Part → Nat → Prop
  | .gram g, k => k = 1 ∧ Fine P D d g
  | .whole _ gs, k => k = 0 ∧ ∀ g ∈ gs, Fine P D d g
  | .inside gs, k => k = 0 ∧ ∀ g ∈ gs, Fine P D d g
  | .flat gs, k => k = 1 ∧ ∀ g ∈ gs, Fine P D d g
  | .all gs, k => k = 1 ∧ ∀ g ∈ gs, Fine P D d g

/-- May it match without consuming? -/
def idlePart (P : Plan) : Part → Nat → Prop
  | .gram g, _ => P.idle g = true
  | _, _ => False

/-- Ranks. -/
def rankPart (P : Plan) (D : Nat) : Part → Nat → Nat
  | .gram g, _ => P.height g * (D + 1) + size g
  | .all _, _ => (P.top + 1) * (D + 1) + D + 1
  | .flat _, _ => (P.top + 1) * (D + 1) + D + 2
  | .inside _, _ => (P.top + 1) * (D + 1) + D + 3
  | .whole _ _, _ => (P.top + 1) * (D + 1) + D + 4

theorem rank_gram (h : Fine P D d g) {k : Nat} : rankPart P D (.gram g) k ≤ (P.top + 1) * (D + 1) + D := by
  show P.height g * (D + 1) + size g ≤ _
  have h1 := Nat.mul_le_mul_right (D + 1) (height_le (P := P) g)
  have h2 := h.size
  omega

theorem gramExpr_uses {N : Type} {f : Gram → N} {m : N} (h : m ∈ (gramExpr f g).uses) : ∃ g' ∈ Gram.parts g, m = f g' := by
  cases g with
  | group n c first gs =>
    cases first <;>
    · obtain ⟨g', h1, h2⟩ := List.mem_map.mp h
      exact ⟨g', h1, h2.symm⟩
  | _ => simp_all [gramExpr, Expr.uses, Gram.parts]

theorem script_closed : Closed scriptGrammar scriptNames (FinePart P D d) (FineDefs P D d) where
  reaches m k hm x j h := by
    cases m with
    | gram g =>
      obtain ⟨rfl, hg⟩ := hm
      by_cases hr : ∃ n c y, g = .ref n c y
      · obtain ⟨n, c, y, rfl⟩ := hr
        obtain ⟨rfl, st, hi, h⟩ := h
        obtain ⟨g', h1, rfl⟩ := Option.map_eq_some_iff.mp (show (lastDef st y).map Part.gram = some x from h)
        exact ⟨rfl, (hi y g' h1).2⟩
      · have h' : j = 1 ∧ x ∈ (gramExpr Part.gram g).uses := by
          cases g with
          | ref n c y => exact (hr ⟨n, c, y, rfl⟩).elim
          | group n c first gs => cases first <;> exact h
          | _ => exact h
        obtain ⟨rfl, h'⟩ := h'
        obtain ⟨g', h1, rfl⟩ := gramExpr_uses h'
        exact ⟨rfl, hg.part h1⟩
    | whole n gs =>
      obtain ⟨rfl, hg⟩ := hm
      obtain ⟨rfl, h⟩ := h
      cases List.mem_singleton.mp h
      exact ⟨rfl, hg⟩
    | inside gs =>
      obtain ⟨rfl, hg⟩ := hm
      obtain ⟨rfl, rfl⟩ := h
      exact ⟨rfl, hg⟩
    | flat gs =>
      obtain ⟨rfl, hg⟩ := hm
      obtain ⟨rfl, h⟩ := h
      cases List.mem_singleton.mp h
      exact ⟨rfl, hg⟩
    | all gs =>
      obtain ⟨rfl, hg⟩ := hm
      obtain ⟨rfl, h⟩ := h
      obtain ⟨g, h1, rfl⟩ := List.mem_map.mp h
      exact ⟨rfl, hg g h1⟩
  enter m k st hm hi := by
    unfold Interp.enter
    cases m with
    | gram g =>
      obtain ⟨rfl, hg⟩ := hm
      show FineDefs P D d (match gramLabel g with | some l => _ | none => st)
      cases hl : gramLabel g with
      | none => exact hi
      | some l => exact hi.add hg hl
    | _ => exact hi
  regex m k hm n f he := by
    cases m with
    | gram g => exact gramExpr_re hm.2.sane he
    | _ => cases he
  delim m k hm n a b e he := by
    cases m with
    | gram g =>
      cases hm.2.sane with
      | @sequence _ _ _ _ _ hd ha hb => cases he; exact ⟨ha, hb⟩
      | @group _ _ first _ _ => cases first <;> cases he
      | _ => cases he
    | _ => cases he

theorem script_ranked (hb : Blank P.blank) :
    Ranked scriptGrammar scriptNames (FinePart P D d) (FineDefs P D d) (idlePart P) (rankPart P D) ((P.top + 1) * (D + 1) + D + 4) where
  bound m k hm := by
    cases m with
    | gram g => have := rank_gram hm.2 (k := k); omega
    | _ => dsimp only [rankPart]; omega
  idle m k hm h := by
    cases m with
    | gram g =>
      obtain ⟨rfl, hg⟩ := hm
      show P.idle g = true
      cases g with
      | regex n c re => obtain ⟨w, h⟩ := h; exact hb re w h
      | ref n c y =>
        obtain ⟨st, m, hi, h1, h2⟩ := h
        obtain ⟨g', h3, rfl⟩ := Option.map_eq_some_iff.mp (show (lastDef st y).map Part.gram = some m from h1)
        exact (fits_iff.mp (hi y g' h3).1).2 h2
      | group n c first gs => cases first <;> exact h.elim
      | loop lo hi g => obtain ⟨rfl, rfl⟩ := h; rfl
      | null => rfl
      | opt => rfl
      | not => rfl
      | equals => exact h.elim
      | sequence => exact h.elim
      | discard g => exact h
      | attrs a g => exact h
    | whole => exact h.elim
    | inside => exact h.elim
    | flat => exact h.elim
    | all => exact h.elim
  less m k hm x j h := by
    cases m with
    | gram g =>
      obtain ⟨rfl, hg⟩ := hm
      have key : ∀ g' ∈ Gram.parts g, P.height g' ≤ P.height g → rankPart P D (.gram g') j < rankPart P D (.gram g) 1 := by
        intro g' h1 h2
        have h3 := Nat.mul_le_mul_right (D + 1) h2
        have h4 := part_size h1
        show P.height g' * (D + 1) + size g' < P.height g * (D + 1) + size g
        omega
      cases g with
      | ref n c y =>
        obtain ⟨rfl, st, hi, h⟩ := h
        obtain ⟨g', h1, rfl⟩ := Option.map_eq_some_iff.mp (show (lastDef st y).map Part.gram = some x from h)
        obtain ⟨h2, h3⟩ := hi y g' h1
        have h4 := Nat.mul_le_mul_right (D + 1) (fits_iff.mp h2).1
        have h5 := h3.size
        show P.height g' * (D + 1) + size g' < (P.level y + 1) * (D + 1) + 0
        rw [Nat.succ_mul]
        omega
      | group n c first gs =>
        cases first with
        | true =>
          obtain ⟨rfl, h⟩ := h
          obtain ⟨g', h1, rfl⟩ := List.mem_map.mp h
          exact key g' h1 (heights_mem h1)
        | false =>
          obtain ⟨rfl, h⟩ := h
          have h' : ∃ g' ∈ gs, x = .gram g' ∧ Lead (fun g => P.idle g = true) gs g' := by
            clear hg key
            induction gs with
            | nil => exact h.elim
            | cons a gs ih =>
              rcases h with rfl | ⟨h1, h2⟩
              · exact ⟨a, by simp, rfl, Or.inl rfl⟩
              · obtain ⟨g', h3, h4, h5⟩ := ih h2
                exact ⟨g', by simp [h3], h4, Or.inr ⟨h1, h5⟩⟩
          obtain ⟨g', h1, rfl, h2⟩ := h'
          exact key g' h1 (heights_lead (fun _ h => h) h2)
      | loop lo hi g =>
        obtain ⟨rfl, h⟩ := h
        rcases h with rfl | ⟨-, h⟩
        · exact key g (by simp [Gram.parts]) (Nat.le_refl _)
        · exact h.elim
      | opt g | not g | discard g | attrs a g =>
        obtain ⟨rfl, h⟩ := h
        cases List.mem_singleton.mp h
        exact key g (by simp [Gram.parts]) (Nat.le_refl _)
      | null | equals | regex | sequence =>
        obtain ⟨rfl, h⟩ := h
        cases h
    | whole n gs =>
      obtain ⟨rfl, h⟩ := h
      rcases h with rfl | ⟨h, -⟩
      · exact Nat.lt_succ_self _
      · exact h.elim
    | inside gs =>
      obtain ⟨rfl, rfl⟩ := h
      exact Nat.lt_succ_self _
    | flat gs =>
      obtain ⟨rfl, h⟩ := h
      cases List.mem_singleton.mp h
      exact Nat.lt_succ_self _
    | all gs =>
      obtain ⟨rfl, h⟩ := h
      have h' : ∃ g' ∈ gs, x = .gram g' := by
        obtain ⟨-, hg⟩ := hm
        clear hg
        induction gs with
        | nil => exact h.elim
        | cons a gs ih =>
          rcases h with rfl | ⟨h1, h2⟩
          · exact ⟨a, by simp, rfl⟩
          · obtain ⟨g', h3, h4⟩ := ih h2
            exact ⟨g', by simp [h3], h4⟩
      obtain ⟨g', h1, rfl⟩ := h'
      exact Nat.lt_succ_of_le (rank_gram (hm.2 g' h1))

/-! ### Whole scripts -/

theorem fine_of_ok (h : P.ok gs bs = true) (hgs : ∀ g ∈ gs, Sane d g) (hbs : ∀ x g, lastDef bs x = some g → Sane d g) :
    (∀ g ∈ gs, Fine P (max (sizes gs) (sizes (bs.map Prod.snd))) d g) ∧
      FineDefs P (max (sizes gs) (sizes (bs.map Prod.snd))) d bs := by
  unfold Plan.ok at h
  rw [Bool.and_eq_true, List.all_eq_true] at h
  refine ⟨fun g hg => ⟨obeysAll_mem h.1 hg, Nat.le_trans (sizes_mem hg) (Nat.le_max_left _ _), hgs g hg⟩, fun x g hx => ?_⟩
  have hm := lastDef_mem hx
  have h2 := h.2 _ hm
  rw [Bool.and_eq_true] at h2
  exact ⟨h2.1, h2.2, Nat.le_trans (sizes_mem (List.mem_map.mpr ⟨_, hm, rfl⟩)) (Nat.le_max_right _ _), hbs x g hx⟩

/-- A script returns, and leaves definitions that the plan is right for. -/
theorem run_total {p : Parser} {stop pos fuel : Nat} {n : Str} (hb : Blank P.blank)
    (hgs : ∀ g ∈ gs, Fine P D d g) (hbs : FineDefs P D d bs) (hpos : Cut p.src stop pos)
    (hf : (stop - pos + 1) * ((P.top + 2) * (D + 1) + 4) ≤ fuel) :
    ∃ x, runScript p stop n gs fuel pos bs = some x ∧ FineDefs P D d x.2 := by
  have h1 : (P.top + 1) * (D + 1) + D + 4 + 1 = (P.top + 2) * (D + 1) + 4 := by
    rw [Nat.succ_mul (P.top + 1)]; omega
  obtain ⟨x, hx⟩ := eval_total (p := p) (stop := stop) (script_closed (P := P) (D := D) (d := d)) (script_ranked hb)
    (m := .whole n gs) (k := 0) ⟨rfl, hgs⟩ hpos hbs (n := fuel) (by
      unfold depthFor
      show (stop - pos) * ((P.top + 1) * (D + 1) + D + 4 + 1) + ((P.top + 1) * (D + 1) + D + 4) + 1 ≤ fuel
      rw [Nat.add_assoc ((stop - pos) * _), h1, ← Nat.succ_mul]
      exact hf)
  exact ⟨x, hx, (eval_ok script_closed (script_ranked hb).idle fuel (.whole n gs) 0 ⟨rfl, hgs⟩ pos bs hpos hbs x hx).2.1⟩

/-! ### Left recursion -/

theorem starts_none {X : Str → Prop} {p : Parser} {stop : Nat} (n : Nat) : ∀ {g : Gram} {pos : Nat} {bs : List (Str × Gram)}, Starts X g →
    (∀ x, X x → ∃ g, lastDef bs x = some g ∧ Starts X g) → eval scriptGrammar scriptNames p stop n (.gram g) 1 pos bs = none := by
  induction n with
  | zero => intros; rfl
  | succ n ih =>
    intro g pos bs hg hX
    unfold eval
    have hX' : ∀ x, X x → ∃ g', lastDef (Interp.enter scriptGrammar scriptNames (.gram g) 1 bs) x = some g' ∧ Starts X g' := by
      intro x hx
      unfold Interp.enter
      show ∃ g', lastDef (match gramLabel g with | some l => _ | none => bs) x = some g' ∧ Starts X g'
      cases hl : gramLabel g with
      | none => exact hX x hx
      | some l =>
        show ∃ g', lastDef (bs ++ [(l, g)]) x = some g' ∧ _
        rw [lastDef_append]
        split
        · exact ⟨g, rfl, hg⟩
        · exact hX x hx
    generalize Interp.enter scriptGrammar scriptNames (.gram g) 1 bs = bs at hX'
    cases hg with
    | @ref _ _ x hx =>
      obtain ⟨g', h1, h2⟩ := hX' x hx
      show evalExpr (eval scriptGrammar scriptNames p stop n) scriptNames p stop 1 pos bs (.call x) = none
      dsimp only [evalExpr]
      rw [show scriptNames.get bs 1 x = (lastDef bs x).map Part.gram from rfl, h1]
      exact ih h2 hX'
    | @group _ _ first g gs h =>
      cases first with
      | false =>
        show (parts (eval scriptGrammar scriptNames p stop n) 1 (.gram g :: gs.map .gram) (.start pos) bs).map _ = none
        unfold parts
        rw [show (Run.start pos).pos = pos from rfl, ih h hX']
        rfl
      | true =>
        show choose (eval scriptGrammar scriptNames p stop n) 1 pos (.gram g :: gs.map .gram) bs = none
        unfold choose
        rw [ih h hX']
        rfl
    | @loop lo hi g hl h =>
      show (rounds (eval scriptGrammar scriptNames p stop n) 1 [.gram g] (hi - lo) (.start pos) bs).map _ = none
      obtain ⟨j, hj⟩ : ∃ j, hi - lo = j + 1 := ⟨hi - lo - 1, by omega⟩
      rw [hj]
      unfold rounds parts
      rw [show (Run.start pos).pos = pos from rfl, ih h hX']
      rfl
    | @opt g h | @not g h | @discard g h | @attrs _ g h =>
      show andThen _ (eval scriptGrammar scriptNames p stop n (.gram g) 1 pos bs) = none
      rw [ih h hX']
      rfl

theorem starts_run {X : Str → Prop} {p : Parser} {stop pos : Nat} {n : Str} {g : Gram} {gs : List Gram} {bs : List (Str × Gram)} (hg : Starts X g)
    (hX : ∀ x, X x → ∃ g, lastDef bs x = some g ∧ Starts X g) (fuel : Nat) : runScript p stop n (g :: gs) fuel pos bs = none := by
  unfold runScript
  rcases fuel with _ | _ | _ | _ | fuel
  · rfl
  · rfl
  · rfl
  · rfl
  · have h : eval scriptGrammar scriptNames p stop fuel (.gram g) 1 pos bs = none := starts_none fuel hg hX
    have h1 : eval scriptGrammar scriptNames p stop (fuel + 1) (.all (g :: gs)) 1 pos bs = none := by
      show (parts (eval scriptGrammar scriptNames p stop fuel) 1 (.gram g :: gs.map .gram) (.start pos) bs).map _ = none
      unfold parts
      rw [show (Run.start pos).pos = pos from rfl, h]
      rfl
    have h2 : eval scriptGrammar scriptNames p stop (fuel + 1 + 1) (.flat (g :: gs)) 1 pos bs = none := by
      show andThen _ (eval scriptGrammar scriptNames p stop (fuel + 1) (.all (g :: gs)) 1 pos bs) = none
      rw [h1]
      rfl
    have h3 : eval scriptGrammar scriptNames p stop (fuel + 1 + 1 + 1) (.inside (g :: gs)) 0 pos bs = none := h2
    show (parts (eval scriptGrammar scriptNames p stop (fuel + 1 + 1 + 1)) 0 [.inside (g :: gs)] (.start pos) bs).map _ = none
    unfold parts
    rw [show (Run.start pos).pos = pos from rfl, h3]
    rfl

end Adx.Interp
