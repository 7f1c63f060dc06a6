import Verif.Proofs.FixedRank
import Verif.Proofs.Toil
/-
  What scripts with imports cost at most.
-/
namespace Adx.Interp

open Peg (Cuts Cut)

variable {pl : List (Str × Thing) → Plan} {P : Plan} {d : Quotes} {g g' : Gram} {gs : List Gram} {bs : List (Str × Thing)} {x : Str}
  {th : Thing} {own : Plan → Str → Gram → Bool} {pats : Plan → List Gram → Bool} {K R : Nat}

theorem defsAll_mem (h : defsAll pl own pats P bs = true) (hm : (x, th) ∈ bs) : thingAll pl own pats P x th = true := by
  induction bs with
  | nil => cases hm
  | cons b bs ih =>
    unfold defsAll at h
    rw [Bool.and_eq_true] at h
    rcases List.mem_cons.mp hm with rfl | hm
    · have := h.1
      unfold defAll at this
      exact this
    · exact ih h.2 hm

/-- The nonterminals of scripts of which this holds. -/
def PlaceAll (pl : List (Str × Thing) → Plan) (own : Plan → Str → Gram → Bool) (pats : Plan → List Gram → Bool) (Q : Plan → Gram → Prop) :
    Place → Prop
  | .gram bs g => Q (pl bs) g ∧ defsAll pl own pats (pl bs) bs = true
  | .thing bs _ => defsAll pl own pats (pl bs) bs = true
  | .whole _ gs bs => pats (pl bs) gs = true ∧ defsAll pl own pats (pl bs) bs = true
  | .inside gs bs => pats (pl bs) gs = true ∧ defsAll pl own pats (pl bs) bs = true
  | .flat gs bs => pats (pl bs) gs = true ∧ defsAll pl own pats (pl bs) bs = true
  | .all gs bs => pats (pl bs) gs = true ∧ defsAll pl own pats (pl bs) bs = true
  | .renamed bs _ _ => defsAll pl own pats (pl bs) bs = true

/-- What holds of terms and patterns holds of their parts. -/
structure KeptAll (own : Plan → Str → Gram → Bool) (pats : Plan → List Gram → Bool) (Q : Plan → Gram → Prop) : Prop where
  part : ∀ {P g g'}, Q P g → g' ∈ Gram.parts g → Q P g'
  own : ∀ {P x g}, own P x g = true → Q P g
  pats : ∀ {P gs g}, pats P gs = true → g ∈ gs → Q P g

variable {Q : Plan → Gram → Prop}

theorem all_gram (hQ : KeptAll own pats Q) (hg : Q (pl bs) g) (hb : defsAll pl own pats (pl bs) bs = true) {q : Place} {j : Nat}
    (h : (placeExpr bs g).Reaches noNames (fun _ => True) 0 q j) : PlaceAll pl own pats Q q := by
  by_cases hr : ∃ n c y, g = .ref n c y
  · obtain ⟨n, c, y, rfl⟩ := hr
    unfold placeExpr at h
    dsimp only at h
    cases hy : lastDef bs y with
    | none =>
      rw [hy] at h
      obtain ⟨-, st, -, h⟩ := h
      cases h
    | some th =>
      rw [hy] at h
      obtain ⟨rfl, h⟩ := h
      cases List.mem_singleton.mp h
      exact hb
  · have hnr : ∀ n c x, g ≠ .ref n c x := fun n c y he => hr ⟨n, c, y, he⟩
    rw [placeExpr_eq hnr] at h
    have h' : q ∈ (gramExpr (Place.gram bs) g).uses := by
      cases g with
      | ref n c y => exact (hr ⟨n, c, y, rfl⟩).elim
      | group n c first gs => cases first <;> exact h.2
      | _ => exact h.2
    obtain ⟨g', h1, rfl⟩ := gramExpr_uses h'
    exact ⟨hQ.part hg h1, hb⟩

theorem all_closed (hQ : KeptAll own pats Q) : Closed fixedGrammar noNames
    (fun q k => (k = 0 ∧ FinePlace pl d q ∧ capPlace pl q ≤ R) ∧ PlaceAll pl own pats Q q) (fun _ => True) where
  reaches m k hm x j h := by
    refine ⟨fixed_closed.reaches m k hm.1 x j h, ?_⟩
    obtain ⟨⟨rfl, hf, -⟩, hm⟩ := hm
    cases m with
    | gram bs g => exact all_gram hQ hm.1 hm.2 h
    | thing bs th =>
      obtain ⟨⟨y, hy⟩, -⟩ := hf
      have ho := defsAll_mem hm (lastDef_mem hy)
      cases th with
      | own g =>
        unfold thingAll at ho
        exact all_gram hQ (hQ.own ho) hm h
      | file t n gs bs' =>
        obtain ⟨rfl, h⟩ := h
        cases List.mem_singleton.mp h
        unfold thingAll at ho
        rw [Bool.and_eq_true] at ho
        exact ho
      | member t bs' i n =>
        obtain ⟨rfl, rfl⟩ := h
        unfold thingAll at ho
        exact ho
    | whole n gs bs =>
      obtain ⟨rfl, h⟩ := h
      cases List.mem_singleton.mp h
      exact hm
    | inside gs bs =>
      obtain ⟨rfl, rfl⟩ := h
      exact hm
    | flat gs bs =>
      obtain ⟨rfl, h⟩ := h
      cases List.mem_singleton.mp h
      exact hm
    | all gs bs =>
      obtain ⟨rfl, h⟩ := h
      obtain ⟨g, h1, rfl⟩ := List.mem_map.mp h
      exact ⟨hQ.pats hm.1 h1, hm.2⟩
    | renamed bs i n =>
      have h' : (match lastDef bs i with | some th => Expr.rename n (Place.thing bs th) | none => .call i).Reaches noNames (fun _ => True) 0 x j := h
      cases hy : lastDef bs i with
      | none =>
        rw [hy] at h'
        obtain ⟨-, st, -, h⟩ := h'
        cases h
      | some th =>
        rw [hy] at h'
        obtain ⟨rfl, h'⟩ := h'
        cases List.mem_singleton.mp h'
        exact hm
  enter m k st hm hi := trivial
  regex m k hm := fixed_closed.regex m k hm.1
  delim m k hm := fixed_closed.delim m k hm.1

theorem narrow_gram (hK : 0 < K) (hs : (pl bs).spare K g = true) : (placeExpr bs g).uses.length ≤ K := by
  by_cases hr : ∃ n c y, g = .ref n c y
  · obtain ⟨n, c, y, rfl⟩ := hr
    unfold placeExpr
    dsimp only
    split
    · exact hK
    · exact Nat.zero_le _
  · rw [placeExpr_eq fun n c y he => hr ⟨n, c, y, he⟩]
    cases g with
    | group n c first gs =>
      unfold Plan.spare at hs
      rw [Bool.and_eq_true, decide_eq_true_iff] at hs
      cases first <;>
      · show (gs.map _).length ≤ K
        rw [List.length_map]
        exact hs.1
    | loop => exact hK
    | opt => exact hK
    | not => exact hK
    | discard => exact hK
    | attrs => exact hK
    | _ => exact Nat.zero_le _

theorem moves_gram (hs : (pl bs).spare K g = true) {name : Str} {ms : List Place} {lo hi : Nat} (he : placeExpr bs g = .loop name ms lo hi) :
    ∃ x ∈ ms, ¬ idlePlace pl x := by
  cases g with
  | loop lo hi g =>
    cases he
    unfold Plan.spare at hs
    rw [Bool.and_eq_true, Bool.not_eq_true'] at hs
    refine ⟨_, List.mem_singleton.mpr rfl, ?_⟩
    show ¬ (pl bs).idle g = true
    rw [hs.1]
    exact Bool.false_ne_true
  | ref n c y =>
    unfold placeExpr at he
    dsimp only at he
    split at he <;> cases he
  | group n c first gs => cases first <;> cases he
  | _ => cases he

theorem all_modest (hbl : ∀ bs, Blank (pl bs).blank) (hK : 0 < K) (hQ : KeptAll own pats Q) (hs : ∀ P g, Q P g → P.spare K g = true)
    (hl : ∀ P gs, pats P gs = true → gs.length ≤ K) : Modest fixedGrammar noNames
    (fun q k => (k = 0 ∧ FinePlace pl d q ∧ capPlace pl q ≤ R) ∧ PlaceAll pl own pats Q q) (fun _ => True)
    (fun q _ => idlePlace pl q) K where
  narrow m k hm := by
    obtain ⟨⟨rfl, hf, -⟩, hm⟩ := hm
    cases m with
    | gram bs g => exact narrow_gram hK (hs _ _ hm.1)
    | thing bs th =>
      obtain ⟨⟨y, hy⟩, -⟩ := hf
      have ho := defsAll_mem hm (lastDef_mem hy)
      cases th with
      | own g =>
        unfold thingAll at ho
        exact narrow_gram hK (hs _ _ (hQ.own ho))
      | file => exact hK
      | member => exact hK
    | whole n gs bs => exact hK
    | inside gs bs => exact hK
    | flat gs bs => exact hK
    | all gs bs =>
      show (gs.map _).length ≤ K
      rw [List.length_map]
      exact hl _ _ hm.1
    | renamed bs i n =>
      show (match lastDef bs i with | some th => Expr.rename n (Place.thing bs th) | none => .call i).uses.length ≤ K
      cases lastDef bs i with
      | none => exact Nat.zero_le _
      | some th => exact hK
  idle m k hm h := (fixed_ranked hbl).idle m k hm.1 h
  moves m k hm name ms lo hi he := by
    obtain ⟨⟨rfl, hf, -⟩, hm⟩ := hm
    cases m with
    | gram bs g => exact moves_gram (hs _ _ hm.1) he
    | thing bs th =>
      obtain ⟨⟨y, hy⟩, -⟩ := hf
      have ho := defsAll_mem hm (lastDef_mem hy)
      cases th with
      | own g =>
        unfold thingAll at ho
        exact moves_gram (g := g) (hs _ _ (hQ.own ho)) he
      | file => cases he
      | member => cases he
    | renamed bs i l =>
      have he' : (match lastDef bs i with | some th => Expr.rename l (Place.thing bs th) | none => .call i) = .loop name ms lo hi := he
      split at he' <;> cases he'
    | _ => cases he

/-! ### Levels -/

/-- Levels of what is in scripts. -/
def tierPlace (pl : List (Str × Thing) → Plan) : Place → Nat
  | .gram bs g => costs pl bs + (pl bs).depth g * (ownSizes bs + 1) + size g
  | .thing bs (.own g) => costs pl bs + (pl bs).depth g * (ownSizes bs + 1) + size g
  | q => rankPlace pl q

theorem tier_cap : costs pl bs + (pl bs).depth g * (ownSizes bs + 1) + size g ≤
    costs pl bs + ((pl bs).top + 1) * (ownSizes bs + 1) + size g := by
  have := Nat.mul_le_mul_right (ownSizes bs + 1) (depth_le (P := pl bs) g)
  omega

theorem tier_gram (hb : ∀ x g, (x, Thing.own g) ∈ bs → (pl bs).depth g ≤ (pl bs).level x) {q : Place} {j : Nat}
    (h : (placeExpr bs g).Reaches noNames (fun _ => True) 0 q j) : tierPlace pl q < tierPlace pl (.gram bs g) := by
  by_cases hr : ∃ n c y, g = .ref n c y
  · obtain ⟨n, c, y, rfl⟩ := hr
    unfold placeExpr at h
    dsimp only at h
    cases hy : lastDef bs y with
    | none =>
      rw [hy] at h
      obtain ⟨-, st, -, h⟩ := h
      cases h
    | some th =>
      rw [hy] at h
      obtain ⟨rfl, h⟩ := h
      cases List.mem_singleton.mp h
      have hm := lastDef_mem hy
      have hc := costs_mem (pl := pl) hm
      have h0 : (pl bs).depth (.ref n c y) = (pl bs).level y + 1 := by unfold Plan.depth; rfl
      cases th with
      | own g' =>
        have h1 := Nat.mul_le_mul_right (ownSizes bs + 1) (hb y g' hm)
        have h2 := ownSizes_mem hm
        dsimp only [tierPlace]
        rw [h0, Nat.succ_mul]
        omega
      | file t n gs bs' =>
        unfold cost at hc
        dsimp only [tierPlace, rankPlace]
        omega
      | member t bs' i n =>
        unfold cost at hc
        dsimp only [tierPlace, rankPlace]
        omega
  · have hnr : ∀ n c x, g ≠ .ref n c x := fun n c y he => hr ⟨n, c, y, he⟩
    rw [placeExpr_eq hnr] at h
    have h' : q ∈ (gramExpr (Place.gram bs) g).uses := by
      cases g with
      | ref n c y => exact (hr ⟨n, c, y, rfl⟩).elim
      | group n c first gs => cases first <;> exact h.2
      | _ => exact h.2
    obtain ⟨g', h1, rfl⟩ := gramExpr_uses h'
    have h3 := Nat.mul_le_mul_right (ownSizes bs + 1) (part_depth (P := pl bs) h1)
    have h4 := part_size h1
    dsimp only [tierPlace]
    omega

theorem all_less (ho : ∀ P x g, own P x g = true → P.depth g ≤ P.level x) {m q : Place} {k j : Nat}
    (hm : (k = 0 ∧ FinePlace pl d m ∧ capPlace pl m ≤ R) ∧ PlaceAll pl own pats Q m)
    (h : (fixedGrammar.expr m).Reaches noNames (fun _ => True) k q j) : tierPlace pl q < tierPlace pl m := by
  have key : ∀ {bs}, defsAll pl own pats (pl bs) bs = true → ∀ x g, (x, Thing.own g) ∈ bs → (pl bs).depth g ≤ (pl bs).level x := by
    intro bs hb x g hm
    have h := defsAll_mem hb hm
    unfold thingAll at h
    exact ho _ _ _ h
  obtain ⟨⟨rfl, -, -⟩, hm⟩ := hm
  cases m with
  | gram bs g => exact tier_gram (key hm.2) h
  | thing bs th =>
    cases th with
    | own g => exact tier_gram (g := g) (key hm) h
    | file t n gs bs' =>
      obtain ⟨rfl, h⟩ := h
      cases List.mem_singleton.mp h
      exact Nat.lt_succ_self _
    | member t bs' i n =>
      obtain ⟨rfl, rfl⟩ := h
      exact Nat.lt_succ_self _
  | whole n gs bs =>
    obtain ⟨rfl, h⟩ := h
    cases List.mem_singleton.mp h
    exact Nat.lt_succ_self _
  | inside gs bs =>
    obtain ⟨rfl, rfl⟩ := h
    exact Nat.lt_succ_self _
  | flat gs bs =>
    obtain ⟨rfl, h⟩ := h
    cases List.mem_singleton.mp h
    exact Nat.lt_succ_self _
  | all gs bs =>
    obtain ⟨rfl, h⟩ := h
    obtain ⟨g, h1, rfl⟩ := List.mem_map.mp h
    have h2 := tier_cap (pl := pl) (bs := bs) (g := g)
    have h3 := sizes_mem h1
    dsimp only [tierPlace, rankPlace]
    omega
  | renamed bs i n =>
    have h' : (match lastDef bs i with | some th => Expr.rename n (Place.thing bs th) | none => .call i).Reaches noNames (fun _ => True) 0 q j := h
    cases hy : lastDef bs i with
    | none =>
      rw [hy] at h'
      obtain ⟨-, st, -, h⟩ := h'
      cases h
    | some th =>
      rw [hy] at h'
      obtain ⟨rfl, h'⟩ := h'
      cases List.mem_singleton.mp h'
      have hm' := lastDef_mem hy
      have hc := costs_mem (pl := pl) hm'
      cases th with
      | own g' =>
        have h1 := ownSizes_mem hm'
        have h2 := tier_cap (pl := pl) (bs := bs) (g := g')
        dsimp only [tierPlace, rankPlace]
        omega
      | file t n gs bs' =>
        unfold cost at hc
        dsimp only [tierPlace, rankPlace]
        omega
      | member t bs' i n =>
        unfold cost at hc
        dsimp only [tierPlace, rankPlace]
        omega

/-! ### Costs -/

theorem few_iff : P.few K gs = true ↔ gs.length ≤ K ∧ P.spareAll K gs = true := by
  unfold Plan.few
  rw [Bool.and_eq_true, decide_eq_true_iff]

theorem spare_all : KeptAll (fun P _ g => P.spare K g) (Plan.few K) (fun P g => P.spare K g = true) where
  part := part_spare
  own h := h
  pats h hg := spareAll_mem (few_iff.mp h).2 hg

theorem both_all : KeptAll (fun P x g => P.spare K g && decide (P.depth g ≤ P.level x)) (Plan.few K) (fun P g => P.spare K g = true) where
  part := part_spare
  own h := (Bool.and_eq_true _ _ ▸ h : _ ∧ _).1
  pats h hg := spareAll_mem (few_iff.mp h).2 hg

mutual

theorem thing_both {own' : Plan → Str → Gram → Bool} {pats' : Plan → List Gram → Bool} {P : Plan} {x : Str} : ∀ {th : Thing},
    thingAll pl own pats P x th = true → thingAll pl own' pats' P x th = true →
      thingAll pl (fun P x g => own P x g && own' P x g) pats P x th = true
  | .own g, h, h' => by
    unfold thingAll at h h' ⊢
    rw [h, h']
    rfl
  | .file t n gs bs, h, h' => by
    unfold thingAll at h h' ⊢
    rw [Bool.and_eq_true] at h h' ⊢
    exact ⟨h.1, defs_both h.2 h'.2⟩
  | .member t bs i n, h, h' => by
    unfold thingAll at h h' ⊢
    exact defs_both h h'

theorem def_both {own' : Plan → Str → Gram → Bool} {pats' : Plan → List Gram → Bool} {P : Plan} : ∀ {b : Str × Thing},
    defAll pl own pats P b = true → defAll pl own' pats' P b = true → defAll pl (fun P x g => own P x g && own' P x g) pats P b = true
  | (x, th), h, h' => by
    unfold defAll at h h' ⊢
    exact thing_both h h'

theorem defs_both {own' : Plan → Str → Gram → Bool} {pats' : Plan → List Gram → Bool} {P : Plan} : ∀ {bs : List (Str × Thing)},
    defsAll pl own pats P bs = true → defsAll pl own' pats' P bs = true → defsAll pl (fun P x g => own P x g && own' P x g) pats P bs = true
  | [], _, _ => by unfold defsAll; rfl
  | b :: bs, h, h' => by
    unfold defsAll at h h' ⊢
    rw [Bool.and_eq_true] at h h' ⊢
    exact ⟨def_both h.1 h'.1, defs_both h.2 h'.2⟩

end

theorem frugalAll_iff : frugalAll pl K gs bs = true ↔
    (0 < K ∧ (pl bs).few K gs = true) ∧ defsAll pl (fun P _ g => P.spare K g) (Plan.few K) (pl bs) bs = true := by
  unfold frugalAll
  rw [Bool.and_eq_true, Bool.and_eq_true, decide_eq_true_iff]

variable {p : Parser} {stop pos fuel : Nat} {n : Str}

/-- The cost of a script with imports, by the depth of recursion. -/
theorem fixed_work_le (hbl : ∀ bs, Blank (pl bs).blank) (hgs : ∀ g ∈ gs, Sane d g) (hbs : SaneDefs d bs)
    (hok : okDefs pl (pl bs) bs = true) (hK : frugalAll pl K gs bs = true) (hpos : Cut p.src stop pos) :
    work fixedGrammar noNames p stop fuel (.whole n gs bs) 0 pos () ≤ ((stop - pos + 1) * K + 1) ^ fuel := by
  obtain ⟨⟨h1, h2⟩, h3⟩ := frugalAll_iff.mp hK
  exact work_le (lev := fun n _ _ => n) (all_closed (d := d) (R := rankPlace pl (.whole n gs bs)) spare_all)
    (all_modest hbl h1 spare_all (fun _ _ h => h) fun _ _ h => (few_iff.mp h).1)
    (fun n _ _ => Nat.succ_pos n) (fun n _ _ _ _ _ _ => Nat.lt_succ_self n)
    (m := .whole n gs bs) (k := 0) ⟨⟨rfl, ⟨hgs, hok, hbs⟩, Nat.le_refl _⟩, h2, h3⟩ hpos trivial (Nat.le_refl _)

/-- The cost of a script with imports, by the levels of names. -/
theorem fixed_work_tiers (hbl : ∀ bs, Blank (pl bs).blank) (hgs : ∀ g ∈ gs, Sane d g) (hbs : SaneDefs d bs)
    (hok : okDefs pl (pl bs) bs = true) (hK : frugalAll pl K gs bs = true) (hT : tiersAll pl bs = true) (hpos : Cut p.src stop pos) :
    work fixedGrammar noNames p stop fuel (.whole n gs bs) 0 pos () ≤ ((stop - pos + 1) * K + 1) ^ cost pl (.file 0 n gs bs) := by
  obtain ⟨⟨h1, h2⟩, h3⟩ := frugalAll_iff.mp hK
  have h4 : cost pl (.file 0 n gs bs) = tierPlace pl (.whole n gs bs) + 1 := by unfold cost; rfl
  rw [h4]
  exact work_le (lev := fun _ q _ => tierPlace pl q + 1) (all_closed (d := d) (R := rankPlace pl (.whole n gs bs)) both_all)
    (all_modest hbl h1 both_all (fun _ _ h => h) fun _ _ h => (few_iff.mp h).1)
    (fun _ _ _ => Nat.succ_pos _)
    (fun _ _ _ hm x j h => Nat.succ_lt_succ (all_less (fun _ _ _ h => of_decide_eq_true (Bool.and_eq_true _ _ ▸ h : _ ∧ _).2) hm h))
    (m := .whole n gs bs) (k := 0) ⟨⟨rfl, ⟨hgs, hok, hbs⟩, Nat.le_refl _⟩, h2, defs_both h3 hT⟩ hpos trivial (Nat.le_refl _)

end Adx.Interp
