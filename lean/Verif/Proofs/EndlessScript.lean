import Verif.Proofs.Endless
import Verif.Proofs.FixedRank
/-
  Scripts try finitely many things at finitely many places.
-/
namespace Adx.Interp

open Peg (Cuts Cut)

variable {p : Parser} {stop pos fuel : Nat} {n : Str} {d : Quotes} {g g' : Gram} {gs : List Gram} {x l : Str}

/-! ### Terms -/

theorem terms_self : g ∈ terms g := by
  cases g <;> simp [terms]

theorem terms_mem (h : g ∈ gs) (h' : g' ∈ terms g) : g' ∈ termsAll gs := by
  induction gs with
  | nil => cases h
  | cons a gs ih =>
    unfold termsAll
    rcases List.mem_cons.mp h with rfl | h
    · exact List.mem_append_left _ h'
    · exact List.mem_append_right _ (ih h)

theorem terms_part {a : Gram} (h : a ∈ Gram.parts g) (h' : g' ∈ terms a) : g' ∈ terms g := by
  cases g <;> simp only [Gram.parts, List.mem_singleton, List.not_mem_nil] at h
  case group =>
    unfold terms
    exact List.mem_cons_of_mem _ (terms_mem h h')
  all_goals
    subst h
    unfold terms
    exact List.mem_cons_of_mem _ h'

/-! ### Scripts whose definitions change -/

section
variable {bs bs' : List (Str × Gram)} {T : List Gram} {Ls : List Str}

/-- A term of which all parts are among `T`, with names among `Ls`. -/
structure Within (d : Quotes) (T : List Gram) (Ls : List Str) (g : Gram) : Prop where
  sane : Sane d g
  terms : ∀ g' ∈ terms g, g' ∈ T ∧ ∀ l, gramLabel g' = some l → l ∈ Ls

theorem Within.part (h : Within d T Ls g) (hg : g' ∈ Gram.parts g) : Within d T Ls g' :=
  ⟨h.sane.part hg, fun a ha => h.terms a (terms_part hg ha)⟩

/-- Definitions of such terms. -/
def WithinDefs (d : Quotes) (T : List Gram) (Ls : List Str) (bs : List (Str × Gram)) : Prop :=
  ∀ x g, lastDef bs x = some g → x ∈ Ls ∧ Within d T Ls g

theorem WithinDefs.add (h : WithinDefs d T Ls bs) (hg : Within d T Ls g) (hl : gramLabel g = some l) :
    WithinDefs d T Ls (bs ++ [(l, g)]) := by
  intro x g' hx
  rw [lastDef_append] at hx
  split at hx
  · rename_i he
    cases hx
    subst he
    exact ⟨(hg.terms g terms_self).2 x hl, hg⟩
  · exact h x g' hx

/-- What can be tried. -/
def WithinPart (d : Quotes) (T : List Gram) (Ls : List Str) (n : Str) (gs : List Gram) : Part → Nat → Prop
  | .gram g, k => k = 1 ∧ Within d T Ls g
  | .whole n' gs', k => k = 0 ∧ n' = n ∧ gs' = gs
  | .inside gs', k => k = 0 ∧ gs' = gs
  | .flat gs', k => k = 1 ∧ gs' = gs
  | .all gs', k => k = 1 ∧ gs' = gs

theorem script_within (hgs : ∀ g ∈ gs, Within d T Ls g) :
    Closed scriptGrammar scriptNames (WithinPart d T Ls n gs) (WithinDefs d T Ls) where
  reaches m k hm x j h := by
    cases m with
    | gram g =>
      obtain ⟨rfl, hg⟩ := hm
      by_cases hr : ∃ n c y, g = .ref n c y
      · obtain ⟨n, c, y, rfl⟩ := hr
        obtain ⟨rfl, st, hi, h⟩ := h
        obtain ⟨g', h1, rfl⟩ := Option.map_eq_some_iff.mp (show (lastDef st y).map Part.gram = some x from h)
        exact ⟨rfl, (hi y g' h1).2⟩
      · have h' : j = 1 ∧ x ∈ (gramExpr Part.gram g).uses := by
          cases g with
          | ref n c y => exact (hr ⟨n, c, y, rfl⟩).elim
          | group n c first gs => cases first <;> exact h
          | _ => exact h
        obtain ⟨rfl, h'⟩ := h'
        obtain ⟨g', h1, rfl⟩ := gramExpr_uses h'
        exact ⟨rfl, hg.part h1⟩
    | whole n gs =>
      obtain ⟨rfl, -, rfl⟩ := hm
      obtain ⟨rfl, h⟩ := h
      cases List.mem_singleton.mp h
      exact ⟨rfl, rfl⟩
    | inside gs =>
      obtain ⟨rfl, rfl⟩ := hm
      obtain ⟨rfl, rfl⟩ := h
      exact ⟨rfl, rfl⟩
    | flat gs =>
      obtain ⟨rfl, rfl⟩ := hm
      obtain ⟨rfl, h⟩ := h
      cases List.mem_singleton.mp h
      exact ⟨rfl, rfl⟩
    | all gs =>
      obtain ⟨rfl, rfl⟩ := hm
      obtain ⟨rfl, h⟩ := h
      obtain ⟨g, h1, rfl⟩ := List.mem_map.mp h
      exact ⟨rfl, hgs g h1⟩
  enter m k st hm hi := by
    unfold Interp.enter
    cases m with
    | gram g =>
      obtain ⟨rfl, hg⟩ := hm
      show WithinDefs d T Ls (match gramLabel g with | some l => _ | none => st)
      cases hl : gramLabel g with
      | none => exact hi
      | some l => exact hi.add hg hl
    | _ => exact hi
  regex m k hm n f he := by
    cases m with
    | gram g => exact gramExpr_re hm.2.sane he
    | _ => cases he
  delim m k hm n a b e he := by
    cases m with
    | gram g =>
      cases hm.2.sane with
      | @sequence _ _ _ _ _ hd ha hb => cases he; exact ⟨ha, hb⟩
      | @group _ _ first _ _ => cases first <;> cases he
      | _ => cases he
    | _ => cases he

theorem like_refl {N σ : Type} {nm : Names σ N} {Inv : σ → σ → Prop} {k : Nat} {e : Expr N}
    (h : ∀ x st st', Inv st st' → nm.get st k x = nm.get st' k x) :
    Like nm nm (fun m k m' k' => m = m' ∧ k = k') Inv k k e e := by
  have hms : ∀ ms : List N, List.Forall₂ (fun m m' => m = m' ∧ k = k) ms ms :=
    fun ms => List.forall₂_same.mpr fun _ _ => ⟨rfl, rfl⟩
  cases e with
  | lit => exact .lit
  | re => exact .re
  | delim => exact .delim
  | seq => exact .seq (hms _)
  | choice => exact .choice (hms _)
  | loop => exact .loop (hms _)
  | opt => exact .opt ⟨rfl, rfl⟩
  | neg => exact .neg ⟨rfl, rfl⟩
  | drop => exact .drop ⟨rfl, rfl⟩
  | flat => exact .flat ⟨rfl, rfl⟩
  | call x =>
    refine .call fun st st' hi => ?_
    rw [h x st st' hi]
    cases nm.get st' k x with
    | none => exact .none
    | some _ => exact .some ⟨rfl, rfl⟩
  | jump => exact .jump ⟨rfl, rfl⟩
  | within => exact .within ⟨rfl, rfl⟩
  | rename => exact .rename ⟨rfl, rfl⟩
  | give => exact .give rfl ⟨rfl, rfl⟩
  | empty => exact .empty

/-- Only what names stand for matters. -/
theorem script_alike : Alike scriptGrammar scriptNames scriptGrammar scriptNames (fun m k m' k' => m = m' ∧ k = k')
    (fun st st' => ∀ x, lastDef st x = lastDef st' x) where
  expr := by
    rintro m k m' k' ⟨rfl, rfl⟩
    refine like_refl fun x st st' hi => ?_
    show (if k = 1 then (lastDef st x).map Part.gram else none) = if k = 1 then (lastDef st' x).map Part.gram else none
    rw [hi x]
  enter := by
    rintro m k m' k' st st' ⟨rfl, rfl⟩ hi
    unfold Interp.enter
    cases scriptGrammar.label m with
    | none => exact hi
    | some l =>
      show ∀ x, lastDef (scriptNames.set st k l m) x = lastDef (scriptNames.set st' k l m) x
      cases m with
      | gram g =>
        intro x
        show lastDef (if k = 1 then st ++ [(l, g)] else st) x = lastDef (if k = 1 then st' ++ [(l, g)] else st') x
        split
        · rw [lastDef_append, lastDef_append, hi x]
        · exact hi x
      | _ => exact hi

theorem same_done {t u : Try Part (List (Str × Gram))} (h : SameTry t u) (hd : u.done scriptGrammar scriptNames p stop fuel) :
    t.done scriptGrammar scriptNames p stop fuel := by
  obtain ⟨a, k, q, st⟩ := t
  obtain ⟨a', k', q', st'⟩ := u
  obtain ⟨h1, h2, h3, h4⟩ := h
  dsimp only at h1 h2 h3 h4
  subst h1 h2 h3
  unfold Try.done at hd ⊢
  have := (script_alike.eval (p := p) (stop := stop) fuel) a k a k ⟨rfl, rfl⟩ q st st' h4
  dsimp only at hd ⊢
  generalize eval scriptGrammar scriptNames p stop fuel a k q st = x at this ⊢
  generalize eval scriptGrammar scriptNames p stop fuel a k q st' = y at this hd
  cases this with
  | none => exact hd
  | some _ => rfl

theorem choices_length {α : Type} {L : List α} {n : Nat} : (choices L n).length = L.length ^ n := by
  induction n with
  | zero => rfl
  | succ n ih =>
    unfold choices
    rw [List.length_map, List.length_product, ih, Nat.pow_succ, Nat.mul_comm]

theorem choices_mem {α β : Type} {L : List α} {f : β → α} (h : ∀ b, f b ∈ L) : ∀ xs : List β, xs.map f ∈ choices L xs.length
  | [] => by simp [choices]
  | b :: xs => by
    rw [List.map_cons, List.length_cons]
    unfold choices
    exact List.mem_map.mpr ⟨(f b, xs.map f), List.mem_product.mpr ⟨h b, choices_mem h xs⟩, rfl⟩

/-- What there is to see of a try. -/
def viewScript (Ls : List Str) (t : Try Part (List (Str × Gram))) : ((Part × Nat) × Nat) × List (Option Gram) :=
  (((t.what, t.scope), t.pos), Ls.map (lastDef t.names))

/-- All that there is to see. -/
def viewsScript (n : Str) (gs : List Gram) (T : List Gram) (Ls : List Str) (stop : Nat) : List (((Part × Nat) × Nat) × List (Option Gram)) :=
  ((((.whole n gs, 0) :: (.inside gs, 0) :: (.flat gs, 1) :: (.all gs, 1) :: T.map fun g => (Part.gram g, 1)) ×ˢ List.range (stop + 1)) ×ˢ
    choices (none :: T.map some) Ls.length)

theorem viewsScript_length {T : List Gram} {Ls : List Str} : (viewsScript n gs T Ls stop).length = (T.length + 4) * (stop + 1) * (T.length + 1) ^ Ls.length := by
  unfold viewsScript
  rw [List.length_product, List.length_product, choices_length]
  simp

theorem view_mem {t : Try Part (List (Str × Gram))} (h : t.Fine (WithinPart d T Ls n gs) (WithinDefs d T Ls) p stop) :
    viewScript Ls t ∈ viewsScript n gs T Ls stop := by
  obtain ⟨a, k, q, st⟩ := t
  obtain ⟨h1, h2, h3⟩ := h
  refine List.mem_product.mpr ⟨List.mem_product.mpr ⟨?_, ?_⟩, ?_⟩
  · dsimp only at h1
    cases a with
    | gram g =>
      obtain ⟨rfl, h⟩ := h1
      have := (h.terms g terms_self).1
      dsimp only
      simp only [List.mem_cons]
      exact Or.inr (Or.inr (Or.inr (Or.inr (List.mem_map.mpr ⟨g, this, rfl⟩))))
    | whole => obtain ⟨rfl, rfl, rfl⟩ := h1; simp
    | inside => obtain ⟨rfl, rfl⟩ := h1; simp
    | flat => obtain ⟨rfl, rfl⟩ := h1; simp
    | all => obtain ⟨rfl, rfl⟩ := h1; simp
  · exact List.mem_range.mpr (Nat.lt_succ_of_le h2.le.1)
  · refine choices_mem (fun x => ?_) Ls
    dsimp only
    cases hx : lastDef st x with
    | none => exact List.mem_cons_self
    | some g => exact List.mem_cons_of_mem _ (List.mem_map.mpr ⟨g, (((h3 x g hx).2).terms g terms_self).1, rfl⟩)

theorem view_same {t u : Try Part (List (Str × Gram))} (h : WithinDefs d T Ls t.names) (h' : WithinDefs d T Ls u.names)
    (hv : viewScript Ls t = viewScript Ls u) : SameTry t u := by
  unfold viewScript at hv
  simp only [Prod.mk.injEq] at hv
  obtain ⟨⟨⟨h1, h2⟩, h3⟩, h4⟩ := hv
  refine ⟨h1, h2, h3, fun x => ?_⟩
  by_cases hx : x ∈ Ls
  · exact (List.map_inj_left.mp h4) x hx
  · have key : ∀ {bs}, WithinDefs d T Ls bs → lastDef bs x = none := by
      intro bs hb
      cases hy : lastDef bs x with
      | none => rfl
      | some g => exact (hx (hb x g hy).1).elim
    rw [key h, key h']

theorem script_finite (hgs : ∀ g ∈ gs, Within d T Ls g) (hbs : WithinDefs d T Ls bs) (hpos : Cut p.src stop pos)
    (hr : ¬ ScriptRecurs p stop n gs bs pos) :
    (runScript p stop n gs ((T.length + 4) * (stop + 1) * (T.length + 1) ^ Ls.length) pos bs).isSome := by
  have hC := script_within (n := n) hgs
  have hf : (⟨.whole n gs, 0, pos, bs⟩ : Try Part (List (Str × Gram))).Fine (WithinPart d T Ls n gs) (WithinDefs d T Ls) p stop :=
    ⟨⟨rfl, rfl, rfl⟩, hpos, hbs⟩
  have := done_of_finite (V := viewScript Ls) (L := viewsScript n gs T Ls stop) (G := scriptGrammar) (nm := scriptNames) (p := p)
    (stop := stop) (t := ⟨.whole n gs, 0, pos, bs⟩) (fun u hu => view_mem (during_fine hC hu hf)) (by
      rintro ⟨u, v, h1, h2, h3⟩
      have hu := during_fine hC h1 hf
      have hv := during_fine hC (Or.inr h2) hu
      exact hr ⟨u, v, h1, h2, view_same hu.names hv.names h3⟩)
  rw [viewsScript_length] at this
  exact this

theorem script_endless (h : ScriptRecurs p stop n gs bs pos) : runScript p stop n gs fuel pos bs = none :=
  recurs_endless h (fun _ _ _ hs _ hd => same_done hs hd) fuel

theorem within_start (hgs : ∀ g ∈ gs, Sane d g) (hbs : ∀ x g, lastDef bs x = some g → Sane d g) :
    (∀ g ∈ gs, Within d (scriptTerms gs bs) (scriptLabels gs bs) g) ∧
      WithinDefs d (scriptTerms gs bs) (scriptLabels gs bs) bs := by
  have hl : ∀ g ∈ scriptTerms gs bs, ∀ l, gramLabel g = some l → l ∈ scriptLabels gs bs := fun g hg l hl =>
    List.mem_append_right _ (List.mem_filterMap.mpr ⟨g, hg, hl⟩)
  refine ⟨fun g hg => ⟨hgs g hg, fun g' h' => ?_⟩, fun x g hx => ⟨?_, hbs x g hx, fun g' h' => ?_⟩⟩
  · have : g' ∈ scriptTerms gs bs := List.mem_append_left _ (terms_mem hg h')
    exact ⟨this, hl g' this⟩
  · exact List.mem_append_left _ (List.mem_map.mpr ⟨_, lastDef_mem hx, rfl⟩)
  · have : g' ∈ scriptTerms gs bs := List.mem_append_right _ (terms_mem (List.mem_map.mpr ⟨_, lastDef_mem hx, rfl⟩) h')
    exact ⟨this, hl g' this⟩

end

/-! ### Scripts with imports -/

section
variable {bs bs' : List (Str × Thing)} {L : List Place} {th : Thing}

theorem defsPlaces_mem {all : List (Str × Thing)} (hm : (x, th) ∈ bs) {q : Place} (h : q ∈ thingPlaces all th) : q ∈ defsPlaces all bs := by
  induction bs with
  | nil => cases hm
  | cons b bs ih =>
    unfold defsPlaces
    rcases List.mem_cons.mp hm with rfl | hm
    · refine List.mem_append_left _ ?_
      unfold defPlaces
      exact h
    · exact List.mem_append_right _ (ih hm)

theorem thingPlaces_self : Place.thing bs th ∈ thingPlaces bs th := by
  cases th <;> (unfold thingPlaces; exact List.mem_cons_self)

/-- Definitions of which everything is among `L`. -/
structure InDefs (d : Quotes) (L : List Place) (bs : List (Str × Thing)) : Prop where
  sane : SaneDefs d bs
  places : ∀ q ∈ defsPlaces bs bs, q ∈ L

/-- The same for patterns. -/
structure InFile (d : Quotes) (L : List Place) (gs : List Gram) (bs : List (Str × Thing)) : Prop where
  sane : ∀ g ∈ gs, Sane d g
  places : ∀ q ∈ filePlaces gs bs, q ∈ L
  defs : InDefs d L bs

/-- The same for all that can be tried. -/
def InPlace (d : Quotes) (L : List Place) : Place → Prop
  | .gram bs g => Sane d g ∧ (∀ g' ∈ terms g, .gram bs g' ∈ L) ∧ InDefs d L bs
  | .thing bs th => SaneThing d th ∧ (∀ q ∈ thingPlaces bs th, q ∈ L) ∧ InDefs d L bs
  | .whole n gs bs => .whole n gs bs ∈ L ∧ InFile d L gs bs
  | .inside gs bs => InFile d L gs bs
  | .flat gs bs => InFile d L gs bs
  | .all gs bs => InFile d L gs bs
  | .renamed bs ident name => .renamed bs ident name ∈ L ∧ InDefs d L bs

theorem InPlace.mem {q : Place} (h : InPlace d L q) : q ∈ L := by
  cases q with
  | gram bs g => exact h.2.1 g terms_self
  | thing bs th => exact h.2.1 _ thingPlaces_self
  | whole => exact h.1
  | inside => exact h.places _ (by simp [filePlaces])
  | flat => exact h.places _ (by simp [filePlaces])
  | all => exact h.places _ (by simp [filePlaces])
  | renamed => exact h.1

theorem InDefs.thing (h : InDefs d L bs) (hx : lastDef bs x = some th) : InPlace d L (.thing bs th) := by
  refine ⟨?_, fun q hq => h.places q (defsPlaces_mem (lastDef_mem hx) hq), h⟩
  cases h.sane with
  | mk h => exact h x th hx

theorem in_gram (hg : Sane d g) (ht : ∀ g' ∈ terms g, .gram bs g' ∈ L) (hb : InDefs d L bs) {q : Place} {j : Nat}
    (h : (placeExpr bs g).Reaches noNames (fun _ => True) 0 q j) : j = 0 ∧ InPlace d L q := by
  by_cases hr : ∃ n c y, g = .ref n c y
  · obtain ⟨n, c, y, rfl⟩ := hr
    unfold placeExpr at h
    dsimp only at h
    cases hy : lastDef bs y with
    | none =>
      rw [hy] at h
      obtain ⟨-, st, -, h⟩ := h
      cases h
    | some th =>
      rw [hy] at h
      obtain ⟨rfl, h⟩ := h
      cases List.mem_singleton.mp h
      exact ⟨rfl, hb.thing hy⟩
  · have hnr : ∀ n c x, g ≠ .ref n c x := fun n c y he => hr ⟨n, c, y, he⟩
    rw [placeExpr_eq hnr] at h
    have h' : j = 0 ∧ q ∈ (gramExpr (Place.gram bs) g).uses := by
      cases g with
      | ref n c y => exact (hr ⟨n, c, y, rfl⟩).elim
      | group n c first gs => cases first <;> exact h
      | _ => exact h
    obtain ⟨rfl, h'⟩ := h'
    obtain ⟨g', h1, rfl⟩ := gramExpr_uses h'
    exact ⟨rfl, hg.part h1, fun a ha => ht a (terms_part h1 ha), hb⟩

theorem place_re {n' : Str} {f : Str → Option (Nat × Nat)} (hg : Sane d g) (he : placeExpr bs g = .re n' f) : Cuts f := by
  by_cases hr : ∃ n c y, g = .ref n c y
  · obtain ⟨n, c, y, rfl⟩ := hr
    unfold placeExpr at he
    dsimp only at he
    split at he <;> cases he
  · rw [placeExpr_eq fun n c y he => hr ⟨n, c, y, he⟩] at he
    exact gramExpr_re hg he

theorem place_delim {n' a b e : Str} (hg : Sane d g) (he : placeExpr bs g = .delim n' a b e) : a ≠ [] ∧ b ≠ [] := by
  by_cases hr : ∃ n c y, g = .ref n c y
  · obtain ⟨n, c, y, rfl⟩ := hr
    unfold placeExpr at he
    dsimp only at he
    split at he <;> cases he
  · rw [placeExpr_eq fun n c y he => hr ⟨n, c, y, he⟩] at he
    cases hg with
    | @sequence _ _ _ _ _ hd ha hb => cases he; exact ⟨ha, hb⟩
    | @group _ _ first _ _ => cases first <;> cases he
    | _ => cases he

theorem fixed_within : Closed fixedGrammar noNames (fun q k => k = 0 ∧ InPlace d L q) (fun _ => True) where
  reaches m k hm x j h := by
    obtain ⟨rfl, hm⟩ := hm
    cases m with
    | gram bs g => exact in_gram hm.1 hm.2.1 hm.2.2 h
    | thing bs th =>
      obtain ⟨hs, hp, hb⟩ := hm
      cases th with
      | own g =>
        cases hs with
        | own hs =>
          refine in_gram hs (fun g' h' => hp _ ?_) hb h
          unfold thingPlaces
          exact List.mem_cons_of_mem _ (List.mem_map.mpr ⟨g', h', rfl⟩)
      | file t n gs bs' =>
        cases hs with
        | file hs hs' =>
          obtain ⟨rfl, h⟩ := h
          cases List.mem_singleton.mp h
          unfold thingPlaces at hp
          exact ⟨rfl, hs, fun q hq => hp q (List.mem_cons_of_mem _ (List.mem_append_left _ hq)), hs',
            fun q hq => hp q (List.mem_cons_of_mem _ (List.mem_append_right _ hq))⟩
      | member t bs' i n =>
        cases hs with
        | member hs' =>
          obtain ⟨rfl, rfl⟩ := h
          unfold thingPlaces at hp
          exact ⟨rfl, hp _ (by simp), hs', fun q hq => hp q (List.mem_cons_of_mem _ (List.mem_cons_of_mem _ hq))⟩
    | whole n gs bs =>
      obtain ⟨rfl, h⟩ := h
      cases List.mem_singleton.mp h
      exact ⟨rfl, hm.2⟩
    | inside gs bs =>
      obtain ⟨rfl, rfl⟩ := h
      exact ⟨rfl, hm⟩
    | flat gs bs =>
      obtain ⟨rfl, h⟩ := h
      cases List.mem_singleton.mp h
      exact ⟨rfl, hm⟩
    | all gs bs =>
      obtain ⟨rfl, h⟩ := h
      obtain ⟨g, h1, rfl⟩ := List.mem_map.mp h
      refine ⟨rfl, hm.sane g h1, fun g' h' => hm.places _ ?_, hm.defs⟩
      unfold filePlaces
      simp only [List.mem_cons]
      exact Or.inr (Or.inr (Or.inr (List.mem_map.mpr ⟨g', terms_mem h1 h', rfl⟩)))
    | renamed bs i n =>
      have h' : (match lastDef bs i with | some th => Expr.rename n (Place.thing bs th) | none => .call i).Reaches noNames (fun _ => True) 0 x j := h
      cases hy : lastDef bs i with
      | none =>
        rw [hy] at h'
        obtain ⟨-, st, -, h⟩ := h'
        cases h
      | some th =>
        rw [hy] at h'
        obtain ⟨rfl, h'⟩ := h'
        cases List.mem_singleton.mp h'
        exact ⟨rfl, hm.2.thing hy⟩
  enter _ _ _ _ _ := trivial
  regex m k hm n f he := by
    obtain ⟨-, hm⟩ := hm
    cases m with
    | gram bs g => exact place_re hm.1 he
    | thing bs th =>
      cases th with
      | own g =>
        cases hm.1 with
        | own hs => exact place_re hs he
      | _ => cases he
    | renamed bs i n' =>
      have h' : (match lastDef bs i with | some th => Expr.rename n' (Place.thing bs th) | none => .call i) = .re n f := he
      split at h' <;> cases h'
    | _ => cases he
  delim m k hm n a b e he := by
    obtain ⟨-, hm⟩ := hm
    cases m with
    | gram bs g => exact place_delim hm.1 he
    | thing bs th =>
      cases th with
      | own g =>
        cases hm.1 with
        | own hs => exact place_delim hs he
      | _ => cases he
    | renamed bs i n' =>
      have h' : (match lastDef bs i with | some th => Expr.rename n' (Place.thing bs th) | none => .call i) = .delim n a b e := he
      split at h' <;> cases h'
    | _ => cases he

theorem in_start (hgs : ∀ g ∈ gs, Sane d g) (hbs : SaneDefs d bs) : InPlace d (places n gs bs) (.whole n gs bs) := by
  unfold places
  exact ⟨List.mem_cons_self, hgs, fun q hq => List.mem_cons_of_mem _ (List.mem_append_left _ hq), hbs,
    fun q hq => List.mem_cons_of_mem _ (List.mem_append_right _ hq)⟩

theorem runFixed_isSome : (runFixed p stop n gs bs fuel pos).isSome = true ↔
    (⟨.whole n gs bs, 0, pos, ()⟩ : Try Place Unit).done fixedGrammar noNames p stop fuel := by
  unfold runFixed Try.done
  dsimp only
  cases eval fixedGrammar noNames p stop fuel (.whole n gs bs) 0 pos () <;> simp

theorem fixed_finite (hgs : ∀ g ∈ gs, Sane d g) (hbs : SaneDefs d bs) (hpos : Cut p.src stop pos)
    (hr : ¬ FixedRecurs p stop n gs bs pos) : (runFixed p stop n gs bs (fixedDepth n gs bs stop) pos).isSome := by
  have hf : (⟨.whole n gs bs, 0, pos, ()⟩ : Try Place Unit).Fine (fun q k => k = 0 ∧ InPlace d (places n gs bs) q) (fun _ => True) p stop :=
    ⟨⟨rfl, in_start hgs hbs⟩, hpos, trivial⟩
  have := done_of_finite (V := fun t => (t.what, t.pos)) (L := places n gs bs ×ˢ List.range (stop + 1)) (G := fixedGrammar) (nm := noNames)
    (p := p) (stop := stop) (t := ⟨.whole n gs bs, 0, pos, ()⟩) (fun u hu => by
      have hu := during_fine fixed_within hu hf
      exact List.mem_product.mpr ⟨hu.what.2.mem, List.mem_range.mpr (Nat.lt_succ_of_le hu.pos.le.1)⟩) (by
      rintro ⟨u, v, h1, h2, h3⟩
      simp only [Prod.mk.injEq] at h3
      exact hr ⟨u, v, h1, h2, h3⟩)
  rw [List.length_product, List.length_range] at this
  exact runFixed_isSome.mpr this

theorem fixed_endless (hgs : ∀ g ∈ gs, Sane d g) (hbs : SaneDefs d bs) (hpos : Cut p.src stop pos) (h : FixedRecurs p stop n gs bs pos) :
    runFixed p stop n gs bs fuel pos = none := by
  have hf : (⟨.whole n gs bs, 0, pos, ()⟩ : Try Place Unit).Fine (fun q k => k = 0 ∧ InPlace d (places n gs bs) q) (fun _ => True) p stop :=
    ⟨⟨rfl, in_start hgs hbs⟩, hpos, trivial⟩
  unfold FixedRecurs at h
  have h' : Recurs fixedGrammar noNames p stop (fun t u => t = u) ⟨.whole n gs bs, 0, pos, ()⟩ := by
    obtain ⟨u, v, h1, h2, h3, h4⟩ := h
    have hu := during_fine fixed_within h1 hf
    have hv := during_fine fixed_within (Or.inr h2) hu
    refine ⟨u, v, h1, h2, ?_⟩
    obtain ⟨a, k, q, st⟩ := u
    obtain ⟨a', k', q', st'⟩ := v
    have e1 := hu.what.1
    have e2 := hv.what.1
    dsimp only at h3 h4 e1 e2
    subst h3 h4 e1 e2
    rfl
  have := recurs_endless h' (fun u v _ hs m hd => by rw [hs]; exact hd) fuel
  unfold runFixed
  dsimp only at this
  rw [this]
  rfl

end

end Adx.Interp
