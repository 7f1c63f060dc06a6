import Verif.Spec.EndlessLinked
import Verif.Proofs.EndlessScript
import Verif.Proofs.Linked
/-
  Scripts with imports try finitely many things at finitely many places.
-/
namespace Adx.Interp

open Peg (Cuts Cut)

variable {p : Parser} {stop pos fuel k j : Nat} {n x l : Str} {d : Quotes} {g g' : Gram} {gs : List Gram} {bs : List (Str × Thing)} {th : Thing}
  {σ σ' : Layout}

/-- Lists of what can be tried, of what names can stand for, and of names. -/
structure Stock where
  parts : List (Joint × Nat)
  values : List Thing
  labels : List (Nat × Str)

variable {U : Stock}

/-- All parts of a term in the scope `k` are listed. -/
structure HasTerm (d : Quotes) (U : Stock) (k : Nat) (g : Gram) : Prop where
  sane : Sane d g
  terms : ∀ g' ∈ terms g, (.gram g', k) ∈ U.parts ∧ (.thing k (.own g'), k) ∈ U.parts ∧ .own g' ∈ U.values ∧
    ∀ l, gramLabel g' = some l → (k, l) ∈ U.labels

theorem HasTerm.part (h : HasTerm d U k g) (hg : g' ∈ Gram.parts g) : HasTerm d U k g' :=
  ⟨h.sane.part hg, fun a ha => h.terms a (terms_part hg ha)⟩

/-- The same for the patterns of a script with the scope `j`, that is used in the scope `k`. -/
structure HasFile (d : Quotes) (U : Stock) (k j : Nat) (gs : List Gram) : Prop where
  inside : (.inside gs j, k) ∈ U.parts
  flat : (.flat gs, j) ∈ U.parts
  all : (.all gs, j) ∈ U.parts
  terms : ∀ g ∈ gs, HasTerm d U j g

/-- The same for what names stand for in the scope `k`. -/
inductive HasThing (d : Quotes) (U : Stock) : Nat → Thing → Prop
  | own {k : Nat} {g : Gram} (h : HasTerm d U k g) : HasThing d U k (.own g)
  | file {k t : Nat} {n : Str} {gs : List Gram} {bs : List (Str × Thing)} (hp : (.thing k (.file t n gs bs), k) ∈ U.parts) (hv : .file t n gs bs ∈ U.values) (hl : (k, n) ∈ U.labels)
      (hf : HasFile d U k (branch k t) gs) : HasThing d U k (.file t n gs bs)
  | member {k t : Nat} {bs : List (Str × Thing)} {ident name : Str} (hp : (.thing k (.member t bs ident name), k) ∈ U.parts) (hv : .member t bs ident name ∈ U.values)
      (hr : (.renamed (branch k t) bs ident name, branch k t) ∈ U.parts)
      (hd : ∀ th, lastDef bs ident = some th → HasThing d U (branch k t) th) : HasThing d U k (.member t bs ident name)

theorem HasThing.listed (h : HasThing d U k th) : (.thing k th, k) ∈ U.parts ∧ th ∈ U.values := by
  cases h with
  | own h =>
    have := h.terms _ terms_self
    exact ⟨this.2.1, this.2.2.1⟩
  | file hp hv => exact ⟨hp, hv⟩
  | member hp hv => exact ⟨hp, hv⟩

/-- The same for the definitions in all scopes. -/
def HasNames (d : Quotes) (U : Stock) (σ : Layout) : Prop :=
  ∀ k x th, lastDef (σ.defs k) x = some th → (k, x) ∈ U.labels ∧ HasThing d U k th

theorem HasNames.add (h : HasNames d U σ) (hl : (k, x) ∈ U.labels) (ht : HasThing d U k th) : HasNames d U (σ.add k x th) := by
  intro k' y th' hy
  rw [defs_add] at hy
  split at hy
  · rename_i he
    subst he
    rw [lastDef_append] at hy
    split at hy
    · rename_i he
      cases hy
      subst he
      exact ⟨hl, ht⟩
    · exact h _ _ _ hy
  · exact h _ _ _ hy

/-- The same for all that can be tried. -/
def HasJoint (d : Quotes) (U : Stock) : Joint → Nat → Prop
  | .gram g, k => HasTerm d U k g
  | .thing k' th, k => k' = k ∧ HasThing d U k th
  | .whole n gs, k => k = 0 ∧ (.whole n gs, 0) ∈ U.parts ∧ HasFile d U 0 1 gs
  | .inside gs j, k => HasFile d U k j gs
  | .flat gs, k => ∃ k', HasFile d U k' k gs
  | .all gs, k => ∃ k', HasFile d U k' k gs
  | .renamed k' bs ident name, k => k' = k ∧ (.renamed k bs ident name, k) ∈ U.parts ∧
      ∀ th, lastDef bs ident = some th → HasThing d U k th

theorem HasJoint.listed {m : Joint} (h : HasJoint d U m k) : (m, k) ∈ U.parts := by
  cases m with
  | gram g => exact (h.terms g terms_self).1
  | thing => obtain ⟨rfl, h⟩ := h; exact h.listed.1
  | whole => obtain ⟨rfl, h, -⟩ := h; exact h
  | inside => exact h.inside
  | flat => obtain ⟨_, h⟩ := h; exact h.flat
  | all => obtain ⟨_, h⟩ := h; exact h.all
  | renamed => obtain ⟨rfl, h, -⟩ := h; exact h

theorem call_joint {y : Str} {m : Joint} (h : (Expr.call y : Expr Joint).Reaches linkedNames (HasNames d U) k m j) : HasJoint d U m j := by
  obtain ⟨rfl, st, hi, h⟩ := h
  obtain ⟨th, h1, rfl⟩ := Option.map_eq_some_iff.mp (show (lastDef (st.defs _) y).map (Joint.thing _) = some m from h)
  exact ⟨rfl, (hi _ y th h1).2⟩

theorem term_joint {m : Joint} (hg : HasTerm d U k g) (h : (gramExpr Joint.gram g).Reaches linkedNames (HasNames d U) k m j) :
    HasJoint d U m j := by
  by_cases hr : ∃ n c y, g = .ref n c y
  · obtain ⟨n, c, y, rfl⟩ := hr
    exact call_joint h
  · have h' : j = k ∧ m ∈ (gramExpr Joint.gram g).uses := by
      cases g with
      | ref n c y => exact (hr ⟨n, c, y, rfl⟩).elim
      | group n c first gs => cases first <;> exact h
      | _ => exact h
    obtain ⟨rfl, h'⟩ := h'
    obtain ⟨g', h1, rfl⟩ := gramExpr_uses h'
    exact hg.part h1

theorem term_delim {n' a b e : Str} (hg : Sane d g) (he : gramExpr Joint.gram g = .delim n' a b e) : a ≠ [] ∧ b ≠ [] := by
  cases hg with
  | @sequence _ _ _ _ _ hd ha hb => cases he; exact ⟨ha, hb⟩
  | @group _ _ first _ _ => cases first <;> cases he
  | _ => cases he

theorem term_enter (hg : HasTerm d U k g) (hi : HasNames d U σ) :
    HasNames d U (match gramLabel g with | some l => σ.add k l (.own g) | none => σ) := by
  cases hl : gramLabel g with
  | none => exact hi
  | some l => exact hi.add ((hg.terms g terms_self).2.2.2 l hl) (.own hg)

theorem linked_within : Closed linkedGrammar linkedNames (HasJoint d U) (HasNames d U) where
  reaches m k hm x j h := by
    cases m with
    | gram g => exact term_joint hm h
    | thing k' th =>
      obtain ⟨rfl, hm⟩ := hm
      cases hm with
      | own hg => exact term_joint hg h
      | file hp hv hl hf =>
        obtain ⟨rfl, h⟩ := h
        cases List.mem_singleton.mp h
        exact hf
      | member hp hv hr hd =>
        obtain ⟨rfl, rfl⟩ := h
        exact ⟨rfl, hr, hd⟩
    | whole n gs =>
      obtain ⟨rfl, -, hm⟩ := hm
      obtain ⟨rfl, h⟩ := h
      cases List.mem_singleton.mp h
      exact hm
    | inside gs k' =>
      obtain ⟨rfl, rfl⟩ := h
      exact ⟨_, hm⟩
    | flat gs =>
      obtain ⟨rfl, h⟩ := h
      cases List.mem_singleton.mp h
      exact hm
    | all gs =>
      obtain ⟨_, hm⟩ := hm
      obtain ⟨rfl, h⟩ := h
      obtain ⟨g, h1, rfl⟩ := List.mem_map.mp h
      exact hm.terms g h1
    | renamed k' bs ident name =>
      obtain ⟨rfl, -, hm⟩ := hm
      have h' : (match lastDef bs ident with | some th => Expr.rename name (Joint.thing k' th) | none => .call ident).Reaches linkedNames
        (HasNames d U) k' x j := h
      cases hy : lastDef bs ident with
      | none =>
        rw [hy] at h'
        exact call_joint h'
      | some th =>
        rw [hy] at h'
        obtain ⟨rfl, h'⟩ := h'
        cases List.mem_singleton.mp h'
        exact ⟨rfl, hm th hy⟩
  enter m k st hm hi := by
    unfold Interp.enter
    cases m with
    | gram g => exact term_enter hm hi
    | thing k' th =>
      obtain ⟨rfl, hm⟩ := hm
      cases hm with
      | own hg => exact term_enter hg hi
      | file hp hv hl hf => exact hi.add hl (.file hp hv hl hf)
      | member => exact hi
    | _ => exact hi
  regex m k hm n f he := by
    cases m with
    | gram g => exact gramExpr_re hm.sane he
    | thing k' th =>
      obtain ⟨rfl, hm⟩ := hm
      cases hm with
      | own hg => exact gramExpr_re hg.sane he
      | _ => cases he
    | renamed k' bs ident name =>
      have h' : (match lastDef bs ident with | some th => Expr.rename name (Joint.thing k' th) | none => .call ident) = .re n f := he
      split at h' <;> cases h'
    | _ => cases he
  delim m k hm n a b e he := by
    cases m with
    | gram g => exact term_delim hm.sane he
    | thing k' th =>
      obtain ⟨rfl, hm⟩ := hm
      cases hm with
      | own hg => exact term_delim hg.sane he
      | _ => cases he
    | renamed k' bs ident name =>
      have h' : (match lastDef bs ident with | some th => Expr.rename name (Joint.thing k' th) | none => .call ident) = .delim n a b e := he
      split at h' <;> cases h'
    | _ => cases he

/-- Only what names stand for matters. -/
theorem linked_alike : Alike linkedGrammar linkedNames linkedGrammar linkedNames (fun m k m' k' => m = m' ∧ k = k')
    (fun st st' => ∀ k x, lastDef (st.defs k) x = lastDef (st'.defs k) x) where
  expr := by
    rintro m k m' k' ⟨rfl, rfl⟩
    refine like_refl fun x st st' hi => ?_
    show (lastDef (st.defs k) x).map (Joint.thing k) = (lastDef (st'.defs k) x).map (Joint.thing k)
    rw [hi k x]
  enter := by
    have add : ∀ {st st' : Layout} {k : Nat} {l : Str} {th : Thing}, (∀ k x, lastDef (st.defs k) x = lastDef (st'.defs k) x) →
        ∀ j x, lastDef ((st.add k l th).defs j) x = lastDef ((st'.add k l th).defs j) x := by
      intro st st' k l th hi j x
      rw [defs_add, defs_add]
      split
      · rw [lastDef_append, lastDef_append, hi]
      · exact hi j x
    rintro m k m' k' st st' ⟨rfl, rfl⟩ hi
    unfold Interp.enter
    cases linkedGrammar.label m with
    | none => exact hi
    | some l =>
      cases m with
      | gram g => exact add hi
      | thing _ th => exact add hi
      | _ => exact hi

theorem sameLinked_done {t u : Try Joint Layout} (h : SameLinked t u) (hd : u.done linkedGrammar linkedNames p stop fuel) :
    t.done linkedGrammar linkedNames p stop fuel := by
  obtain ⟨a, k, q, st⟩ := t
  obtain ⟨a', k', q', st'⟩ := u
  obtain ⟨h1, h2, h3, h4⟩ := h
  dsimp only at h1 h2 h3 h4
  subst h1 h2 h3
  unfold Try.done at hd ⊢
  have := (linked_alike.eval (p := p) (stop := stop) fuel) a k a k ⟨rfl, rfl⟩ q st st' h4
  dsimp only at hd ⊢
  generalize eval linkedGrammar linkedNames p stop fuel a k q st = x at this ⊢
  generalize eval linkedGrammar linkedNames p stop fuel a k q st' = y at this hd
  cases this with
  | none => exact hd
  | some _ => rfl

/-- What there is to see of a try. -/
def viewLinked (U : Stock) (t : Try Joint Layout) : ((Joint × Nat) × Nat) × List (Option Thing) :=
  (((t.what, t.scope), t.pos), U.labels.map fun e => lastDef (t.names.defs e.1) e.2)

/-- All that there is to see. -/
def viewsLinked (U : Stock) (stop : Nat) : List (((Joint × Nat) × Nat) × List (Option Thing)) :=
  ((U.parts ×ˢ List.range (stop + 1)) ×ˢ choices (none :: U.values.map some) U.labels.length)

/-- How many there are. -/
def Stock.depth (U : Stock) (stop : Nat) : Nat := U.parts.length * (stop + 1) * (U.values.length + 1) ^ U.labels.length

theorem viewsLinked_length : (viewsLinked U stop).length = U.depth stop := by
  unfold viewsLinked Stock.depth
  rw [List.length_product, List.length_product, choices_length]
  simp

theorem viewLinked_mem {t : Try Joint Layout} (h : t.Fine (HasJoint d U) (HasNames d U) p stop) : viewLinked U t ∈ viewsLinked U stop := by
  obtain ⟨a, k, q, st⟩ := t
  obtain ⟨h1, h2, h3⟩ := h
  refine List.mem_product.mpr ⟨List.mem_product.mpr ⟨HasJoint.listed h1, List.mem_range.mpr (Nat.lt_succ_of_le h2.le.1)⟩, ?_⟩
  refine choices_mem (fun e => ?_) U.labels
  dsimp only
  cases hx : lastDef (st.defs e.1) e.2 with
  | none => exact List.mem_cons_self
  | some th => exact List.mem_cons_of_mem _ (List.mem_map.mpr ⟨th, (h3 _ _ th hx).2.listed.2, rfl⟩)

theorem viewLinked_same {t u : Try Joint Layout} (h : HasNames d U t.names) (h' : HasNames d U u.names)
    (hv : viewLinked U t = viewLinked U u) : SameLinked t u := by
  unfold viewLinked at hv
  simp only [Prod.mk.injEq] at hv
  obtain ⟨⟨⟨h1, h2⟩, h3⟩, h4⟩ := hv
  refine ⟨h1, h2, h3, fun k x => ?_⟩
  by_cases hx : (k, x) ∈ U.labels
  · exact (List.map_inj_left.mp h4) (k, x) hx
  · have key : ∀ {σ : Layout}, HasNames d U σ → lastDef (σ.defs k) x = none := by
      intro σ hb
      cases hy : lastDef (σ.defs k) x with
      | none => rfl
      | some g => exact (hx (hb k x g hy).1).elim
    rw [key h, key h']

theorem linked_finite (hw : HasJoint d U (.whole n gs) 0) (hn : HasNames d U σ) (hpos : Cut p.src stop pos)
    (hr : ¬ LinkedRecurs p stop n gs σ pos) : (runLinked p stop n gs (U.depth stop) pos σ).isSome := by
  have hf : (⟨.whole n gs, 0, pos, σ⟩ : Try Joint Layout).Fine (HasJoint d U) (HasNames d U) p stop := ⟨hw, hpos, hn⟩
  have := done_of_finite (V := viewLinked U) (L := viewsLinked U stop) (G := linkedGrammar) (nm := linkedNames) (p := p)
    (stop := stop) (t := ⟨.whole n gs, 0, pos, σ⟩) (fun u hu => viewLinked_mem (during_fine linked_within hu hf)) (by
      rintro ⟨u, v, h1, h2, h3⟩
      have hu := during_fine linked_within h1 hf
      have hv := during_fine linked_within (Or.inr h2) hu
      exact hr ⟨u, v, h1, h2, viewLinked_same hu.names hv.names h3⟩)
  rw [viewsLinked_length] at this
  exact this

theorem linked_endless (h : LinkedRecurs p stop n gs σ pos) : runLinked p stop n gs fuel pos σ = none :=
  recurs_endless h (fun _ _ _ hs _ hd => sameLinked_done hs hd) fuel

/-! ### The lists of a script -/

/-- All that a script can try. -/
def stockOf (n : Str) (gs : List Gram) (bs : List (Str × Thing)) : Stock := ⟨linkedParts n gs bs, linkedValues gs bs, linkedLabels gs bs⟩

theorem stockOf_depth : (stockOf n gs bs).depth stop = linkedDepth n gs bs stop := rfl

theorem Inner.snoc {k0 k t : Nat} {bs0 bs : List (Str × Thing)} {b : Str × Thing} (h : Inner k0 bs0 k bs) (hb : b ∈ bs) (ht : b.2.tag = some t) :
    Inner k0 bs0 (branch k t) b.2.defs := by
  induction h with
  | here => exact .down hb ht .here
  | down hb' ht' _ ih => exact .down hb' ht' (ih hb)

theorem linkedThings_mem {D : List (Str × Thing)} (h : Inner 1 bs k D) (hb : (x, th) ∈ D) : (k, th) ∈ linkedThings bs :=
  List.mem_flatMap.mpr ⟨_, h.mem, List.mem_map.mpr ⟨_, hb, rfl⟩⟩

theorem has_term (hg : Sane d g) (h : ∀ g' ∈ terms g, (k, g') ∈ linkedTerms gs bs) : HasTerm d (stockOf n gs bs) k g := by
  refine ⟨hg, fun g' hg' => ?_⟩
  have hm := h g' hg'
  refine ⟨?_, ?_, ?_, fun l hl => ?_⟩
  · simp only [stockOf, linkedParts, List.mem_cons, List.mem_append]
    exact Or.inr (Or.inr (Or.inr (Or.inr (Or.inl (Or.inl (Or.inl (List.mem_map.mpr ⟨_, hm, rfl⟩)))))))
  · simp only [stockOf, linkedParts, List.mem_cons, List.mem_append]
    exact Or.inr (Or.inr (Or.inr (Or.inr (Or.inl (Or.inl (Or.inr (List.mem_map.mpr ⟨_, hm, rfl⟩)))))))
  · exact List.mem_append_left _ (List.mem_map.mpr ⟨_, hm, rfl⟩)
  · exact List.mem_append_right _ (List.mem_append_left _ (List.mem_filterMap.mpr ⟨_, hm, by rw [hl]; rfl⟩))

theorem has_layer {q : Joint × Nat} (h : (k, th) ∈ linkedThings bs) (hq : q ∈ thingLayers (k, th)) : q ∈ (stockOf n gs bs).parts := by
  simp only [stockOf, linkedParts, List.mem_cons, List.mem_append]
  exact Or.inr (Or.inr (Or.inr (Or.inr (Or.inr (List.mem_flatMap.mpr ⟨_, h, hq⟩)))))

theorem has_part (h : (k, th) ∈ linkedThings bs) : (.thing k th, k) ∈ (stockOf n gs bs).parts := by
  simp only [stockOf, linkedParts, List.mem_cons, List.mem_append]
  exact Or.inr (Or.inr (Or.inr (Or.inr (Or.inl (Or.inr (List.mem_map.mpr ⟨_, h, rfl⟩))))))

theorem has_value (h : (k, th) ∈ linkedThings bs) : th ∈ (stockOf n gs bs).values :=
  List.mem_append_right _ (List.mem_map.mpr ⟨_, h, rfl⟩)

theorem thing_term (h : (k, th) ∈ linkedThings bs) (hg : (j, g) ∈ thingTerms (k, th)) : (j, g) ∈ linkedTerms gs bs :=
  List.mem_append_right _ (List.mem_flatMap.mpr ⟨_, h, hg⟩)

theorem has_thing {th : Thing} : SaneThing d th → ∀ {k : Nat} {D : List (Str × Thing)} {x : Str}, Inner 1 bs k D → (x, th) ∈ D →
    HasThing d (stockOf n gs bs) k th
  | .own hg, k, D, x, hi, hb => .own (has_term hg fun _ h => thing_term (linkedThings_mem hi hb) (List.mem_map.mpr ⟨_, h, rfl⟩))
  | @SaneThing.file _ t n' gs' bs' hg _, k, D, x, hi, hb =>
    have hm := linkedThings_mem hi hb
    .file (has_part hm) (has_value hm)
      (List.mem_append_right _ (List.mem_append_right _ (List.mem_filterMap.mpr ⟨_, hm, rfl⟩)))
      ⟨has_layer hm (by simp [thingLayers]), has_layer hm (by simp [thingLayers]), has_layer hm (by simp [thingLayers]),
        fun g h => has_term (hg g h) fun _ h' => thing_term hm (List.mem_map.mpr ⟨_, terms_mem h h', rfl⟩)⟩
  | @SaneThing.member _ t bs' ident name (.mk hs), k, D, x, hi, hb =>
    have hm := linkedThings_mem hi hb
    .member (has_part hm) (has_value hm) (has_layer hm (by simp [thingLayers]))
      fun th' h' => has_thing (hs ident th' h') (hi.snoc hb rfl) (lastDef_mem h')
termination_by structural h => h

theorem has_whole (hgs : ∀ g ∈ gs, Sane d g) : HasJoint d (stockOf n gs bs) (.whole n gs) 0 := by
  refine ⟨rfl, by simp [stockOf, linkedParts], by simp [stockOf, linkedParts], by simp [stockOf, linkedParts], by simp [stockOf, linkedParts],
    fun g hg => has_term (hgs g hg) fun _ h => List.mem_append_left _ (List.mem_map.mpr ⟨_, terms_mem hg h, rfl⟩)⟩

theorem has_names (hbs : SaneScopes d bs) : HasNames d (stockOf n gs bs) (scopesOf bs) := by
  intro k x th hx
  unfold Layout.defs at hx
  cases hf : (scopesOf bs).find? fun e => e.1 == k with
  | none => rw [hf] at hx; cases hx
  | some e =>
    rw [hf] at hx
    obtain ⟨k', D⟩ := e
    obtain rfl : k' = k := by simpa using List.find?_some hf
    have hm := List.mem_of_find?_eq_some hf
    have hl := lastDef_mem hx
    refine ⟨List.mem_append_left _ (List.mem_flatMap.mpr ⟨_, hm, List.mem_map.mpr ⟨_, hl, rfl⟩⟩), ?_⟩
    cases hbs _ hm with
    | mk hs => exact has_thing (hs x th hx) (scopesOf_inner hm) hl

/-! ### Texts -/

theorem SaneScopes.own (h : SaneScopes d bs) : SaneDefs d bs := h _ (List.mem_cons_self ..)

theorem file_sane {env : Env} (hc : CutsAll env) {file : Str} (h : Syntax.File env file n gs bs) : (∀ g ∈ gs, Sane .any g) ∧ SaneDefs .any bs := by
  cases h with
  | mk _ _ h => exact text_sane hc h

theorem scopes_brought {t : Nat} {cur : Str} {ids : List (Str × Str)} {ths : List (Str × Thing)} (hs : SaneDefs d bs)
    (hi : ∀ k, ∀ e ∈ scopesDefs k bs, SaneDefs d e.2) (h : Syntax.Brought t gs bs n cur ids ths) :
    ∀ b ∈ ths, ∀ k, ∀ e ∈ scopesDef k b, SaneDefs d e.2 := by
  have key : ∀ k, ∀ e ∈ (branch k t, bs) :: scopesDefs (branch k t) bs, SaneDefs d e.2 := by
    intro k e he
    rcases List.mem_cons.mp he with rfl | he
    · exact hs
    · exact hi _ e he
  induction h with
  | nil => exact fun b hb => by cases hb
  | root _ _ ih => exact fun b hm => (List.mem_cons.mp hm).elim (fun he => he ▸ key) (ih b)
  | member _ _ _ ih => exact fun b hm => (List.mem_cons.mp hm).elim (fun he => he ▸ key) (ih b)

theorem scopesDefs_of {D : Nat × List (Str × Thing) → Prop} (h : ∀ b ∈ bs, ∀ k, ∀ e ∈ scopesDef k b, D e) : ∀ k, ∀ e ∈ scopesDefs k bs, D e := by
  intro k e he
  induction bs with
  | nil => cases he
  | cons b bs ih =>
    unfold scopesDefs at he
    rcases List.mem_append.mp he with he | he
    · exact h b (List.mem_cons_self ..) k e he
    · exact ih (fun b hb => h b (List.mem_cons_of_mem _ hb)) he

/-- What texts mean makes sense in all scopes. -/
theorem text_scopes {env : Env} (hc : CutsAll env) {src name : Str} {fromFile : Option Str} (h : Syntax.Text env src name fromFile n gs bs) :
    SaneScopes .any bs := by
  have key : ∀ k, ∀ e ∈ scopesDefs k bs, SaneDefs .any e.2 := by
    refine Syntax.Text.rec (env := env)
      (motive_1 := fun src name fromFile n gs bs _ => ∀ k, ∀ e ∈ scopesDefs k bs, SaneDefs .any e.2)
      (motive_2 := fun file n gs bs _ => SaneDefs .any bs ∧ ∀ k, ∀ e ∈ scopesDefs k bs, SaneDefs .any e.2)
      (motive_3 := fun fromFile _ ss bs _ => ∀ b ∈ bs, ∀ k, ∀ e ∈ scopesDef k b, SaneDefs .any e.2)
      ?_ ?_ ?_ ?_ ?_ h
    · exact fun _ _ _ _ ih => scopesDefs_of ih
    · exact fun _ _ h ih => ⟨(text_sane hc h).2, ih⟩
    · exact fun b hb => by cases hb
    · intro fromFile t name g ss bs _ ih b hb
      rcases List.mem_cons.mp hb with rfl | hb
      · exact fun k e he => nomatch he
      · exact ih b hb
    · intro base t path joined file ids n0 n gs fbs ths ss bs _ _ _ hbr _ ih ih' b hb
      rcases List.mem_append.mp hb with hb | hb
      · exact scopes_brought ih.1 ih.2 hbr b hb
      · exact ih' b hb
  intro e he
  rcases List.mem_cons.mp he with rfl | he
  · exact (text_sane hc h).2
  · exact key 1 e he

end Adx.Interp
