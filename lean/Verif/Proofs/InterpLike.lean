import Verif.Spec.Toil
import Mathlib.Data.List.Forall2
/-
  The reference interpreter: more depth, and grammars that are alike.
-/
namespace Adx.Interp

variable {N N' σ σ' : Type} {p : Parser} {stop : Nat}

/-! ### Depth -/

section
variable {ev ev' : Ev N σ} (h : ∀ m k pos st x, ev m k pos st = some x → ev' m k pos st = some x)
include h

theorem parts_mono {k : Nat} {ms : List N} {r : Run} {st : σ} {y : Step × σ} (hp : parts ev k ms r st = some y) :
    parts ev' k ms r st = some y := by
  induction ms generalizing r st with
  | nil => exact hp
  | cons m ms ih =>
    unfold parts at hp ⊢
    obtain ⟨x, hx, hr⟩ := Option.bind_eq_some_iff.mp hp
    refine Option.bind_eq_some_iff.mpr ⟨x, h _ _ _ _ _ hx, ?_⟩
    split at hr
    · exact hr
    · exact hr
    · exact ih hr

theorem choose_mono {k pos : Nat} {ms : List N} {st : σ} {y : Result × σ} (hp : choose ev k pos ms st = some y) :
    choose ev' k pos ms st = some y := by
  induction ms generalizing st with
  | nil => exact hp
  | cons m ms ih =>
    unfold choose at hp ⊢
    obtain ⟨x, hx, hr⟩ := Option.bind_eq_some_iff.mp hp
    refine Option.bind_eq_some_iff.mpr ⟨x, h _ _ _ _ _ hx, ?_⟩
    split at hr
    · exact ih hr
    · exact ih hr
    · exact hr

theorem rounds_mono {k : Nat} {ms : List N} {j : Nat} {r : Run} {st : σ} {y : Step × σ}
    (hp : rounds ev k ms j r st = some y) : rounds ev' k ms j r st = some y := by
  induction j generalizing r st with
  | zero => exact hp
  | succ j ih =>
    unfold rounds at hp ⊢
    obtain ⟨x, hx, hr⟩ := Option.bind_eq_some_iff.mp hp
    refine Option.bind_eq_some_iff.mpr ⟨x, parts_mono h hx, ?_⟩
    split at hr
    · exact ih hr
    · exact hr

theorem map_mono {α β : Type} {f : α → β} {o o' : Option α} {y : β} (h : ∀ x, o = some x → o' = some x)
    (hp : o.map f = some y) : o'.map f = some y := by
  obtain ⟨x, hx, rfl⟩ := Option.map_eq_some_iff.mp hp
  rw [h x hx]
  rfl

theorem evalExpr_mono {nm : Names σ N} {k pos : Nat} {st : σ} {e : Expr N} {y : Result × σ}
    (hp : evalExpr ev nm p stop k pos st e = some y) : evalExpr ev' nm p stop k pos st e = some y := by
  cases e with
  | lit => exact hp
  | re => exact hp
  | delim => exact hp
  | seq => exact map_mono (ev := ev) (ev' := ev') h (fun _ => parts_mono h) hp
  | choice => exact choose_mono h hp
  | loop => exact map_mono (ev := ev) (ev' := ev') h (fun _ => rounds_mono h) hp
  | opt => exact map_mono (ev := ev) (ev' := ev') h (h _ _ _ _) hp
  | neg => exact map_mono (ev := ev) (ev' := ev') h (h _ _ _ _) hp
  | drop => exact map_mono (ev := ev) (ev' := ev') h (h _ _ _ _) hp
  | flat => exact map_mono (ev := ev) (ev' := ev') h (h _ _ _ _) hp
  | call x =>
    unfold evalExpr at hp ⊢
    dsimp only at hp ⊢
    split at hp
    · exact h _ _ _ _ _ hp
    · exact hp
  | jump => exact h _ _ _ _ _ hp
  | within => exact h _ _ _ _ _ hp
  | rename => exact map_mono (ev := ev) (ev' := ev') h (h _ _ _ _) hp
  | give => exact map_mono (ev := ev) (ev' := ev') h (h _ _ _ _) hp
  | empty => exact hp

end

/-- More depth does not change what the interpreter says. -/
theorem eval_succ {G : Grammar N} {nm : Names σ N} {n : Nat} {m : N} {k pos : Nat} {st : σ} {x : Result × σ}
    (h : eval G nm p stop n m k pos st = some x) : eval G nm p stop (n + 1) m k pos st = some x := by
  induction n generalizing m k pos st x with
  | zero => cases h
  | succ n ih => exact evalExpr_mono (ev := eval G nm p stop n) (fun _ _ _ _ _ => ih) h

theorem eval_mono {G : Grammar N} {nm : Names σ N} {n n' : Nat} (hn : n ≤ n') {m : N} {k pos : Nat} {st : σ}
    {x : Result × σ} (h : eval G nm p stop n m k pos st = some x) : eval G nm p stop n' m k pos st = some x := by
  induction hn with
  | refl => exact h
  | step _ ih => exact eval_succ ih

/-! ### Grammars that are alike -/

section
variable (G : Grammar N) (nm : Names σ N) (G' : Grammar N') (nm' : Names σ' N')
  (Rel : N → Nat → N' → Nat → Prop) (Inv : σ → σ' → Prop)

/-- Expressions that say the same about nonterminals that correspond, in the scopes `k` and
`k'`. -/
inductive Like (k k' : Nat) : Expr N → Expr N' → Prop
  | lit {n s} : Like k k' (.lit n s) (.lit n s)
  | re {n f} : Like k k' (.re n f) (.re n f)
  | delim {n a b e} : Like k k' (.delim n a b e) (.delim n a b e)
  | seq {n ms ms'} (h : List.Forall₂ (fun m m' => Rel m k m' k') ms ms') : Like k k' (.seq n ms) (.seq n ms')
  | choice {ms ms'} (h : List.Forall₂ (fun m m' => Rel m k m' k') ms ms') : Like k k' (.choice ms) (.choice ms')
  | loop {n ms ms' lo hi} (h : List.Forall₂ (fun m m' => Rel m k m' k') ms ms') :
      Like k k' (.loop n ms lo hi) (.loop n ms' lo hi)
  | opt {m m'} (h : Rel m k m' k') : Like k k' (.opt m) (.opt m')
  | neg {m m'} (h : Rel m k m' k') : Like k k' (.neg m) (.neg m')
  | drop {m m'} (h : Rel m k m' k') : Like k k' (.drop m) (.drop m')
  | flat {m m'} (h : Rel m k m' k') : Like k k' (.flat m) (.flat m')
  | call {x} (h : ∀ st st', Inv st st' → Option.Rel (fun m m' => Rel m k m' k') (nm.get st k x) (nm'.get st' k' x)) :
      Like k k' (.call x) (.call x)
  | resolved {x m'} (h : ∀ st st', Inv st st' → ∃ m, nm.get st k x = some m ∧ Rel m k m' k') :
      Like k k' (.call x) (.jump m')
  | jump {m m'} (h : Rel m k m' k') : Like k k' (.jump m) (.jump m')
  | within {k1 k1' m m'} (h : Rel m k1 m' k1') : Like k k' (.within k1 m) (.within k1' m')
  | rename {l m m'} (h : Rel m k m' k') : Like k k' (.rename l m) (.rename l m')
  | give {a a' m m'} (ha : Item.give a = Item.give a') (h : Rel m k m' k') : Like k k' (.give a m) (.give a' m')
  | empty : Like k k' .empty .empty

/-- Grammars that are alike. -/
structure Alike : Prop where
  expr : ∀ {m k m' k'}, Rel m k m' k' → Like nm nm' Rel Inv k k' (G.expr m) (G'.expr m')
  enter : ∀ {m k m' k' st st'}, Rel m k m' k' → Inv st st' →
    Inv (Interp.enter G nm m k st) (Interp.enter G' nm' m' k' st')

end

/-- The same result, and stores that correspond. -/
def Same {α : Type} (Inv : σ → σ' → Prop) (x : α × σ) (y : α × σ') : Prop := x.1 = y.1 ∧ Inv x.2 y.2

theorem rel_map {α β : Type} {Inv : σ → σ' → Prop} {x : Option (α × σ)} {y : Option (α × σ')} {f : α → β}
    (h : Option.Rel (Same Inv) x y) : Option.Rel (Same Inv) (x.map fun a => (f a.1, a.2)) (y.map fun a => (f a.1, a.2)) := by
  cases h with
  | none => exact .none
  | some h => exact .some ⟨by dsimp only; rw [h.1], h.2⟩

variable {G : Grammar N} {nm : Names σ N} {G' : Grammar N'} {nm' : Names σ' N'}
  {Rel : N → Nat → N' → Nat → Prop} {Inv : σ → σ' → Prop} {ev : Ev N σ} {ev' : Ev N' σ'}

/-- Corresponding nonterminals have the same results. -/
def Agree (Rel : N → Nat → N' → Nat → Prop) (Inv : σ → σ' → Prop) (ev : Ev N σ) (ev' : Ev N' σ') : Prop :=
  ∀ m k m' k', Rel m k m' k' → ∀ pos st st', Inv st st' → Option.Rel (Same Inv) (ev m k pos st) (ev' m' k' pos st')

theorem parts_like (h : Agree Rel Inv ev ev') {k k' : Nat} {ms : List N} {ms' : List N'}
    (hms : List.Forall₂ (fun m m' => Rel m k m' k') ms ms') : ∀ {r : Run} {st : σ} {st' : σ'}, Inv st st' →
    Option.Rel (Same Inv) (parts ev k ms r st) (parts ev' k' ms' r st') := by
  induction hms with
  | nil => intro r st st' hi; exact .some ⟨rfl, hi⟩
  | @cons m m' ms ms' hm _ ih =>
    intro r st st' hi
    unfold parts
    have := h _ _ _ _ hm r.pos st st' hi
    generalize ev m k r.pos st = x at this
    generalize ev' m' k' r.pos st' = y at this
    cases this with
    | none => exact .none
    | @some a b hab =>
      obtain ⟨a, sa⟩ := a
      obtain ⟨b, sb⟩ := b
      obtain ⟨rfl, h2⟩ := hab
      cases a with
      | fail => exact .some ⟨rfl, h2⟩
      | error e => exact .some ⟨rfl, h2⟩
      | _ => exact ih h2

theorem choose_like (h : Agree Rel Inv ev ev') {k k' pos : Nat} {ms : List N} {ms' : List N'}
    (hms : List.Forall₂ (fun m m' => Rel m k m' k') ms ms') : ∀ {st : σ} {st' : σ'}, Inv st st' →
    Option.Rel (Same Inv) (choose ev k pos ms st) (choose ev' k' pos ms' st') := by
  induction hms with
  | nil => intro st st' hi; exact .some ⟨rfl, hi⟩
  | @cons m m' ms ms' hm _ ih =>
    intro st st' hi
    unfold choose
    have := h _ _ _ _ hm pos st st' hi
    generalize ev m k pos st = x at this
    generalize ev' m' k' pos st' = y at this
    cases this with
    | none => exact .none
    | @some a b hab =>
      obtain ⟨a, sa⟩ := a
      obtain ⟨b, sb⟩ := b
      obtain ⟨rfl, h2⟩ := hab
      cases a with
      | fail => exact ih h2
      | skip n =>
        cases n with
        | zero => exact ih h2
        | succ n => exact .some ⟨rfl, h2⟩
      | _ => exact .some ⟨rfl, h2⟩

theorem rounds_like (h : Agree Rel Inv ev ev') {k k' : Nat} {ms : List N} {ms' : List N'}
    (hms : List.Forall₂ (fun m m' => Rel m k m' k') ms ms') {j : Nat} : ∀ {r : Run} {st : σ} {st' : σ'}, Inv st st' →
    Option.Rel (Same Inv) (rounds ev k ms j r st) (rounds ev' k' ms' j r st') := by
  induction j with
  | zero => intro r st st' hi; exact .some ⟨rfl, hi⟩
  | succ j ih =>
    intro r st st' hi
    unfold rounds
    have := parts_like h hms (r := r) hi
    generalize parts ev k ms r st = x at this
    generalize parts ev' k' ms' r st' = y at this
    cases this with
    | none => exact .none
    | @some a b hab =>
      obtain ⟨a, sa⟩ := a
      obtain ⟨b, sb⟩ := b
      obtain ⟨rfl, h2⟩ := hab
      cases a with
      | all r => exact ih h2
      | _ => exact .some ⟨rfl, h2⟩

/-- Grammars that are alike have the same results. -/
theorem Alike.eval (h : Alike G nm G' nm' Rel Inv) (n : Nat) :
    Agree Rel Inv (Interp.eval G nm p stop n) (Interp.eval G' nm' p stop n) := by
  induction n with
  | zero => intro m k m' k' _ pos st st' _; exact .none
  | succ n ih =>
    intro m k m' k' hm pos st st' hi
    unfold Interp.eval
    replace hi := h.enter hm hi
    generalize Interp.enter G nm m k st = st at hi
    generalize Interp.enter G' nm' m' k' st' = st' at hi
    have hl := h.expr hm
    generalize G.expr m = e at hl
    generalize G'.expr m' = e' at hl
    have rfl' : ∀ x : Result, Option.Rel (Same Inv) (some (x, st)) (some (x, st')) := fun x => .some ⟨rfl, hi⟩
    cases hl with
    | lit =>
      unfold evalExpr
      dsimp only
      split <;> exact rfl' _
    | re =>
      unfold evalExpr
      dsimp only
      split <;> exact rfl' _
    | delim =>
      unfold evalExpr
      dsimp only
      split
      · split <;> exact rfl' _
      · exact rfl' _
    | seq hms => exact rel_map (parts_like ih hms hi)
    | choice hms => exact choose_like ih hms hi
    | loop hms => exact rel_map (rounds_like ih hms hi)
    | opt hm => exact rel_map (ih _ _ _ _ hm pos _ _ hi)
    | neg hm => exact rel_map (ih _ _ _ _ hm pos _ _ hi)
    | drop hm => exact rel_map (ih _ _ _ _ hm pos _ _ hi)
    | flat hm => exact rel_map (ih _ _ _ _ hm pos _ _ hi)
    | @call x hx =>
      unfold evalExpr
      dsimp only
      have := hx _ _ hi
      generalize nm.get st k x = a at this
      generalize nm'.get st' k' x = b at this
      cases this with
      | none => exact rfl' _
      | some hm => exact ih _ _ _ _ hm pos _ _ hi
    | @resolved x m' hx =>
      unfold evalExpr
      dsimp only
      obtain ⟨m, hm, hr⟩ := hx _ _ hi
      rw [hm]
      exact ih _ _ _ _ hr pos _ _ hi
    | jump hm => exact ih _ _ _ _ hm pos _ _ hi
    | within hm => exact ih _ _ _ _ hm pos _ _ hi
    | rename hm => exact rel_map (ih _ _ _ _ hm pos _ _ hi)
    | give ha hm =>
      unfold evalExpr
      dsimp only
      rw [ha]
      exact rel_map (ih _ _ _ _ hm pos _ _ hi)
    | empty => exact rfl' _

/-! ### What they cost -/

/-- Corresponding nonterminals cost the same. -/
def Evens (Rel : N → Nat → N' → Nat → Prop) (Inv : σ → σ' → Prop) (wk : N → Nat → Nat → σ → Nat)
    (wk' : N' → Nat → Nat → σ' → Nat) : Prop :=
  ∀ m k m' k', Rel m k m' k' → ∀ pos st st', Inv st st' → wk m k pos st = wk' m' k' pos st'

variable {wk : N → Nat → Nat → σ → Nat} {wk' : N' → Nat → Nat → σ' → Nat}

theorem madeBy_like {x : Option (Result × σ)} {y : Option (Result × σ')} (h : Option.Rel (Same Inv) x y) :
    madeBy x = madeBy y := by
  cases h with
  | none => rfl
  | some h => exact congrArg made h.1

theorem partsWork_like (h : Agree Rel Inv ev ev') (hw : Evens Rel Inv wk wk') {k k' : Nat} {ms : List N} {ms' : List N'}
    (hms : List.Forall₂ (fun m m' => Rel m k m' k') ms ms') : ∀ {r : Run} {st : σ} {st' : σ'}, Inv st st' →
    partsWork ev wk k ms r st = partsWork ev' wk' k' ms' r st' := by
  induction hms with
  | nil => intro r st st' _; rfl
  | @cons m m' ms ms' hm _ ih =>
    intro r st st' hi
    rw [partsWork, partsWork, hw _ _ _ _ hm r.pos st st' hi]
    have := h _ _ _ _ hm r.pos st st' hi
    generalize ev m k r.pos st = x at this
    generalize ev' m' k' r.pos st' = y at this
    cases this with
    | none => rfl
    | @some a b hab =>
      obtain ⟨a, sa⟩ := a
      obtain ⟨b, sb⟩ := b
      obtain ⟨rfl, h2⟩ := hab
      cases a with
      | fail => rfl
      | error e => rfl
      | _ => exact congrArg _ (ih h2)

theorem chooseWork_like (h : Agree Rel Inv ev ev') (hw : Evens Rel Inv wk wk') {k k' pos : Nat} {ms : List N} {ms' : List N'}
    (hms : List.Forall₂ (fun m m' => Rel m k m' k') ms ms') : ∀ {st : σ} {st' : σ'}, Inv st st' →
    chooseWork ev wk k pos ms st = chooseWork ev' wk' k' pos ms' st' := by
  induction hms with
  | nil => intro st st' _; rfl
  | @cons m m' ms ms' hm _ ih =>
    intro st st' hi
    rw [chooseWork, chooseWork, hw _ _ _ _ hm pos st st' hi]
    have := h _ _ _ _ hm pos st st' hi
    generalize ev m k pos st = x at this
    generalize ev' m' k' pos st' = y at this
    cases this with
    | none => rfl
    | @some a b hab =>
      obtain ⟨a, sa⟩ := a
      obtain ⟨b, sb⟩ := b
      obtain ⟨rfl, h2⟩ := hab
      cases a with
      | fail => exact congrArg _ (ih h2)
      | skip n =>
        cases n with
        | zero => exact congrArg _ (ih h2)
        | succ n => rfl
      | _ => rfl

theorem roundsWork_like (h : Agree Rel Inv ev ev') (hw : Evens Rel Inv wk wk') {k k' : Nat} {ms : List N} {ms' : List N'}
    (hms : List.Forall₂ (fun m m' => Rel m k m' k') ms ms') {j : Nat} : ∀ {r : Run} {st : σ} {st' : σ'}, Inv st st' →
    roundsWork ev wk k ms j r st = roundsWork ev' wk' k' ms' j r st' := by
  induction j with
  | zero => intro r st st' _; rfl
  | succ j ih =>
    intro r st st' hi
    rw [roundsWork, roundsWork, partsWork_like h hw hms hi]
    have := parts_like h hms (r := r) hi
    generalize parts ev k ms r st = x at this
    generalize parts ev' k' ms' r st' = y at this
    cases this with
    | none => rfl
    | @some a b hab =>
      obtain ⟨a, sa⟩ := a
      obtain ⟨b, sb⟩ := b
      obtain ⟨rfl, h2⟩ := hab
      cases a with
      | all r => exact congrArg _ (ih h2)
      | _ => rfl

/-- Grammars that are alike cost the same. -/
theorem Alike.work (h : Alike G nm G' nm' Rel Inv) (n : Nat) :
    Evens Rel Inv (Interp.work G nm p stop n) (Interp.work G' nm' p stop n) := by
  induction n with
  | zero => intro m k m' k' _ pos st st' _; rfl
  | succ n ih =>
    intro m k m' k' hm pos st st' hi
    show workExpr (Interp.eval G nm p stop n) (Interp.work G nm p stop n) nm p stop k pos (Interp.enter G nm m k st) (G.expr m) =
      workExpr (Interp.eval G' nm' p stop n) (Interp.work G' nm' p stop n) nm' p stop k' pos (Interp.enter G' nm' m' k' st')
        (G'.expr m')
    replace hi := h.enter hm hi
    generalize Interp.enter G nm m k st = st at hi
    generalize Interp.enter G' nm' m' k' st' = st' at hi
    have hl := h.expr hm
    generalize G.expr m = e at hl
    generalize G'.expr m' = e' at hl
    have hev := h.eval (p := p) (stop := stop) n
    cases hl with
    | lit =>
      refine madeBy_like (Inv := Inv) ?_
      unfold evalExpr
      dsimp only
      split <;> exact .some ⟨rfl, hi⟩
    | re =>
      refine madeBy_like (Inv := Inv) ?_
      unfold evalExpr
      dsimp only
      split <;> exact .some ⟨rfl, hi⟩
    | delim =>
      refine madeBy_like (Inv := Inv) ?_
      unfold evalExpr
      dsimp only
      split
      · split <;> exact .some ⟨rfl, hi⟩
      · exact .some ⟨rfl, hi⟩
    | seq hms => exact congrArg _ (partsWork_like hev ih hms hi)
    | choice hms => exact congrArg _ (chooseWork_like hev ih hms hi)
    | loop hms => exact congrArg _ (roundsWork_like hev ih hms hi)
    | drop hm => exact congr (congrArg _ (ih _ _ _ _ hm pos _ _ hi)) (madeBy_like (hev _ _ _ _ hm pos _ _ hi))
    | @call x hx =>
      unfold workExpr
      dsimp only
      have := hx _ _ hi
      generalize nm.get st k x = a at this
      generalize nm'.get st' k' x = b at this
      cases this with
      | none => rfl
      | some hm => exact ih _ _ _ _ hm pos _ _ hi
    | @resolved x m' hx =>
      unfold workExpr
      dsimp only
      obtain ⟨m, hm, hr⟩ := hx _ _ hi
      rw [hm]
      exact ih _ _ _ _ hr pos _ _ hi
    | opt hm | neg hm | flat hm | jump hm | within hm | rename hm => exact ih _ _ _ _ hm pos _ _ hi
    | give ha hm => exact ih _ _ _ _ hm pos _ _ hi
    | empty => rfl

end Adx.Interp
