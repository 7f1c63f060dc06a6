import Verif.Model.BorrowVisit
import Verif.Proofs.Borrow
/-
  Visiting with borrow flags is visiting without.
-/
namespace Adx

variable {σ α : Type}

/-- What a hook gives without borrow flags, with flags that are as before. -/
def hookFlagged (r : Except ParseError Unit × σ) (fl : Borrows) : WRes σ Unit :=
  match r with
  | (.ok _, s) => .ok () s fl
  | (.error e, s) => .err e s fl

/-- What a visit gives without borrow flags, with flags that are as before. -/
def VRes.flagged (r : VRes σ) (fl : Borrows) : WRes σ Unit :=
  match r with
  | .ok s => .ok () s fl
  | .err e s => .err e s fl
  | .dangling => .dangling
  | .diverge => .diverge

theorem release_succ {fl : Borrows} {c : Cell} {n : Nat} (h : fl c = .shared n) :
    (fl.set c (.shared (n + 1))).set c (Watched.release ((fl.set c (.shared (n + 1))) c)) = fl := by
  rw [Borrows.set_same]
  exact Borrows.set_set _ _ _ _ h

namespace Watched

theorem bind_def {β : Type} (x : Watched σ α) (f : α → Watched σ β) : (x >>= f) = Watched.bind x f := rfl

/-- A result that says nothing about flags. -/
inductive Outcome (σ α : Type)
  | ok (a : α) (s : σ)
  | err (e : ParseError) (s : σ)
  | dangling
  | diverge

def Outcome.flagged (o : Outcome σ α) (fl : Borrows) : WRes σ α :=
  match o with
  | .ok a s => .ok a s fl
  | .err e s => .err e s fl
  | .dangling => .dangling
  | .diverge => .diverge

/-- Without conflict, and leaving the flags as they are. -/
def Does (x : Watched σ α) (s : σ) (fl : Borrows) (o : Outcome σ α) : Prop := x s fl = o.flagged fl

theorem does_share {x : Watched σ α} {s : σ} {fl : Borrows} {c : Cell} {o : Outcome σ α} (hc : fl c ≠ .exclusive)
    (hx : ∀ n, fl c = .shared n → Does x s (fl.set c (.shared (n + 1))) o) : Does (share c x) s fl o := by
  unfold Does share
  cases h : fl c with
  | exclusive => exact absurd h hc
  | shared n =>
    have hx := hx n h
    unfold Does at hx
    dsimp only
    rw [hx]
    cases o <;> dsimp only [Outcome.flagged] <;> rw [release_succ h]

theorem does_own {x : Watched σ α} {s : σ} {fl : Borrows} {c : Cell} {o : Outcome σ α} (hc : fl c = .shared 0)
    (hx : Does x s (fl.set c .exclusive) o) : Does (own c x) s fl o := by
  unfold Does at hx
  unfold Does own
  rw [hc]
  show (match x s (fl.set c .exclusive) with
    | WRes.ok a s' fl' => WRes.ok a s' (fl'.set c (.shared 0))
    | .err e s' fl' => .err e s' (fl'.set c (.shared 0))
    | r => r) = _
  rw [hx]
  cases o <;> dsimp only [Outcome.flagged] <;> rw [Borrows.set_set _ _ _ _ hc]

/-- One after the other. -/
def Outcome.andThen {β : Type} (o : Outcome σ α) (f : α → σ → Outcome σ β) : Outcome σ β :=
  match o with
  | .ok a s => f a s
  | .err e s => .err e s
  | .dangling => .dangling
  | .diverge => .diverge

theorem does_bind {β : Type} {x : Watched σ α} {f : α → Watched σ β} {s : σ} {fl : Borrows} {o : Outcome σ α}
    {p : α → σ → Outcome σ β} (hx : Does x s fl o) (hf : ∀ a s', o = .ok a s' → Does (f a) s' fl (p a s')) :
    Does (x >>= f) s fl (o.andThen p) := by
  unfold Does at hx
  show Watched.bind x f s fl = _
  unfold Watched.bind
  rw [hx]
  cases o with
  | ok a s' => exact hf a s' rfl
  | _ => rfl

end Watched

open Watched

/-- The outcome of a hook. -/
def hookOutcome (r : Except ParseError Unit × σ) : Outcome σ Unit :=
  match r with
  | (.ok _, s) => .ok () s
  | (.error e, s) => .err e s

/-- The outcome of a visit. -/
def VRes.outcome (r : VRes σ) : Outcome σ Unit :=
  match r with
  | .ok s => .ok () s
  | .err e s => .err e s
  | .dangling => .dangling
  | .diverge => .diverge

theorem VRes.flagged_eq (r : VRes σ) (fl : Borrows) : r.flagged fl = r.outcome.flagged fl := by cases r <;> rfl

theorem hookFlagged_eq (r : Except ParseError Unit × σ) (fl : Borrows) :
    hookFlagged r fl = (hookOutcome r).flagged fl := by
  obtain ⟨r, s⟩ := r
  cases r <;> rfl

/-! ### The visit -/

/-- The hooks with flags, of a list of hooks given both ways. -/
def withFlags (hooks : List (Str × HookB σ × Hook σ)) : List (Str × HookB σ) := hooks.map fun h => (h.1, h.2.1)

/-- The hooks without flags. -/
def withoutFlags (hooks : List (Str × HookB σ × Hook σ)) : List (Str × Hook σ) := hooks.map fun h => (h.1, h.2.2)

theorem findHook_both (hooks : List (Str × HookB σ × Hook σ)) (k : Str) : ∀ i,
    (findHookB (withFlags hooks) k i = none ∧ findHook (withoutFlags hooks) k = none) ∨
    ∃ j n hB h, hooks[j]? = some (n, hB, h) ∧ findHookB (withFlags hooks) k i = some (i + j, hB) ∧
      findHook (withoutFlags hooks) k = some h := by
  induction hooks with
  | nil => exact fun i => .inl ⟨rfl, rfl⟩
  | cons x xs ih =>
    intro i
    obtain ⟨n, hB, h⟩ := x
    by_cases hn : n = k
    · refine .inr ⟨0, n, hB, h, rfl, ?_, ?_⟩
      · show (if n = k then some (i, hB) else _) = _
        rw [if_pos hn]
        rfl
      · show (if n = k then some h else _) = _
        rw [if_pos hn]
    · have h1 : findHookB (withFlags ((n, hB, h) :: xs)) k i = findHookB (withFlags xs) k (i + 1) := by
        show (if n = k then some (i, hB) else _) = _
        rw [if_neg hn]
        rfl
      have h2 : findHook (withoutFlags ((n, hB, h) :: xs)) k = findHook (withoutFlags xs) k := by
        show (if n = k then some h else _) = _
        rw [if_neg hn]
        rfl
      rw [h1, h2]
      rcases ih (i + 1) with h | ⟨j, n', hB', h', h3, h4, h5⟩
      · exact .inl h
      · refine .inr ⟨j + 1, n', hB', h', h3, ?_, h5⟩
        rw [h4, Nat.add_assoc, Nat.add_comm 1 j]

/-- A set of tokens that holds the children of its tokens. -/
def ClosedList (toks : List Token) (l : List TokId) : Prop :=
  ∀ u ∈ l, ∃ k, toks[u]? = some k ∧ ∀ c ∈ k.children, c ∈ l

/-- What is wanted of the hooks: whenever `I` holds and the flags are in `F`, the hooks with
flags do at the tokens of `l` what those without do, and keep `I`. -/
def HooksAgree (d : Nat) (l : List TokId) (F : Borrows → Prop) (I : σ → Prop)
    (hooks : List (Str × HookB σ × Hook σ)) : Prop :=
  ∀ (i : Nat) (n : Str) (hB : HookB σ) (h : Hook σ), hooks[i]? = some (n, hB, h) → ∀ u ∈ l, ∀ s fl, I s → F fl →
    Does (own (.hook d i) (hB u)) s fl (hookOutcome (h u s)) ∧ ∀ a s', h u s = (.ok a, s') → I s'

variable {d : Nat} {l : List TokId} {F : Borrows → Prop} {I : σ → Prop} {hooks : List (Str × HookB σ × Hook σ)}
  {toks : σ → List Token} {toks0 : List Token}

theorem does_tok {t : TokId} {k : Token} {s : σ} {fl : Borrows} (h : (toks s)[t]? = some k) :
    Does (tok toks t) s fl (.ok k s) := by
  unfold Does tok
  rw [h]
  rfl

/-- The visit of children, when the visits of tokens of `l` agree. -/
theorem visitList_agrees {vB : TokId → Watched σ Unit} {v : TokId → σ → VRes σ}
    (hF : ∀ fl u, F fl → u ∈ l → fl (.token u) ≠ .exclusive ∧ ∀ n, fl (.token u) = .shared n → F (fl.set (.token u) (.shared (n + 1))))
    (ih : ∀ t ∈ l, ∀ s fl, I s → F fl → Does (vB t) s fl (v t s).outcome ∧ ∀ s', v t s = .ok s' → I s') :
    ∀ cs : List TokId, (∀ c ∈ cs, c ∈ l) → ∀ s fl, I s → F fl →
      Does (visitListB vB cs) s fl (visitList v cs s).outcome ∧ ∀ s', visitList v cs s = .ok s' → I s' := by
  intro cs
  induction cs with
  | nil =>
    refine fun _ s fl hs _ => ⟨rfl, fun s' h => ?_⟩
    cases h
    exact hs
  | cons c cs ihc =>
    intro hcs s fl hs hf
    have hcl := hcs c List.mem_cons_self
    have h1 : Does (share (.token c) (vB c)) s fl (v c s).outcome :=
      does_share (hF _ _ hf hcl).1 fun m hm => (ih c hcl s _ hs ((hF _ _ hf hcl).2 m hm)).1
    have h2 := (ih c hcl s fl hs hf).2
    unfold visitListB visitList
    cases hv : v c s with
    | ok s1 =>
      rw [hv] at h1
      dsimp only
      have h3 := ihc (fun x hx => hcs x (List.mem_cons_of_mem _ hx)) s1 fl (h2 s1 hv) hf
      exact ⟨does_bind h1 (p := fun _ s => (visitList v cs s).outcome)
        (fun a s' he => by cases he; exact h3.1), h3.2⟩
    | err e s1 =>
      rw [hv] at h1
      exact ⟨does_bind (p := fun _ s => .ok () s) h1 (fun a s' he => by cases he), fun s' h => by cases h⟩
    | dangling =>
      rw [hv] at h1
      exact ⟨does_bind (p := fun _ s => .ok () s) h1 (fun a s' he => by cases he), fun s' h => by cases h⟩
    | diverge =>
      rw [hv] at h1
      exact ⟨does_bind (p := fun _ s => .ok () s) h1 (fun a s' he => by cases he), fun s' h => by cases h⟩

/-- The call of a hook. -/
theorem callHook_agrees (hh : HooksAgree d l F I hooks) {dB : Option (Nat × HookB σ)} {df : Option (Hook σ)}
    (hd : (dB = none ∧ df = none) ∨ ∃ j n hB h, hooks[j]? = some (n, hB, h) ∧ dB = some (j, hB) ∧ df = some h)
    {t : TokId} (ht : t ∈ l) {s : σ} (hs : I s) (k : Str) (hf0 : ∃ fl, F fl) :
    ∃ r : Except ParseError Unit × σ,
      (match (generalizing := false) findHook (withoutFlags hooks) k with
        | some h => h t s
        | none =>
          match (generalizing := false) df with
          | some h => h t s
          | none => (.ok (), s)) = r ∧
      (∀ fl, F fl → Does (callHookB d t ((findHookB (withFlags hooks) k 0).or dB)) s fl (hookOutcome r)) ∧
      ∀ a s', r = (.ok a, s') → I s' := by
  obtain ⟨fl0, hf0⟩ := hf0
  refine ⟨_, rfl, ?_⟩
  have call : ∀ j n hB h, hooks[j]? = some (n, hB, h) →
      (∀ fl, F fl → Does (callHookB d t (some (j, hB))) s fl (hookOutcome (h t s))) ∧
        ∀ a s', h t s = (.ok a, s') → I s' := fun j n hB h hj =>
    ⟨fun fl hf => (hh j n hB h hj t ht s fl hs hf).1, (hh j n hB h hj t ht s fl0 hs hf0).2⟩
  rcases findHook_both hooks k 0 with ⟨h1, h2⟩ | ⟨j, n', hB, h, h3, h4, h5⟩
  · rw [h1, h2]
    dsimp only
    rcases hd with ⟨h6, h7⟩ | ⟨j, n', hB, h, h3, h4, h5⟩
    · rw [h6, h7]
      exact ⟨fun _ _ => rfl, fun a s' he => by cases he; exact hs⟩
    · rw [h4, h5]
      exact call _ _ _ _ h3
  · rw [h4, h5, Nat.zero_add]
    exact call _ _ _ _ h3

theorem visitGo_agrees (hh : HooksAgree d l F I hooks) (hl : ClosedList toks0 l)
    (hI : ∀ s, I s → ∀ u ∈ l, (toks s)[u]? = toks0[u]?)
    (hF : ∀ fl u, F fl → u ∈ l → fl (.token u) ≠ .exclusive ∧ ∀ n, fl (.token u) = .shared n → F (fl.set (.token u) (.shared (n + 1))))
    {dB : Option (Nat × HookB σ)} {df : Option (Hook σ)}
    (hd : (dB = none ∧ df = none) ∨ ∃ j n hB h, hooks[j]? = some (n, hB, h) ∧ dB = some (j, hB) ∧ df = some h) (n : Nat) :
    ∀ t ∈ l, ∀ s fl, I s → F fl →
      Does (visitGoB d toks (withFlags hooks) dB n t) s fl (visitGo toks0 (withoutFlags hooks) df n t s).outcome ∧
      ∀ s', visitGo toks0 (withoutFlags hooks) df n t s = .ok s' → I s' := by
  induction n with
  | zero => exact fun t ht s fl hs hf => ⟨rfl, fun s' h => by cases h⟩
  | succ n ih =>
    intro t ht s fl hs hf
    obtain ⟨k, hk, hc⟩ := hl t ht
    have hlist := visitList_agrees hF ih
    have hhook := callHook_agrees hh hd ht hs k.name ⟨fl, hf⟩
    obtain ⟨r, hr, hd1, hd2⟩ := hhook
    have hv : visitGo toks0 (withoutFlags hooks) df (n + 1) t s =
        match (generalizing := false) r with
        | (.error e, s) => .err e s
        | (.ok _, s) => visitList (visitGo toks0 (withoutFlags hooks) df n) k.children s := by
      rw [← hr]
      conv => lhs; unfold visitGo; rw [hk]
      rfl
    rw [hv]
    unfold visitGoB
    clear hr hv
    obtain ⟨r, s1⟩ := r
    cases r with
    | error e =>
      refine ⟨does_share (hF _ _ hf ht).1 fun m hm => ?_, fun s' h => by cases h⟩
      have hf' := (hF _ _ hf ht).2 m hm
      refine does_bind (does_tok ((hI s hs t ht).trans hk)) (p := fun _ _ => .err e s1) ?_
      rintro _ _ ⟨⟩
      exact does_bind (hd1 _ hf') (p := fun _ s => .ok () s) fun a s' he => by cases he
    | ok u =>
      have hs1 := hd2 u s1 rfl
      refine ⟨does_share (hF _ _ hf ht).1 fun m hm => ?_, (hlist k.children hc s1 fl hs1 hf).2⟩
      have hf' := (hF _ _ hf ht).2 m hm
      refine does_bind (does_tok ((hI s hs t ht).trans hk)) (p := fun _ _ => _) ?_
      rintro _ _ ⟨⟩
      refine does_bind (hd1 _ hf') (p := fun _ s => (visitList (visitGo toks0 (withoutFlags hooks) df n) k.children s).outcome) ?_
      rintro _ _ ⟨⟩
      refine does_bind (does_tok ((hI s1 hs1 t ht).trans hk))
        (p := fun k s => (visitList (visitGo toks0 (withoutFlags hooks) df n) k.children s).outcome) ?_
      rintro _ _ ⟨⟩
      exact (hlist k.children hc s1 _ hs1 hf').1

theorem visit_agrees (hh : HooksAgree d l F I hooks) (hl : ClosedList toks0 l)
    (hI : ∀ s, I s → ∀ u ∈ l, (toks s)[u]? = toks0[u]?)
    (hF : ∀ fl u, F fl → u ∈ l → fl (.token u) ≠ .exclusive ∧ ∀ n, fl (.token u) = .shared n → F (fl.set (.token u) (.shared (n + 1))))
    {n : Nat} {t : TokId} (ht : t ∈ l) {s : σ} {fl : Borrows} (hs : I s) (hf : F fl) :
    visitB d toks (withFlags hooks) n t s fl = (visit toks0 (withoutFlags hooks) n t s).flagged fl := by
  rw [VRes.flagged_eq]
  refine (visitGo_agrees hh hl hI hF ?_ n t ht s fl hs hf).1
  rcases findHook_both hooks ['*'] 0 with h | ⟨j, n', hB, h, h3, h4, h5⟩
  · exact .inl h
  · rw [Nat.zero_add] at h4
    exact .inr ⟨j, n', hB, h, h3, h4, h5⟩

end Adx
