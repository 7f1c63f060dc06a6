import Verif.Spec.Endless
import Verif.Proofs.InterpLike
import Verif.Proofs.InterpRank
/-
  A parse has no result exactly if something is tried again at the same place.
-/
namespace Adx.Interp

open Peg (Cuts Cut)

variable {N σ ι : Type} {G : Grammar N} {nm : Names σ N} {p : Parser} {stop : Nat} {n : Nat}

/-- Is there a result at this depth? -/
def Try.done (G : Grammar N) (nm : Names σ N) (p : Parser) (stop n : Nat) (t : Try N σ) : Prop :=
  (eval G nm p stop n t.what t.scope t.pos t.names).isSome

theorem gives_of {m : N} {k pos : Nat} {st st' : σ} {y : Result} (h : eval G nm p stop n m k pos st = some (y, st')) :
    gives G nm p stop m k pos st y st' := ⟨n, h⟩

theorem gives_eq {m : N} {k pos : Nat} {st st' : σ} {y : Result} (h : gives G nm p stop m k pos st y st')
    {x : Result × σ} (hx : eval G nm p stop n m k pos st = some x) : x = (y, st') := by
  obtain ⟨n', h⟩ := h
  have h1 := eval_mono (Nat.le_max_left n n') hx
  have h2 := eval_mono (Nat.le_max_right n n') h
  rw [h1] at h2
  exact Option.some.inj h2

/-! ### If there is a result, then there is one for what is tried -/

theorem parts_done {k : Nat} {ms : List N} {r : Run} {st : σ} {t : Try N σ}
    (h : InParts (gives G nm p stop) k ms r st t) (hs : (parts (eval G nm p stop n) k ms r st).isSome) :
    t.done G nm p stop n := by
  induction h with
  | here =>
    unfold parts at hs
    unfold Try.done
    cases hx : eval G nm p stop n _ k _ _ with
    | none => rw [hx] at hs; cases hs
    | some _ => rfl
  | @later m ms r st y st1 t h hf he ht ih =>
    unfold parts at hs
    cases hx : eval G nm p stop n m k r.pos st with
    | none => rw [hx] at hs; cases hs
    | some x =>
      cases gives_eq h hx
      rw [hx] at hs
      refine ih ?_
      cases y with
      | fail => exact (hf rfl).elim
      | error e => exact (he e rfl).elim
      | _ => exact hs

theorem choose_done {k pos : Nat} {ms : List N} {st : σ} {t : Try N σ}
    (h : InChoice (gives G nm p stop) k pos ms st t) (hs : (choose (eval G nm p stop n) k pos ms st).isSome) :
    t.done G nm p stop n := by
  induction h with
  | here =>
    unfold choose at hs
    unfold Try.done
    cases hx : eval G nm p stop n _ k _ _ with
    | none => rw [hx] at hs; cases hs
    | some _ => rfl
  | @later m ms st y st1 t h hy ht ih =>
    unfold choose at hs
    cases hx : eval G nm p stop n m k pos st with
    | none => rw [hx] at hs; cases hs
    | some x =>
      cases gives_eq h hx
      rw [hx] at hs
      refine ih ?_
      rcases hy with rfl | rfl <;> exact hs

theorem through_eq {k : Nat} {ms : List N} {r r' : Run} {st st' : σ} (h : Through (gives G nm p stop) k ms r st r' st')
    (hs : (parts (eval G nm p stop n) k ms r st).isSome) :
    parts (eval G nm p stop n) k ms r st = some (.all r', st') := by
  induction h with
  | nil => rfl
  | @cons m ms r st y st1 r' st' h hf he _ ih =>
    unfold parts at hs ⊢
    cases hx : eval G nm p stop n m k r.pos st with
    | none => rw [hx] at hs; cases hs
    | some x =>
      cases gives_eq h hx
      rw [hx] at hs
      cases y with
      | fail => exact (hf rfl).elim
      | error e => exact (he e rfl).elim
      | _ => exact ih hs

theorem rounds_done {k : Nat} {ms : List N} {j : Nat} {r : Run} {st : σ} {t : Try N σ}
    (h : InRounds (gives G nm p stop) k ms j r st t) (hs : (rounds (eval G nm p stop n) k ms j r st).isSome) :
    t.done G nm p stop n := by
  induction h with
  | @now j r st t h =>
    refine parts_done h ?_
    unfold rounds at hs
    cases hx : parts (eval G nm p stop n) k ms r st with
    | none => rw [hx] at hs; cases hs
    | some _ => rfl
  | @next j r st r' st' t h ht ih =>
    unfold rounds at hs
    have hp : (parts (eval G nm p stop n) k ms r st).isSome := by
      cases hx : parts (eval G nm p stop n) k ms r st with
      | none => rw [hx] at hs; cases hs
      | some _ => rfl
    rw [through_eq h hp] at hs
    exact ih hs

theorem isSome_andThen {f : Result → Result} {x : Option (Result × σ)} (h : (andThen f x).isSome) : x.isSome := by
  cases x with
  | none => cases h
  | some _ => rfl

theorem isSome_map {α β : Type} {f : α → β} {x : Option α} (h : (x.map f).isSome) : x.isSome := by
  cases x with
  | none => cases h
  | some _ => rfl

theorem calls_done {t u : Try N σ} (h : Calls G nm p stop t u) (hs : t.done G nm p stop (n + 1)) : u.done G nm p stop n := by
  unfold Calls at h
  unfold Try.done eval at hs
  generalize enter G nm t.what t.scope t.names = st at h hs
  generalize G.expr t.what = e at h hs
  cases e with
  | lit => exact h.elim
  | re => exact h.elim
  | delim => exact h.elim
  | empty => exact h.elim
  | seq _ ms => exact parts_done h (isSome_map hs)
  | choice ms => exact choose_done h hs
  | loop _ ms lo hi => exact rounds_done h (isSome_map hs)
  | call x =>
    obtain ⟨m, hm, rfl⟩ := h
    dsimp only [evalExpr] at hs
    rw [hm] at hs
    exact hs
  | jump m => cases h; exact hs
  | within j m => cases h; exact hs
  | _ => cases h; exact isSome_andThen hs

theorem during_done {t u : Try N σ} (h : During G nm p stop t u) : ∀ n, t.done G nm p stop n → ∃ n', n' < n ∧ u.done G nm p stop n' := by
  induction h with
  | one h =>
    intro n hd
    cases n with
    | zero => cases hd
    | succ n => exact ⟨n, Nat.lt_succ_self _, calls_done h hd⟩
  | more h _ ih =>
    intro n hd
    cases n with
    | zero => cases hd
    | succ n =>
      obtain ⟨n', hn, h'⟩ := ih n (calls_done h hd)
      exact ⟨n', Nat.lt_succ_of_lt hn, h'⟩

theorem endless_iff {t : Try N σ} : Endless G nm p stop t ↔ ∀ n, ¬ t.done G nm p stop n := by
  unfold Endless Try.done
  refine forall_congr' fun n => ?_
  cases eval G nm p stop n t.what t.scope t.pos t.names <;> simp

/-- What is tried again is tried without end. -/
theorem recurs_endless {same : Try N σ → Try N σ → Prop} {t : Try N σ} (h : Recurs G nm p stop same t)
    (hsame : ∀ u v, (u = t ∨ During G nm p stop t u) → same u v → ∀ n, v.done G nm p stop n → u.done G nm p stop n) : Endless G nm p stop t := by
  obtain ⟨u, v, h1, h2, h3⟩ := h
  have key : ∀ n, ¬ u.done G nm p stop n := by
    intro n
    induction n using Nat.strongRecOn with
    | _ n ih =>
      intro hd
      obtain ⟨n', hn, h'⟩ := during_done h2 n hd
      exact ih n' hn (hsame u v h1 h3 n' h')
  rw [endless_iff]
  intro n hd
  rcases h1 with rfl | h1
  · exact key n hd
  · obtain ⟨n', _, h'⟩ := during_done h1 n hd
    exact key n' h'

/-! ### If there is a result for what is tried, then there is one -/

theorem done_parts {k : Nat} {ms : List N} : ∀ {r : Run} {st : σ},
    (∀ t, InParts (gives G nm p stop) k ms r st t → t.done G nm p stop n) → (parts (eval G nm p stop n) k ms r st).isSome := by
  induction ms with
  | nil => intro r st _; rfl
  | cons m ms ih =>
    intro r st h
    unfold parts
    have h0 := h _ .here
    unfold Try.done at h0
    dsimp only at h0
    cases hx : eval G nm p stop n m k r.pos st with
    | none => rw [hx] at h0; cases h0
    | some x =>
      obtain ⟨y, st1⟩ := x
      have hl := fun hf he => ih (r := r.take y) (st := st1) fun t ht => h t (.later (gives_of hx) hf he ht)
      cases y with
      | fail => rfl
      | error e => rfl
      | skip _ => exact hl (by nofun) (by nofun)
      | token _ => exact hl (by nofun) (by nofun)
      | splice _ => exact hl (by nofun) (by nofun)

theorem done_choose {k pos : Nat} {ms : List N} : ∀ {st : σ},
    (∀ t, InChoice (gives G nm p stop) k pos ms st t → t.done G nm p stop n) → (choose (eval G nm p stop n) k pos ms st).isSome := by
  induction ms with
  | nil => intro st _; rfl
  | cons m ms ih =>
    intro st h
    unfold choose
    have h0 := h _ .here
    unfold Try.done at h0
    dsimp only at h0
    cases hx : eval G nm p stop n m k pos st with
    | none => rw [hx] at h0; cases h0
    | some x =>
      obtain ⟨y, st1⟩ := x
      have hl := fun hy => ih (st := st1) fun t ht => h t (.later (gives_of hx) hy ht)
      cases y with
      | fail => exact hl (Or.inl rfl)
      | skip n =>
        cases n with
        | zero => exact hl (Or.inr rfl)
        | succ n => rfl
      | _ => rfl

theorem parts_through {k : Nat} {ms : List N} : ∀ {r r' : Run} {st st' : σ},
    parts (eval G nm p stop n) k ms r st = some (.all r', st') → Through (gives G nm p stop) k ms r st r' st' := by
  induction ms with
  | nil => intro r r' st st' h; cases h; exact .nil
  | cons m ms ih =>
    intro r r' st st' h
    obtain ⟨⟨y, st1⟩, hy, h⟩ := Option.bind_eq_some_iff.mp h
    cases y with
    | fail => cases h
    | error e => cases h
    | _ => exact .cons (gives_of hy) (by nofun) (by nofun) (ih h)

theorem done_rounds {k : Nat} {ms : List N} {j : Nat} : ∀ {r : Run} {st : σ},
    (∀ t, InRounds (gives G nm p stop) k ms j r st t → t.done G nm p stop n) → (rounds (eval G nm p stop n) k ms j r st).isSome := by
  induction j with
  | zero => intro r st _; rfl
  | succ j ih =>
    intro r st h
    unfold rounds
    have h0 := done_parts (n := n) (r := r) (st := st) fun t ht => h t (.now (j := j) ht)
    cases hx : parts (eval G nm p stop n) k ms r st with
    | none => rw [hx] at h0; cases h0
    | some x =>
      obtain ⟨y, st1⟩ := x
      cases y with
      | all r' => exact ih fun t ht => h t (.next (parts_through hx) ht)
      | _ => rfl

theorem andThen_isSome {f : Result → Result} {x : Option (Result × σ)} (h : x.isSome) : (andThen f x).isSome := by
  cases x with
  | none => cases h
  | some _ => rfl

theorem map_isSome {α β : Type} {f : α → β} {x : Option α} (h : x.isSome) : (x.map f).isSome := by
  cases x with
  | none => cases h
  | some _ => rfl

theorem done_calls {t : Try N σ} (h : ∀ u, Calls G nm p stop t u → u.done G nm p stop n) : t.done G nm p stop (n + 1) := by
  unfold Calls at h
  unfold Try.done eval
  generalize enter G nm t.what t.scope t.names = st at h
  generalize G.expr t.what = e at h
  cases e with
  | lit => dsimp only [evalExpr]; split <;> rfl
  | re => dsimp only [evalExpr]; split <;> rfl
  | delim =>
    dsimp only [evalExpr]
    split
    · split <;> rfl
    · rfl
  | empty => rfl
  | seq _ ms => exact map_isSome (done_parts h)
  | choice ms => exact done_choose h
  | loop _ ms lo hi => exact map_isSome (done_rounds h)
  | call x =>
    dsimp only [evalExpr]
    cases hm : nm.get st t.scope x with
    | none => rfl
    | some m => exact h _ ⟨m, hm, rfl⟩
  | jump m => exact h _ rfl
  | within j m => exact h _ rfl
  | _ => exact andThen_isSome (h _ rfl)

/-! ### Finitely many places -/

theorem nodup_length {α : Type} {l : List α} : ∀ {L : List α}, l.Nodup → (∀ x ∈ l, x ∈ L) → l.length ≤ L.length := by
  induction l with
  | nil => intro L _ _; exact Nat.zero_le _
  | cons a l ih =>
    intro L hn hs
    obtain ⟨L1, L2, rfl⟩ := List.append_of_mem (hs a (by simp))
    obtain ⟨h1, h2⟩ := List.nodup_cons.mp hn
    have := ih (L := L1 ++ L2) h2 fun x hx => by
      have := hs x (by simp [hx])
      rcases List.mem_append.mp this with h | h
      · exact List.mem_append_left _ h
      · rcases List.mem_cons.mp h with rfl | h
        · exact (h1 hx).elim
        · exact List.mem_append_right _ h
    simp only [List.length_append, List.length_cons] at this ⊢
    omega

theorem During.trans {t u v : Try N σ} (h : During G nm p stop t u) (h' : During G nm p stop u v) : During G nm p stop t v := by
  induction h with
  | one h => exact .more h h'
  | more h _ ih => exact .more h (ih h')

/-- If all that is tried has one of finitely many views, and nothing is tried again, then
there is a result at a depth that is the number of views. -/
theorem done_of_finite {V : Try N σ → ι} {L : List ι} {t : Try N σ}
    (hL : ∀ u, (u = t ∨ During G nm p stop t u) → V u ∈ L) (hr : ¬ Recurs G nm p stop (fun u v => V u = V v) t) :
    t.done G nm p stop L.length := by
  have key : ∀ n (path : List (Try N σ)) u, path.length + n = L.length → (path.map V).Nodup →
      (∀ v ∈ path, (v = t ∨ During G nm p stop t v) ∧ During G nm p stop v u) → (u = t ∨ During G nm p stop t u) →
      u.done G nm p stop n := by
    intro n
    induction n with
    | zero =>
      intro path u hlen hn hp hu
      exfalso
      have h1 : ((V u :: path.map V)).Nodup := by
        refine List.nodup_cons.mpr ⟨fun hm => ?_, hn⟩
        obtain ⟨v, hv, he⟩ := List.mem_map.mp hm
        exact hr ⟨v, u, (hp v hv).1, (hp v hv).2, he⟩
      have h2 := nodup_length (L := L) h1 fun x hx => by
        rcases List.mem_cons.mp hx with rfl | hx
        · exact hL u hu
        · obtain ⟨v, hv, rfl⟩ := List.mem_map.mp hx
          exact hL v (hp v hv).1
      simp only [List.length_cons, List.length_map] at h2
      omega
    | succ n ih =>
      intro path u hlen hn hp hu
      refine done_calls fun w hw => ih (u :: path) w ?_ ?_ ?_ ?_
      · simp only [List.length_cons]; omega
      · rw [List.map_cons]
        refine List.nodup_cons.mpr ⟨fun hm => ?_, hn⟩
        obtain ⟨v, hv, he⟩ := List.mem_map.mp hm
        exact hr ⟨v, u, (hp v hv).1, (hp v hv).2, he⟩
      · intro v hv
        rcases List.mem_cons.mp hv with rfl | hv
        · exact ⟨hu, .one hw⟩
        · exact ⟨(hp v hv).1, (hp v hv).2.trans (.one hw)⟩
      · right
        rcases hu with rfl | hu
        · exact .one hw
        · exact hu.trans (.one hw)
  exact key L.length [] t (by simp) (by simp) (fun _ h => nomatch h) (Or.inl rfl)

/-! ### What is tried is in the text -/

section
variable {S : N → Nat → Prop} {I : σ → Prop}

/-- Something of the grammar, at a place in the text. -/
structure Try.Fine (S : N → Nat → Prop) (I : σ → Prop) (p : Parser) (stop : Nat) (t : Try N σ) : Prop where
  what : S t.what t.scope
  pos : Cut p.src stop t.pos
  names : I t.names

theorem parts_fine (hev : ∀ n, EvOk p stop S I (fun _ _ => True) (eval G nm p stop n)) {k : Nat} {ms : List N} {start : Nat} {r : Run}
    {st : σ} {t : Try N σ} (h : InParts (gives G nm p stop) k ms r st t) (hms : ∀ m ∈ ms, S m k)
    (hr : RunOk p.src stop start r) (hi : I st) : t.Fine S I p stop := by
  induction h with
  | here => exact ⟨hms _ (by simp), hr.pos, hi⟩
  | @later m ms r st y st1 t h hf he ht ih =>
    obtain ⟨n, h⟩ := h
    obtain ⟨hg, hi', -⟩ := hev n m k (hms m (by simp)) _ _ hr.pos hi _ h
    exact ih (fun y hy => hms y (by simp [hy])) (hr.take hg) hi'

theorem through_fine (hev : ∀ n, EvOk p stop S I (fun _ _ => True) (eval G nm p stop n)) {k : Nat} {ms : List N} {start : Nat} {r r' : Run}
    {st st' : σ} (h : Through (gives G nm p stop) k ms r st r' st') (hms : ∀ m ∈ ms, S m k)
    (hr : RunOk p.src stop start r) (hi : I st) : RunOk p.src stop start r' ∧ I st' := by
  induction h with
  | nil => exact ⟨hr, hi⟩
  | @cons m ms r st y st1 r' st' h hf he _ ih =>
    obtain ⟨n, h⟩ := h
    obtain ⟨hg, hi', -⟩ := hev n m k (hms m (by simp)) _ _ hr.pos hi _ h
    exact ih (fun y hy => hms y (by simp [hy])) (hr.take hg) hi'

theorem rounds_fine (hev : ∀ n, EvOk p stop S I (fun _ _ => True) (eval G nm p stop n)) {k : Nat} {ms : List N} {start j : Nat} {r : Run}
    {st : σ} {t : Try N σ} (h : InRounds (gives G nm p stop) k ms j r st t) (hms : ∀ m ∈ ms, S m k)
    (hr : RunOk p.src stop start r) (hi : I st) : t.Fine S I p stop := by
  induction h with
  | now h => exact parts_fine hev h hms hr hi
  | next h _ ih =>
    obtain ⟨h1, h2⟩ := through_fine hev h hms hr hi
    exact ih h1 h2

theorem choose_fine (hev : ∀ n, EvOk p stop S I (fun _ _ => True) (eval G nm p stop n)) {k pos : Nat} {ms : List N}
    {st : σ} {t : Try N σ} (h : InChoice (gives G nm p stop) k pos ms st t) (hms : ∀ m ∈ ms, S m k)
    (hpos : Cut p.src stop pos) (hi : I st) : t.Fine S I p stop := by
  induction h with
  | here => exact ⟨hms _ (by simp), hpos, hi⟩
  | @later m ms st y st1 t h hy ht ih =>
    obtain ⟨n, h⟩ := h
    obtain ⟨-, hi', -⟩ := hev n m k (hms m (by simp)) _ _ hpos hi _ h
    exact ih (fun y hy => hms y (by simp [hy])) hi'

theorem calls_fine (hC : Closed G nm S I) {t u : Try N σ} (h : Calls G nm p stop t u) (ht : t.Fine S I p stop) : u.Fine S I p stop := by
  have hev := fun n => eval_ok (p := p) (stop := stop) hC (Z := fun _ _ => True) (fun _ _ _ _ => trivial) n
  have hi := hC.enter _ _ _ ht.what ht.names
  have huse := hC.reaches _ _ ht.what
  unfold Calls at h
  generalize enter G nm t.what t.scope t.names = st at h hi
  generalize G.expr t.what = e at h huse
  cases e with
  | lit => exact h.elim
  | re => exact h.elim
  | delim => exact h.elim
  | empty => exact h.elim
  | seq _ ms => exact parts_fine hev h (fun x hx => huse x _ ⟨rfl, hx⟩) (RunOk.start' ht.pos) hi
  | choice ms => exact choose_fine hev h (fun x hx => huse x _ ⟨rfl, hx⟩) ht.pos hi
  | loop _ ms lo hi' => exact rounds_fine hev h (fun x hx => huse x _ ⟨rfl, hx⟩) (RunOk.start' ht.pos) hi
  | call x =>
    obtain ⟨m, hm, rfl⟩ := h
    exact ⟨huse m _ ⟨rfl, st, hi, hm⟩, ht.pos, hi⟩
  | within j m => cases h; exact ⟨huse m _ ⟨rfl, rfl⟩, ht.pos, hi⟩
  | _ => cases h; exact ⟨huse _ _ ⟨rfl, by simp [Expr.uses]⟩, ht.pos, hi⟩

theorem during_fine (hC : Closed G nm S I) {t u : Try N σ} (h : u = t ∨ During G nm p stop t u) (ht : t.Fine S I p stop) :
    u.Fine S I p stop := by
  rcases h with rfl | h
  · exact ht
  · induction h with
    | one h => exact calls_fine hC h ht
    | more h _ ih => exact ih (calls_fine hC h ht)

end

end Adx.Interp
