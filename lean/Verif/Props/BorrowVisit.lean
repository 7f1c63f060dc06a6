import Verif.Proofs.BorrowVisit
import Verif.Props.Visitor
import Verif.Props.Gather
/-
  C57: what hooks of a visitor may borrow.
-/
namespace Adx

variable {σ : Type}

/-- The flags that a hook finds: those at the start of the visit, where tokens of the visited
graph may be shared and the hook itself is borrowed mutably. -/
def Around (l : List TokId) (d : Nat) (fl0 fl : Borrows) : Prop :=
  (∀ u ∈ l, ∃ n, fl (.token u) = .shared n) ∧
  ∀ c, (∀ u ∈ l, c ≠ .token u) → (∀ i, c ≠ .hook d i) → fl c = fl0 c

/-- A hook with flags does, whatever it finds, what the hook without does.  `I` is an invariant
that the hooks keep. -/
def Minds (l : List TokId) (d : Nat) (fl0 : Borrows) (I : σ → Prop) (hB : HookB σ) (h : Hook σ) (u : TokId) : Prop :=
  ∀ s fl, I s → Around l d fl0 fl →
    hB u s fl = hookFlagged (h u s) fl ∧ ∀ a s', h u s = (.ok a, s') → I s'

/-- Flags between two calls of hooks. -/
private def Between (l : List TokId) (fl0 fl : Borrows) : Prop :=
  (∀ u ∈ l, ∃ n, fl (.token u) = .shared n) ∧ ∀ c, (∀ u ∈ l, c ≠ .token u) → fl c = fl0 c

private theorem Between.ok {l : List TokId} {fl0 fl : Borrows} {u : TokId} (h : Between l fl0 fl) (hu : u ∈ l) :
    fl (.token u) ≠ .exclusive ∧ ∀ n, fl (.token u) = .shared n → Between l fl0 (fl.set (.token u) (.shared (n + 1))) := by
  refine ⟨?_, fun n hn => ⟨fun v hv => ?_, fun c hc => ?_⟩⟩
  · obtain ⟨n, hn⟩ := h.1 u hu
    rw [hn]
    intro hx
    cases hx
  · by_cases hvu : v = u
    · subst hvu
      exact ⟨n + 1, Borrows.set_same _ _ _⟩
    · rw [Borrows.set_other _ _ (by simpa using hvu)]
      exact h.1 v hv
  · rw [Borrows.set_other _ _ (hc u hu)]
    exact h.2 c hc

private theorem Between.around {l : List TokId} {d i : Nat} {fl0 fl : Borrows} (h : Between l fl0 fl) :
    Around l d fl0 (fl.set (.hook d i) .exclusive) := by
  refine ⟨fun u hu => ?_, fun c hc hi => ?_⟩
  · rw [Borrows.set_other _ _ (by simp)]
    exact h.1 u hu
  · rw [Borrows.set_other _ _ (hi i)]
    exact h.2 c hc

private theorem Minds.agree {l l' : List TokId} {d : Nat} {fl0 : Borrows} {I : σ → Prop}
    {hooks : List (Str × HookB σ × Hook σ)} (hfree : ∀ i, fl0 (.hook d i) = .shared 0)
    (hm : ∀ x ∈ hooks, ∀ u ∈ l', Minds l d fl0 I x.2.1 x.2.2 u) :
    HooksAgree d l' (Between l fl0) I hooks := by
  intro i n hB h hi u hu s fl hs hf
  have hx := hm _ (List.mem_of_getElem? hi) u hu
  refine ⟨Watched.does_own ?_ ?_, (hx s _ hs (hf.around (i := 0))).2⟩
  · rw [hf.2 _ (by simp)]
    exact hfree i
  · have := (hx s _ hs (hf.around (i := i))).1
    rw [hookFlagged_eq] at this
    exact this

/-- C57: when the hooks mind the flags and leave the visited tokens as they are, a visit never
meets a cell that is borrowed in a wrong way: with the flags it is exactly the visit without
them, and afterwards every flag is as before.  (The tokens need not form a tree.) -/
theorem C57_visit {toks : σ → List Token} {d n : Nat} {t : TokId} {l : List TokId} {s : σ} {fl : Borrows}
    {I : σ → Prop} {hooks : List (Str × HookB σ × Hook σ)} (ht : t ∈ l) (hl : ClosedList (toks s) l)
    (hI : ∀ s', I s' → ∀ u ∈ l, (toks s')[u]? = (toks s)[u]?) (hs : I s)
    (hfl : ∀ u ∈ l, ∃ n, fl (.token u) = .shared n) (hfree : ∀ i, fl (.hook d i) = .shared 0)
    (hm : ∀ x ∈ hooks, ∀ u ∈ l, Minds l d fl I x.2.1 x.2.2 u) :
    visitB d toks (withFlags hooks) n t s fl = (visit (toks s) (withoutFlags hooks) n t s).flagged fl :=
  visit_agrees (Minds.agree hfree hm) hl hI (fun _ _ h hu => h.ok hu) ht hs ⟨hfl, fun _ _ => rfl⟩

/-- The tokens of a forest are closed. -/
theorem Pre.closedList {toks : List Token} {ts l : List TokId} (h : Pre toks ts l) : ClosedList toks l :=
  fun u hu => ⟨_, List.getElem?_eq_getElem (h.valid u hu), h.closed u hu _ (List.getElem?_eq_getElem (h.valid u hu))⟩

theorem Pre.within {toks : List Token} {ts l l' : List TokId} (h : Pre toks ts l) (hl : ClosedList toks l')
    (ht : ∀ t ∈ ts, t ∈ l') : ∀ u ∈ l, u ∈ l' := by
  induction h with
  | nil => intro u hu; cases hu
  | @cons t k ts l l2 hk hc hs ih1 ih2 =>
    obtain ⟨k', hk', hcl⟩ := hl t (ht t List.mem_cons_self)
    cases hk.symm.trans hk'
    intro u hu
    rcases List.mem_cons.mp hu with rfl | hu
    · exact ht u List.mem_cons_self
    · rcases List.mem_append.mp hu with hu | hu
      · exact ih1 hcl u hu
      · exact ih2 (fun x hx => ht x (List.mem_cons_of_mem _ hx)) u hu

/-- The way from a token down to another one: the tokens that are visited before it, and those
on the way, the two included. -/
inductive WayDown (toks : List Token) : Nat → TokId → List TokId → List TokId → TokId → Prop
  | here {n t} : WayDown toks (n + 1) t [] [t] t
  | down {n t k pre c post l before path u} (hk : toks[t]? = some k) (hc : k.children = pre ++ c :: post)
      (hp : Walk toks n pre l) (h : WayDown toks n c before path u) :
      WayDown toks (n + 1) t (t :: (l ++ before)) (t :: path) u

theorem visitListB_append (v : TokId → Watched σ Unit) (l l' : List TokId) :
    visitListB v (l ++ l') = (visitListB v l >>= fun _ => visitListB v l') := by
  induction l with
  | nil => rfl
  | cons c cs ih =>
    show (Watched.share _ (v c) >>= fun _ => visitListB v (cs ++ l')) = _
    rw [ih]
    funext s fl
    simp only [visitListB, Watched.bind_def]
    unfold Watched.bind
    cases Watched.share (.token c) (v c) s fl <;> rfl

private theorem share_conflict {α : Type} {x : Watched σ α} {c w : Cell} {s : σ} {fl : Borrows} (hc : fl c ≠ .exclusive)
    (h : ∀ n, fl c = .shared n → x s (fl.set c (.shared (n + 1))) = .conflict w) : Watched.share c x s fl = .conflict w := by
  unfold Watched.share
  cases hf : fl c with
  | exclusive => exact absurd hf hc
  | shared n =>
    dsimp only
    rw [h n hf]

private theorem own_conflict {α : Type} {x : Watched σ α} {c w : Cell} {s : σ} {fl : Borrows} (hc : fl c = .shared 0)
    (h : x s (fl.set c .exclusive) = .conflict w) : Watched.own c x s fl = .conflict w := by
  unfold Watched.own
  simp only [hc, h]

private theorem bind_does {α β : Type} {x : Watched σ α} {f : α → Watched σ β} {s s' : σ} {fl : Borrows} {a : α} {r : WRes σ β}
    (hx : Watched.Does x s fl (.ok a s')) (hf : f a s' fl = r) : (x >>= f) s fl = r := by
  unfold Watched.Does at hx
  show Watched.bind x f s fl = _
  unfold Watched.bind
  rw [hx]
  exact hf

private theorem bind_conflict {α β : Type} {x : Watched σ α} {f : α → Watched σ β} {s : σ} {fl : Borrows} {c : Cell}
    (hx : x s fl = .conflict c) : (x >>= f) s fl = .conflict c := by
  show Watched.bind x f s fl = _
  unfold Watched.bind
  rw [hx]

/-- C57: a hook that borrows the token it is called for mutably, or a token above that,
panics. -/
theorem C57_write {toks : σ → List Token} {d n : Nat} {t u w : TokId} {l before path : List TokId} {s s' : σ}
    {fl : Borrows} {I : σ → Prop} {hooks : List (Str × HookB σ × Hook σ)} {k : Token} {h : Hook σ}
    (hl : ClosedList (toks s) l) (ht : t ∈ l)
    (hI : ∀ s', I s' → ∀ u ∈ l, (toks s')[u]? = (toks s)[u]?) (hs : I s)
    (hfl : ∀ u ∈ l, ∃ n, fl (.token u) = .shared n) (hfree : ∀ i, fl (.hook d i) = .shared 0)
    (hr : WayDown (toks s) n t before path u) (hw : w ∈ path)
    -- the hooks of the tokens before are fine
    (hm : ∀ x ∈ hooks, ∀ v ∈ before, Minds l d fl I x.2.1 x.2.2 v)
    (hb : callHooks (toks s) (withoutFlags hooks) before s = .ok s')
    -- there is a hook for `u`, and it borrows `w` mutably
    (hk : (toks s)[u]? = some k) (hh : hookFor (withoutFlags hooks) k.name = some h)
    (hu : ∀ x ∈ hooks, ∀ s fl, fl (.token w) ≠ .shared 0 → x.2.1 u s fl = .conflict (.token w)) :
    visitB d toks (withFlags hooks) n t s fl = .conflict (.token w) := by
  generalize ht0 : toks s = toks0 at *
  have hF : ∀ fl' v, Between l fl fl' → v ∈ l → _ := fun _ _ h hv => h.ok hv
  have hdf : (findHookB (withFlags hooks) ['*'] 0 = none ∧ findHook (withoutFlags hooks) ['*'] = none) ∨
      ∃ j n hB h, hooks[j]? = some (n, hB, h) ∧ findHookB (withFlags hooks) ['*'] 0 = some (j, hB) ∧
        findHook (withoutFlags hooks) ['*'] = some h := by
    rcases findHook_both hooks ['*'] 0 with h | ⟨j, n', hB, h, h3, h4, h5⟩
    · exact .inl h
    · rw [Nat.zero_add] at h4
      exact .inr ⟨j, n', hB, h, h3, h4, h5⟩
  unfold visitB
  have key : ∀ {n t before path u}, WayDown toks0 n t before path u → t ∈ l →
      (∀ x ∈ hooks, ∀ v ∈ before, Minds l d fl I x.2.1 x.2.2 v) → ∀ s fl', I s → Between l fl fl' →
      callHooks toks0 (withoutFlags hooks) before s = .ok s' →
      toks0[u]? = some k → (∀ x ∈ hooks, ∀ s fl, fl (.token w) ≠ .shared 0 → x.2.1 u s fl = .conflict (.token w)) →
      (w ∈ path ∨ fl' (.token w) ≠ .shared 0) →
      visitGoB d toks (withFlags hooks) (findHookB (withFlags hooks) ['*'] 0) n t s fl' = .conflict (.token w) := by
    intro n t before path u hr
    induction hr with
    | @here n t =>
      intro ht hm s fl' hs hf hb hk hu hw
      unfold visitGoB
      refine share_conflict (hf.ok ht).1 fun m hm' => ?_
      have hf' := (hf.ok ht).2 m hm'
      refine bind_does (does_tok ((hI s hs t ht).trans hk)) ?_
      refine bind_conflict ?_
      have hwf : (fl'.set (.token t) (.shared (m + 1))) (.token w) ≠ .shared 0 := by
        by_cases hwt : w = t
        · rw [hwt, Borrows.set_same]
          simp
        · rw [Borrows.set_other _ _ (by simpa using hwt)]
          refine hw.resolve_left fun hx => hwt ?_
          simpa using hx
      have call : ∀ j nm hB h, hooks[j]? = some (nm, hB, h) →
          callHookB d t (some (j, hB)) s (fl'.set (.token t) (.shared (m + 1))) = .conflict (.token w) := by
        intro j nm hB h hj
        refine own_conflict ?_ (hu _ (List.mem_of_getElem? hj) s _ (by rw [Borrows.set_other _ _ (by simp)]; exact hwf))
        rw [hf'.2 _ (by simp)]
        exact hfree j
      rcases findHook_both hooks k.name 0 with ⟨h1, h2⟩ | ⟨j, n', hB, h, h3, h4, h5⟩
      · rw [h1]
        rcases hdf with ⟨h6, h7⟩ | ⟨j, n', hB, h, h3, h4, h5⟩
        · rw [findHook_eq] at h2 h7
          unfold hookFor at hh
          cases hx : (withoutFlags hooks).find? (fun h => h.1 == k.name) with
          | some y => rw [hx] at h2; cases h2
          | none => rw [hx] at hh; dsimp only at hh; rw [h7] at hh; cases hh
        · rw [h4]
          exact call _ _ _ _ h3
      · rw [h4, Nat.zero_add]
        exact call _ _ _ _ h3
    | @down n t kt pre c post lp before path u hkt hc hp hr ih =>
      intro ht hm s fl' hs hf hb hk hu hw
      obtain ⟨kt', hkt', hcl⟩ := hl t ht
      cases hkt.symm.trans hkt'
      have hcl' : ∀ x ∈ pre ++ c :: post, x ∈ l := fun x hx => hcl x (hc ▸ hx)
      have hclosed := hp.pre
      -- the hook of `t`
      have hbt : t ∈ t :: (lp ++ before) := List.mem_cons_self
      have hgo := callHook_agrees (Minds.agree (l' := [t]) hfree fun x hx v hv => hm x hx v (by
        rw [List.mem_singleton.mp hv]; exact hbt)) hdf List.mem_cons_self hs kt.name ⟨fl', hf⟩
      obtain ⟨r, hr1, hr2, hr3⟩ := hgo
      -- it succeeds
      have hcall : ∃ a s1, r = (.ok a, s1) ∧ callHooks toks0 (withoutFlags hooks) (lp ++ before) s1 = .ok s' := by
        unfold callHooks at hb
        have hbd : (toks0[t]?).bind (fun k => hookFor (withoutFlags hooks) k.name) = hookFor (withoutFlags hooks) kt.name := by
          rw [hkt]; rfl
        rw [hbd] at hb
        unfold hookFor at hb
        rw [findHook_eq, findHook_eq] at hr1
        cases hx : (withoutFlags hooks).find? (fun h => h.1 == kt.name) with
        | some y =>
          rw [hx] at hb hr1
          dsimp only [Option.map] at hb hr1
          rw [hr1] at hb
          obtain ⟨r, s1⟩ := r
          cases r with
          | ok a => exact ⟨a, s1, rfl, hb⟩
          | error e => cases hb
        | none =>
          rw [hx] at hb hr1
          dsimp only [Option.map] at hb hr1
          cases hy : (withoutFlags hooks).find? (fun h => h.1 == ['*']) with
          | some y =>
            rw [hy] at hb hr1
            dsimp only [Option.map] at hb hr1
            rw [hr1] at hb
            obtain ⟨r, s1⟩ := r
            cases r with
            | ok a => exact ⟨a, s1, rfl, hb⟩
            | error e => cases hb
          | none =>
            rw [hy] at hb hr1
            dsimp only [Option.map] at hb hr1
            exact ⟨(), s, hr1.symm, hb⟩
      obtain ⟨a, s1, rfl, hb1⟩ := hcall
      have hs1 := hr3 a s1 rfl
      rw [callHooks_append] at hb1
      -- the children before
      have hpre : ∀ x ∈ pre, x ∈ lp := hclosed.roots
      have hlp : ∀ x ∈ lp, x ∈ l := hclosed.within hl fun x hx => hcl' x (by simp [hx])
      have hmlp : HooksAgree d lp (Between l fl) I hooks := Minds.agree hfree fun x hx v hv => hm x hx v
        (List.mem_cons_of_mem _ (List.mem_append_left _ hv))
      have hgo2 := visitList_agrees (l := lp) (F := Between l fl) (fun _ _ h hv => h.ok (hlp _ hv))
        (visitGo_agrees hmlp (toks0 := toks0) hclosed.closedList
          (fun s hs v hv => hI s hs v (hlp v hv)) (fun _ _ h hv => h.ok (hlp _ hv)) hdf n) pre hpre
      have hwalk := visitList_walk toks0 (withoutFlags hooks) (findHook_eq (withoutFlags hooks) ['*']) hp
      unfold visitGoB
      refine share_conflict (hf.ok ht).1 fun m hm' => ?_
      have hf' := (hf.ok ht).2 m hm'
      refine bind_does (does_tok ((hI s hs t ht).trans hkt)) ?_
      refine bind_does (hr2 _ hf') ?_
      refine bind_does (does_tok ((hI s1 hs1 t ht).trans hkt)) ?_
      rw [hc, visitListB_append]
      cases hv : callHooks toks0 (withoutFlags hooks) lp s1 with
      | ok s2 =>
        rw [hv] at hb1
        dsimp only at hb1
        have h3 := hgo2 s1 _ hs1 hf'
        rw [hwalk s1, hv] at h3
        refine bind_does h3.1 ?_
        have hcl2 : c ∈ l := hcl' c (by simp)
        refine bind_conflict (share_conflict (hf'.ok hcl2).1 fun m2 hm2 => ?_)
        refine ih hcl2 (fun x hx v hv => hm x hx v (by simp [hv])) s2 _ (h3.2 s2 rfl) ((hf'.ok hcl2).2 m2 hm2) hb1 hk hu ?_
        by_cases hwp : w ∈ path
        · exact .inl hwp
        · refine .inr ?_
          by_cases hwc : w = c
          · rw [hwc, Borrows.set_same]
            simp
          rw [Borrows.set_other _ _ (by simpa using hwc)]
          by_cases hwt : w = t
          · rw [hwt, Borrows.set_same]
            simp
          rw [Borrows.set_other _ _ (by simpa using hwt)]
          refine hw.resolve_left fun hx => ?_
          rcases List.mem_cons.mp hx with h | h
          · exact hwt h
          · exact hwp h
      | err e s2 => rw [hv] at hb1; cases hb1
      | dangling => rw [hv] at hb1; cases hb1
      | diverge => rw [hv] at hb1; cases hb1
  exact key hr ht hm s fl hs ⟨hfl, fun _ _ => rfl⟩ hb hk hu (.inl hw)

/-! ### Examples -/

namespace BorrowVisitExample

/-- Four tokens, `a` with the children `b` and `c`, and `d` below `c`. -/
def heap : List Token :=
  let mk (n : String) (cs : List TokId) : Token := { Token.mk' ⟨[], []⟩ n.toList ⟨0, 0⟩ with children := cs }
  [mk "a" [1, 2], mk "b" [], mk "c" [3], mk "d" []]

/-- The heap, and the tokens at which a hook was called. -/
abbrev Log := List Token × List TokId

/-- A hook that notes its token. -/
def note : HookB Log := fun u s fl => .ok () (s.1, s.2 ++ [u]) fl

/-- The same without flags. -/
def notePlain : Hook Log := fun u s => (.ok (), (s.1, s.2 ++ [u]))

/-- A hook that renames the token `w` and takes its children away. -/
def change (w : TokId) : HookB Log := fun _ => Watched.own (.token w) fun s fl =>
  .ok () (s.1.modify w fun k => { k with name := "x".toList, children := [] }, s.2) fl

def result (r : WRes Log Unit) : Option Cell ⊕ List TokId :=
  match r with
  | .ok _ s _ => .inr s.2
  | .conflict c => .inl (some c)
  | _ => .inl none

/-- Hooks may look at tokens. -/
theorem note_minds (l : List TokId) (d : Nat) (fl : Borrows) (u : TokId) :
    Minds l d fl (fun s : Log => s.1 = heap) note notePlain u :=
  fun _ _ hs _ => ⟨rfl, fun _ _ h => by cases h; exact hs⟩

example (d n : Nat) : visitB d Prod.fst [("*".toList, note)] n 0 (heap, []) Borrows.free =
    (visit heap [("*".toList, notePlain)] n 0 (heap, [])).flagged Borrows.free := by
  have hl : ClosedList heap [0, 1, 2, 3] := by
    intro u hu
    simp only [List.mem_cons, List.not_mem_nil, or_false] at hu
    rcases hu with rfl | rfl | rfl | rfl <;> exact ⟨_, rfl, by decide⟩
  exact C57_visit (toks := fun s : Log => s.1) (I := fun s => s.1 = heap) (hooks := [("*".toList, note, notePlain)])
    (l := [0, 1, 2, 3]) (by simp) hl (fun s' h u _ => by rw [h]) rfl (fun _ _ => ⟨0, rfl⟩) (fun _ => rfl)
    (fun x hx u _ => by rw [List.mem_singleton.mp hx]; exact note_minds _ _ _ u)

/-- What the hook of `b` may change: not `b` itself, nor the token above, but the sibling, whose
new name is then looked up and whose children are not visited.  Nor may the hook of `d` change
`c`, but it may change `b`. -/
example :
    result (visitB 0 Prod.fst [("*".toList, note)] 9 0 (heap, []) Borrows.free) = .inr [0, 1, 2, 3] ∧
    result (visitB 0 Prod.fst [("b".toList, change 1), ("*".toList, note)] 9 0 (heap, []) Borrows.free) = .inl (some (.token 1)) ∧
    result (visitB 0 Prod.fst [("b".toList, change 0), ("*".toList, note)] 9 0 (heap, []) Borrows.free) = .inl (some (.token 0)) ∧
    result (visitB 0 Prod.fst [("b".toList, change 2), ("x".toList, note)] 9 0 (heap, []) Borrows.free) = .inr [2] ∧
    result (visitB 0 Prod.fst [("d".toList, change 2), ("*".toList, note)] 9 0 (heap, []) Borrows.free) = .inl (some (.token 2)) ∧
    result (visitB 0 Prod.fst [("d".toList, change 1), ("*".toList, note)] 9 0 (heap, []) Borrows.free) = .inr [0, 1, 2] := by
  decide +kernel

/-- The way to `d`. -/
example : WayDown heap 9 0 [0, 1, 2] [0, 2, 3] 3 := by
  have h1 : Walk heap 8 [1] [1] := .cons (l := []) (l' := []) rfl (.nil _) (.nil _)
  exact .down (k := heap[0]) (pre := [1]) (post := []) rfl rfl h1
    (.down (k := heap[2]) (pre := []) (post := []) rfl rfl (.nil _) .here)

end BorrowVisitExample

end Adx
