import Verif.Proofs.InterpExec
import Verif.Proofs.InterpLike
import Verif.Props.Peg
/-
  The engine on the matchers of a table, and the reference interpreter on anything that is
  like them.
-/
namespace Adx.Interp

open Peg (body Cuts Cut Ready Sim Keeps)

variable {T : Table} {cfg : Cfg} {G : Grammar MatcherId} {S : MatcherId → Prop} {K : SCtxId → Prop} {C : Str → Prop} {p : Parser}
  {stop n : Nat} {s s' : State} {c : Ctx} {sc : SCtxId} {m : MatcherId}

theorem Shows.sees {toks : List Token} {lo : Nat} {r : R} {x : Result} (h : Shows toks lo r x) :
    Sees toks r x := by
  cases h with
  | fail => trivial
  | error => rfl
  | skip h => exact h
  | token h | splice h =>
    have := h.items (n := toks.length + 1) (by omega)
    show itemOf _ _ _ = _
    rw [List.mapM_cons] at this
    cases h1 : itemOf toks (toks.length + 1) _ with
    | none => rw [h1] at this; cases this
    | some y => rw [h1] at this; cases this; rfl

theorem splitErrors_none {toks : List Token} {lo : Nat} {ts : List TokId} {trees : List Item}
    (h : Reps toks lo ts trees) (s : State) (hs : s.toks = toks) : splitErrors ts s = .ok (ts, []) s := by
  induction h with
  | nil => rfl
  | @cons lo t k ts cs trees hl hk hs' hf _ _ _ ih =>
    subst hs
    unfold splitErrors
    rw [bind_run (getTok_ok.mpr ⟨hk, rfl⟩), bind_run ih]
    have : k.flagsEnabled IS_ERROR = false := by
      unfold Token.flagsEnabled
      rw [hf]
      decide
    rw [this]
    rfl

theorem collect_none {toks : List Token} {lo : Nat} {ts : List TokId} {trees : List Item}
    (h : Reps toks lo ts trees) (s : State) (hs : s.toks = toks) (root : TokId) {kr : Token}
    (hr : toks[root]? = some kr) : ∀ {n : Nat}, toks.length - lo < n →
    forEach (fun c => collectErrors n root c false) ts s = .ok () s := by
  subst hs
  induction h with
  | nil => intro n _; rfl
  | @cons lo t k ts cs trees hl hk hs' hf hc _ ih1 ih2 =>
    intro n hn
    cases n with
    | zero => omega
    | succ n =>
      have hlt : t < s.toks.length := (List.getElem?_eq_some_iff.mp hk).1
      have h1 : collectErrors (n + 1) root t false s = .ok () s := by
        unfold collectErrors
        rw [bind_run (getTok_ok.mpr ⟨hk, rfl⟩), bind_run (ih1 (n := n) (by omega)), if_neg (by decide),
          bind_run (getTok_ok.mpr ⟨hk, rfl⟩), bind_run (splitErrors_none hc s rfl)]
        show (modTok t _ >>= fun _ => _) s = _
        rw [bind_run (Peg.modTok_same hk rfl)]
        exact Peg.modTok_same hr (by simp)
      unfold forEach
      rw [bind_run h1]
      exact ih2 hn

theorem collectTop_none {lo : Nat} {t : TokId} {tree : Item} (h : Reps s.toks lo [t] [tree]) :
    collectErrorsTop t s = .ok () s := by
  obtain ⟨k, -, hk, -, -, -, -, hc⟩ := h.root
  have hlt : t < s.toks.length := (List.getElem?_eq_some_iff.mp hk).1
  unfold collectErrorsTop
  rw [bind_run (show M.getState s = .ok s s from rfl)]
  unfold collectErrors
  rw [bind_run (getTok_ok.mpr ⟨hk, rfl⟩), bind_run (collect_none hc s rfl t hk (Nat.sub_lt (Nat.lt_of_le_of_lt (Nat.zero_le _) hlt) (Nat.succ_pos _))), if_pos rfl]
  rfl

/-- What `tokenize` adds. -/
theorem tokenize_sim (hF : Forms T G S K C) (hb : blen p.src ≤ isizeMax)
    (hasc : ∀ m, S m → (G.expr m).Between p.src) (hm : S m) (hK : K c.scope) (hc : Ready p stop c)
    (hcut : Cut p.src stop c.offset.start) (hk : Knows S K C s) :
    Sim (tokenize T cfg n c m s) (eval G heapNames p stop n m c.scope c.offset.start (vars s))
      (fun r s' x => SeesRoot s'.toks r x.1 ∧ Keeps s.toks.length s s' ∧ vars s' = x.2 ∧ Knows S K C s' ∧
        s'.toks.length = s.toks.length + work G heapNames p stop n m c.scope c.offset.start (vars s)) := by
  have h := lock (cfg := cfg) (stop := stop) hF hb hasc n m hm c c.scope s hK hc hcut hk
  rw [← Option.bind_fun_some (eval G heapNames p stop n m c.scope c.offset.start (vars s))]
  unfold tokenize
  refine h.bind fun r s1 x _ ⟨h1, _, h2, h3, h4, h5⟩ => ?_
  obtain ⟨x, st⟩ := x
  dsimp only at h1 h3
  have hsee := h1.sees
  cases h1 with
  | fail => exact ⟨trivial, h2, h3, h4, h5⟩
  | error => exact ⟨rfl, h2, h3, h4, h5⟩
  | skip _ => exact ⟨trivial, h2, h3, h4, h5⟩
  | token hr =>
    dsimp only
    rw [bind_run (collectTop_none hr)]
    exact ⟨hsee, h2, h3, h4, h5⟩
  | splice hr =>
    dsimp only
    rw [bind_run (collectTop_none hr)]
    exact ⟨hsee, h2, h3, h4, h5⟩

/-! ### Which expression a matcher has -/

theorem give_of_fun {a a' : AMap Str} (h : addMissingAttributes a = addMissingAttributes a') : Item.give a = Item.give a' := by
  have key : ∀ b : AMap Str, Item.missing b a = Item.missing b a' := by
    intro b
    let k : Token := { Token.mk' ⟨[], []⟩ [] ⟨0, 0⟩ with attributes := b }
    let c : Ctx := Ctx.new ⟨[], []⟩ 0 []
    have h1 : addMissingAttributes a 0 c 0 ⟨[k], [], []⟩ = .ok (.ok (.token 0)) ⟨[k.addMissing a], [], []⟩ := rfl
    have h2 : addMissingAttributes a' 0 c 0 ⟨[k], [], []⟩ = .ok (.ok (.token 0)) ⟨[k.addMissing a'], [], []⟩ := rfl
    rw [h, h2] at h1
    injection h1 with _ h1
    injection h1 with h1
    have h3 : k.addMissing a' = k.addMissing a := List.head_eq_of_cons_eq h1
    rw [addMissing_eq, addMissing_eq] at h3
    exact (congrArg Token.attributes h3).symm
  funext t
  cases t
  unfold Item.give
  dsimp only
  rw [key]

theorem rename_of_fun {l l' : Str} (h : renameToken l = renameToken l') : l = l' := by
  let k : Token := Token.mk' ⟨[], []⟩ [] ⟨0, 0⟩
  let c : Ctx := Ctx.new ⟨[], []⟩ 0 []
  have h1 : renameToken l 0 c 0 ⟨[k], [], []⟩ = .ok (.ok (.token 0)) ⟨[k.setName l], [], []⟩ := rfl
  have h2 : renameToken l' 0 c 0 ⟨[k], [], []⟩ = .ok (.ok (.token 0)) ⟨[k.setName l'], [], []⟩ := rfl
  rw [h, h2] at h1
  injection h1 with _ h1
  injection h1 with h1
  exact (congrArg Token.name (List.head_eq_of_cons_eq h1)).symm

theorem rename_ne_give {l : Str} {a : AMap Str} : renameToken l ≠ addMissingAttributes a := by
  intro h
  let k : Token := Token.mk' ⟨[], []⟩ ('x' :: l) ⟨0, 0⟩
  let c : Ctx := Ctx.new ⟨[], []⟩ 0 []
  have h1 : renameToken l 0 c 0 ⟨[k], [], []⟩ = .ok (.ok (.token 0)) ⟨[k.setName l], [], []⟩ := rfl
  have h2 : addMissingAttributes a 0 c 0 ⟨[k], [], []⟩ = .ok (.ok (.token 0)) ⟨[k.addMissing a], [], []⟩ := rfl
  rw [h, h2] at h1
  injection h1 with _ h1
  injection h1 with h1
  have h3 := congrArg Token.name (List.head_eq_of_cons_eq h1)
  rw [addMissing_eq] at h3
  have h4 : 'x' :: l = l := h3
  have := congrArg List.length h4
  simp at this

theorem Shape.give_inv {i : MatcherId} {a : AMap Str} {e : Expr MatcherId}
    (h : Shape (.map i (addMissingAttributes a) passFailure) e) :
    ∃ a', e = .give a' i ∧ Item.give a' = Item.give a := by
  generalize hn : Node.map i (addMissingAttributes a) passFailure = nd at h
  cases h
  all_goals first
    | cases hn; done
    | (injection hn with h1 h2)
  · exact (rename_ne_give h2.symm).elim
  · exact ⟨_, by rw [h1], (give_of_fun h2).symm⟩

theorem Shape.rename_inv {i : MatcherId} {l : Str} {e : Expr MatcherId}
    (h : Shape (.map i (renameToken l) passFailure) e) : e = .rename l i := by
  generalize hn : Node.map i (renameToken l) passFailure = nd at h
  cases h
  all_goals first
    | cases hn; done
    | (injection hn with h1 h2)
  · rw [h1, rename_of_fun h2]
  · exact (rename_ne_give h2).elim

open Classical in
/-- The matchers of a table as a grammar. -/
noncomputable def tableGrammar (T : Table) : Grammar MatcherId where
  expr m := if h : ∃ e, Shape (T m) e then h.choose else .empty
  label m := if (T m).hasCustomName then some (T m).name else none

theorem tableGrammar_shape {e : Expr MatcherId} (h : Shape (T m) e) : Shape (T m) ((tableGrammar T).expr m) := by
  have hex : ∃ e, Shape (T m) e := ⟨e, h⟩
  unfold tableGrammar
  dsimp only
  rw [dif_pos hex]
  exact hex.choose_spec

/-! ### Interpreting something that is like the matchers -/

section
variable {N σ : Type} {G' : Grammar N} {nm' : Names σ N} {Rel : MatcherId → Nat → N → Nat → Prop} {Inv : Vars → σ → Prop}

theorem Like.uses {k k' : Nat} {e : Expr MatcherId} {e' : Expr N} (h : Like heapNames nm' Rel Inv k k' e e') :
    ∀ x ∈ e.uses, ∃ k y k', Rel x k y k' := by
  have key : ∀ {ms : List MatcherId} {ms' : List N}, List.Forall₂ (fun m m' => Rel m k m' k') ms ms' →
      ∀ x ∈ ms, ∃ k y k', Rel x k y k' := by
    intro ms ms' h
    induction h with
    | nil => intro x hx; cases hx
    | cons h _ ih =>
      intro x hx
      rcases List.mem_cons.mp hx with rfl | hx
      · exact ⟨_, _, _, h⟩
      · exact ih x hx
  have one : ∀ {m : MatcherId} {k : Nat} {y : N} {k' : Nat}, Rel m k y k' → ∀ x ∈ [m], ∃ k y k', Rel x k y k' := by
    intro m k y k' h x hx
    rw [List.mem_singleton] at hx
    subst hx
    exact ⟨_, _, _, h⟩
  have none : ∀ x ∈ ([] : List MatcherId), ∃ k y k', Rel x k y k' := fun x hx => by cases hx
  cases h with
  | seq h => exact key h
  | choice h => exact key h
  | loop h => exact key h
  | opt h => exact one h
  | neg h => exact one h
  | drop h => exact one h
  | flat h => exact one h
  | jump h => exact one h
  | within h => exact one h
  | rename h => exact one h
  | give _ h => exact one h
  | _ => exact none

/-- The engine runs what is like a grammar in lock step with that grammar. -/
theorem run_like (hA : Alike (tableGrammar T) heapNames G' nm' Rel Inv)
    (hsh : ∀ {x k y k'}, Rel x k y k' → ∃ e, Shape (T x) e)
    (hre : ∀ {x k y k' l f}, Rel x k y k' → G'.expr y = .re l f → Cuts f)
    (hde : ∀ {x k y k'}, Rel x k y k' → (G'.expr y).Between p.src)
    (hb : blen p.src ≤ isizeMax) {y : N} {k' : Nat} {st : σ} (hm : Rel m c.scope y k') (hi : Inv (vars s) st)
    (hc : Ready p stop c) (hcut : Cut p.src stop c.offset.start)
    (hca : ∀ {x k y k' l}, Rel x k y k' → (tableGrammar T).expr x = .call l → C l)
    (hk : Knows (fun x => ∃ k y k', Rel x k y k') (fun k => ∃ x y k', Rel x k y k') C s) :
    Sim (tokenize T cfg n c m s) (eval G' nm' p stop n y k' c.offset.start st)
      (fun r s' x => SeesRoot s'.toks r x.1 ∧ Keeps s.toks.length s s' ∧ Inv (vars s') x.2 ∧
        s'.toks.length = s.toks.length + work G' nm' p stop n y k' c.offset.start st) := by
  have hF : Forms T (tableGrammar T) (fun x => ∃ k y k', Rel x k y k') (fun k => ∃ x y k', Rel x k y k') C := by
    refine ⟨?_, fun _ _ => rfl, ?_, ?_, ?_, fun x ⟨k, y, k', h⟩ l hl => hca h hl⟩
    · rintro x ⟨k, y, k', h⟩
      obtain ⟨e, he⟩ := hsh h
      exact tableGrammar_shape he
    · rintro x ⟨k, y, k', h⟩
      exact (hA.expr h).uses
    · rintro x ⟨k, y, k', h⟩ k1 hk1
      have := hA.expr h
      generalize (tableGrammar T).expr x = e at hk1 this
      generalize G'.expr y = e' at this
      cases this with
      | within h => cases hk1; exact ⟨_, _, _, h⟩
      | _ => cases hk1
    · rintro x ⟨k, y, k', h⟩ l f hf
      have := hA.expr h
      rw [hf] at this
      generalize hy : G'.expr y = e' at this
      cases this
      exact hre h hy
  have hasc : ∀ x, (∃ k y k', Rel x k y k') → ((tableGrammar T).expr x).Between p.src := by
    rintro x ⟨k, y, k', h⟩ l a b e' hd
    have := hA.expr h
    generalize (tableGrammar T).expr x = e at hd this
    generalize hy : G'.expr y = e' at this
    cases this with
    | delim => cases hd; exact hde h _ _ _ _ hy
    | _ => cases hd
  have h1 := tokenize_sim (cfg := cfg) (n := n) (c := c) hF hb hasc ⟨_, _, _, hm⟩ ⟨_, _, _, hm⟩ hc hcut hk
  have h2 := hA.eval (p := p) (stop := stop) n _ _ _ _ hm c.offset.start _ _ hi
  rw [hA.work (p := p) (stop := stop) n _ _ _ _ hm c.offset.start _ _ hi] at h1
  generalize eval (tableGrammar T) heapNames p stop n m c.scope c.offset.start (vars s) = x at h1 h2
  generalize eval G' nm' p stop n y k' c.offset.start st = x' at h2
  cases h2 with
  | none =>
    generalize tokenize T cfg n c m s = res at h1
    cases res <;> exact h1
  | @some a b hab =>
    obtain ⟨a1, a2⟩ := a
    obtain ⟨b1, b2⟩ := b
    obtain ⟨h3, h4⟩ := hab
    dsimp only at h3 h4
    subst h3
    generalize tokenize T cfg n c m s = res at h1
    cases res with
    | ok r s' =>
      obtain ⟨h5, h6, h7, -, h8⟩ := h1
      exact ⟨h5, h6, by rw [h7]; exact h4, h8⟩
    | panic _ => exact h1
    | diverge => exact h1
end

end Adx.Interp
