import Verif.Proofs.Elsewhere
/-
  The hooks, the visit, and the compilation of scripts in every world as in each part of it.
-/
namespace Adx.Reloc

variable {ρ : Reloc}

/-- The second build is at the same point as the first. -/
structure Alike (ρ : Reloc) (b b' : Build) : Prop where
  w : ρ.Inside b.w b'.w
  errors : b'.errors = b.errors
  crash : b'.crash = b.crash

/-- The second hook did the same as the first. -/
def HookSame (ρ : Reloc) (r r' : Except ParseError Unit × Build) : Prop := r'.1 = r.1 ∧ ρ.Alike r.2 r'.2

@[inherit_doc HookSame]
def VisitSame (ρ : Reloc) : VRes Build → VRes Build → Prop
  | .ok b, x => ∃ b', x = .ok b' ∧ ρ.Alike b b'
  | .err e b, x => ∃ b', x = .err e b' ∧ ρ.Alike b b'
  | .dangling, x => x = .dangling
  | .diverge, x => x = .diverge

section
variable {b b' : Build} {α β : Type}

theorem Alike.grow (h : ρ.Alike b b') {ns ns' : List Node} (hn : ρ.Nodes ns ns') :
    ρ.Alike { b with w := { b.w with nodes := ns } } { b' with w := { b'.w with nodes := ns' } } :=
  ⟨⟨hn, h.w.st⟩, h.errors, h.crash⟩

theorem Alike.bind (hi : ρ.Inj) (h : ρ.Alike b b') (sc : SCtxId) (n : Str) (m : MatcherId) :
    ρ.Alike (b.bind sc n m) (b'.bind (ρ.sctx sc) n (ρ.mat m)) :=
  ⟨⟨h.w.nodes, (h.w.st.bindVar hi sc n (.matcher m)).1⟩, h.errors, h.crash⟩

theorem Alike.crashed (h : ρ.Alike b b') (c : Option (Option String)) :
    ρ.Alike { b with crash := c } { b' with crash := c } := ⟨h.w, h.errors, rfl⟩

theorem Alike.more (h : ρ.Alike b b') (es : List ParseError) :
    ρ.Alike { b with errors := b.errors ++ es } { b' with errors := b'.errors ++ es } :=
  ⟨h.w, by rw [h.errors], h.crash⟩

theorem HookSame.step {V : α → β → Prop} {x : C α} {x' : C β} {ke : Str → ParseError}
    {k : α → Build → Except ParseError Unit × Build} {k' : β → Build → Except ParseError Unit × Build}
    (h : ρ.Alike b b') (hx : ρ.CMove b.w.st.toks b'.w.st.toks V x x')
    (hk : ∀ a a' ns ns', x b.w.st.toks b.w.nodes = .ok a ns → V a a' → ρ.Nodes ns ns' →
      ρ.HookSame (k a { b with w := { b.w with nodes := ns } }) (k' a' { b' with w := { b'.w with nodes := ns' } })) :
    ρ.HookSame (Build.step x b k ke) (Build.step x' b' k' ke) := by
  have hc := hx _ _ h.w.nodes
  unfold Build.step
  cases hr : x b.w.st.toks b.w.nodes with
  | ok a ns =>
    rw [hr] at hc
    obtain ⟨a', ns', he, hv, hn⟩ := hc
    rw [he]
    exact hk a a' ns ns' hr hv hn
  | err e =>
    rw [hr] at hc
    rw [show x' b'.w.st.toks b'.w.nodes = _ from hc]
    exact ⟨rfl, h⟩
  | panic e =>
    rw [hr] at hc
    rw [show x' b'.w.st.toks b'.w.nodes = _ from hc]
    exact ⟨rfl, h.crashed _⟩
  | diverge =>
    rw [hr] at hc
    rw [show x' b'.w.st.toks b'.w.nodes = _ from hc]
    exact ⟨rfl, h.crashed _⟩

open CMove

theorem hookError_same (h : ρ.Alike b b') (t : TokId) : ρ.HookSame (hookError t b) (hookError (ρ.tok t) b') := by
  unfold hookError
  refine HookSame.step (V := Eq) h ?_ ?_
  · apply CMove.bind (CMove.tok h.w.st.tok)
    rintro k _ ⟨-, rfl⟩
    apply CMove.bind ofOpt
    rintro m _ rfl
    exact CMove.pure rfl
  · rintro e _ ns ns' - rfl hn
    exact ⟨rfl, (h.grow hn).more _⟩

theorem hookAdextopaScope_same (hm : Function.Injective ρ.mat) {root : MatcherId} (h : ρ.Alike b b') (t : TokId) :
    ρ.HookSame (hookAdextopaScope root t b) (hookAdextopaScope (ρ.mat root) (ρ.tok t) b') := by
  unfold hookAdextopaScope
  refine HookSame.step (V := fun _ _ => True) h ?_ ?_
  · apply CMove.bind (CMove.tok h.w.st.tok)
    rintro k _ ⟨-, rfl⟩
    rw [show (ρ.token k).getAttribute "name".toList = k.getAttribute "name".toList from rfl]
    cases k.getAttribute "name".toList with
    | none => exact CMove.pure trivial
    | some n => exact CMove.setName hm
  · rintro _ _ ns ns' - - hn
    exact ⟨rfl, h.grow hn⟩

variable {env : Env} {d d' : Nat}

theorem hookAssignment_same (hi : ρ.Inj) (hm : Function.Injective ρ.mat) (hd : d ≤ d') {sc : SCtxId} (h : ρ.Alike b b')
    {t : TokId} (hl : Low b.w.st.toks d t) :
    ρ.HookSame (hookAssignment env d sc t b) (hookAssignment env d' (ρ.sctx sc) (ρ.tok t) b') := by
  unfold hookAssignment
  refine HookSame.step (V := fun o o' => o' = o.map fun p => (p.1, ρ.mat p.2)) h ?_ ?_
  · have hT := h.w.st.tok
    apply CMove.bind (CMove.tok hT)
    rintro k _ ⟨hk, rfl⟩
    apply CMove.bind child
    rintro x _ ⟨-, rfl⟩
    apply CMove.bind (CMove.tok hT)
    rintro xk _ ⟨-, rfl⟩
    apply CMove.bind child
    rintro v _ ⟨hv, rfl⟩
    apply CMove.bind (CMove.tok hT)
    rintro vk _ ⟨-, rfl⟩
    refine CMove.ite (fun _ => ?_) fun _ => CMove.ite (fun _ => ?_) fun _ => CMove.pure rfl
    · apply CMove.bind (CMove.mk .ref)
      rintro m _ rfl
      exact CMove.pure rfl
    · cases d with
      | zero => exact hl.elim
      | succ d0 =>
        have hlv : Low b.w.st.toks (d0 + 1) v := by
          obtain ⟨_, hk', hlow⟩ := hl
          rw [hk] at hk'
          cases hk'
          exact (hlow v hv).succ
        apply CMove.bind (CMove.constructDefinition hT hi hm
          (fun c hc => CMove.constructPattern hT hi hm hd hc.succ) hlv)
        rintro m _ rfl
        exact CMove.pure rfl
  · rintro o _ ns ns' - rfl hn
    cases o with
    | none => exact ⟨rfl, h.grow hn⟩
    | some p => exact ⟨rfl, (h.grow hn).bind hi _ _ _⟩

theorem hookPatternScope_same (hi : ρ.Inj) (hm : Function.Injective ρ.mat) (hd : d ≤ d') {inScope : MatcherId}
    (h : ρ.Alike b b') {t : TokId} (hl : Low b.w.st.toks d t) :
    ρ.HookSame (hookPatternScope env d inScope t b) (hookPatternScope env d' (ρ.mat inScope) (ρ.tok t) b') := by
  unfold hookPatternScope
  refine HookSame.step (V := fun _ _ => True) h ?_ ?_
  · have hT := h.w.st.tok
    apply CMove.bind (CMove.tok hT)
    rintro k _ ⟨hk, rfl⟩
    refine CMove.constructScope hT hi hm hd k.children fun c hc => ?_
    cases d with
    | zero => exact hl.elim
    | succ d0 =>
      obtain ⟨_, hk', hlow⟩ := hl
      rw [hk] at hk'
      cases hk'
      exact (hlow c hc).succ
  · rintro _ _ ns ns' - - hn
    exact ⟨rfl, h.grow hn⟩

theorem importIdentifier_same (hi : ρ.Inj) (hm : Function.Injective ρ.mat) {sc isc : SCtxId} {root : MatcherId} {file : Str}
    (h : ρ.Alike b b') (c : TokId) :
    ρ.HookSame (importIdentifier sc isc root file c b)
      (importIdentifier (ρ.sctx sc) (ρ.sctx isc) (ρ.mat root) file (ρ.tok c) b') := by
  unfold importIdentifier
  refine HookSame.step (V := fun p p' => p' = (ρ.token p.1, p.2)) h ?_ ?_
  · have hT := h.w.st.tok
    apply CMove.bind (CMove.tok hT)
    rintro k _ ⟨-, rfl⟩
    apply CMove.bind (CMove.findChild hT)
    rintro o _ ⟨-, rfl⟩
    apply CMove.bind ofOptMap
    rintro x _ ⟨-, rfl⟩
    apply CMove.bind (CMove.tok hT)
    rintro ik _ ⟨-, rfl⟩
    apply CMove.bind (CMove.findChild hT)
    rintro o _ ⟨-, rfl⟩
    cases o with
    | none => exact CMove.pure rfl
    | some a =>
      apply CMove.bind (CMove.tok hT)
      rintro ak _ ⟨-, rfl⟩
      exact CMove.pure rfl
  · rintro ⟨ik, name⟩ _ ns ns' - rfl hn
    have h := h.grow hn
    generalize { b with w := { b.w with nodes := ns } } = b at h ⊢
    generalize { b' with w := { b'.w with nodes := ns' } } = b' at h ⊢
    dsimp only
    rw [show (ρ.token ik).getValue = ik.getValue from rfl]
    split
    · split
      · exact ⟨rfl, h⟩
      · refine HookSame.step (V := fun _ _ => True) h (CMove.setName hm) ?_
        rintro _ _ ns ns' - - hn
        exact ⟨rfl, (h.grow hn).bind hi _ _ _⟩
    · rw [h.w.st.lookup]
      cases b.w.st.lookup isc ik.getValue with
      | none => exact ⟨rfl, h⟩
      | some v =>
        cases v with
        | token t => exact ⟨rfl, h⟩
        | str t => exact ⟨rfl, h⟩
        | matcher m =>
          refine HookSame.step (V := fun m m' => m' = ρ.mat m) h ?_ ?_
          · apply CMove.bind (CMove.mk (.map (C48_rename 0 name ρ True hi).1 (C48_rename 0 name ρ True hi).2))
            rintro mm _ rfl
            exact CMove.mk .setScope
          · rintro mm _ ns ns' - rfl hn
            exact ⟨rfl, (h.grow hn).bind hi _ _ _⟩

theorem importIdentifiers_same (hi : ρ.Inj) (hm : Function.Injective ρ.mat) {sc isc : SCtxId} {root : MatcherId} {file : Str}
    (cs : List TokId) : ∀ {b b' : Build}, ρ.Alike b b' →
    ρ.HookSame (importIdentifiers sc isc root file cs b)
      (importIdentifiers (ρ.sctx sc) (ρ.sctx isc) (ρ.mat root) file (cs.map ρ.tok) b') := by
  induction cs with
  | nil => exact fun h => ⟨rfl, h⟩
  | cons c cs ih =>
    intro b b' h
    rw [List.map_cons]
    unfold importIdentifiers
    have h1 := importIdentifier_same (sc := sc) (isc := isc) (root := root) (file := file) hi hm h c
    cases hx : importIdentifier sc isc root file c b with
    | mk r b1 =>
      cases hx' : importIdentifier (ρ.sctx sc) (ρ.sctx isc) (ρ.mat root) file (ρ.tok c) b' with
      | mk r' b1' =>
        rw [hx, hx'] at h1
        obtain ⟨he, h1⟩ := h1
        dsimp only at he h1
        subst he
        cases r' with
        | ok u => exact ih h1
        | error e => exact ⟨rfl, h1⟩

theorem reads_eq {x : C α} {toks : List Token} {ns ns' : List Node} {a : α} (h : CReads x) (hx : x toks ns = .ok a ns') :
    ns' = ns := by
  have := h toks ns
  unfold CPost at this
  rw [hx] at this
  exact this

theorem hookImport_same (hi : ρ.Inj) (hm : Function.Injective ρ.mat) {cf : Str → World → BuildRes}
    (hf : ∀ file w w', Milds w.nodes → ρ.Inside w w' → ρ.SameBuild (cf file w) (cf file w'))
    {fromFile : Option Str} {sc : SCtxId} (h : ρ.Alike b b') (hb : Milds b.w.nodes) (t : TokId) :
    ρ.HookSame (hookImport env cf fromFile sc t b) (hookImport env cf fromFile (ρ.sctx sc) (ρ.tok t) b') := by
  unfold hookImport
  have hT := h.w.st.tok
  cases fromFile with
  | none =>
    refine HookSame.step h (CMove.tok hT) ?_
    rintro k _ ns ns' - ⟨-, rfl⟩ hn
    exact ⟨rfl, h.grow hn⟩
  | some from_ =>
    refine HookSame.step (V := fun p p' => p' = (p.1.map ρ.tok, p.2)) h ?_ ?_
    · apply CMove.bind (CMove.tok hT)
      rintro k _ ⟨-, rfl⟩
      apply CMove.bind (CMove.findChild hT)
      rintro o _ ⟨-, rfl⟩
      apply CMove.bind ofOptMap
      rintro x _ ⟨-, rfl⟩
      apply CMove.bind (CMove.tok hT)
      rintro ids _ ⟨-, rfl⟩
      apply CMove.bind (CMove.findChild hT)
      rintro o _ ⟨-, rfl⟩
      apply CMove.bind ofOptMap
      rintro y _ ⟨-, rfl⟩
      apply CMove.bind (CMove.tok hT)
      rintro yk _ ⟨-, rfl⟩
      apply CMove.bind ofOpt
      rintro j _ rfl
      apply CMove.bind ofOpt
      rintro f _ rfl
      exact CMove.pure rfl
    · rintro ⟨ids, file⟩ _ ns ns' hx rfl hn
      have hns : ns = b.w.nodes := by
        refine reads_eq ?_ hx
        exact CReads.bind CReads.tok fun k => CReads.bind CReads.findChild fun _ => CReads.bind CReads.ofOpt fun _ =>
          CReads.bind CReads.tok fun ids => CReads.bind CReads.findChild fun _ => CReads.bind CReads.ofOpt fun _ =>
          CReads.bind CReads.tok fun _ => CReads.bind CReads.ofOpt fun _ => CReads.bind CReads.ofOpt fun _ =>
          CReads.pure
      have h := h.grow hn
      have hb : Milds ({ b with w := { b.w with nodes := ns } } : Build).w.nodes := by rw [hns]; exact hb
      clear hx hns
      generalize { b with w := { b.w with nodes := ns } } = b at h hb ⊢
      generalize { b' with w := { b'.w with nodes := ns' } } = b' at h ⊢
      dsimp only
      have hc := hf file b.w b'.w hb h.w
      cases hr : cf file b.w with
      | ok root isc w =>
        rw [hr] at hc
        obtain ⟨w', he, hw⟩ := hc
        rw [he]
        exact importIdentifiers_same hi hm ids ⟨hw, h.errors, h.crash⟩
      | err es =>
        rw [hr] at hc
        rw [show cf file b'.w = _ from hc]
        exact ⟨rfl, h.more es⟩
      | panic e =>
        rw [hr] at hc
        rw [show cf file b'.w = _ from hc]
        exact ⟨rfl, h.crashed _⟩
      | diverge =>
        rw [hr] at hc
        rw [show cf file b'.w = _ from hc]
        exact ⟨rfl, h.crashed _⟩

end

/-! ### The visit -/

/-- Hooks of the same names, in the same order, that do the same. -/
def HooksSame (ρ : Reloc) (P : TokId → Prop) (I : Build → Prop) : List (Str × Hook Build) → List (Str × Hook Build) → Prop :=
  List.Forall₂ fun h h' => h.1 = h'.1 ∧ ∀ t b b', P t → I b → ρ.Alike b b' → ρ.HookSame (h.2 t b) (h'.2 (ρ.tok t) b')

theorem HooksSame.find {P : TokId → Prop} {I : Build → Prop} {hs hs' : List (Str × Hook Build)}
    (h : ρ.HooksSame P I hs hs') (k : Str) :
    (findHook hs k = none ∧ findHook hs' k = none) ∨
    ∃ f f', findHook hs k = some f ∧ findHook hs' k = some f' ∧ (∃ n, (n, f) ∈ hs) ∧
      ∀ t b b', P t → I b → ρ.Alike b b' → ρ.HookSame (f t b) (f' (ρ.tok t) b') := by
  induction h with
  | nil => exact .inl ⟨rfl, rfl⟩
  | @cons a a' l l' hd _ ih =>
    obtain ⟨n, f⟩ := a
    obtain ⟨n', f'⟩ := a'
    obtain ⟨rfl, hd⟩ := hd
    unfold findHook
    by_cases hn : n = k
    · rw [if_pos hn, if_pos hn]
      exact .inr ⟨f, f', rfl, rfl, ⟨n, List.mem_cons_self⟩, hd⟩
    · rw [if_neg hn, if_neg hn]
      rcases ih with ih | ⟨g, g', h1, h2, ⟨x, h3⟩, h4⟩
      · exact .inl ih
      · exact .inr ⟨g, g', h1, h2, ⟨x, List.mem_cons_of_mem _ h3⟩, h4⟩

theorem visitList_same {v v' : TokId → Build → VRes Build} {P : TokId → Prop} {I : Build → Prop} {J : ParseError → Build → Prop}
    (hv : ∀ t b b', P t → I b → ρ.Alike b b' → ρ.VisitSame (v t b) (v' (ρ.tok t) b'))
    (hI : ∀ t b, I b → VisitDone I J (v t b)) (cs : List TokId) :
    ∀ {b b' : Build}, (∀ c ∈ cs, P c) → I b → ρ.Alike b b' →
    ρ.VisitSame (visitList v cs b) (visitList v' (cs.map ρ.tok) b') := by
  induction cs with
  | nil => exact fun _ _ h => ⟨_, rfl, h⟩
  | cons c cs ih =>
    intro b b' hp hb h
    rw [List.map_cons]
    unfold visitList
    have h1 := hv c b b' (hp c (by simp)) hb h
    have h2 := hI c b hb
    cases hx : v c b with
    | ok b1 =>
      rw [hx] at h1 h2
      obtain ⟨b1', he, h1⟩ := h1
      rw [he]
      exact ih (fun x hx => hp x (by simp [hx])) h2 h1
    | err e b1 =>
      rw [hx] at h1
      obtain ⟨b1', he, h1⟩ := h1
      rw [he]
      exact ⟨b1', rfl, h1⟩
    | dangling =>
      rw [hx] at h1
      rw [show v' (ρ.tok c) b' = _ from h1]
      exact rfl
    | diverge =>
      rw [hx] at h1
      rw [show v' (ρ.tok c) b' = _ from h1]
      exact rfl

theorem visitGo_same {toks toks' : List Token} (hT : ∀ t, toks'[ρ.tok t]? = toks[t]?.map ρ.token)
    {I : Build → Prop} {J : ParseError → Build → Prop} {hs hs' : List (Str × Hook Build)} {top : Nat}
    (hh : ρ.HooksSame (Low toks top) I hs hs') (hI : ∀ n h, (n, h) ∈ hs → ∀ t s, I s → HookDone I J (h t s)) :
    ∀ {n n' : Nat} {t : TokId} {b b' : Build}, n ≤ n' → n ≤ top → Low toks n t → I b → ρ.Alike b b' →
    ρ.VisitSame (visitGo toks hs none n t b) (visitGo toks' hs' none n' (ρ.tok t) b')
  | 0, _, _, _, _, _, _, hl, _, _ => hl.elim
  | n + 1, n' + 1, t, b, b', hn, htop, hl, hb, h => by
    have htl := hl.mono htop
    obtain ⟨k, hk, hlow⟩ := hl
    unfold visitGo
    rw [hT t, hk]
    dsimp only [Option.map_some]
    have hlist : ∀ {b b'}, I b → ρ.Alike b b' →
        ρ.VisitSame (visitList (visitGo toks hs none n) k.children b)
          (visitList (visitGo toks' hs' none n') (k.children.map ρ.tok) b') := by
      intro b b' hb h
      refine visitList_same (P := Low toks n) (J := J) ?_ ?_ k.children hlow hb h
      · exact fun t b b' hl hb h => visitGo_same hT hh hI (Nat.le_of_succ_le_succ hn) (by omega) hl hb h
      · exact fun t b hb => visitGo_safe hI n t b hb
    rw [show (ρ.token k).name = k.name from rfl]
    rcases hh.find k.name with ⟨h1, h2⟩ | ⟨f, f', h1, h2, ⟨x, hx⟩, h3⟩
    · rw [h1, h2]
      exact hlist hb h
    · rw [h1, h2]
      have hsame := h3 t b b' htl hb h
      have hsafe := hI x f hx t b hb
      dsimp only
      cases hr : f t b with
      | mk r b1 =>
        cases hr' : f' (ρ.tok t) b' with
        | mk r' b1' =>
          rw [hr, hr'] at hsame
          obtain ⟨he, hsame⟩ := hsame
          dsimp only at he hsame
          subst he
          rw [hr] at hsafe
          cases r' with
          | ok u => exact hlist hsafe hsame
          | error e => exact ⟨b1', rfl, hsame⟩

theorem buildResult_same {ctx : Ctx} {root : MatcherId} {sc : SCtxId} {r r' : VRes Build} (h : ρ.VisitSame r r') :
    ρ.SameBuild (buildResult ctx root sc r) (buildResult (ρ.ctx ctx) (ρ.mat root) (ρ.sctx sc) r') := by
  cases r with
  | ok b =>
    obtain ⟨b', rfl, h⟩ := h
    exact ⟨_, rfl, h.w⟩
  | err e b =>
    obtain ⟨b', rfl, h⟩ := h
    unfold buildResult
    dsimp only
    rw [h.crash, h.errors]
    rw [show ∀ m r, (ρ.ctx ctx).errorString m r = ctx.errorString m r from fun _ _ => rfl]
    cases b.crash with
    | some c => cases c <;> exact rfl
    | none =>
      dsimp only
      split
      · cases ctx.errorString e.message (e.range.getD ⟨0, 0⟩) <;> exact rfl
      · exact rfl
  | dangling => cases h; exact rfl
  | diverge => cases h; exact rfl

theorem Part.newSCtx {s s' : State} (h : ρ.Part s s') : ρ.Part s.newSCtx.2 s'.newSCtx.2 where
  tok := h.tok
  tokNew := h.tokNew
  le := h.le
  scope := h.scope
  scopeNew := h.scopeNew
  sctx := part_append h.sctx h.sctxNew []
  sctxNew := part_append_new h.sctxNew _ _

theorem build_same (hi : ρ.Inj) (hm : Function.Injective ρ.mat) {env : Env} {cf : Str → World → BuildRes}
    (hs : ∀ file w, Milds w.nodes → FileSafe w (cf file w))
    (hf : ∀ file w w', Milds w.nodes → ρ.Inside w w' → ρ.SameBuild (cf file w) (cf file w'))
    {d d' : Nat} (hd : d ≤ d') {t : TokId} {ctx : Ctx} {name : Str} {fromFile : Option Str} {w w' : World}
    (hw : Milds w.nodes) (h : ρ.Inside w w') (hl : Low w.st.toks d t) :
    ρ.SameBuild (buildMatcherFromTokens env cf d t ctx name fromFile w)
      (buildMatcherFromTokens env cf d' (ρ.tok t) (ρ.ctx ctx) name fromFile w') := by
  unfold buildMatcherFromTokens
  rw [h.st.tok t]
  cases hk : w.st.toks[t]? with
  | none => exact rfl
  | some k =>
    dsimp only [Option.map_some]
    rw [show (ρ.token k).name = k.name from rfl]
    split
    · exact rfl
    · have hnew := h.nodes.new
      have hsc : w'.st.newSCtx.1 = ρ.sctx w.st.newSCtx.1 := (h.st.sctxNew 0).symm
      have hat : ∀ i, (w.nodes ++ preamble w.nodes.length w.st.sctxs.length name)[w.nodes.length + i]? =
          (preamble w.nodes.length w.st.sctxs.length name)[i]? := by
        intro i
        rw [List.getElem?_append_right (by omega), Nat.add_sub_cancel_left]
      have h0 : Going w ⟨⟨w.nodes ++ preamble w.nodes.length w.st.sctxs.length name, w.st.newSCtx.2⟩, [], none⟩ := by
        refine ⟨⟨_, rfl⟩, ⟨[], by simp [State.newSCtx]⟩, hw.append ?_, ⟨_, _, _, _, _, hat 0⟩, ⟨_, _, _, _, _, hat 1⟩,
          OwnScope.start _⟩
        intro nd hnd
        simp only [preamble, List.mem_cons, List.not_mem_nil, or_false] at hnd
        rcases hnd with rfl | rfl | rfl | rfl <;> trivial
      rw [show w'.nodes.length = ρ.mat w.nodes.length from (hnew 0).symm, hsc]
      refine buildResult_same ?_
      have e1 : ∀ i, ρ.mat w.nodes.length + i = ρ.mat (w.nodes.length + i) := by
        intro i
        rw [hnew i, show ρ.mat w.nodes.length = w'.nodes.length from hnew 0]
      rw [e1 1, e1 2, e1 3]
      refine visitGo_same (top := d) (I := Going w) (J := fun e b => b.crash = none → e.message ≠ [] ∨ b.errors ≠ [])
        h.st.newSCtx.tok ?_ ?_ hd (Nat.le_refl _) hl h0 ?_
      · have low : ∀ {t b}, Low w.st.toks d t → Going w b → Low b.w.st.toks d t := fun hl hb => hl.prefix hb.toks
        refine .cons ⟨rfl, ?_⟩ (.cons ⟨rfl, ?_⟩ (.cons ⟨rfl, ?_⟩ (.cons ⟨rfl, ?_⟩ (.cons ⟨rfl, ?_⟩ .nil))))
        · exact fun t b b' hl hb h => hookError_same h t
        · exact fun t b b' hl hb h => hookAdextopaScope_same hm h t
        · exact fun t b b' hl hb h => hookAssignment_same hi hm hd h (low hl hb)
        · exact fun t b b' hl hb h => hookImport_same hi hm hf h hb.milds t
        · exact fun t b b' hl hb h => hookPatternScope_same hi hm hd h (low hl hb)
      · intro n h hm t s hs'
        simp only [buildHooks, List.mem_cons, List.not_mem_nil, or_false] at hm
        rcases hm with hm | hm | hm | hm | hm <;> cases hm
        · exact hookError_safe hs' t
        · exact hookAdextopaScope_safe hs' t
        · exact hookAssignment_safe hs' t
        · exact hookImport_safe hs hs' t
        · exact hookPatternScope_safe hs' t
      · refine ⟨⟨h.nodes.appends ?_, h.st.newSCtx⟩, rfl, rfl⟩
        exact .cons .program (.cons .program (.cons .proxyChildren (.cons .setScope .nil)))

/-! ### Compiling -/

section
attribute [local irreducible] Script.switchMatcher Script.programMatcher Script.script tokenize
  buildMatcherFromTokens String.toList

theorem setup_same (hi : ρ.Inj) {env : Env} {parser : Parser} {name : Str} {w w' : World} (h : ρ.Inside w w') :
    (setup env parser name w').ctx = ρ.ctx (setup env parser name w).ctx ∧
    (setup env parser name w').start = ρ.mat (setup env parser name w).start ∧
    ρ.Nodes (setup env parser name w).nodes (setup env parser name w').nodes ∧
    ρ.Part (setup env parser name w).st (setup env parser name w').st := by
  obtain ⟨a1, a2⟩ := BSame.switchMatcher hi env.uni _ _ h.nodes
  obtain ⟨b1, b2⟩ := BSame.programMatcher hi env.uni _ _ a2
  obtain ⟨c1, c2⟩ := BSame.script hi env.uni _ _ b2
  have hsc : w'.st.sctxs.length = ρ.sctx w.st.sctxs.length := (h.st.sctxNew 0).symm
  refine ⟨?_, c1, c2, ?_⟩
  · unfold setup
    dsimp only
    rw [hsc]
    rfl
  · unfold setup
    dsimp only
    rw [hsc]
    have p1 := (h.st.newSCtx.bindVar hi w.st.sctxs.length "SwitchMatcher".toList
      (.matcher ((Script.switchMatcher env.uni).run w.nodes).1)).1
    have p2 := (p1.bindVar hi w.st.sctxs.length "ProgramMatcher".toList
      (.matcher ((Script.programMatcher env.uni).run ((Script.switchMatcher env.uni).run w.nodes).2).1)).1
    dsimp only [Reloc.var] at p1 p2
    rw [← a1] at p2
    rw [← b1] at p2
    exact p2

theorem compile_same (hi : ρ.Inj) (hm : Function.Injective ρ.mat) {env : Env} : ∀ (fuel : Nat) {parser : Parser} {name : Str}
    {fromFile : Option Str} {w w' : World}, Milds w.nodes → ρ.Inside w w' →
    ρ.SameBuild (compileScript env fuel parser name fromFile w) (compileScript env fuel parser name fromFile w')
  | 0, _, _, _, _, _, _, _ => rfl
  | fuel + 1, parser, name, fromFile, w, w', hw, h => by
    rw [compileScript_succ, compileScript_succ]
    have hml := setup_milds env parser name hw
    obtain ⟨h1, h2, h3, h4⟩ := setup_same (env := env) (parser := parser) (name := name) hi h
    have ht := C48_tokenize_ends hi h3.moved (fun m => (hml.table m).grafts) (cfg := env.cfg) (n := fuel)
      (c := (setup env parser name w).ctx) (m := (setup env parser name w).start) h4
    rw [← h1, ← h2] at ht
    cases hr : tokenize (tableOf (setup env parser name w).nodes) env.cfg fuel (setup env parser name w).ctx
        (setup env parser name w).start (setup env parser name w).st with
    | panic m =>
      rw [hr] at ht
      rw [show tokenize (tableOf (setup env parser name w').nodes) _ _ _ _ _ = _ from ht]
      exact rfl
    | diverge =>
      rw [hr] at ht
      rw [show tokenize (tableOf (setup env parser name w').nodes) _ _ _ _ _ = _ from ht trivial]
      exact rfl
    | ok r st =>
      rw [hr] at ht
      obtain ⟨r', st', he, rfl, hp, -⟩ := ht
      rw [he]
      cases r with
      | error f => cases f <;> exact rfl
      | ok t =>
        dsimp only [tokenized]
        rw [h1]
        have hsafe : ∀ file w, Milds w.nodes → FileSafe w (importFile env fuel file w) := by
          intro file w hw
          unfold importFile
          cases env.canonical file with
          | none => trivial
          | some full =>
            dsimp only
            cases env.read full with
            | none => trivial
            | some src => exact compile_safe env fuel _ _ _ w hw
        refine build_same hi hm hsafe ?_ hp.le hml ⟨h3, hp⟩ ?_
        · intro file w w' hw h
          unfold importFile
          cases env.canonical file with
          | none => exact rfl
          | some full =>
            dsimp only
            cases env.read full with
            | none => exact rfl
            | some src => exact compile_same hi hm fuel hw h
        · obtain ⟨l, -, -, -, htree⟩ := C36_tokenize (fun m => (hml.table m).grafts) hr
          exact Low.of_tree htree

end

end Adx.Reloc
