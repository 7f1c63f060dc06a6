import Verif.Proofs.Relocate
import Verif.Proofs.ScriptNodes
import Verif.Spec.Tree
/-
  C48: a parse neither sees nor changes what else is in the heap.
-/
namespace Adx

open Reloc

/-- C48: a matcher does in every heap what it does in a part of it, wherever that part is. -/
theorem C48_exec {ρ : Reloc} (hi : ρ.Inj) {T T' : Table} (hT : ρ.Moved False T T') {cfg : Cfg} {n : Nat}
    {m : MatcherId} {c : Ctx} {sc : SCtxId} {s s' : State} (h : ρ.Part s s') :
    ρ.Same False (fun r r' => r' = ρ.result r) s' (exec T cfg n m c sc s)
      (exec T' cfg n (ρ.mat m) (ρ.ctx c) (ρ.sctx sc) s') :=
  exec_mimics hi hT False.elim (Nat.le_refl n) False.elim m c sc s s' h

/-- C48: so does `tokenize`. -/
theorem C48_tokenize {ρ : Reloc} (hi : ρ.Inj) {T T' : Table} (hT : ρ.Moved False T T') {cfg : Cfg} {n : Nat}
    {m : MatcherId} {c : Ctx} {s s' : State} (h : ρ.Part s s') :
    ρ.Same False (fun x x' => x' = ρ.tokenized x) s' (tokenize T cfg n c m s)
      (tokenize T' cfg n (ρ.ctx c) (ρ.mat m) s') :=
  tokenize_mimics hi hT False.elim (Nat.le_refl n) False.elim s s' h

/-- C48: with callbacks that keep trees proper, also endless recursion is the same. -/
theorem C48_exec_ends {ρ : Reloc} (hi : ρ.Inj) {T T' : Table} (hT : ρ.Moved True T T') (hg : ∀ m, (T m).Grafts)
    {cfg : Cfg} {n : Nat} {m : MatcherId} {c : Ctx} {sc : SCtxId} {s s' : State} (h : ρ.Part s s') :
    ρ.Same True (fun r r' => r' = ρ.result r) s' (exec T cfg n m c sc s)
      (exec T' cfg n (ρ.mat m) (ρ.ctx c) (ρ.sctx sc) s') :=
  exec_mimics hi hT (fun _ => hg) (Nat.le_refl n) (fun _ => rfl) m c sc s s' h

@[inherit_doc C48_exec_ends]
theorem C48_tokenize_ends {ρ : Reloc} (hi : ρ.Inj) {T T' : Table} (hT : ρ.Moved True T T') (hg : ∀ m, (T m).Grafts)
    {cfg : Cfg} {n : Nat} {m : MatcherId} {c : Ctx} {s s' : State} (h : ρ.Part s s') :
    ρ.Same True (fun x x' => x' = ρ.tokenized x) s' (tokenize T cfg n c m s)
      (tokenize T' cfg n (ρ.ctx c) (ρ.mat m) s') :=
  tokenize_mimics hi hT (fun _ => hg) (Nat.le_refl n) (fun _ => rfl) s s' h

/-- The same tree is seen at the new place. -/
theorem C48_tree {ρ : Reloc} {s s' : State} (h : ρ.Part s s') (n : Nat) :
    ∀ t, treeOf s'.toks n (ρ.tok t) = treeOf s.toks n t := by
  induction n with
  | zero => intro t; rfl
  | succ n ih =>
    intro t
    unfold treeOf
    rw [h.tok t]
    cases s.toks[t]? with
    | none => rfl
    | some k =>
      have hm : (ρ.token k).children.mapM (treeOf s'.toks n) = k.children.mapM (treeOf s.toks n) := by
        show (k.children.map ρ.tok).mapM _ = _
        rw [List.mapM_map]
        congr 1
        exact funext ih
      simp only [Option.map_some, hm]
      rfl

/-! ### Fresh contexts -/

theorem inj_behind (d : Nat) (s : State) : (behind d s).Inj :=
  ⟨fun h => Nat.add_right_cancel h, fun h => Nat.add_right_cancel h, fun h => Nat.add_right_cancel h⟩

/-- The heap with nothing but a new scope context is part of every heap with a new scope
context. -/
theorem part_behind (d : Nat) (s : State) : (behind d s).Part ⟨[], [], [[]]⟩ s.newSCtx.2 := by
  refine ⟨fun t => ?_, fun i => ?_, Nat.zero_le _, fun i => ?_, fun i => ?_, fun i => ?_, fun i => ?_⟩
  · exact List.getElem?_eq_none (Nat.le_add_left _ _)
  · show 0 + i + s.toks.length = s.toks.length + i
    rw [Nat.zero_add, Nat.add_comm]
  · exact List.getElem?_eq_none (Nat.le_add_left _ _)
  · show 0 + i + s.scopes.length = s.scopes.length + i
    rw [Nat.zero_add, Nat.add_comm]
  · show (s.sctxs ++ [[]])[i + s.sctxs.length]? = _
    rw [List.getElem?_append_right (Nat.le_add_left _ _), Nat.add_sub_cancel]
    cases i <;> rfl
  · show 1 + i + s.sctxs.length = (s.sctxs ++ [[]]).length + i
    rw [List.length_append, List.length_singleton, Nat.add_comm (1 + i)]
    exact (Nat.add_assoc _ _ _).symm

theorem moved_behind {dv : Prop} (s : State) {T : Table} (hp : ∀ m, (T m).Portable) (hu : ∀ m, (T m).Unscoped) :
    (behind 0 s).Moved dv T T := by
  intro m
  have h1 := hp m
  have h2 := hu m
  show (behind 0 s).NodeMoved dv (T m) (T m)
  have ha : ∀ f, (behind 0 s).arg f = f := by intro f; cases f <;> rfl
  have hl : ∀ ps : List MatcherId, ps.map (behind 0 s).mat = ps := fun ps => List.map_id ps
  have ho : ∀ o : Option MatcherId, o.map (behind 0 s).mat = o := by intro o; cases o <;> rfl
  cases hn : T m with
  | equals n c p => simpa only [ha] using (NodeMoved.equals (ρ := behind 0 s) (n := n) (c := c) (p := p))
  | regex => exact .regex
  | sequence n c a b e =>
    simpa only [ha] using (NodeMoved.sequence (ρ := behind 0 s) (n := n) (c := c) (a := a) (b := b) (e := e))
  | program ps n c i f =>
    simpa only [hl] using (NodeMoved.program (ρ := behind 0 s) (ps := ps) (n := n) (c := c) (i := i) (f := f))
  | optional => exact .optional
  | not => exact .not
  | discard => exact .discard
  | proxyChildren => exact .proxyChildren
  | expandRange => exact .expandRange
  | catch_ m f =>
    rw [hn] at h1
    exact .catch_ (h1 _ _ (inj_behind 0 s))
  | map m sf ff =>
    rw [hn] at h1
    exact .map (h1 _ _ (inj_behind 0 s)).1 (h1 _ _ (inj_behind 0 s)).2
  | store => exact .store
  | storeStr => exact .storeStr
  | fetch => exact .fetch
  | ref t n c => simpa only [ha] using (NodeMoved.ref (ρ := behind 0 s) (t := t) (n := n) (c := c))
  | register ps => simpa only [hl] using (NodeMoved.register (ρ := behind 0 s) (ps := ps))
  | setScope k m =>
    cases k with
    | none => exact .setScope
    | some k => rw [hn] at h2; exact h2.elim
  | pin m o n c => simpa only [ha, ho] using (NodeMoved.pin (ρ := behind 0 s) (m := m) (o := o) (n := n) (c := c))
  | debug m k => simpa only [ho] using (NodeMoved.debug (ρ := behind 0 s) (m := m) (k := k))
  | brk => exact .brk
  | null => exact .null
  | panic => exact .panic
  | error => exact .error

/-- What a parse comes to, as its caller sees it: the tree of the token it returns, or the
failure. -/
def Seen (depth : Nat) : Except Failure TokId → State → Except Failure (Option Tree)
  | .ok t, s => .ok (treeOf s.toks depth t)
  | .error f, _ => .error f

/-- The second heap has all that the first has. -/
structure AllKept (s s' : State) : Prop where
  tok : ∀ t, t < s.toks.length → s'.toks[t]? = s.toks[t]?
  scope : ∀ i, i < s.scopes.length → s'.scopes[i]? = s.scopes[i]?
  sctx : ∀ i, i < s.sctxs.length → s'.sctxs[i]? = s.sctxs[i]?

/-- C48: a parse with a new context gives the same result after anything else that has been
done with the heap as it does first thing, and leaves everything else in the heap as it is. -/
theorem C48_fresh {T : Table} (hp : ∀ m, (T m).Portable) (hu : ∀ m, (T m).Unscoped) {cfg : Cfg} {n : Nat}
    {m : MatcherId} {p : Parser} {name : Str} {x : Except Failure TokId} {s1 : State} (s : State)
    (h : tokenize T cfg n (Ctx.new p 0 name) m ⟨[], [], [[]]⟩ = .ok x s1) :
    ∃ x' s1', tokenize T cfg n (Ctx.new p s.newSCtx.1 name) m s.newSCtx.2 = .ok x' s1' ∧
      (∀ depth, Seen depth x' s1' = Seen depth x s1) ∧ AllKept s s1' := by
  have hs := C48_tokenize (inj_behind 0 s) (moved_behind s hp hu) (cfg := cfg) (n := n) (m := m)
    (c := Ctx.new p 0 name) (part_behind 0 s)
  rw [h] at hs
  obtain ⟨x', s1', h1, rfl, hpart, hk⟩ := hs
  have hc : (behind 0 s).ctx (Ctx.new p 0 name) = Ctx.new p s.newSCtx.1 name := by
    simp [Reloc.ctx, behind, Ctx.new, State.newSCtx]
  rw [hc] at h1
  refine ⟨_, s1', h1, ?_, ?_⟩
  · intro depth
    cases x with
    | ok t =>
      show Except.ok _ = Except.ok _
      rw [C48_tree hpart]
    | error f => rfl
  · refine ⟨fun t ht => hk.tok t fun u => ?_, fun t ht => hk.scope t fun u => ?_, fun t ht => ?_⟩
    · show t ≠ u + _
      omega
    · show t ≠ u + _
      omega
    · rw [hk.sctx t (fun u => by show t ≠ u + _; omega)]
      exact List.getElem?_append_left ht

/-- C48: if the first parse panics, so does every later one. -/
theorem C48_fresh_panic {T : Table} (hp : ∀ m, (T m).Portable) (hu : ∀ m, (T m).Unscoped) {cfg : Cfg} {n : Nat}
    {m : MatcherId} {p : Parser} {name : Str} {e : String} (s : State)
    (h : tokenize T cfg n (Ctx.new p 0 name) m ⟨[], [], [[]]⟩ = .panic e) :
    tokenize T cfg n (Ctx.new p s.newSCtx.1 name) m s.newSCtx.2 = .panic e := by
  have hs := C48_tokenize (inj_behind 0 s) (moved_behind s hp hu) (cfg := cfg) (n := n) (m := m)
    (c := Ctx.new p 0 name) (part_behind 0 s)
  rw [h] at hs
  have hs : tokenize T cfg n ((behind 0 s).ctx (Ctx.new p 0 name)) ((behind 0 s).mat m) s.newSCtx.2 = .panic e := hs
  have hc : (behind 0 s).ctx (Ctx.new p 0 name) = Ctx.new p s.newSCtx.1 name := by
    simp [Reloc.ctx, behind, Ctx.new, State.newSCtx]
  rw [hc] at hs
  exact hs

/-- C48: with callbacks that keep trees proper, the first parse ends if any later one does. -/
theorem C48_fresh_back {T : Table} (hp : ∀ m, (T m).Portable) (hu : ∀ m, (T m).Unscoped)
    (hg : ∀ m, (T m).Grafts) {cfg : Cfg} {n : Nat} {m : MatcherId} {p : Parser} {name : Str}
    {x' : Except Failure TokId} {s s1' : State}
    (h : tokenize T cfg n (Ctx.new p s.newSCtx.1 name) m s.newSCtx.2 = .ok x' s1') :
    ∃ x s1, tokenize T cfg n (Ctx.new p 0 name) m ⟨[], [], [[]]⟩ = .ok x s1 ∧
      (∀ depth, Seen depth x' s1' = Seen depth x s1) ∧ AllKept s s1' := by
  cases hx : tokenize T cfg n (Ctx.new p 0 name) m ⟨[], [], [[]]⟩ with
  | ok x s1 =>
    obtain ⟨x2, s2, h1, h2⟩ := C48_fresh hp hu s hx
    rw [h] at h1
    cases h1
    exact ⟨x, s1, rfl, h2⟩
  | panic e =>
    have := C48_fresh_panic hp hu s hx
    rw [h] at this
    cases this
  | diverge =>
    have hs := C48_tokenize_ends (inj_behind 0 s) (moved_behind s hp hu) hg (cfg := cfg) (n := n) (m := m)
      (c := Ctx.new p 0 name) (part_behind 0 s)
    rw [hx] at hs
    have hc : (behind 0 s).ctx (Ctx.new p 0 name) = Ctx.new p s.newSCtx.1 name := by
      simp [Reloc.ctx, behind, Ctx.new, State.newSCtx]
    have hs : tokenize T cfg n ((behind 0 s).ctx (Ctx.new p 0 name)) m s.newSCtx.2 = .diverge := hs trivial
    rw [hc, h] at hs
    cases hs

/-! ### The callbacks of the crate -/

section
variable {ρ : Reloc} {dv : Prop}

theorem findLoop_mimics {test : Str → Bool} : ∀ cs : List TokId,
    ρ.Mimics dv (fun o o' => o' = o.map ρ.tok) (findLoop test cs) (findLoop test (cs.map ρ.tok)) := by
  intro cs
  induction cs with
  | nil => exact Mimics.pure rfl
  | cons c cs ih =>
    simp only [List.map_cons]
    unfold findLoop
    apply Mimics.bind (Mimics.getTok rfl)
    rintro k _ rfl
    apply Mimics.ite <;> intro _
    · exact Mimics.pure rfl
    · exact ih

theorem findChild_mimics {k : Token} {n : Str} :
    ρ.Mimics dv (fun o o' => o' = o.map ρ.tok) (k.findChild n) ((ρ.token k).findChild n) := by
  unfold Token.findChild
  have : ((ρ.token k).children.length = 0) = (k.children.length = 0) := by simp [Reloc.token]
  simp only [this]
  apply Mimics.ite <;> intro _
  · exact Mimics.pure rfl
  · exact findLoop_mimics _

theorem setValue_token (k : Token) (v : Str) : (ρ.token k).setValue v = ρ.token (k.setValue v) := by
  unfold Token.setValue
  split <;> rfl

theorem addMissing_token (m : AMap Str) : ∀ k, (ρ.token k).addMissing m = ρ.token (k.addMissing m) := by
  induction m with
  | nil => intro k; rfl
  | cons a m ih =>
    intro k
    unfold Token.addMissing
    show (if k.hasAttribute a.1 = true then _ else _) = _
    split
    · exact ih k
    · exact ih (k.setAttribute a.1 a.2)

end

theorem portable_passFailure {ρ : Reloc} {dv : Prop} (e : Failure) (c : Ctx) (sc : SCtxId) :
    ρ.Mimics dv (fun r r' => r' = ρ.result r) (passFailure e c sc) (passFailure e (ρ.ctx c) (ρ.sctx sc)) :=
  Mimics.pure rfl

theorem portable_failureIsFine {ρ : Reloc} {dv : Prop} (e : Failure) (c : Ctx) (sc : SCtxId) :
    ρ.Mimics dv (fun r r' => r' = ρ.result r) (failureIsFine e c sc) (failureIsFine e (ρ.ctx c) (ρ.sctx sc)) := by
  cases e <;> exact Mimics.pure rfl

/-- The error token that a callback returns. -/
theorem errorResult_mimics {ρ : Reloc} {dv : Prop} {c : Ctx} {msg : Str} {r : Range} :
    ρ.Mimics dv (fun r r' => r' = ρ.result r)
      (do let e ← newErrorTokenWithRange c msg r; pure (R.ok (.token e)))
      (do let e ← newErrorTokenWithRange (ρ.ctx c) msg r; pure (R.ok (.token e))) := by
  apply Mimics.bind newErrorTokenWithRange_mimics
  rintro e _ rfl
  exact Mimics.pure rfl

/-- C48: `FatalIf!`. -/
theorem C48_fatal_if (m : MatcherId) (msg : Str) : (Node.map m (fatalIfOk msg) failureIsFine).Portable := by
  intro ρ dv hi
  refine ⟨fun t c sc => ?_, portable_failureIsFine⟩
  unfold fatalIfOk
  apply Mimics.bind (Mimics.getTok rfl)
  rintro k _ rfl
  show ρ.Mimics dv _ (M.ofOpt _ (c.errorString msg k.matched) >>= _) (M.ofOpt _ (c.errorString msg k.matched) >>= _)
  apply Mimics.bind Mimics.ofOpt
  rintro _ _ rfl
  exact Mimics.pure rfl

/-- C48: `FatalIfNot!`. -/
theorem C48_fatal_if_not (m : MatcherId) (msg : Str) :
    (Node.map m successIsFine (fatalIfNotErr msg)).Portable := by
  intro ρ dv hi
  refine ⟨fun t c sc => Mimics.pure rfl, fun e c sc => ?_⟩
  cases e with
  | error e => exact Mimics.pure rfl
  | fail =>
    show ρ.Mimics dv _ (M.ofOpt _ (c.errorString msg c.offset) >>= _) (M.ofOpt _ (c.errorString msg c.offset) >>= _)
    apply Mimics.bind Mimics.ofOpt
    rintro _ _ rfl
    exact Mimics.pure rfl

/-- C48: `AssertIf!`. -/
theorem C48_assert_if (m : MatcherId) (msg : Str) : (Node.map m (assertIfOk msg) failureIsFine).Portable := by
  intro ρ dv hi
  refine ⟨fun t c sc => ?_, portable_failureIsFine⟩
  unfold assertIfOk
  apply Mimics.bind (Mimics.getTok rfl)
  rintro k _ rfl
  exact errorResult_mimics

/-- C48: `AssertIfNot!`. -/
theorem C48_assert_if_not (m : MatcherId) (msg : Str) :
    (Node.map m successIsFine (assertIfNotErr msg)).Portable := by
  intro ρ dv hi
  refine ⟨fun t c sc => Mimics.pure rfl, fun e c sc => ?_⟩
  cases e with
  | error e => exact Mimics.pure rfl
  | fail => exact errorResult_mimics (c := c)

namespace Script

theorem partsRange_mimics {ρ : Reloc} {dv : Prop} : ∀ (cs : List TokId) (r : Range),
    ρ.Mimics dv Eq (partsRange cs r) (partsRange (cs.map ρ.tok) r) := by
  intro cs
  induction cs with
  | nil => intro r; exact Mimics.pure rfl
  | cons c cs ih =>
    intro r
    simp only [List.map_cons]
    unfold partsRange
    apply Mimics.bind (Mimics.getTok rfl)
    rintro k _ rfl
    apply Mimics.ite <;> intro _
    · exact ih _
    · exact ih _

theorem copyAttributes_mimics {ρ : Reloc} {dv : Prop} (hi : ρ.Inj) {t : TokId} : ∀ (as : List TokId) (v : Option TokId),
    ρ.Mimics dv (fun o o' => o' = o.map ρ.tok) (copyAttributes t as v)
      (copyAttributes (ρ.tok t) (as.map ρ.tok) (v.map ρ.tok)) := by
  intro as
  induction as with
  | nil => intro v; exact Mimics.pure rfl
  | cons a as ih =>
    intro v
    simp only [List.map_cons]
    unfold copyAttributes
    have hc : ∀ (k : Token) (i : Nat), ρ.Mimics dv (fun x y => y = ρ.tok x)
        (M.ofOpt "index out of bounds" k.children[i]?)
        (M.ofOpt "index out of bounds" (ρ.token k).children[i]?) := by
      intro k i
      have : (ρ.token k).children[i]? = k.children[i]?.map ρ.tok := by simp [Reloc.token]
      rw [this]
      cases k.children[i]? with
      | none => exact Mimics.panic
      | some c => exact Mimics.pure rfl
    apply Mimics.bind (Mimics.getTok rfl)
    rintro k _ rfl
    apply Mimics.bind (hc k 0)
    rintro x _ rfl
    apply Mimics.bind (hc k 1)
    rintro y _ rfl
    apply Mimics.bind (Mimics.getTok rfl)
    rintro xk _ rfl
    apply Mimics.bind (Mimics.getTok rfl)
    rintro yk _ rfl
    apply Mimics.bind (Mimics.modTok hi rfl ?_)
    rotate_left
    · exact fun k => rfl
    rintro _ _ _
    have := ih (if xk.getValue = "version".toList then some a else v)
    rw [apply_ite (Option.map ρ.tok)] at this
    exact this

theorem copyAllAttributes_mimics {ρ : Reloc} {dv : Prop} (hi : ρ.Inj) {t : TokId} :
    ρ.Mimics dv (fun o o' => o' = o.map ρ.tok) (copyAllAttributes t) (copyAllAttributes (ρ.tok t)) := by
  unfold copyAllAttributes
  apply Mimics.bind (Mimics.getTok rfl)
  rintro k _ rfl
  apply Mimics.bind findChild_mimics
  rintro o _ rfl
  cases o with
  | none => exact Mimics.pure rfl
  | some a =>
    apply Mimics.bind (Mimics.getTok rfl)
    rintro ak _ rfl
    exact copyAttributes_mimics hi ak.children none

theorem portable_regex (m : MatcherId) : (Node.map m regexMatcherDone passFailure).Portable := by
  intro ρ dv hi
  refine ⟨fun t c sc => ?_, portable_passFailure⟩
  unfold regexMatcherDone
  apply Mimics.bind (Mimics.getTok rfl)
  rintro k _ rfl
  apply Mimics.bind (partsRange_mimics k.children _)
  rintro r _ rfl
  apply Mimics.bind (Mimics.modTok hi rfl (fun k' => setValue_token k' _))
  rintro _ _ _
  exact Mimics.pure rfl

theorem portable_definition (m : MatcherId) : (Node.map m patternDefinitionDone passFailure).Portable := by
  intro ρ dv hi
  refine ⟨fun t c sc => ?_, portable_passFailure⟩
  unfold patternDefinitionDone
  apply Mimics.bind (copyAllAttributes_mimics hi)
  rintro _ _ _
  exact Mimics.pure rfl

theorem portable_scope (m : MatcherId) : (Node.map m patternScopeDone passFailure).Portable := by
  intro ρ dv hi
  refine ⟨fun t c sc => ?_, portable_passFailure⟩
  unfold patternScopeDone
  apply Mimics.bind (Mimics.getTok rfl)
  rintro k _ rfl
  apply Mimics.ite <;> intro _
  · show ρ.Mimics dv _ (M.ofOpt _ (bdrop k.matched.stop k.parser.src) >>= _)
      (M.ofOpt _ (bdrop k.matched.stop k.parser.src) >>= _)
    apply Mimics.bind Mimics.ofOpt
    rintro _ _ rfl
    exact errorResult_mimics
  · exact Mimics.pure rfl

theorem portable_header (m : MatcherId) : (Node.map m adextopaScopeDone passFailure).Portable := by
  intro ρ dv hi
  refine ⟨fun t c sc => ?_, portable_passFailure⟩
  unfold adextopaScopeDone
  apply Mimics.bind (copyAllAttributes_mimics hi)
  rintro o _ rfl
  apply Mimics.bind (Mimics.getTok rfl)
  rintro k _ rfl
  rw [show (ρ.token k).getAttribute "version".toList = k.getAttribute "version".toList from rfl]
  cases k.getAttribute "version".toList with
  | none =>
    apply Mimics.bind findChild_mimics
    rintro x _ rfl
    cases x with
    | none =>
      apply Mimics.bind (Mimics.pure rfl)
      rintro _ _ rfl
      exact errorResult_mimics
    | some q =>
      apply Mimics.bind (Mimics.getTok rfl)
      rintro qk _ rfl
      apply Mimics.bind (Mimics.pure rfl)
      rintro _ _ rfl
      exact errorResult_mimics
  | some v =>
    dsimp only
    cases parseUsize v with
    | some _ => exact Mimics.pure rfl
    | none =>
      cases o with
      | none => exact fun _ _ _ => rfl
      | some x =>
        apply Mimics.bind (V := fun x y => y = ρ.tok x) (Mimics.pure rfl)
        rintro x _ rfl
        apply Mimics.bind (Mimics.getTok rfl)
        rintro xk _ rfl
        exact errorResult_mimics

theorem portable_script (m : MatcherId) : (Node.map m scriptDone passFailure).Portable := by
  intro ρ dv hi
  refine ⟨fun t c sc => ?_, portable_passFailure⟩
  unfold scriptDone
  apply Mimics.bind (Mimics.getTok rfl)
  rintro k _ rfl
  apply Mimics.bind findChild_mimics
  rintro a _ rfl
  apply Mimics.bind findChild_mimics
  rintro b _ rfl
  have : (a.map ρ.tok = none ∧ b.map ρ.tok = none) = (a = none ∧ b = none) := by simp
  simp only [this]
  apply Mimics.ite <;> intro _
  · exact errorResult_mimics
  · exact Mimics.pure rfl

end Script

/-- C48: the matchers that scripts are compiled to. -/
theorem C48_attributes (m : MatcherId) (a : AMap Str) :
    (Node.map m (addMissingAttributes a) passFailure).Portable := by
  intro ρ dv hi
  refine ⟨fun t c sc => ?_, portable_passFailure⟩
  apply Mimics.bind (Mimics.modTok hi rfl (addMissing_token a))
  rintro _ _ _
  exact Mimics.pure rfl

@[inherit_doc C48_attributes]
theorem C48_rename (m : MatcherId) (n : Str) : (Node.map m (renameToken n) passFailure).Portable := by
  intro ρ dv hi
  refine ⟨fun t c sc => ?_, portable_passFailure⟩
  apply Mimics.bind (Mimics.modTok hi rfl (fun k => (rfl : (ρ.token k).setName n = ρ.token (k.setName n))))
  rintro _ _ _
  exact Mimics.pure rfl

theorem portable_safe : ScriptSafe 0 (fun nd => nd.Portable ∧ nd.Unscoped) where
  plain nd h hr := ⟨by cases nd <;> trivial, by cases nd <;> trivial⟩
  fatalIf m msg _ := ⟨C48_fatal_if m msg, trivial⟩
  assertIf m msg _ := ⟨C48_assert_if m msg, trivial⟩
  regex m _ := ⟨Script.portable_regex m, trivial⟩
  definition m _ := ⟨Script.portable_definition m, trivial⟩
  scope m _ := ⟨Script.portable_scope m, trivial⟩
  header m _ := ⟨Script.portable_header m, trivial⟩
  script m _ := ⟨Script.portable_script m, trivial⟩

namespace RelocateExample

/-- `Program!(Store!("x"; Matches!("a")), Matches!(Fetch!("x")), AssertIf!(Equals!("b"), "no"))`, with `Equals!`
for `Matches!`. -/
def T : Table := fun
  | 0 => .program [1, 3, 4] "Program".toList false none false
  | 1 => .store 2 "x".toList true
  | 2 => .equals "A".toList true (.str "a".toList)
  | 3 => .equals "B".toList true (.fetch "x.captured_value".toList)
  | 4 => .map 5 (assertIfOk "no".toList) failureIsFine
  | 5 => .equals "C".toList true (.str "b".toList)
  | _ => .null

theorem portable (m : MatcherId) : (T m).Portable ∧ (T m).Unscoped := by
  unfold T
  split
  · exact ⟨trivial, trivial⟩
  · exact ⟨trivial, trivial⟩
  · exact ⟨trivial, trivial⟩
  · exact ⟨trivial, trivial⟩
  · exact ⟨C48_assert_if _ _, trivial⟩
  · exact ⟨trivial, trivial⟩
  · exact ⟨trivial, trivial⟩

/-- A heap in which a variable of the same name is already bound, in a scope context with
two scopes. -/
def used : State :=
  ⟨[Token.mk' ⟨"zz".toList, []⟩ "Z".toList ⟨0, 1⟩], [[("x".toList, .token 0)], []], [[1, 0], [0]]⟩

/-- The parse in the used heap: the token is the program, moved by one. -/
example : (tokenize T ⟨true⟩ 9 (Ctx.new ⟨"aab".toList, []⟩ used.newSCtx.1 []) 0 used.newSCtx.2).holds
    (fun x s => x = .ok 1 ∧ s.toks[0]? = used.toks[0]? ∧ s.scopes[0]? = used.scopes[0]? ∧
      (s.toks[1]?.map (·.matched)) = some ⟨0, 3⟩ ∧ s.toks.length = 6) := by
  decide +kernel

/-- And it is the one in the empty heap. -/
example : ∃ x s1 x' s1', tokenize T ⟨true⟩ 9 (Ctx.new ⟨"aab".toList, []⟩ 0 []) 0 ⟨[], [], [[]]⟩ = .ok x s1 ∧
    tokenize T ⟨true⟩ 9 (Ctx.new ⟨"aab".toList, []⟩ used.newSCtx.1 []) 0 used.newSCtx.2 = .ok x' s1' ∧
    (∀ depth, Seen depth x' s1' = Seen depth x s1) ∧ AllKept used s1' := by
  have h : (tokenize T ⟨true⟩ 9 (Ctx.new ⟨"aab".toList, []⟩ 0 []) 0 ⟨[], [], [[]]⟩).holds (fun _ _ => True) := by
    decide +kernel
  cases ht : tokenize T ⟨true⟩ 9 (Ctx.new ⟨"aab".toList, []⟩ 0 []) 0 ⟨[], [], [[]]⟩ with
  | ok x s1 =>
    obtain ⟨x', s1', h1, h2, h3⟩ := C48_fresh (fun m => (portable m).1) (fun m => (portable m).2) used ht
    exact ⟨x, s1, x', s1', rfl, h1, h2, h3⟩
  | panic e => rw [ht] at h; cases h
  | diverge => rw [ht] at h; cases h

end RelocateExample

end Adx
