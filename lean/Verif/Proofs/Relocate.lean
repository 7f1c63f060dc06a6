import Verif.Spec.Relocate
import Verif.Model.Exec
import Verif.Proofs.Grove
import Verif.Props.Gather
/-
  The engine does the same at every place of the heap.
-/
namespace Adx.Reloc

variable {ρ : Reloc} {dv : Prop} {α β γ δ : Type}

/-! ### The parts of a heap -/

theorem Kept.refl (s : State) : ρ.Kept s s := ⟨fun _ _ => rfl, fun _ _ => rfl, fun _ _ => rfl⟩

theorem Kept.trans {a b c : State} (h : ρ.Kept a b) (h' : ρ.Kept b c) : ρ.Kept a c :=
  ⟨fun u hu => (h'.tok u hu).trans (h.tok u hu), fun u hu => (h'.scope u hu).trans (h.scope u hu),
    fun u hu => (h'.sctx u hu).trans (h.sctx u hu)⟩

section
variable {V W X Y : Type} {f : Nat → Nat} {g : V → W} {l : List V} {l' : List W}

/-- One kind of thing: `l` is part of `l'`. -/
theorem part_new (h : ∀ i, f (l.length + i) = l'.length + i) : f l.length = l'.length := h 0

theorem part_append (ht : ∀ t, l'[f t]? = l[t]?.map g) (hn : ∀ i, f (l.length + i) = l'.length + i)
    (x : V) (t : Nat) : (l' ++ [g x])[f t]? = (l ++ [x])[t]?.map g := by
  by_cases h : t < l.length
  · have h1 := ht t
    rw [List.getElem?_eq_getElem h] at h1
    have h2 : f t < l'.length := by
      have := (List.getElem?_eq_some_iff.mp (by rw [h1]; rfl)).1
      exact this
    rw [List.getElem?_append_left h2, List.getElem?_append_left h, h1, List.getElem?_eq_getElem h]
  · obtain ⟨i, rfl⟩ : ∃ i, t = l.length + i := ⟨t - l.length, by omega⟩
    rw [hn i, List.getElem?_append_right (by omega), List.getElem?_append_right (by omega),
      Nat.add_sub_cancel_left, Nat.add_sub_cancel_left]
    cases i <;> rfl

theorem part_append_new (hn : ∀ i, f (l.length + i) = l'.length + i) (x : V) (y : W) (i : Nat) :
    f ((l ++ [x]).length + i) = (l' ++ [y]).length + i := by
  have := hn (i + 1)
  simp only [List.length_append, List.length_cons, List.length_nil]
  rw [show l.length + (0 + 1) + i = l.length + (i + 1) by omega, this]
  omega

theorem part_set (hi : ∀ {a b}, f a = f b → a = b) (ht : ∀ t, l'[f t]? = l[t]?.map g) (i : Nat) (x : V)
    (t : Nat) : (l'.set (f i) (g x))[f t]? = (l.set i x)[t]?.map g := by
  by_cases h : t = i
  · subst h
    have h1 := ht t
    rw [List.getElem?_set, List.getElem?_set]
    simp only [if_true]
    by_cases h2 : t < l.length
    · rw [List.getElem?_eq_getElem h2] at h1
      have h3 : f t < l'.length := (List.getElem?_eq_some_iff.mp (by rw [h1]; rfl)).1
      simp [h2, h3]
    · have h0 : l[t]? = none := List.getElem?_eq_none (Nat.le_of_not_lt h2)
      rw [h0] at h1
      have h3 : ¬ f t < l'.length := by
        intro h3
        rw [List.getElem?_eq_getElem h3] at h1
        cases h1
      simp [h2, h3]
  · have h' : f i ≠ f t := fun e => h (hi e).symm
    rw [List.getElem?_set_ne h', List.getElem?_set_ne (Ne.symm h)]
    exact ht t

end

/-! ### Rules -/

theorem Mimics.pure {V : α → β → Prop} {a : α} {b : β} (h : V a b) : ρ.Mimics dv V (pure a) (pure b) :=
  fun _ s' hp => ⟨b, s', rfl, h, hp, Kept.refl _⟩

theorem Mimics.panic {V : α → β → Prop} {e : String} : ρ.Mimics dv V (M.panic e) (M.panic e) :=
  fun _ _ _ => rfl

theorem Mimics.diverge {V : α → β → Prop} {m' : M β} (h : dv → m' = M.diverge) : ρ.Mimics dv V M.diverge m' :=
  fun _ _ _ hd => by rw [h hd]; rfl

/-- The rule for two computations one after the other, with what is known after the first. -/
theorem Same.bind {V : α → β → Prop} {W : γ → δ → Prop} {m : M α} {m' : M β} {f : α → M γ}
    {f' : β → M δ} {s s' : State} (hs : ρ.Same dv V s' (m s) (m' s'))
    (hf : ∀ a b s1 s1', m s = .ok a s1 → V a b → ρ.Part s1 s1' → ρ.Same dv W s1' (f a s1) (f' b s1')) :
    ρ.Same dv W s' ((m >>= f) s) ((m' >>= f') s') := by
  rw [bind_eq, bind_eq]
  unfold M.bind
  cases hm : m s with
  | ok a s1 =>
    rw [hm] at hs
    obtain ⟨b, s1', hb, hv, hp1, hk⟩ := hs
    rw [hb]
    have h2 := hf a b s1 s1' hm hv hp1
    show ρ.Same dv W s' (f a s1) (f' b s1')
    cases hx : f a s1 with
    | ok c s2 =>
      rw [hx] at h2
      obtain ⟨d, s2', hd, hw, hp2, hk2⟩ := h2
      exact ⟨d, s2', hd, hw, hp2, hk.trans hk2⟩
    | panic e => rw [hx] at h2; exact h2
    | diverge => rw [hx] at h2; exact h2
  | panic e =>
    rw [hm] at hs
    have hs : m' s' = .panic e := hs
    rw [hs]
    rfl
  | diverge =>
    rw [hm] at hs
    have hs : dv → m' s' = .diverge := hs
    intro hd
    rw [hs hd]

theorem Mimics.bind {V : α → β → Prop} {W : γ → δ → Prop} {m : M α} {m' : M β} {f : α → M γ}
    {f' : β → M δ} (h : ρ.Mimics dv V m m') (hf : ∀ a b, V a b → ρ.Mimics dv W (f a) (f' b)) :
    ρ.Mimics dv W (m >>= f) (m' >>= f') :=
  fun s s' hp => (h s s' hp).bind fun a b s1 s1' _ hv hp1 => hf a b hv s1 s1' hp1

theorem Mimics.mono {V W : α → β → Prop} {m : M α} {m' : M β} (h : ρ.Mimics dv V m m')
    (hw : ∀ a b, V a b → W a b) : ρ.Mimics dv W m m' := by
  intro s s' hp
  have hs := h s s' hp
  cases hm : m s with
  | ok a s1 =>
    rw [hm] at hs
    obtain ⟨b, s1', hb, hv, hr⟩ := hs
    exact ⟨b, s1', hb, hw _ _ hv, hr⟩
  | panic e => rw [hm] at hs; exact hs
  | diverge => rw [hm] at hs; exact hs

/-- If the first ends, then it does not matter whether endless runs are compared. -/
theorem Same.ends {dv' : Prop} {V : α → β → Prop} {s' : State} {x : Res α} {x' : Res β}
    (h : ρ.Same dv' V s' x x') (hx : dv → x ≠ .diverge) : ρ.Same dv V s' x x' := by
  cases x with
  | ok a s1 => exact h
  | panic e => exact h
  | diverge => exact fun hd => (hx hd rfl).elim

theorem Mimics.ite {c : Prop} [Decidable c] {V : α → β → Prop} {a b : M α} {a' b' : M β}
    (h1 : c → ρ.Mimics dv V a a') (h2 : ¬c → ρ.Mimics dv V b b') :
    ρ.Mimics dv V (if c then a else b) (if c then a' else b') := by
  by_cases hc : c
  · rw [if_pos hc, if_pos hc]; exact h1 hc
  · rw [if_neg hc, if_neg hc]; exact h2 hc

theorem Mimics.ofOpt {e : String} {o : Option α} : ρ.Mimics dv Eq (M.ofOpt e o) (M.ofOpt e o) := by
  cases o with
  | none => exact Mimics.panic
  | some a => exact Mimics.pure rfl

theorem Mimics.getState : ρ.Mimics dv ρ.Part M.getState M.getState :=
  fun _ s' hp => ⟨s', s', rfl, hp, hp, Kept.refl _⟩

theorem Mimics.newTok {k k' : Token} (h : k' = ρ.token k) :
    ρ.Mimics dv (fun t t' => t' = ρ.tok t) (newTok k) (newTok k') := by
  subst h
  intro s s' hp
  refine ⟨s'.toks.length, { s' with toks := s'.toks ++ [ρ.token k] }, rfl, (part_new hp.tokNew).symm, ?_, ?_⟩
  · refine ⟨part_append hp.tok hp.tokNew k, part_append_new hp.tokNew _ _, ?_, hp.scope, hp.scopeNew, hp.sctx,
      hp.sctxNew⟩
    have := hp.le
    simp only [List.length_append, List.length_cons, List.length_nil]
    omega
  · refine ⟨?_, fun _ _ => rfl, fun _ _ => rfl⟩
    intro u hu
    have h0 := hu s.toks.length
    rw [part_new hp.tokNew] at h0
    show (s'.toks ++ [ρ.token k])[u]? = _
    by_cases h : u < s'.toks.length
    · rw [List.getElem?_append_left h]
    · have : s'.toks.length < u := by
        rcases Nat.lt_or_eq_of_le (Nat.le_of_not_lt h) with h | h
        · exact h
        · exact (h0 h.symm).elim
      rw [List.getElem?_eq_none (Nat.le_of_lt this), List.getElem?_eq_none (by simp; omega)]

theorem Mimics.getTok {i i' : TokId} (h : i' = ρ.tok i) :
    ρ.Mimics dv (fun k k' => k' = ρ.token k) (getTok i) (getTok i') := by
  subst h
  intro s s' hp
  unfold Adx.getTok
  rw [hp.tok i]
  cases hk : s.toks[i]? with
  | none => rfl
  | some k => exact ⟨_, s', rfl, rfl, hp, Kept.refl _⟩

theorem Mimics.setTok (hi : ρ.Inj) {i i' : TokId} {k k' : Token} (h : i' = ρ.tok i) (hk : k' = ρ.token k) :
    ρ.Mimics dv Eq (setTok i k) (setTok i' k') := by
  subst h hk
  intro s s' hp
  refine ⟨(), { s' with toks := s'.toks.set (ρ.tok i) (ρ.token k) }, rfl, rfl, ?_, ?_⟩
  · refine ⟨part_set hi.tok hp.tok i k, ?_, ?_, hp.scope, hp.scopeNew, hp.sctx, hp.sctxNew⟩
    · simpa only [List.length_set] using hp.tokNew
    · simpa only [List.length_set] using hp.le
  · refine ⟨?_, fun _ _ => rfl, fun _ _ => rfl⟩
    intro u hu
    exact List.getElem?_set_ne (Ne.symm (hu i))

theorem Mimics.modTok (hi : ρ.Inj) {i i' : TokId} {f f' : Token → Token} (h : i' = ρ.tok i)
    (hf : ∀ k, f' (ρ.token k) = ρ.token (f k)) : ρ.Mimics dv Eq (modTok i f) (modTok i' f') := by
  unfold Adx.modTok
  apply Mimics.bind (Mimics.getTok h)
  rintro k _ rfl
  exact Mimics.setTok hi h (hf k)

theorem binds_get (sc : Scope) (k : Str) : AMap.get (ρ.binds sc) k = (AMap.get sc k).map ρ.var := by
  unfold binds
  induction sc with
  | nil => rfl
  | cons kv sc ih =>
    obtain ⟨k', v⟩ := kv
    unfold AMap.get
    simp only [List.map_cons]
    split
    · rfl
    · exact ih

theorem binds_insert (sc : Scope) (k : Str) (v : Var) :
    AMap.insert (ρ.binds sc) k (ρ.var v) = ρ.binds (AMap.insert sc k v) := by
  unfold binds
  induction sc with
  | nil => rfl
  | cons kv sc ih =>
    obtain ⟨k', v'⟩ := kv
    unfold AMap.insert
    simp only [List.map_cons]
    split
    · rfl
    · rw [ih]; rfl

theorem Part.scopeD {s s' : State} (h : ρ.Part s s') (i : ScopeId) :
    s'.scopes[ρ.scope i]?.getD [] = ρ.binds (s.scopes[i]?.getD []) := by
  rw [h.scope i]
  cases s.scopes[i]? <;> rfl

theorem Part.sctxD {s s' : State} (h : ρ.Part s s') (i : SCtxId) :
    s'.sctxs[ρ.sctx i]?.getD [] = (s.sctxs[i]?.getD []).map ρ.scope := by
  rw [h.sctx i]
  cases s.sctxs[i]? <;> rfl

theorem Part.lookup {s s' : State} (h : ρ.Part s s') (sc : SCtxId) (k : Str) :
    s'.lookup (ρ.sctx sc) k = (s.lookup sc k).map ρ.var := by
  unfold State.lookup
  rw [h.sctxD]
  induction s.sctxs[sc]?.getD [] with
  | nil => rfl
  | cons i st ih =>
    simp only [List.map_cons]
    unfold lookupStack
    rw [h.scopeD, binds_get]
    cases AMap.get (s.scopes[i]?.getD []) k with
    | none => exact ih
    | some v => rfl

theorem Mimics.lookupVar {sc sc' : SCtxId} {k : Str} (h : sc' = ρ.sctx sc) :
    ρ.Mimics dv (fun v v' => v' = v.map ρ.var) (lookupVar sc k) (lookupVar sc' k) := by
  subst h
  exact fun s s' hp => ⟨_, s', rfl, hp.lookup sc k, hp, Kept.refl _⟩

theorem part_append_kept {W : Type} {f : Nat → Nat} {l' : List W} {n : Nat} (hn : f n = l'.length) {y : W} {u : Nat}
    (hu : ∀ t, u ≠ f t) : (l' ++ [y])[u]? = l'[u]? := by
  have h0 := hu n
  rw [hn] at h0
  by_cases h : u < l'.length
  · rw [List.getElem?_append_left h]
  · have h1 : l'[u]? = none := List.getElem?_eq_none (by omega)
    rw [h1]
    exact List.getElem?_eq_none (by simp; omega)

theorem Part.bindVar (hi : ρ.Inj) {s s' : State} (h : ρ.Part s s') (sc : SCtxId) (k : Str) (v : Var) :
    ρ.Part (s.bindVar sc k v) (s'.bindVar (ρ.sctx sc) k (ρ.var v)) ∧
      ρ.Kept s' (s'.bindVar (ρ.sctx sc) k (ρ.var v)) := by
  unfold State.bindVar
  rw [h.sctxD]
  cases s.sctxs[sc]?.getD [] with
  | nil =>
    have hb : (AMap.insert [] k (ρ.var v) : Scope) = ρ.binds (AMap.insert [] k v) := rfl
    simp only [List.map_nil]
    rw [hb]
    refine ⟨⟨h.tok, h.tokNew, h.le, part_append h.scope h.scopeNew _, part_append_new h.scopeNew _ _, ?_, ?_⟩,
      fun _ _ => rfl, ?_, ?_⟩
    · have := part_set hi.sctx h.sctx sc [s.scopes.length]
      simp only [List.map_cons, List.map_nil, part_new h.scopeNew] at this
      exact this
    · simpa only [List.length_set] using h.sctxNew
    · exact fun u hu => part_append_kept (part_new h.scopeNew) hu
    · exact fun u hu => List.getElem?_set_ne (Ne.symm (hu sc))
  | cons top st =>
    simp only [List.map_cons]
    rw [h.scopeD, binds_insert]
    refine ⟨⟨h.tok, h.tokNew, h.le, part_set hi.scope h.scope _ _, ?_, h.sctx, h.sctxNew⟩,
      fun _ _ => rfl, ?_, fun _ _ => rfl⟩
    · simpa only [List.length_set] using h.scopeNew
    · exact fun u hu => List.getElem?_set_ne (Ne.symm (hu top))

theorem Part.pushScope (hi : ρ.Inj) {s s' : State} (h : ρ.Part s s') (sc : SCtxId) :
    ρ.Part (s.pushScope sc) (s'.pushScope (ρ.sctx sc)) ∧ ρ.Kept s' (s'.pushScope (ρ.sctx sc)) := by
  unfold State.pushScope
  rw [h.sctxD]
  refine ⟨⟨h.tok, h.tokNew, h.le, part_append h.scope h.scopeNew [], part_append_new h.scopeNew _ _, ?_, ?_⟩,
      fun _ _ => rfl, ?_, ?_⟩
  · have := part_set hi.sctx h.sctx sc (s.scopes.length :: s.sctxs[sc]?.getD [])
    simp only [List.map_cons, part_new h.scopeNew] at this
    exact this
  · simpa only [List.length_set] using h.sctxNew
  · exact fun u hu => part_append_kept (part_new h.scopeNew) hu
  · exact fun u hu => List.getElem?_set_ne (Ne.symm (hu sc))

theorem Part.popScope (hi : ρ.Inj) {s s' : State} (h : ρ.Part s s') (sc : SCtxId) :
    ρ.Part (s.popScope sc) (s'.popScope (ρ.sctx sc)) ∧ ρ.Kept s' (s'.popScope (ρ.sctx sc)) := by
  unfold State.popScope
  rw [h.sctxD, ← List.map_tail]
  refine ⟨⟨h.tok, h.tokNew, h.le, h.scope, h.scopeNew, part_set hi.sctx h.sctx sc _, ?_⟩,
      fun _ _ => rfl, fun _ _ => rfl, ?_⟩
  · simpa only [List.length_set] using h.sctxNew
  · exact fun u hu => List.getElem?_set_ne (Ne.symm (hu sc))

theorem Mimics.bindVar (hi : ρ.Inj) {sc sc' : SCtxId} {k : Str} {v v' : Var} (h : sc' = ρ.sctx sc)
    (hv : v' = ρ.var v) : ρ.Mimics dv Eq (bindVar sc k v) (bindVar sc' k v') := by
  subst h hv
  exact fun s s' hp => ⟨(), _, rfl, rfl, hp.bindVar hi sc k v⟩

theorem Mimics.pushScope (hi : ρ.Inj) {sc sc' : SCtxId} (h : sc' = ρ.sctx sc) :
    ρ.Mimics dv Eq (pushScope sc) (pushScope sc') := by
  subst h
  exact fun s s' hp => ⟨(), _, rfl, rfl, hp.pushScope hi sc⟩

theorem Mimics.popScope (hi : ρ.Inj) {sc sc' : SCtxId} (h : sc' = ρ.sctx sc) :
    ρ.Mimics dv Eq (popScope sc) (popScope sc') := by
  subst h
  exact fun s s' hp => ⟨(), _, rfl, rfl, hp.popScope hi sc⟩

/-! ### The engine -/

theorem tok_mkMatched (p : Parser) (n : Str) (a b : Range) :
    Token.mkMatched p n a b = ρ.token (Token.mkMatched p n a b) := rfl

theorem tok_mk' (p : Parser) (n : Str) (a : Range) : Token.mk' p n a = ρ.token (Token.mk' p n a) := rfl

theorem setCaptured_token (k : Token) (r : Range) : (ρ.token k).setCaptured r = ρ.token (k.setCaptured r) := by
  cases k with
  | mk kind _ _ _ _ _ _ _ _ _ _ _ => cases kind <;> rfl

theorem setMatched_token (k : Token) (r : Range) : (ρ.token k).setMatched r = ρ.token (k.setMatched r) := by
  cases k with
  | mk kind _ _ _ _ _ _ _ _ _ _ _ => cases kind <;> rfl

/-- What the argument of a matcher stands for, with its reference changed. -/
def fetched (ρ : Reloc) : Str ⊕ MatcherId → Str ⊕ MatcherId
  | .inl a => .inl a
  | .inr m => .inr (ρ.mat m)

theorem Mimics.fetchValue {f : Fetchable} {sc : SCtxId} :
    ρ.Mimics dv (fun v v' => v' = ρ.fetched v) (fetchValue f sc) (fetchValue (ρ.arg f) (ρ.sctx sc)) := by
  cases f with
  | str s => exact Mimics.pure rfl
  | matcher m => exact Mimics.pure rfl
  | fetch name =>
    unfold arg Adx.fetchValue
    apply Mimics.bind (Mimics.lookupVar rfl)
    rintro v _ rfl
    cases v with
    | none => exact Mimics.panic
    | some v =>
      cases v with
      | matcher m => exact Mimics.pure rfl
      | str s => exact Mimics.ite (fun _ => Mimics.panic) (fun _ => Mimics.pure rfl)
      | token t =>
        simp only [Option.map_some, var]
        split
        · apply Mimics.bind (Mimics.getTok rfl)
          rintro tk _ rfl
          repeat' (first | exact Mimics.pure rfl | exact Mimics.panic | (apply Mimics.ite <;> intro _))
        · exact Mimics.panic

theorem Mimics.dbg {c : Ctx} {n : Nat} : ρ.Mimics dv Eq (dbg c n) (dbg (ρ.ctx c) n) := by
  unfold Adx.dbg
  apply Mimics.ite <;> intro _
  · show ρ.Mimics dv Eq (match c.debugRange n with | some _ => Pure.pure () | none => M.panic _) 
      (match c.debugRange n with | some _ => Pure.pure () | none => M.panic _) 
    cases c.debugRange n with
    | none => exact Mimics.panic
    | some _ => exact Mimics.pure rfl
  · exact Mimics.pure rfl

/-- The engine's recursive calls correspond. -/
def RecRel (ρ : Reloc) (dv : Prop) (f f' : ExecFn) : Prop :=
  ∀ m c sc, ρ.Mimics dv (fun r r' => r' = ρ.result r) (f m c sc) (f' (ρ.mat m) (ρ.ctx c) (ρ.sctx sc))

/-- The local variables of a program, with their references changed. -/
def ps (ρ : Reloc) (a : PS) : PS := { a with ctx := ρ.ctx a.ctx, children := a.children.map ρ.tok }

/-- How a pass ends, with references changed. -/
def flow (ρ : Reloc) : Flow → Flow
  | .next a => .next (ρ.ps a)
  | .action x a => .action (ρ.success x) (ρ.ps a)
  | .ret r => .ret (ρ.result r)

theorem ps_cover (a : PS) (k : Token) : (ρ.ps a).cover (ρ.token k) = ρ.ps (a.cover k) := rfl

section
variable (hi : ρ.Inj)
include hi

theorem prepToken_mimics {a : PS} {t : TokId} {f u : Bool} :
    ρ.Mimics dv Eq (prepToken a t f u) (prepToken (ρ.ps a) (ρ.tok t) f u) := by
  unfold prepToken
  apply Mimics.bind (Mimics.getTok rfl)
  rintro k _ rfl
  apply Mimics.ite <;> intro _
  · apply Mimics.ite <;> intro _
    · apply Mimics.modTok hi rfl
      intro k'
      rw [setCaptured_token, setMatched_token]
      rfl
    · exact Mimics.pure rfl
  · apply Mimics.ite <;> intro _
    · exact Mimics.panic
    · exact Mimics.pure rfl

theorem addToken_mimics {a : PS} {prog t : TokId} {f u : Bool} :
    ρ.Mimics dv (fun x y => y = ρ.ps x) (addToken prog a t f u)
      (addToken (ρ.tok prog) (ρ.ps a) (ρ.tok t) f u) := by
  unfold addToken
  apply Mimics.bind (prepToken_mimics hi)
  rintro _ _ _
  apply Mimics.bind (Mimics.getTok rfl)
  rintro k _ rfl
  apply Mimics.bind (Mimics.modTok hi rfl ?_)
  rotate_left
  · exact fun _ => rfl
  rintro _ _ _
  apply Mimics.pure
  cases u <;> simp [Reloc.ps, PS.cover, Reloc.ctx, Ctx.setStart, Reloc.token]

theorem handleToken_mimics {a : PS} {prog t : TokId} {f u : Bool} :
    ρ.Mimics dv (fun x y => y = ρ.ps x) (handleToken prog a t f u)
      (handleToken (ρ.tok prog) (ρ.ps a) (ρ.tok t) f u) := by
  unfold handleToken
  apply Mimics.bind (Mimics.getTok rfl)
  rintro k _ rfl
  exact addToken_mimics hi

theorem extractLoop_mimics {prog : TokId} {u : Bool} : ∀ {cs : List TokId} {a : PS},
    ρ.Mimics dv (fun x y => y = ρ.ps x) (extractLoop prog u cs a)
      (extractLoop (ρ.tok prog) u (cs.map ρ.tok) (ρ.ps a)) := by
  intro cs
  induction cs with
  | nil => intro a; exact Mimics.pure rfl
  | cons c cs ih =>
    intro a
    simp only [List.map_cons]
    unfold extractLoop
    apply Mimics.bind (Mimics.getTok rfl)
    rintro tk _ rfl
    apply Mimics.ite <;> intro _
    · exact ih
    · apply Mimics.bind (addToken_mimics hi)
      rintro a _ rfl
      exact ih

theorem handleExtract_mimics {a : PS} {prog t : TokId} {u : Bool} :
    ρ.Mimics dv (fun x y => y = ρ.ps x) (handleExtract prog a t u)
      (handleExtract (ρ.tok prog) (ρ.ps a) (ρ.tok t) u) := by
  unfold handleExtract
  apply Mimics.bind (Mimics.getTok rfl)
  rintro k _ rfl
  have h := extractLoop_mimics (dv := dv) hi (prog := prog) (u := u && !k.shouldDiscard) (cs := k.children)
    (a := if (u && !k.shouldDiscard) = true then a.cover k else a)
  have e : ρ.ps (if (u && !k.shouldDiscard) = true then a.cover k else a) =
      if (u && !k.shouldDiscard) = true then (ρ.ps a).cover (ρ.token k) else ρ.ps a := by
    split <;> rfl
  rw [e] at h
  exact h

omit hi in
theorem addOffset_mimics {cfg : Cfg} {n : Nat} {k : Int} :
    ρ.Mimics dv Eq (addOffset cfg n k) (addOffset cfg n k) := by
  unfold addOffset
  repeat' (first | exact Mimics.pure rfl | exact Mimics.panic | (apply Mimics.ite <;> intro _))

omit hi in
theorem handleSkip_mimics {cfg : Cfg} {a : PS} {o : Nat} {k : Int} :
    ρ.Mimics dv (fun x y => y = ρ.ps x) (handleSkip cfg a o k) (handleSkip cfg (ρ.ps a) o k) := by
  unfold handleSkip
  apply Mimics.bind addOffset_mimics
  rintro n _ rfl
  exact Mimics.pure rfl

theorem finalize_mimics {a : PS} {prog : TokId} {iter : Option (Nat × Nat)} {n : Nat} {f : Bool} :
    ρ.Mimics dv (fun r r' => r' = ρ.result r) (finalizeProgram prog a iter n f)
      (finalizeProgram (ρ.tok prog) (ρ.ps a) iter n f) := by
  have he : (ρ.ps a).children = [] ↔ a.children = [] := by simp [Reloc.ps]
  have fin : ρ.Mimics dv (fun r r' => r' = ρ.result r)
      (if a.captured.start = usizeMax ∨ a.matched.start = usizeMax then pure (.err .fail)
      else if a.children = [] then pure (.err .fail)
      else do
        modTok prog (fun k =>
          ((({ k with children := a.children } : Token).setCaptured a.captured).setMatched
            a.matched))
        pure (.ok (.token prog)) : M R)
      (if (ρ.ps a).captured.start = usizeMax ∨ (ρ.ps a).matched.start = usizeMax then pure (.err .fail)
      else if (ρ.ps a).children = [] then pure (.err .fail)
      else do
        modTok (ρ.tok prog) (fun k =>
          ((({ k with children := (ρ.ps a).children } : Token).setCaptured (ρ.ps a).captured).setMatched
            (ρ.ps a).matched))
        pure (.ok (.token (ρ.tok prog))) : M R) := by
    simp only [he]
    apply Mimics.ite <;> intro _
    · exact Mimics.pure rfl
    apply Mimics.ite <;> intro _
    · exact Mimics.pure rfl
    apply Mimics.bind (Mimics.modTok hi rfl ?_)
    · rintro _ _ _
      exact Mimics.pure rfl
    · intro k
      rw [← setMatched_token, ← setCaptured_token]
      rfl
  unfold finalizeProgram
  dsimp only
  apply Mimics.ite <;> intro _
  · cases iter with
    | none => exact fin
    | some i =>
      dsimp only
      have e : (i.1 = 0 ∧ n = 0 ∧ (ρ.ps a).children = []) = (i.1 = 0 ∧ n = 0 ∧ a.children = []) := by
        rw [propext he]
      simp only [e]
      apply Mimics.ite <;> intro _
      · exact Mimics.pure rfl
      apply Mimics.ite <;> intro _
      · exact Mimics.pure rfl
      exact fin
  · exact fin

theorem runPatterns_mimics {T T' : Table} {cfg : Cfg} {f f' : ExecFn} (hf : ρ.RecRel dv f f')
    (hc : ∀ p, (T' (ρ.mat p)).isConsuming = (T p).isConsuming)
    {prog : TokId} {sc : SCtxId} {so : Nat} {iter : Option (Nat × Nat)} {fs : Bool} {lc : Nat} :
    ∀ {ps : List MatcherId} {a : PS},
    ρ.Mimics dv (fun x y => y = ρ.flow x) (runPatterns T cfg f prog sc so iter fs lc ps a)
      (runPatterns T' cfg f' (ρ.tok prog) (ρ.sctx sc) so iter fs lc (ps.map ρ.mat) (ρ.ps a)) := by
  intro ps
  induction ps with
  | nil => intro a; exact Mimics.pure rfl
  | cons p ps ih =>
    intro a
    unfold runPatterns
    simp only [List.map_cons]
    rw [hc p]
    apply Mimics.bind (hf p _ sc)
    rintro r _ rfl
    rcases r with x | e
    · cases x with
      | token t =>
        dsimp only [result, success]
        apply Mimics.bind (Mimics.getTok rfl)
        rintro tk _ rfl
        apply Mimics.ite <;> intro _
        · exact ih
        apply Mimics.ite <;> intro _
        · exact Mimics.pure rfl
        apply Mimics.bind (handleToken_mimics hi)
        rintro a _ rfl
        exact ih
      | proxyChildren t =>
        dsimp only [result, success]
        apply Mimics.bind (Mimics.getTok rfl)
        rintro tk _ rfl
        apply Mimics.ite <;> intro _
        · exact ih
        apply Mimics.ite <;> intro _
        · exact Mimics.pure rfl
        apply Mimics.bind (handleExtract_mimics hi)
        rintro a _ rfl
        exact ih
      | skip k =>
        dsimp only [result, success]
        apply Mimics.ite <;> intro _
        · exact Mimics.pure rfl
        apply Mimics.ite <;> intro _
        · apply Mimics.bind handleSkip_mimics
          rintro a _ rfl
          exact ih
        · exact ih
      | brk n d => exact Mimics.pure rfl
      | cont n d => exact Mimics.pure rfl
      | none => exact Mimics.pure rfl
      | stop => exact Mimics.pure rfl
    · dsimp only [result]
      apply Mimics.bind Mimics.dbg
      rintro _ _ _
      cases e with
      | fail =>
        dsimp only
        apply Mimics.ite <;> intro _
        · exact ih
        apply Mimics.ite <;> intro _
        · apply Mimics.bind (finalize_mimics hi)
          rintro r _ rfl
          exact Mimics.pure rfl
        · exact Mimics.pure rfl
      | error e => exact Mimics.pure rfl

theorem handlePayload_mimics {cfg : Cfg} {a : PS} {prog : TokId} {so : Nat} {d : Success} :
    ρ.Mimics dv (fun x y => y = ρ.ps x) (handlePayload cfg prog a so d)
      (handlePayload cfg (ρ.tok prog) (ρ.ps a) so (ρ.success d)) := by
  cases d with
  | token t => exact handleToken_mimics hi
  | proxyChildren t => exact handleExtract_mimics hi
  | skip k => exact handleSkip_mimics
  | brk _ _ => exact Mimics.pure rfl
  | cont _ _ => exact Mimics.pure rfl
  | none => exact Mimics.pure rfl
  | stop => exact Mimics.pure rfl

theorem runIterations_mimics {T T' : Table} {cfg : Cfg} {f f' : ExecFn} (hf : ρ.RecRel dv f f')
    (hc : ∀ p, (T' (ρ.mat p)).isConsuming = (T p).isConsuming)
    {prog : TokId} {sc : SCtxId} {so : Nat} {self : Str} {iter : Option (Nat × Nat)} {fs : Bool}
    {ps : List MatcherId} : ∀ {k lc : Nat} {a : PS},
    ρ.Mimics dv (fun r r' => r' = ρ.result r) (runIterations T cfg f prog sc so self ps iter fs k lc a)
      (runIterations T' cfg f' (ρ.tok prog) (ρ.sctx sc) so self (ps.map ρ.mat) iter fs k lc (ρ.ps a)) := by
  intro k
  induction k with
  | zero => intro lc a; exact finalize_mimics hi
  | succ k ih =>
    intro lc a
    unfold runIterations
    apply Mimics.bind (runPatterns_mimics hi hf hc)
    rintro x _ rfl
    rcases x with a | ⟨x, a⟩ | r
    · exact ih
    · cases x with
      | brk n d =>
        dsimp only [flow, success]
        apply Mimics.ite <;> intro _
        · exact Mimics.pure rfl
        apply Mimics.bind (handlePayload_mimics hi)
        rintro a _ rfl
        apply Mimics.bind (finalize_mimics hi)
        rintro r _ rfl
        apply Mimics.ite <;> intro _
        · exact Mimics.pure rfl
        · cases r <;> exact Mimics.pure rfl
      | cont n d =>
        dsimp only [flow, success]
        apply Mimics.ite <;> intro _
        · exact Mimics.pure rfl
        apply Mimics.bind (handlePayload_mimics hi)
        rintro a _ rfl
        apply Mimics.ite <;> intro _
        · exact ih
        · exact finalize_mimics hi
      | stop => exact finalize_mimics hi
      | token _ => exact Mimics.panic
      | proxyChildren _ => exact Mimics.panic
      | skip _ => exact Mimics.panic
      | none => exact Mimics.panic
    · exact Mimics.pure rfl

theorem execProgram_mimics {T T' : Table} {cfg : Cfg} {f f' : ExecFn} (hf : ρ.RecRel dv f f')
    (hc : ∀ p, (T' (ρ.mat p)).isConsuming = (T p).isConsuming)
    {c : Ctx} {sc : SCtxId} {name : Str} {iter : Option (Nat × Nat)} {fs : Bool}
    {ps : List MatcherId} :
    ρ.Mimics dv (fun r r' => r' = ρ.result r) (execProgram T cfg f ps name iter fs c sc)
      (execProgram T' cfg f' (ps.map ρ.mat) name iter fs (ρ.ctx c) (ρ.sctx sc)) := by
  unfold execProgram
  dsimp only
  apply Mimics.bind (Mimics.newTok (k := Token.mk' (c.withName name).parser name Range.blank) rfl)
  rintro prog _ rfl
  exact runIterations_mimics hi hf hc

omit hi in
theorem forEach_mimics {f f' : TokId → M Unit} (hf : ∀ t, ρ.Mimics dv Eq (f t) (f' (ρ.tok t))) :
    ∀ cs, ρ.Mimics dv Eq (forEach f cs) (forEach f' (cs.map ρ.tok)) := by
  intro cs
  induction cs with
  | nil => exact Mimics.pure rfl
  | cons c cs ih =>
    simp only [List.map_cons]
    unfold forEach
    apply Mimics.bind (hf c)
    rintro _ _ _
    exact ih

theorem discardCollect_mimics {e : TokId} : ∀ {n n' : Nat} {t : TokId}, n ≤ n' →
    ρ.Mimics False Eq (discardCollect n e t) (discardCollect n' (ρ.tok e) (ρ.tok t)) := by
  intro n
  induction n with
  | zero => intro n' t _; exact Mimics.diverge False.elim
  | succ n ih =>
    intro n' t hn
    obtain ⟨k, rfl⟩ : ∃ k, n' = k + 1 := ⟨n' - 1, by omega⟩
    unfold discardCollect
    apply Mimics.bind (Mimics.getTok rfl)
    rintro w _ rfl
    have : ρ.Mimics False Eq (discardRecord e t w) (discardRecord (ρ.tok e) (ρ.tok t) (ρ.token w)) := by
      unfold discardRecord
      apply Mimics.ite <;> intro _
      · apply Mimics.modTok hi rfl
        intro k
        have hl : (ρ.token k).children ++ [ρ.tok t] = (k.children ++ [t]).map ρ.tok := by simp [Reloc.token]
        simp only [hl]
        show (if _ then _ else _) = ρ.token (if _ then _ else _)
        rw [apply_ite ρ.token]
        congr 1
        rw [← setMatched_token]
        rfl
      · exact Mimics.pure rfl
    apply Mimics.bind this
    rintro _ _ _
    exact forEach_mimics (fun t => ih (Nat.le_of_succ_le_succ hn)) _

theorem skipToken_mimics {cfg : Cfg} {c : Ctx} {o : Nat} {t : TokId} :
    ρ.Mimics False (fun x y => y = ρ.success x) (skipToken cfg c o t) (skipToken cfg (ρ.ctx c) o (ρ.tok t)) := by
  unfold skipToken
  apply Mimics.bind (Mimics.getTok rfl)
  rintro tk _ rfl
  apply Mimics.bind (Mimics.newTok (k := Token.mk' c.parser "Error".toList ⟨o, tk.matched.stop⟩) rfl)
  rintro e _ rfl
  apply Mimics.bind Mimics.getState
  intro s s' hp
  apply Mimics.bind (discardCollect_mimics hi (Nat.succ_le_succ hp.le))
  rintro _ _ _
  apply Mimics.bind (Mimics.getTok rfl)
  rintro ek _ rfl
  have he : ((ρ.token ek).children ≠ []) = (ek.children ≠ []) := by simp [Reloc.token]
  simp only [he]
  apply Mimics.ite <;> intro _
  · exact Mimics.pure rfl
  · have : ρ.Mimics False Eq (subOffset cfg tk.matched.stop o) (subOffset cfg (ρ.token tk).matched.stop o) := by
      unfold subOffset
      dsimp only
      show ρ.Mimics False Eq _ (if -((isizeMax : Int) + 1) ≤ asIsize tk.matched.stop - asIsize o ∧ _ then _ else _)
      repeat' (first | exact Mimics.pure rfl | exact Mimics.panic | (apply Mimics.ite <;> intro _))
    apply Mimics.bind this
    rintro d _ rfl
    exact Mimics.pure rfl

omit hi in
/-- Walking a proper tree ends. -/
theorem skipToken_ends {cfg : Cfg} {c : Ctx} {a n : Nat} {s : State} {t : TokId} {l : List TokId}
    (h : Grove s.toks n [t] l) : skipToken cfg c a t s ≠ .diverge := by
  have ht : t ∈ l := h.pre.roots t (List.mem_singleton.mpr rfl)
  have hlt := h.pre.valid t ht
  have hk : s.toks[t]? = some s.toks[t] := List.getElem?_eq_getElem hlt
  generalize s.toks[t] = k at hk
  unfold skipToken
  rw [bind_eq]; unfold M.bind
  rw [show getTok t s = .ok k s by unfold getTok; rw [hk]]
  dsimp only
  rw [bind_eq]; unfold M.bind
  have hu : UpToDate (Token.mk' c.parser "Error".toList ⟨a, k.matched.stop⟩) := ⟨rfl, rfl⟩
  generalize Token.mk' c.parser "Error".toList ⟨a, k.matched.stop⟩ = ek at hu ⊢
  rw [show newTok ek s = .ok s.toks.length { s with toks := s.toks ++ [ek] } from rfl]
  dsimp only
  rw [bind_eq]; unfold M.bind
  rw [show M.getState ({ s with toks := s.toks ++ [ek] } : State) =
    .ok { s with toks := s.toks ++ [ek] } { s with toks := s.toks ++ [ek] } from rfl]
  dsimp only
  rw [bind_eq]; unfold M.bind
  have hnew : s.toks.length ∉ l := fun hx => Nat.lt_irrefl _ (h.pre.valid _ hx)
  have hcol := discardCollect_run (e := s.toks.length) (h.pre.walk (m := (s.toks ++ [ek]).length + 1) (by
      rw [List.length_append]; omega)) { s with toks := s.toks ++ [ek] } ek
    (fun u hu => List.getElem?_append_left (h.pre.valid u hu)) hnew List.getElem?_concat_length hu
  have hdc : discardCollect ((s.toks ++ [ek]).length + 1) s.toks.length t { s with toks := s.toks ++ [ek] } =
      .ok () { s with toks := (s.toks ++ [ek]).set s.toks.length (absorb s.toks ek l) } := by
    unfold forEach at hcol
    obtain ⟨u, s2, h3, h4⟩ := bind_ok.mp hcol
    unfold forEach at h4
    obtain ⟨_, rfl⟩ := pure_ok.mp h4
    exact h3
  rw [hdc]
  dsimp only
  rw [bind_eq]; unfold M.bind
  have hget : ((s.toks ++ [ek]).set s.toks.length (absorb s.toks ek l))[s.toks.length]? =
      some (absorb s.toks ek l) := by simp
  rw [show getTok s.toks.length ({ s with toks := (s.toks ++ [ek]).set s.toks.length (absorb s.toks ek l) } : State) =
    .ok (absorb s.toks ek l) { s with toks := (s.toks ++ [ek]).set s.toks.length (absorb s.toks ek l) } by
      unfold getTok; rw [hget]]
  dsimp only
  split
  · intro h; cases h
  · rw [bind_eq]; unfold M.bind
    have : ∀ a b s, subOffset cfg a b s ≠ .diverge := by
      intro a b s
      unfold subOffset
      repeat' split
      all_goals (intro h; cases h)
    split
    · intro h; cases h
    · intro h; cases h
    · rename_i h
      exact (this _ _ _ h).elim

omit hi in
theorem newErrorTokenWithRange_mimics {c : Ctx} {msg : Str} {r : Range} :
    ρ.Mimics dv (fun t t' => t' = ρ.tok t) (newErrorTokenWithRange c msg r)
      (newErrorTokenWithRange (ρ.ctx c) msg r) := by
  unfold newErrorTokenWithRange
  show ρ.Mimics dv _ _ (M.ofOpt _ (c.errorString msg r) >>= _)
  apply Mimics.bind Mimics.ofOpt
  rintro m _ rfl
  exact Mimics.newTok rfl

omit hi in
theorem parseOffset_mimics {cfg : Cfg} {a b : Nat} {v : Str} :
    ρ.Mimics dv Eq (parseOffset cfg a b v) (parseOffset cfg a b v) := by
  unfold parseOffset
  apply Mimics.ite <;> intro _
  · exact Mimics.pure rfl
  cases bslice v 0 1 with
  | none => exact Mimics.panic
  | some pre =>
    dsimp only
    cases parseUsize (if pre = ['+'] ∨ pre = ['-'] then v.tail else v) with
    | none => exact Mimics.panic
    | some n =>
      dsimp only
      repeat' (first | exact Mimics.pure rfl | exact Mimics.panic | (apply Mimics.ite <;> intro _))

theorem execRegister_mimics {T T' : Table} {sc : SCtxId} (hn : ∀ p, (T' (ρ.mat p)).name = (T p).name) :
    ∀ {ps : List MatcherId}, ρ.Mimics dv (fun r r' => r' = ρ.result r) (execRegister T sc ps)
      (execRegister T' (ρ.sctx sc) (ps.map ρ.mat)) := by
  intro ps
  induction ps with
  | nil => exact Mimics.pure rfl
  | cons p ps ih =>
    unfold execRegister
    simp only [List.map_cons]
    rw [hn p]
    apply Mimics.bind (Mimics.bindVar hi rfl rfl)
    rintro _ _ _
    exact ih

theorem execNode_mimics {T T' : Table} {cfg : Cfg} {f f' : ExecFn} (hf : ρ.RecRel dv f f') (hg : dv → RecGrow f)
    (hc : ∀ p, (T' (ρ.mat p)).isConsuming = (T p).isConsuming)
    (hn : ∀ p, (T' (ρ.mat p)).name = (T p).name) {n n' : Node} (h : ρ.NodeMoved dv n n') {c : Ctx} {sc : SCtxId} :
    ρ.Mimics dv (fun r r' => r' = ρ.result r) (execNode T cfg f n c sc)
      (execNode T' cfg f' n' (ρ.ctx c) (ρ.sctx sc)) := by
  cases h with
  | @equals name cu pat =>
    show ρ.Mimics dv _ (execEquals name pat c sc) (execEquals name (ρ.arg pat) (ρ.ctx c) (ρ.sctx sc))
    unfold execEquals
    apply Mimics.bind Mimics.fetchValue
    rintro v _ rfl
    cases v with
    | inl v =>
      show ρ.Mimics dv _ (M.ofOpt _ ((c.withName name).matchesStr v) >>= _)
        (M.ofOpt _ ((c.withName name).matchesStr v) >>= _)
      apply Mimics.bind Mimics.ofOpt
      rintro o _ rfl
      cases o with
      | none =>
        apply Mimics.bind (Mimics.dbg (c := c.withName name))
        rintro _ _ _
        exact Mimics.pure rfl
      | some r =>
        apply Mimics.bind (Mimics.dbg (c := c.withName name))
        rintro _ _ _
        apply Mimics.bind (Mimics.newTok rfl)
        rintro t _ rfl
        exact Mimics.pure rfl
    | inr m => exact Mimics.pure rfl
  | @regex name cu re =>
    show ρ.Mimics dv _ (execMatches name re c) (execMatches name re (ρ.ctx c))
    unfold execMatches
    show ρ.Mimics dv _ (M.ofOpt _ ((c.withName name).matchesRegexp re) >>= _)
        (M.ofOpt _ ((c.withName name).matchesRegexp re) >>= _)
    apply Mimics.bind Mimics.ofOpt
    rintro o _ rfl
    cases o with
    | none =>
      apply Mimics.bind (Mimics.dbg (c := c.withName name))
      rintro _ _ _
      exact Mimics.pure rfl
    | some r =>
      apply Mimics.ite <;> intro _
      · apply Mimics.bind (Mimics.dbg (c := c.withName name))
        rintro _ _ _
        exact Mimics.pure rfl
      · apply Mimics.bind (Mimics.newTok rfl)
        rintro t _ rfl
        exact Mimics.pure rfl
  | @sequence name cu a b e =>
    show ρ.Mimics dv _ (execSequence name a b e c sc)
      (execSequence name (ρ.arg a) (ρ.arg b) (ρ.arg e) (ρ.ctx c) (ρ.sctx sc))
    have hl : ∀ endP escP k i p parts, seqLoop ((ρ.ctx c).withName name) endP escP k i p parts =
        seqLoop (c.withName name) endP escP k i p parts := by
      intro endP escP k
      induction k with
      | zero => intros; rfl
      | succ k ih =>
        intro i p parts
        unfold seqLoop
        simp only [ih]
        rfl
    unfold execSequence
    apply Mimics.bind Mimics.fetchValue
    rintro v _ rfl
    cases v with
    | inr m => exact Mimics.pure rfl
    | inl v =>
      dsimp only [fetched]
      apply Mimics.ite <;> intro _
      · exact Mimics.panic
      apply Mimics.bind Mimics.fetchValue
      rintro w _ rfl
      cases w with
      | inr m => exact Mimics.pure rfl
      | inl w =>
        dsimp only [fetched]
        apply Mimics.ite <;> intro _
        · exact Mimics.panic
        apply Mimics.bind Mimics.fetchValue
        rintro x _ rfl
        cases x with
        | inr m => exact Mimics.pure rfl
        | inl x =>
          simp only [fetched, hl]
          show ρ.Mimics dv _ (M.ofOpt _ ((c.withName name).matchesStr v) >>= _)
            (M.ofOpt _ ((c.withName name).matchesStr v) >>= _)
          apply Mimics.bind Mimics.ofOpt
          rintro o _ rfl
          cases o with
          | none =>
            apply Mimics.bind (Mimics.dbg (c := c.withName name))
            rintro _ _ _
            exact Mimics.pure rfl
          | some r =>
            dsimp only
            rw [show ((ρ.ctx c).withName name).offset = (c.withName name).offset from rfl]
            generalize seqLoop (c.withName name) w x ((c.withName name).offset.stop - r.stop) r.stop r.stop [] = o
            cases o with
            | panic => exact Mimics.panic
            | fail =>
              apply Mimics.bind (Mimics.dbg (c := c.withName name))
              rintro _ _ _
              exact Mimics.pure rfl
            | found index parts =>
              apply Mimics.bind (Mimics.newTok rfl)
              rintro t _ rfl
              apply Mimics.bind (Mimics.dbg (c := c.withName name))
              rintro _ _ _
              exact Mimics.pure rfl
  | program => exact execProgram_mimics hi hf hc
  | @optional m =>
    apply Mimics.bind (hf m _ sc)
    rintro r _ rfl
    cases r with
    | ok x => exact Mimics.pure rfl
    | err e => cases e <;> exact Mimics.pure rfl
  | @not m =>
    apply Mimics.bind (hf m _ sc)
    rintro r _ rfl
    cases r with
    | ok x =>
      cases x <;> first
        | exact Mimics.pure rfl
        | (apply Mimics.ite <;> intro _ <;> exact Mimics.pure rfl)
    | err e => cases e <;> exact Mimics.pure rfl
  | @discard m =>
    show ρ.Mimics dv _ (execDiscard cfg f m c sc) (execDiscard cfg f' (ρ.mat m) (ρ.ctx c) (ρ.sctx sc))
    unfold execDiscard
    have hs : ∀ t s s', (dv → ∃ n l, Grove s.toks n [t] l) → ρ.Part s s' →
        ρ.Same dv (fun x y => y = ρ.success x) s'
        (skipToken cfg (c.withName "Discard".toList) c.offset.start t s)
        (skipToken cfg ((ρ.ctx c).withName "Discard".toList) (ρ.ctx c).offset.start (ρ.tok t) s') :=
      fun t s s' hg hp => (skipToken_mimics hi (c := c.withName "Discard".toList) s s' hp).ends fun hd => by
        obtain ⟨_, _, hl⟩ := hg hd
        exact skipToken_ends hl
    intro s s' hp
    apply (hf m (c.withName "Discard".toList) sc s s' hp).bind
    rintro r _ s s' hr rfl hp
    have hs : ∀ t, r.tok = some t → ρ.Same dv (fun x y => y = ρ.success x) s'
        (skipToken cfg (c.withName "Discard".toList) c.offset.start t s)
        (skipToken cfg ((ρ.ctx c).withName "Discard".toList) (ρ.ctx c).offset.start (ρ.tok t) s') :=
      fun t ht => hs t s s' (fun hd => ⟨_, (Post.of_ok (hg hd m _ sc _) hr).2 t ht⟩) hp
    have pure' : ∀ {x y : R}, y = ρ.result x → ρ.Same dv (fun r r' => r' = ρ.result r) s'
        ((pure x : M R) s) ((pure y : M R) s') :=
      fun h => Mimics.pure (V := fun r r' => r' = ρ.result r) h s s' hp
    cases r with
    | err e => exact pure' rfl
    | ok x =>
      cases x with
      | token t =>
        apply (hs t rfl).bind
        rintro x _ s1 s1' _ rfl hp
        exact ⟨_, s1', rfl, rfl, hp, Kept.refl _⟩
      | proxyChildren t =>
        apply (hs t rfl).bind
        rintro x _ s1 s1' _ rfl hp
        exact ⟨_, s1', rfl, rfl, hp, Kept.refl _⟩
      | skip k => exact pure' rfl
      | none => exact pure' rfl
      | stop => exact pure' rfl
      | brk nm d =>
        cases d with
        | token t =>
          apply (hs t rfl).bind
          rintro x _ s1 s1' _ rfl hp
          exact ⟨_, s1', rfl, rfl, hp, Kept.refl _⟩
        | proxyChildren t =>
          apply (hs t rfl).bind
          rintro x _ s1 s1' _ rfl hp
          exact ⟨_, s1', rfl, rfl, hp, Kept.refl _⟩
        | brk _ _ => exact Mimics.panic s s' hp
        | cont _ _ => exact Mimics.panic s s' hp
        | skip k => exact pure' rfl
        | none => exact pure' rfl
        | stop => exact pure' rfl
      | cont nm d =>
        cases d with
        | token t =>
          apply (hs t rfl).bind
          rintro x _ s1 s1' _ rfl hp
          exact ⟨_, s1', rfl, rfl, hp, Kept.refl _⟩
        | proxyChildren t =>
          apply (hs t rfl).bind
          rintro x _ s1 s1' _ rfl hp
          exact ⟨_, s1', rfl, rfl, hp, Kept.refl _⟩
        | brk _ _ => exact Mimics.panic s s' hp
        | cont _ _ => exact Mimics.panic s s' hp
        | skip k => exact pure' rfl
        | none => exact pure' rfl
        | stop => exact pure' rfl
  | @proxyChildren m name cu =>
    apply Mimics.bind (hf m _ sc)
    rintro r _ rfl
    cases r with
    | err e => exact Mimics.pure rfl
    | ok x =>
      cases x with
      | brk nm d => cases d <;> exact Mimics.pure rfl
      | cont nm d => cases d <;> exact Mimics.pure rfl
      | _ => exact Mimics.pure rfl
  | @expandRange m =>
    show ρ.Mimics dv _ (execExpandRange f m c sc) (execExpandRange f' (ρ.mat m) (ρ.ctx c) (ρ.sctx sc))
    unfold execExpandRange
    apply Mimics.bind (hf m _ sc)
    rintro r _ rfl
    cases r with
    | err e => exact Mimics.pure rfl
    | ok x =>
      cases x with
      | token t =>
        apply Mimics.bind (Mimics.getTok rfl)
        rintro tk _ rfl
        apply Mimics.bind (Mimics.newTok rfl)
        rintro w _ rfl
        apply Mimics.bind (Mimics.modTok hi rfl (fun k => by simp [Reloc.token]))
        rintro _ _ _
        exact Mimics.pure rfl
      | proxyChildren t =>
        apply Mimics.bind (Mimics.modTok hi rfl (fun k => setCaptured_token k k.matched))
        rintro _ _ _
        exact Mimics.pure rfl
      | _ => exact Mimics.pure rfl
  | @catch_ m g g' hg =>
    apply Mimics.bind (hf m _ sc)
    rintro r _ rfl
    cases r with
    | ok x => exact Mimics.pure rfl
    | err e => exact hg _ e
  | @map m sf ff sf' ff' hs he =>
    apply Mimics.bind (hf m _ sc)
    rintro r _ rfl
    cases r with
    | ok x =>
      cases x with
      | token t => exact hs t _ sc
      | proxyChildren t => exact hs t _ sc
      | _ => exact Mimics.pure rfl
    | err e => exact he e _ sc
  | @store m name cu =>
    apply Mimics.bind (hf m _ sc)
    rintro r _ rfl
    cases r with
    | err e => exact Mimics.pure rfl
    | ok x =>
      cases x with
      | token t =>
        apply Mimics.bind (Mimics.bindVar hi rfl rfl)
        rintro _ _ _
        exact Mimics.pure rfl
      | _ => exact Mimics.pure rfl
  | storeStr =>
    apply Mimics.bind (Mimics.bindVar hi rfl rfl)
    rintro _ _ _
    exact Mimics.pure rfl
  | fetch => exact Mimics.pure rfl
  | @ref target name cu =>
    apply Mimics.bind Mimics.fetchValue
    rintro v _ rfl
    cases v with
    | inl v =>
      apply Mimics.bind (Mimics.lookupVar rfl)
      rintro o _ rfl
      cases o with
      | none => exact Mimics.pure rfl
      | some x =>
        cases x with
        | matcher m => exact hf m _ sc
        | str _ => exact Mimics.pure rfl
        | token _ => exact Mimics.pure rfl
    | inr m => exact hf m _ sc
  | register => exact execRegister_mimics hi hn
  | @setScope k m =>
    show ρ.Mimics dv _ (execSetScope f k m c) (execSetScope f' (k.map ρ.sctx) (ρ.mat m) (ρ.ctx c))
    unfold execSetScope
    cases k with
    | some k => exact hf m _ k
    | none =>
      apply Mimics.bind (Mimics.pushScope hi rfl)
      rintro _ _ _
      apply Mimics.bind (hf m _ _)
      rintro r _ rfl
      apply Mimics.bind (Mimics.popScope hi rfl)
      rintro _ _ _
      exact Mimics.pure rfl
  | @pin m o name cu =>
    show ρ.Mimics dv _ (execPin cfg f m o name c sc)
      (execPin cfg f' (m.map ρ.mat) (ρ.arg o) name (ρ.ctx c) (ρ.sctx sc))
    unfold execPin
    apply Mimics.bind Mimics.fetchValue
    rintro v _ rfl
    cases v with
    | inr x => exact Mimics.pure rfl
    | inl v =>
      dsimp only [fetched]
      apply Mimics.bind (parseOffset_mimics (a := c.offset.start) (b := c.offset.start))
      rintro a _ rfl
      have : ρ.Mimics dv Eq (pinEnd cfg a c.offset.stop (splitDotDot v))
          (pinEnd cfg a c.offset.stop (splitDotDot v)) := by
        unfold pinEnd
        split
        · exact parseOffset_mimics
        · exact Mimics.pure rfl
      apply Mimics.bind this
      rintro b _ rfl
      cases m with
      | some m => exact hf m _ sc
      | none =>
        apply Mimics.bind (Mimics.newTok rfl)
        rintro t _ rfl
        exact Mimics.pure rfl
  | @debug m k =>
    show ρ.Mimics dv _ (execDebug f m k c sc) (execDebug f' (m.map ρ.mat) k (ρ.ctx c) (ρ.sctx sc))
    unfold execDebug
    show ρ.Mimics dv _ (M.ofOpt _ (c.debugRange 10) >>= _) (M.ofOpt _ (c.debugRange 10) >>= _)
    apply Mimics.bind Mimics.ofOpt
    rintro _ _ rfl
    cases m with
    | some m => exact hf m _ sc
    | none => exact Mimics.pure rfl
  | brk => exact Mimics.pure rfl
  | null => exact Mimics.pure rfl
  | @panic msg =>
    show ρ.Mimics dv _ (execPanic msg c) (execPanic msg (ρ.ctx c))
    unfold execPanic
    have : ρ.Mimics dv Eq (panicRange c) (panicRange (ρ.ctx c)) := by
      unfold panicRange
      dsimp only [Reloc.ctx]
      cases c.stack with
      | nil => exact Mimics.pure rfl
      | cons top st =>
        apply Mimics.bind (Mimics.getTok rfl)
        rintro tk _ rfl
        exact Mimics.pure rfl
    apply Mimics.bind this
    rintro r _ rfl
    show ρ.Mimics dv _ (M.ofOpt _ (c.errorString msg r) >>= _) (M.ofOpt _ (c.errorString msg r) >>= _)
    apply Mimics.bind Mimics.ofOpt
    rintro m _ rfl
    exact Mimics.pure rfl
  | @error msg =>
    show ρ.Mimics dv _ (execError msg c) (execError msg (ρ.ctx c))
    unfold execError newErrorToken
    apply Mimics.bind newErrorTokenWithRange_mimics
    rintro t _ rfl
    exact Mimics.pure rfl

end

theorem NodeMoved.custom {n n' : Node} (h : ρ.NodeMoved dv n n') :
    n'.hasCustomName = n.hasCustomName ∧ n'.name = n.name ∧ n'.isConsuming = n.isConsuming := by
  cases h <;> exact ⟨rfl, rfl, rfl⟩

theorem exec_mimics (hi : ρ.Inj) {T T' : Table} {cfg : Cfg} (hT : ρ.Moved dv T T')
    (hg : dv → ∀ m, (T m).Grafts) :
    ∀ {n n' : Nat}, n ≤ n' → (dv → n = n') → ρ.RecRel dv (exec T cfg n) (exec T' cfg n') := by
  intro n
  induction n with
  | zero =>
    intro n' _ hd m c sc
    apply Mimics.diverge
    intro h
    rw [← hd h]
    rfl
  | succ n ih =>
    intro n' hle hd m c sc
    obtain ⟨k, rfl⟩ : ∃ k, n' = k + 1 := ⟨n' - 1, by omega⟩
    unfold exec
    have hb : ρ.Mimics dv Eq (beforeExec (T m) m sc) (beforeExec (T' (ρ.mat m)) (ρ.mat m) (ρ.sctx sc)) := by
      unfold beforeExec
      rw [(hT m).custom.1, (hT m).custom.2.1]
      apply Mimics.ite <;> intro _
      · exact Mimics.bindVar hi rfl rfl
      · exact Mimics.pure rfl
    apply Mimics.bind hb
    rintro _ _ _
    exact execNode_mimics hi (ih (Nat.le_of_succ_le_succ hle) fun h => Nat.succ.inj (hd h)) (fun h => exec_grow (hg h) n) (fun p => (hT p).custom.2.2)
      (fun p => (hT p).custom.2.1) (hT m)

/-! ### `tokenize` -/

theorem splitErrors_mimics : ∀ cs : List TokId, ρ.Mimics dv (fun x y => y = (x.1.map ρ.tok, x.2.map ρ.tok))
    (splitErrors cs) (splitErrors (cs.map ρ.tok)) := by
  intro cs
  induction cs with
  | nil => exact Mimics.pure rfl
  | cons c cs ih =>
    simp only [List.map_cons]
    unfold splitErrors
    apply Mimics.bind (Mimics.getTok rfl)
    rintro k _ rfl
    apply Mimics.bind ih
    rintro ⟨a, b⟩ _ rfl
    apply Mimics.pure
    show (if k.flagsEnabled IS_ERROR = true then _ else _) = _
    split <;> rfl

theorem collectErrors_mimics (hi : ρ.Inj) : ∀ {n n' : Nat} {root t : TokId} {b : Bool}, n ≤ n' →
    ρ.Mimics False Eq (collectErrors n root t b) (collectErrors n' (ρ.tok root) (ρ.tok t) b) := by
  intro n
  induction n with
  | zero => intros; exact Mimics.diverge False.elim
  | succ n ih =>
    intro n' root t b hn
    obtain ⟨k, rfl⟩ : ∃ k, n' = k + 1 := ⟨n' - 1, by omega⟩
    unfold collectErrors
    apply Mimics.bind (Mimics.getTok rfl)
    rintro tk _ rfl
    apply Mimics.bind (forEach_mimics (fun t => ih (root := root) (t := t) (b := false)
      (Nat.le_of_succ_le_succ hn)) tk.children)
    rintro _ _ _
    apply Mimics.ite <;> intro _
    · exact Mimics.pure rfl
    apply Mimics.bind (Mimics.getTok rfl)
    rintro tk _ rfl
    apply Mimics.bind (splitErrors_mimics tk.children)
    rintro ⟨a, b⟩ _ rfl
    apply Mimics.bind (Mimics.modTok hi rfl ?_)
    rotate_left
    · exact fun _ => rfl
    rintro _ _ _
    exact Mimics.modTok hi rfl (fun k => by simp [Reloc.token])

theorem collectErrorsTop_mimics (hi : ρ.Inj) {t : TokId} :
    ρ.Mimics False Eq (collectErrorsTop t) (collectErrorsTop (ρ.tok t)) := by
  unfold collectErrorsTop
  apply Mimics.bind Mimics.getState
  intro s s' hp
  exact collectErrors_mimics hi (Nat.succ_le_succ hp.le)

/-- The outcome of `tokenize`, with its reference changed. -/
def tokenized (ρ : Reloc) : Except Failure TokId → Except Failure TokId
  | .ok t => .ok (ρ.tok t)
  | .error f => .error f

theorem collectErrorsTop_ends {s : State} {t : TokId} {n : Nat} {l : List TokId} (h : Grove s.toks n [t] l) :
    collectErrorsTop t s ≠ .diverge := by
  obtain ⟨hp, hn, -, -⟩ := h
  cases hp with
  | cons hk hc hs =>
    cases hs
    rw [List.append_nil] at hn
    obtain ⟨es, s', -, h, -⟩ := C23_gather hk hc hn
    rw [h]
    intro h; cases h

theorem tokenize_mimics (hi : ρ.Inj) {T T' : Table} {cfg : Cfg} (hT : ρ.Moved dv T T')
    (hg : dv → ∀ m, (T m).Grafts) {n n' : Nat} (hn : n ≤ n') (hd : dv → n = n') {c : Ctx} {m : MatcherId} :
    ρ.Mimics dv (fun x y => y = ρ.tokenized x) (tokenize T cfg n c m)
      (tokenize T' cfg n' (ρ.ctx c) (ρ.mat m)) := by
  unfold tokenize
  intro s s' hp
  apply (exec_mimics hi hT hg hn hd m c c.scope s s' hp).bind
  rintro r _ s s' hr rfl hp
  have ht : ∀ t, r.tok = some t → ρ.Same dv (fun x y => y = ρ.tokenized x) s'
      ((do collectErrorsTop t; pure (.ok t) : M (Except Failure TokId)) s)
      ((do collectErrorsTop (ρ.tok t); pure (.ok (ρ.tok t)) : M (Except Failure TokId)) s') := by
    intro t ht
    apply ((collectErrorsTop_mimics hi s s' hp).ends fun h => by
      obtain ⟨l, hl⟩ := (Post.of_ok (exec_grow (hg h) n m c c.scope _) hr).2 t ht
      exact collectErrorsTop_ends hl).bind
    rintro _ _ s1 s1' _ _ hp
    exact ⟨_, s1', rfl, rfl, hp, Kept.refl _⟩
  have hpure : ∀ f, ρ.Same dv (fun x y => y = ρ.tokenized x) s'
      ((pure (.error f) : M (Except Failure TokId)) s) ((pure (.error f) : M (Except Failure TokId)) s') :=
    fun f => ⟨_, s', rfl, rfl, hp, Kept.refl _⟩
  cases r with
  | err e => exact hpure _
  | ok x =>
    cases x with
    | token t => exact ht t rfl
    | proxyChildren t => exact ht t rfl
    | brk nm d =>
      cases d with
      | token t => exact ht t rfl
      | _ => exact hpure _
    | cont nm d =>
      cases d with
      | token t => exact ht t rfl
      | _ => exact hpure _
    | _ => exact hpure _

end Adx.Reloc
