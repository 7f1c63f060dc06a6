import Verif.Proofs.InterpFixed
import Verif.Proofs.InterpSane
import Verif.Props.Syntax
/-
  C50: what the matchers of a script do with a text is what a small interpreter says about
  the terms that the script means.
-/
namespace Adx.Interp

open Peg (body Cuts Cut Ready Sim Keeps)
open Syntax (Text)

variable {T : Table} {cfg : Cfg} {G : Grammar MatcherId} {S : MatcherId → Prop} {K : SCtxId → Prop} {C : Str → Prop}
  {p : Parser} {stop : Nat} {m : MatcherId} {c : Ctx} {sc : SCtxId} {s : State} {n : Nat}

/-! ### Any matchers -/

/-- **C50**, in lock step: at every depth of recursion the engine and the interpreter both
run out of depth, or both return, a user sees the same, and names stand for the same
afterwards; the engine does not panic. -/
theorem C50_lock_step (hF : Forms T G S K C) (hb : blen p.src ≤ isizeMax)
    (hasc : ∀ m, S m → (G.expr m).Between p.src) (hm : S m) (hK : K sc) (hc : Ready p stop c)
    (hcut : Cut p.src stop c.offset.start) (hk : Knows S K C s) :
    Sim (exec T cfg n m c sc s) (eval G heapNames p stop n m sc c.offset.start (vars s))
      fun r s' x => Sees s'.toks r x.1 ∧ vars s' = x.2 :=
  (lock hF hb hasc n m hm c sc s hK hc hcut hk).mono fun _ _ _ h => ⟨h.shows.sees, h.store⟩

/-- The interpreter returns `x` if it is given enough depth. -/
def Evals {N σ : Type} (G : Grammar N) (nm : Names σ N) (p : Parser) (stop : Nat) (m : N) (k pos : Nat) (st : σ)
    (x : Result × σ) : Prop := ∃ n, eval G nm p stop n m k pos st = some x

/-- There is only one result. -/
theorem C50_unique {N σ : Type} {G : Grammar N} {nm : Names σ N} {m : N} {k pos : Nat} {st : σ} {x y : Result × σ}
    (h : Evals G nm p stop m k pos st x) (h' : Evals G nm p stop m k pos st y) : x = y := by
  obtain ⟨n, h⟩ := h
  obtain ⟨n', h'⟩ := h'
  have h1 := eval_mono (Nat.le_max_left n n') h
  have h2 := eval_mono (Nat.le_max_right n n') h'
  rw [h1] at h2
  exact Option.some.inj h2

/-- **C50**: whatever the engine returns, the interpreter returns too. -/
theorem C50_sound (hF : Forms T G S K C) (hb : blen p.src ≤ isizeMax)
    (hasc : ∀ m, S m → (G.expr m).Between p.src) (hm : S m) (hK : K sc) (hc : Ready p stop c)
    (hcut : Cut p.src stop c.offset.start) (hk : Knows S K C s) {r : R} {s' : State} (h : Runs T cfg m c sc s r s') :
    ∃ x, Evals G heapNames p stop m sc c.offset.start (vars s) x ∧ Sees s'.toks r x.1 ∧ vars s' = x.2 := by
  obtain ⟨n, h⟩ := h
  have := C50_lock_step (cfg := cfg) (n := n) hF hb hasc hm hK hc hcut hk
  rw [h] at this
  unfold Sim at this
  split at this
  · rename_i h1 h2
    cases h1
    exact ⟨_, ⟨n, h2⟩, this⟩
  · rename_i h1 _
    cases h1
  · exact this.elim

/-- **C50**: whatever the interpreter returns, the engine returns too. -/
theorem C50_complete (hF : Forms T G S K C) (hb : blen p.src ≤ isizeMax)
    (hasc : ∀ m, S m → (G.expr m).Between p.src) (hm : S m) (hK : K sc) (hc : Ready p stop c)
    (hcut : Cut p.src stop c.offset.start) (hk : Knows S K C s) {x : Result × Vars}
    (h : Evals G heapNames p stop m sc c.offset.start (vars s) x) :
    ∃ r s', Runs T cfg m c sc s r s' ∧ Sees s'.toks r x.1 ∧ vars s' = x.2 := by
  obtain ⟨n, h⟩ := h
  have := C50_lock_step (cfg := cfg) (n := n) hF hb hasc hm hK hc hcut hk
  rw [h] at this
  unfold Sim at this
  split at this
  · rename_i h1 h2
    cases h2
    exact ⟨_, _, ⟨n, h1⟩, this⟩
  · rename_i _ h2
    cases h2
  · exact this.elim

/-- **C50**: the engine never panics. -/
theorem C50_no_panic (hF : Forms T G S K C) (hb : blen p.src ≤ isizeMax)
    (hasc : ∀ m, S m → (G.expr m).Between p.src) (hm : S m) (hK : K sc) (hc : Ready p stop c)
    (hcut : Cut p.src stop c.offset.start) (hk : Knows S K C s) : ¬ Panics T cfg m c sc s := by
  rintro ⟨n, e, h⟩
  have := C50_lock_step (cfg := cfg) (n := n) hF hb hasc hm hK hc hcut hk
  rw [h] at this
  unfold Sim at this
  split at this
  · rename_i h1 _; cases h1
  · rename_i h1 _; cases h1
  · exact this

/-- **C50** for `tokenize`: it returns the token of the interpreter, or its error, and fails
if the interpreter has neither; what was on the heap stays as it is. -/
theorem C50_tokenize (hF : Forms T G S K C) (hb : blen p.src ≤ isizeMax)
    (hasc : ∀ m, S m → (G.expr m).Between p.src) (hm : S m) (hK : K c.scope) (hc : Ready p stop c)
    (hcut : Cut p.src stop c.offset.start) (hk : Knows S K C s) :
    Sim (tokenize T cfg n c m s) (eval G heapNames p stop n m c.scope c.offset.start (vars s))
      fun r s' x => SeesRoot s'.toks r x.1 ∧ vars s' = x.2 ∧ ∀ i, i < s.toks.length → s'.toks[i]? = s.toks[i]? :=
  (tokenize_sim hF hb hasc hm hK hc hcut hk).mono fun _ _ _ ⟨h1, h2, h3, _⟩ => ⟨h1, h3, h2.same⟩

/-! ### Scripts -/

/-- **C50** for scripts without imports.  Definitions change when terms with names are tried,
so the interpreter says which definitions are left, and these are the definitions of the
script afterwards. -/
theorem C50_script {w : World} {lo slo : Nat} {n : Str} {gs : List Gram} {bs : List (Str × Gram)} {fuel : Nat}
    (hf : IsFile w lo slo m sc n gs (bs.map fun b => (b.1, .own b.2))) (hok : ScopesOK w.st)
    (hc : Ready p stop c) (hcut : Cut p.src stop c.offset.start) (hb : blen p.src ≤ isizeMax)
    (hu : c.scope < w.st.sctxs.length) (hne : sc ≠ c.scope)
    (hfree : ∀ x y, w.st.lookup c.scope x = some (.matcher y) → y = m)
    (hgs : ∀ g ∈ gs, Sane (AsciiBetween p.src) g) (hbs : ∀ x g, lastDef bs x = some g → Sane (AsciiBetween p.src) g) :
    Sim (tokenize (tableOf w.nodes) cfg fuel c m w.st) (runScript p stop n gs fuel c.offset.start bs)
      (fun r s' x => SeesRoot s'.toks r x.1 ∧ (∀ i, i < w.st.toks.length → s'.toks[i]? = w.st.toks[i]?) ∧
        IsFile ⟨w.nodes, s'⟩ lo slo m sc n gs (x.2.map fun b => (b.1, .own b.2)) ∧ ScopesOK s' ∧
        ∀ y g, lastDef x.2 y = some g → Sane (AsciiBetween p.src) g) :=
  (script_run hf hok hc hcut hb hu hne hfree hgs hbs).mono fun _ _ _ ⟨h1, h2, _, h3⟩ => ⟨h1, h2.same, h3⟩

/-- **C50** for scripts with imports, if using a definition does not change what names stand
for. -/
theorem C50_fixed {w : World} {R : Str → Prop} {lo slo : Nat} {n : Str} {gs : List Gram} {bs : List (Str × Thing)} {fuel : Nat}
    (hf : IsFile w lo slo m sc n gs bs) (hst : Steady R w s)
    (hc : Ready p stop c) (hcut : Cut p.src stop c.offset.start) (hb : blen p.src ≤ isizeMax)
    (hnew : w.st.sctxs.length ≤ c.scope) (hu : c.scope < s.sctxs.length)
    (hfree : ∀ x y, s.lookup c.scope x = some (.matcher y) → y = m)
    (hq : QuietAll R gs) (ht : TameDefs R bs) (hgs : ∀ g ∈ gs, Sane (AsciiBetween p.src) g) (hbs : SaneDefs (AsciiBetween p.src) bs) :
    Sim (tokenize (tableOf w.nodes) cfg fuel c m s) (runFixed p stop n gs bs fuel c.offset.start)
      (fun r s' x => SeesRoot s'.toks r x ∧ (∀ i, i < s.toks.length → s'.toks[i]? = s.toks[i]?) ∧ Steady R w s') :=
  (fixed_run hf hst hc hcut hb hnew hu hfree hq ht hgs hbs).mono fun _ _ _ ⟨h1, h2, _, h3⟩ => ⟨h1, h2.same, h3⟩

/-! ### A new context for each text -/

/-- A new context has a scope without names. -/
theorem new_free {s : State} {x : Str} : s.newSCtx.2.lookup s.newSCtx.1 x = none := by
  unfold State.lookup State.newSCtx
  simp [lookupStack]

theorem new_look {s : State} {k : SCtxId} (hk : k < s.sctxs.length) {x : Str} :
    s.newSCtx.2.lookup k x = s.lookup k x := by
  unfold State.lookup State.newSCtx
  dsimp only
  rw [List.getElem?_append_left hk]

theorem whole_cut {src : Str} : Cut src (blen src) 0 := ⟨src, [], [], by simp, rfl, by simp [blen]⟩

theorem Sane.imp {d d' : Quotes} (hd : ∀ a b e, d a b e → d' a b e) {g : Gram} (h : Sane d g) : Sane d' g := by
  induction h with
  | equals => exact .equals
  | regex h => exact .regex h
  | sequence h ha hb => exact .sequence (hd _ _ _ h) ha hb
  | ref => exact .ref
  | null => exact .null
  | group _ ih => exact .group ih
  | loop _ ih => exact .loop ih
  | opt _ ih => exact .opt ih
  | not _ ih => exact .not ih
  | discard _ ih => exact .discard ih
  | attrs _ ih => exact .attrs ih

mutual

theorem SaneThing.imp {d d' : Quotes} (hd : ∀ a b e, d a b e → d' a b e) {th : Thing} : SaneThing d th → SaneThing d' th
  | .own h => .own (h.imp hd)
  | .file hg hb => .file (fun g hm => (hg g hm).imp hd) (hb.imp hd)
  | .member hb => .member (hb.imp hd)
termination_by structural h => h

theorem SaneDefs.imp {d d' : Quotes} (hd : ∀ a b e, d a b e → d' a b e) {bs : List (Str × Thing)} : SaneDefs d bs → SaneDefs d' bs
  | .mk h => .mk fun x th hx => (h x th hx).imp hd
termination_by structural h => h

end

theorem Steady.new {R : Str → Prop} {w : World} {s : State} (h : Steady R w s) : Steady R w s.newSCtx.2 := by
  refine ⟨h.ok.newSCtx, ?_, ?_⟩
  · exact Nat.le_trans h.alive (by simp [State.newSCtx])
  · intro k hk x hx
    rw [new_look (Nat.lt_of_lt_of_le hk h.alive)]
    exact h.look k hk x hx

theorem Steady.start {R : Str → Prop} {w : World} (h : ScopesOK w.st) : Steady R w w.st :=
  ⟨h, Nat.le_refl _, fun _ _ _ _ => rfl⟩

/-- A parse with a new context. -/
theorem fixed_new {w : World} {R : Str → Prop} {lo slo : Nat} {n name : Str} {gs : List Gram} {bs : List (Str × Thing)} {fuel : Nat}
    {d : Quotes} (hf : IsFile w lo slo m sc n gs bs) (hst : Steady R w s) (hb : blen p.src ≤ isizeMax)
    (hq : QuietAll R gs) (ht : TameDefs R bs) (hgs : ∀ g ∈ gs, Sane d g) (hbs : SaneDefs d bs) (hd : Suits d p.src) :
    Sim (tokenize (tableOf w.nodes) cfg fuel (Ctx.new p s.newSCtx.1 name) m s.newSCtx.2)
      (runFixed p (blen p.src) n gs bs fuel 0) (fun r s' x => SeesRoot s'.toks r x ∧ Steady R w s') := by
  refine (C50_fixed (c := Ctx.new p s.newSCtx.1 name) hf hst.new ⟨rfl, rfl, rfl⟩ whole_cut hb hst.alive ?_ ?_ hq ht
    (fun g hg => (hgs g hg).imp hd) (hbs.imp hd)).mono fun _ _ _ ⟨h1, _, h3⟩ => ⟨h1, h3⟩
  · show s.sctxs.length < s.newSCtx.2.sctxs.length
    simp [State.newSCtx]
  · intro x y hx
    rw [show (Ctx.new p s.newSCtx.1 name).scope = s.newSCtx.1 from rfl, new_free] at hx
    cases hx

/-- **C50**: if using a definition does not change what names stand for, then each parse of a
text has the result that the interpreter says, whatever has been parsed before. -/
theorem C50_any_time {w : World} {R : Str → Prop} {lo slo : Nat} {n name : Str} {gs : List Gram} {bs : List (Str × Thing)}
    {fuel : Nat} {d : Quotes} (hf : IsFile w lo slo m sc n gs bs) (hok : ScopesOK w.st)
    (hq : QuietAll R gs) (ht : TameDefs R bs) (hgs : ∀ g ∈ gs, Sane d g) (hbs : SaneDefs d bs)
    (hused : Used (tableOf w.nodes) cfg m (Suits d) w.st s)
    (hb : blen p.src ≤ isizeMax) (hd : Suits d p.src) :
    Sim (tokenize (tableOf w.nodes) cfg fuel (Ctx.new p s.newSCtx.1 name) m s.newSCtx.2)
      (runFixed p (blen p.src) n gs bs fuel 0) (fun r s' x => SeesRoot s'.toks r x) := by
  have key : Steady R w s := by
    induction hused with
    | refl => exact .start hok
    | @parse s1 s' p name fuel r _ hb hp ht' ih =>
      have := fixed_new (cfg := cfg) (fuel := fuel) (name := name) hf ih hb hq ht hgs hbs hp
      rw [ht'] at this
      generalize runFixed p (blen p.src) n gs bs fuel 0 = y at this
      cases y with
      | none => exact this.elim
      | some x => exact this.2
  exact (fixed_new hf key hb hq ht hgs hbs hd).mono fun _ _ _ h => h.1

/-! ### Texts of scripts -/

/-- **C50**, from the text of a script to the tokens: the text is compiled, and whatever is
then parsed with it has the result that the interpreter says. -/
theorem C50_text {env : Env} {w : World} {src file name : Str} {fromFile : Option Str} {n : Str} {gs : List Gram}
    {bs : List (Str × Thing)} {R : Str → Prop} {d : Quotes} (h : Text env src name fromFile n gs bs) (hm : Compiled env w)
    (hok : ScopesOK w.st) (hq : QuietAll R gs) (ht : TameDefs R bs) (hgs : ∀ g ∈ gs, Sane d g) (hbs : SaneDefs d bs) :
    ∃ N m sc w', (∀ fuel, N ≤ fuel → compileScript env fuel ⟨src, file⟩ name fromFile w = .ok m sc w') ∧
      ∀ cfg s p nm fuel, Used (tableOf w'.nodes) cfg m (Suits d) w'.st s → blen p.src ≤ isizeMax →
        Suits d p.src →
        Sim (tokenize (tableOf w'.nodes) cfg fuel (Ctx.new p s.newSCtx.1 nm) m s.newSCtx.2)
          (runFixed p (blen p.src) n gs bs fuel 0) (fun r s' x => SeesRoot s'.toks r x) := by
  obtain ⟨N, m, sc, w', h1, h2, h3⟩ := C49_compiles (file := file) h w hm.milds hok
  exact ⟨N, m, sc, w', h1, fun cfg s p nm fuel hu hb hd => C50_any_time h3 h2 hq ht hgs hbs hu hb hd⟩

/-- **C50**, from the text of a script without imports to the tokens of the first parse,
whatever its definitions. -/
theorem C50_text_first {env : Env} {w : World} {src name : Str} {nm : Option Str} {gs : List Gram} {bs : List (Str × Gram)}
    {d : Quotes} (ha : Ascii src) (hs : blen src ≤ isizeMax) (h : Syntax.Script env src nm gs (bs.map fun b => .own b.1 b.2))
    (hm : Compiled env w) (hok : ScopesOK w.st) (hgs : ∀ g ∈ gs, Sane d g) (hbs : ∀ x g, lastDef bs x = some g → Sane d g) :
    ∃ N m sc w', (∀ fuel, N ≤ fuel → compileScriptFromStr env fuel src name w = .ok m sc w') ∧
      ∀ cfg p cn fuel, blen p.src ≤ isizeMax → Suits d p.src →
        Sim (tokenize (tableOf w'.nodes) cfg fuel (Ctx.new p w'.st.newSCtx.1 cn) m w'.st.newSCtx.2)
          (runScript p (blen p.src) (nm.getD name) gs fuel 0 bs) (fun r s' x => SeesRoot s'.toks r x.1) := by
  obtain ⟨N, m, sc, w', h1, h2, h3⟩ := C49_str (name := name) ha hs h w hm.milds hok
  refine ⟨N, m, sc, w', h1, fun cfg p cn fuel hb hd => ?_⟩
  have hlt : sc < w'.st.sctxs.length := by
    cases h3 with
    | mk _ _ _ _ _ _ _ _ _ _ h => exact h.lt
  have h3' : IsFile ⟨w'.nodes, w'.st.newSCtx.2⟩ w.nodes.length w.st.sctxs.length m sc (nm.getD name) gs
      (bs.map fun b => (b.1, .own b.2)) :=
    h3.mono ⟨fun _ _ _ h => h, by simp [State.newSCtx], fun k _ hk x => new_look hk⟩
  refine (C50_script (w := ⟨w'.nodes, w'.st.newSCtx.2⟩) (c := Ctx.new p w'.st.newSCtx.1 cn) h3' h2.newSCtx ⟨rfl, rfl, rfl⟩ whole_cut
    hb ?_ ?_ ?_ (fun g hg => (hgs g hg).imp hd) (fun x g hx => (hbs x g hx).imp hd)).mono fun _ _ _ h => h.1
  · show w'.st.sctxs.length < w'.st.newSCtx.2.sctxs.length
    simp [State.newSCtx]
  · exact Nat.ne_of_lt hlt
  · intro x y hx
    rw [show (Ctx.new p w'.st.newSCtx.1 cn).scope = w'.st.newSCtx.1 from rfl] at hx
    dsimp only at hx
    rw [new_free] at hx
    cases hx

/-- **C50** for texts of one byte per character: nothing else is needed of the script than
that its definitions do not change. -/
theorem C50_text_ascii {env : Env} {w : World} {src file name : Str} {fromFile : Option Str} {n : Str} {gs : List Gram}
    {bs : List (Str × Thing)} {R : Str → Prop} (hre : CutsAll env) (h : Text env src name fromFile n gs bs) (hm : Compiled env w)
    (hok : ScopesOK w.st) (hq : QuietAll R gs) (ht : TameDefs R bs) :
    ∃ N m sc w', (∀ fuel, N ≤ fuel → compileScript env fuel ⟨src, file⟩ name fromFile w = .ok m sc w') ∧
      ∀ cfg s p nm fuel, Used (tableOf w'.nodes) cfg m Ascii w'.st s → blen p.src ≤ isizeMax → Ascii p.src →
        Sim (tokenize (tableOf w'.nodes) cfg fuel (Ctx.new p s.newSCtx.1 nm) m s.newSCtx.2)
          (runFixed p (blen p.src) n gs bs fuel 0) (fun r s' x => SeesRoot s'.toks r x) := by
  obtain ⟨h1, h2⟩ := text_sane hre h
  obtain ⟨N, m, sc, w', h3, h4⟩ := C50_text (file := file) h hm hok hq ht h1 h2
  refine ⟨N, m, sc, w', h3, fun cfg s p nm fuel hu hb hp => h4 cfg s p nm fuel ?_ hb (suits_of_ascii hp)⟩
  induction hu with
  | refl => exact .refl
  | parse _ hb hp ht ih => exact .parse ih hb (suits_of_ascii hp) ht

/-- **C50** for the first parse of a text of one byte per character, without any condition on
the script. -/
theorem C50_text_first_ascii {env : Env} {w : World} {src name : Str} {nm : Option Str} {gs : List Gram} {bs : List (Str × Gram)}
    (hre : CutsAll env) (ha : Ascii src) (hs : blen src ≤ isizeMax)
    (h : Syntax.Script env src nm gs (bs.map fun b => .own b.1 b.2)) (hm : Compiled env w) (hok : ScopesOK w.st) :
    ∃ N m sc w', (∀ fuel, N ≤ fuel → compileScriptFromStr env fuel src name w = .ok m sc w') ∧
      ∀ cfg p cn fuel, blen p.src ≤ isizeMax → Ascii p.src →
        Sim (tokenize (tableOf w'.nodes) cfg fuel (Ctx.new p w'.st.newSCtx.1 cn) m w'.st.newSCtx.2)
          (runScript p (blen p.src) (nm.getD name) gs fuel 0 bs) (fun r s' x => SeesRoot s'.toks r x.1) := by
  obtain ⟨h1, h2⟩ := script_sane hre h
  obtain ⟨N, m, sc, w', h3, h4⟩ := C50_text_first (name := name) ha hs h hm hok h1 fun x g hx =>
    h2 x g (List.mem_map.mpr ⟨(x, g), lastDef_mem hx, rfl⟩)
  exact ⟨N, m, sc, w', h3, fun cfg p cn fuel hb hp => h4 cfg p cn fuel hb (suits_of_ascii hp)⟩

end Adx.Interp
