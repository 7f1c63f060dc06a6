import Verif.Proofs.Linked
import Verif.Props.InterpExample
/-
  C63: what scripts with imports do with texts that are parsed one after the other, whatever
  their definitions.
-/
namespace Adx.Interp

open Peg (body Cuts Cut Ready Sim Keeps)
open Syntax (Text)

variable {w : World} {d : Quotes} {cfg : Cfg} {lo slo lo' : Nat} {n name : Str} {gs : List Gram} {bs : List (Str × Thing)} {m : MatcherId}
  {sc hi : SCtxId} {s : State} {p : Parser} {fuel : Nat}

theorem Laid.new {P : Nat → SCtxId → List (Str × Thing) → Prop} {σ : Layout} (hP : Spread w P) (h : Laid w d P s σ) : Laid w d P s.newSCtx.2 σ where
  ok := h.ok.newSCtx
  alive := Nat.le_trans h.alive (by simp [State.newSCtx])
  names hp x := by
    rw [get_vars, new_look (Nat.lt_of_lt_of_le (hP.lt hp) h.alive), ← get_vars]
    exact h.names hp x

/-- A parse with a new context. -/
theorem linked_new {P : Nat → SCtxId → List (Str × Thing) → Prop} {σ : Layout} (hf : IsFile w lo slo m sc n gs bs) (hsc : P 1 sc bs)
    (hP : Spread w P) (hla : Laid w d P s σ) (hgs : ∀ g ∈ gs, Sane d g) (hb : blen p.src ≤ isizeMax) (hd : Suits d p.src) :
    Sim (tokenize (tableOf w.nodes) cfg fuel (Ctx.new p s.newSCtx.1 name) m s.newSCtx.2) (runLinked p (blen p.src) n gs fuel 0 σ)
      (fun r s' x => SeesRoot s'.toks r x.1 ∧ Keeps s.toks.length s.newSCtx.2 s' ∧ Laid w d P s' x.2) := by
  refine (linked_run (c := Ctx.new p s.newSCtx.1 name) hf hsc hP (hla.new hP) ⟨rfl, rfl, rfl⟩ whole_cut hb hla.alive ?_ ?_ hgs
    hd).mono fun _ _ _ ⟨h1, h2, _, h3⟩ => ⟨h1, h2, h3⟩
  · show s.sctxs.length < s.newSCtx.2.sctxs.length
    simp [State.newSCtx]
  · intro x y hx
    rw [show (Ctx.new p s.newSCtx.1 name).scope = s.newSCtx.1 from rfl, new_free] at hx
    cases hx

theorem linked_parses {P : Nat → SCtxId → List (Str × Thing) → Prop} {ps : List Parser} {σ : Layout} (hf : IsFile w lo slo m sc n gs bs)
    (hsc : P 1 sc bs) (hP : Spread w P) (hla : Laid w d P s σ) (hgs : ∀ g ∈ gs, Sane d g)
    (hps : ∀ p ∈ ps, blen p.src ≤ isizeMax ∧ Suits d p.src) :
    (∀ {s'}, Parses (tableOf w.nodes) cfg m ps s s' → ∃ σ', After n gs ps σ σ' ∧ Laid w d P s' σ') ∧
    (∀ {σ'}, After n gs ps σ σ' → ∃ s', Parses (tableOf w.nodes) cfg m ps s s' ∧ Laid w d P s' σ') := by
  induction ps generalizing s σ with
  | nil => exact ⟨fun h => by cases h; exact ⟨σ, .nil, hla⟩, fun h => by cases h; exact ⟨s, .nil, hla⟩⟩
  | cons p ps ih =>
    have hp := hps p (List.mem_cons_self ..)
    refine ⟨fun h => ?_, fun h => ?_⟩
    · cases h with
      | @cons _ _ _ s1 _ name fuel r h hs =>
        have hS := linked_new (cfg := cfg) (fuel := fuel) (name := name) hf hsc hP hla hgs hp.1 hp.2
        rw [h] at hS
        cases hr : runLinked p (blen p.src) n gs fuel 0 σ with
        | none => rw [hr] at hS; exact hS.elim
        | some x =>
          rw [hr] at hS
          obtain ⟨σ', h1, h2⟩ := (ih hS.2.2 fun p hp => hps p (List.mem_cons_of_mem _ hp)).1 hs
          exact ⟨σ', .cons hr h1, h2⟩
    · cases h with
      | @cons _ _ _ x _ fuel h hs =>
        have hS := linked_new (cfg := cfg) (fuel := fuel) (name := []) hf hsc hP hla hgs hp.1 hp.2
        rw [h] at hS
        cases hr : tokenize (tableOf w.nodes) cfg fuel (Ctx.new p s.newSCtx.1 []) m s.newSCtx.2 with
        | ok r s1 =>
          rw [hr] at hS
          obtain ⟨s', h1, h2⟩ := (ih hS.2.2 fun p hp => hps p (List.mem_cons_of_mem _ hp)).2 hs
          exact ⟨s', .cons hr h1, h2⟩
        | panic => rw [hr] at hS; exact hS.elim
        | diverge => rw [hr] at hS; exact hS.elim

/-- There is only one way to go on. -/
theorem C63_unique {ps : List Parser} {σ σ1 σ2 : Layout} (h1 : After n gs ps σ σ1) (h2 : After n gs ps σ σ2) : σ1 = σ2 := by
  induction h1 with
  | nil => cases h2; rfl
  | cons h _ ih =>
    cases h2 with
    | cons h' hs' =>
      have := C50_unique (m := Joint.whole n gs) (k := 0) ⟨_, h⟩ ⟨_, h'⟩
      subst this
      exact ih hs'

/-- **C63**: after any texts were parsed with a script, the definitions in the scopes are those
that the interpreter says, and each further parse has the result that the interpreter says
for these definitions. -/
theorem C63_any_time (hf : IsFile w lo slo m sc n gs bs) (hg : Grafted w lo' sc hi bs) (hok : ScopesOK w.st)
    (hgs : ∀ g ∈ gs, Sane d g) (hbs : SaneDefs d bs) {ps : List Parser} (hps : ∀ p ∈ ps, blen p.src ≤ isizeMax ∧ Suits d p.src)
    (h : Parses (tableOf w.nodes) cfg m ps w.st s) :
    ∃ σ, After n gs ps (scopesOf bs) σ ∧ ∀ p name fuel, blen p.src ≤ isizeMax → Suits d p.src →
      Sim (tokenize (tableOf w.nodes) cfg fuel (Ctx.new p s.newSCtx.1 name) m s.newSCtx.2) (runLinked p (blen p.src) n gs fuel 0 σ)
        (fun r s' x => SeesRoot s'.toks r x.1 ∧ ∀ i, i < s.toks.length → s'.toks[i]? = s.toks[i]?) := by
  have hin : ∃ lo, InScope w lo sc bs := by
    cases hf with
    | mk _ _ _ _ _ _ _ _ _ _ h => exact ⟨_, h⟩
  obtain ⟨_, hin⟩ := hin
  obtain ⟨σ, h1, h2⟩ := (linked_parses hf .here (spread hg) (laid_start hok hin hbs hg) hgs hps).1 h
  exact ⟨σ, h1, fun p name fuel hb hd =>
    (linked_new hf .here (spread hg) h2 hgs hb hd).mono fun _ _ _ ⟨h1, h2, _⟩ => ⟨h1, h2.same⟩⟩

/-- **C63**: whenever the interpreter comes to an end for texts, one after the other, the
engine does too. -/
theorem C63_comes (hf : IsFile w lo slo m sc n gs bs) (hg : Grafted w lo' sc hi bs) (hok : ScopesOK w.st)
    (hgs : ∀ g ∈ gs, Sane d g) (hbs : SaneDefs d bs) {ps : List Parser} (hps : ∀ p ∈ ps, blen p.src ≤ isizeMax ∧ Suits d p.src)
    {σ : Layout} (h : After n gs ps (scopesOf bs) σ) : ∃ s, Parses (tableOf w.nodes) cfg m ps w.st s := by
  have hin : ∃ lo, InScope w lo sc bs := by
    cases hf with
    | mk _ _ _ _ _ _ _ _ _ _ h => exact ⟨_, h⟩
  obtain ⟨_, hin⟩ := hin
  obtain ⟨s, h1, _⟩ := (linked_parses hf .here (spread hg) (laid_start hok hin hbs hg) hgs hps).2 h
  exact ⟨s, h1⟩

/-! ### Texts of scripts -/

/-- **C63**, from the text of a script to the tokens of each parse. -/
theorem C63_text {env : Env} {src file : Str} {fromFile : Option Str} (h : Text env src name fromFile n gs bs) (hm : Compiled env w)
    (hok : ScopesOK w.st) (hgs : ∀ g ∈ gs, Sane d g) (hbs : SaneDefs d bs) :
    ∃ N m sc w', (∀ fuel, N ≤ fuel → compileScript env fuel ⟨src, file⟩ name fromFile w = .ok m sc w') ∧
      ∀ cfg ps, (∀ p ∈ ps, blen p.src ≤ isizeMax ∧ Suits d p.src) →
        (∀ σ, After n gs ps (scopesOf bs) σ → ∃ s, Parses (tableOf w'.nodes) cfg m ps w'.st s) ∧
        ∀ s, Parses (tableOf w'.nodes) cfg m ps w'.st s →
          ∃ σ, After n gs ps (scopesOf bs) σ ∧ ∀ p nm fuel, blen p.src ≤ isizeMax → Suits d p.src →
            Sim (tokenize (tableOf w'.nodes) cfg fuel (Ctx.new p s.newSCtx.1 nm) m s.newSCtx.2)
              (runLinked p (blen p.src) n gs fuel 0 σ)
              (fun r s' x => SeesRoot s'.toks r x.1 ∧ ∀ i, i < s.toks.length → s'.toks[i]? = s.toks[i]?) := by
  obtain ⟨N, m, sc, w', h1, h2, h3, h4⟩ := C49_plants (file := file) h w hm.milds hok
  exact ⟨N, m, sc, w', h1, fun cfg ps hps => ⟨fun σ ha => C63_comes h3 h4 h2 hgs hbs hps ha,
    fun s hs => C63_any_time h3 h4 h2 hgs hbs hps hs⟩⟩

/-- **C63** for texts of one byte per character: nothing is needed of the script. -/
theorem C63_text_ascii {env : Env} {src file : Str} {fromFile : Option Str} (hre : CutsAll env) (h : Text env src name fromFile n gs bs)
    (hm : Compiled env w) (hok : ScopesOK w.st) :
    ∃ N m sc w', (∀ fuel, N ≤ fuel → compileScript env fuel ⟨src, file⟩ name fromFile w = .ok m sc w') ∧
      ∀ cfg ps, (∀ p ∈ ps, blen p.src ≤ isizeMax ∧ Ascii p.src) →
        (∀ σ, After n gs ps (scopesOf bs) σ → ∃ s, Parses (tableOf w'.nodes) cfg m ps w'.st s) ∧
        ∀ s, Parses (tableOf w'.nodes) cfg m ps w'.st s →
          ∃ σ, After n gs ps (scopesOf bs) σ ∧ ∀ p nm fuel, blen p.src ≤ isizeMax → Ascii p.src →
            Sim (tokenize (tableOf w'.nodes) cfg fuel (Ctx.new p s.newSCtx.1 nm) m s.newSCtx.2)
              (runLinked p (blen p.src) n gs fuel 0 σ)
              (fun r s' x => SeesRoot s'.toks r x.1 ∧ ∀ i, i < s.toks.length → s'.toks[i]? = s.toks[i]?) := by
  obtain ⟨h1, h2⟩ := text_sane hre h
  obtain ⟨N, m, sc, w', h3, h4⟩ := C63_text (file := file) h hm hok h1 h2
  refine ⟨N, m, sc, w', h3, fun cfg ps hps => ?_⟩
  obtain ⟨h5, h6⟩ := h4 cfg ps fun p hp => ⟨(hps p hp).1, suits_of_ascii (hps p hp).2⟩
  refine ⟨h5, fun s hs => ?_⟩
  obtain ⟨σ, h7, h8⟩ := h6 s hs
  exact ⟨σ, h7, fun p nm fuel hb hp => h8 p nm fuel hb (suits_of_ascii hp)⟩

/-! ### Scripts without imports -/

/-- The parts of a script in both interpreters. -/
inductive Mirror : Part → Nat → Joint → Nat → Prop
  | gram {g} : Mirror (.gram g) 1 (.gram g) 1
  | own {g} : Mirror (.gram g) 1 (.thing 1 (.own g)) 1
  | whole {n : Str} {gs : List Gram} : Mirror (.whole n gs) 0 (.whole n gs) 0
  | inside {gs : List Gram} : Mirror (.inside gs) 0 (.inside gs 1) 0
  | flat {gs : List Gram} : Mirror (.flat gs) 1 (.flat gs) 1
  | all {gs : List Gram} : Mirror (.all gs) 1 (.all gs) 1

/-- The same definitions. -/
def Mirrors (bs : List (Str × Gram)) (σ : Layout) : Prop := σ.defs 1 = bs.map fun b => (b.1, .own b.2)

theorem alike_mirror : Alike scriptGrammar scriptNames linkedGrammar linkedNames Mirror Mirrors where
  expr := by
    have own : ∀ g, Like scriptNames linkedNames Mirror Mirrors 1 1 (gramExpr Part.gram g) (gramExpr Joint.gram g) := by
      intro g
      by_cases hr : ∃ n c y, g = .ref n c y
      · obtain ⟨n, c, y, rfl⟩ := hr
        refine .call fun bs σ hi => ?_
        show Option.Rel _ ((lastDef bs y).map Part.gram) ((lastDef (σ.defs 1) y).map (Joint.thing 1))
        rw [show σ.defs 1 = _ from hi, lastDef_map]
        cases lastDef bs y with
        | none => exact .none
        | some g => exact .some .own
      · exact gramExpr_like (fun n c y he => hr ⟨n, c, y, he⟩) fun g' _ => .gram
    intro x k y k' h
    cases h with
    | gram => exact own _
    | own => exact own _
    | whole => exact .seq (.cons .inside .nil)
    | inside => exact .within .flat
    | flat => exact .flat .all
    | @all gs =>
      refine .seq ?_
      induction gs with
      | nil => exact .nil
      | cons g gs ih => exact .cons .gram ih
  enter := by
    have add : ∀ {bs σ g l}, Mirrors bs σ → Mirrors (bs ++ [(l, g)]) (σ.add 1 l (.own g)) := by
      intro bs σ g l h
      unfold Mirrors at h ⊢
      rw [defs_add, if_pos rfl, h, List.map_append]
      rfl
    have own : ∀ {bs σ} (g : Gram), Mirrors bs σ → Mirrors (match gramLabel g with | some l => bs ++ [(l, g)] | none => bs)
        (match gramLabel g with | some l => σ.add 1 l (.own g) | none => σ) := by
      intro bs σ g h
      cases gramLabel g with
      | none => exact h
      | some l => exact add h
    intro x k y k' st st' h hi
    cases h with
    | @gram g => exact own g hi
    | @own g => exact own g hi
    | _ => exact hi

/-- **C63**: for scripts without imports this is the interpreter of C50. -/
theorem C63_own {p : Parser} {stop fuel pos : Nat} {bs : List (Str × Gram)} :
    Option.Rel (fun x y => x.1 = y.1 ∧ y.2.defs 1 = x.2.map fun b => (b.1, .own b.2)) (runScript p stop n gs fuel pos bs)
      (runLinked p stop n gs fuel pos (scopesOf (bs.map fun b => (b.1, .own b.2)))) :=
  alike_mirror.eval (p := p) (stop := stop) fuel _ _ _ _ .whole pos bs _ rfl

end Adx.Interp
