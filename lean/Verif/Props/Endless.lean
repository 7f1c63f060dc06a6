import Verif.Proofs.EndlessScript
import Verif.Props.Levels
/-
  C62: a parse does not come to an end exactly if something is tried again at the same
  place, and whether it comes to an end is known at a depth of recursion that can be
  computed.
-/
namespace Adx.Interp

open Peg (Cut Ready Sim)
open Syntax (Text)

variable {cfg : Cfg} {p : Parser} {stop : Nat} {m : MatcherId} {sc : SCtxId} {s : State}
  {n name : Str} {gs : List Gram} {fuel : Nat} {w : World} {lo slo : Nat} {d : Quotes}

/-! ### The meaning of scripts -/

/-- **C62** for the meaning of scripts: there is no result, at any depth of recursion,
exactly if something is tried again at the same position while names stand for the same. -/
theorem C62_iff {bs : List (Str × Gram)} {pos : Nat} (hgs : ∀ g ∈ gs, Sane d g) (hbs : ∀ x g, lastDef bs x = some g → Sane d g)
    (hpos : Cut p.src stop pos) : (∀ fuel, runScript p stop n gs fuel pos bs = none) ↔ ScriptRecurs p stop n gs bs pos := by
  constructor
  · intro h
    apply Classical.byContradiction
    intro hr
    obtain ⟨h1, h2⟩ := within_start hgs hbs
    have := script_finite (n := n) h1 h2 hpos hr
    rw [h] at this
    cases this
  · exact fun h fuel => script_endless h

/-- **C62**: if there is no result at this depth of recursion, then there is none. -/
theorem C62_depth {bs : List (Str × Gram)} {pos : Nat} (hgs : ∀ g ∈ gs, Sane d g) (hbs : ∀ x g, lastDef bs x = some g → Sane d g)
    (hpos : Cut p.src stop pos) (hf : scriptDepth gs bs stop ≤ fuel) (h : runScript p stop n gs fuel pos bs = none) (fuel' : Nat) :
    runScript p stop n gs fuel' pos bs = none := by
  refine (C62_iff hgs hbs hpos).mpr (Classical.byContradiction fun hr => ?_) fuel'
  obtain ⟨h1, h2⟩ := within_start hgs hbs
  have := script_finite (n := n) h1 h2 hpos hr
  cases hx : runScript p stop n gs (scriptDepth gs bs stop) pos bs with
  | none =>
    rw [show (_ + 4) * (stop + 1) * _ = scriptDepth gs bs stop from rfl, hx] at this
    cases this
  | some x =>
    have := eval_mono hf hx
    rw [show runScript p stop n gs fuel pos bs = _ from this] at h
    cases h

/-- **C62** for scripts with imports. -/
theorem C62_fixed_iff {bs : List (Str × Thing)} {pos : Nat} (hgs : ∀ g ∈ gs, Sane d g) (hbs : SaneDefs d bs)
    (hpos : Cut p.src stop pos) : (∀ fuel, runFixed p stop n gs bs fuel pos = none) ↔ FixedRecurs p stop n gs bs pos := by
  constructor
  · intro h
    apply Classical.byContradiction
    intro hr
    have := fixed_finite (n := n) hgs hbs hpos hr
    rw [h] at this
    cases this
  · exact fun h fuel => fixed_endless hgs hbs hpos h

theorem runFixed_mono {bs : List (Str × Thing)} {pos fuel fuel' : Nat} {x : Result} (hf : fuel ≤ fuel')
    (h : runFixed p stop n gs bs fuel pos = some x) : runFixed p stop n gs bs fuel' pos = some x := by
  unfold runFixed at h ⊢
  obtain ⟨y, hy, rfl⟩ := Option.map_eq_some_iff.mp h
  rw [eval_mono hf hy]
  rfl

@[inherit_doc C62_depth]
theorem C62_fixed_depth {bs : List (Str × Thing)} {pos : Nat} (hgs : ∀ g ∈ gs, Sane d g) (hbs : SaneDefs d bs)
    (hpos : Cut p.src stop pos) (hf : fixedDepth n gs bs stop ≤ fuel) (h : runFixed p stop n gs bs fuel pos = none) (fuel' : Nat) :
    runFixed p stop n gs bs fuel' pos = none := by
  refine (C62_fixed_iff hgs hbs hpos).mpr (Classical.byContradiction fun hr => ?_) fuel'
  have := fixed_finite (n := n) hgs hbs hpos hr
  cases hx : runFixed p stop n gs bs (fixedDepth n gs bs stop) pos with
  | none =>
    rw [hx] at this
    cases this
  | some x =>
    rw [runFixed_mono hf hx] at h
    cases h

/-! ### The engine -/

/-- If `again`, then there is no end at any depth of recursion, and else there is a result at
every depth from `depth` on. -/
structure Settled {α : Type} (run : Nat → Res α) (again : Prop) (depth : Nat) : Prop where
  never : again → ∀ fuel, run fuel = .diverge
  ends : ¬ again → ∀ fuel, depth ≤ fuel → ∃ r s', run fuel = .ok r s'

/-- Not coming to an end is the same as trying something again. -/
theorem Settled.iff {α : Type} {run : Nat → Res α} {again : Prop} {depth : Nat} (h : Settled run again depth) :
    (∀ fuel, run fuel = .diverge) ↔ again := by
  refine ⟨fun hd => Classical.byContradiction fun hr => ?_, h.never⟩
  obtain ⟨r, s', he⟩ := h.ends hr depth (Nat.le_refl _)
  rw [hd] at he
  cases he

/-- What happens at that depth is what happens. -/
theorem Settled.known {α : Type} {run : Nat → Res α} {again : Prop} {depth fuel : Nat} (h : Settled run again depth)
    (hf : depth ≤ fuel) (hd : run fuel = .diverge) : ∀ fuel', run fuel' = .diverge := by
  refine h.never (Classical.byContradiction fun hr => ?_)
  obtain ⟨r, s', he⟩ := h.ends hr fuel hf
  rw [hd] at he
  cases he

/-- What stays true of a script while texts are parsed with it. -/
structure Keeping (w : World) (lo slo : Nat) (m : MatcherId) (sc : SCtxId) (n : Str) (gs : List Gram) (T : List Gram) (Ls : List Str)
    (d : Quotes) (bs : List (Str × Gram)) (s : State) : Prop where
  defs : WithinDefs d T Ls bs
  file : IsFile ⟨w.nodes, s⟩ lo slo m sc n gs (bs.map fun b => (b.1, .own b.2))
  ok : ScopesOK s

theorem keeping_sim {T : List Gram} {Ls : List Str} {bs : List (Str × Gram)} (hl : Keeping w lo slo m sc n gs T Ls d bs s)
    (hgs : ∀ g ∈ gs, Within d T Ls g) (hb : blen p.src ≤ isizeMax) (hd : Suits d p.src) (fuel : Nat) :
    Sim (tokenize (tableOf w.nodes) cfg fuel (Ctx.new p s.newSCtx.1 name) m s.newSCtx.2) (runScript p (blen p.src) n gs fuel 0 bs)
      (fun _ s' x => Keeping w lo slo m sc n gs T Ls d x.2 s') := by
  obtain ⟨hbs, hf, hok⟩ := hl
  have hlt : sc < s.sctxs.length := by
    cases hf with
    | mk _ _ _ _ _ _ _ _ _ _ h => exact h.lt
  have hf' : IsFile ⟨w.nodes, s.newSCtx.2⟩ lo slo m sc n gs (bs.map fun b => (b.1, .own b.2)) :=
    hf.mono ⟨fun _ _ _ h => h, by simp [State.newSCtx], fun k _ hk x => new_look hk⟩
  have hsim := C50_script (cfg := cfg) (fuel := fuel) (p := p) (stop := blen p.src) (w := ⟨w.nodes, s.newSCtx.2⟩) (c := Ctx.new p s.newSCtx.1 name) hf' hok.newSCtx
    ⟨rfl, rfl, rfl⟩ whole_cut hb (by show s.sctxs.length < s.newSCtx.2.sctxs.length; simp [State.newSCtx]) (Nat.ne_of_lt hlt)
    (by
      intro x y hx
      rw [show (Ctx.new p s.newSCtx.1 name).scope = s.newSCtx.1 from rfl] at hx
      dsimp only at hx
      rw [new_free] at hx
      cases hx)
    (fun g hg => (hgs g hg).sane.imp hd) (fun x g hx => (hbs x g hx).2.sane.imp hd)
  rw [show (Ctx.new p s.newSCtx.1 name).offset.start = 0 from rfl] at hsim
  dsimp only at hsim
  cases ht : tokenize (tableOf w.nodes) cfg fuel (Ctx.new p s.newSCtx.1 name) m s.newSCtx.2 with
  | panic e => rw [ht] at hsim; cases hx : runScript p (blen p.src) n gs fuel 0 bs <;> (rw [hx] at hsim; exact hsim.elim)
  | diverge =>
    rw [ht] at hsim
    cases hx : runScript p (blen p.src) n gs fuel 0 bs with
    | none => exact trivial
    | some x => rw [hx] at hsim; exact hsim.elim
  | ok r s' =>
    rw [ht] at hsim
    cases hx : runScript p (blen p.src) n gs fuel 0 bs with
    | none => rw [hx] at hsim; exact hsim.elim
    | some x =>
      rw [hx] at hsim
      obtain ⟨-, -, h3, h4, -⟩ := hsim
      have := eval_ok (p := p) (stop := blen p.src) (script_within (n := n) hgs) (Z := fun _ _ => True) (fun _ _ _ _ => trivial) fuel
        (.whole n gs) 0 ⟨rfl, rfl, rfl⟩ 0 bs whole_cut hbs x hx
      exact ⟨this.2.1, h3, h4⟩

theorem keeping_settled {T : List Gram} {Ls : List Str} {bs : List (Str × Gram)} (hl : Keeping w lo slo m sc n gs T Ls d bs s)
    (hgs : ∀ g ∈ gs, Within d T Ls g) (hb : blen p.src ≤ isizeMax) (hd : Suits d p.src) :
    Settled (fun fuel => tokenize (tableOf w.nodes) cfg fuel (Ctx.new p s.newSCtx.1 name) m s.newSCtx.2)
      (ScriptRecurs p (blen p.src) n gs bs 0) ((T.length + 4) * (blen p.src + 1) * (T.length + 1) ^ Ls.length) where
  never hr fuel := Sim.diverges (keeping_sim hl hgs hb hd fuel) (script_endless hr)
  ends hr fuel hf := by
    have h := script_finite (n := n) hgs hl.defs (whole_cut (src := p.src)) hr
    obtain ⟨x, hx⟩ := Option.isSome_iff_exists.mp h
    obtain ⟨r, s', h, -⟩ := Sim.returns (keeping_sim (cfg := cfg) (name := name) hl hgs hb hd fuel) (eval_mono hf hx)
    exact ⟨r, s', h⟩

/-- **C62**: whatever has been parsed before and whatever this has done to the definitions, a
parse does not come to an end exactly if something is tried again at the same place, and
whether it does is known at a depth that depends on the script and on the length of the
text only. -/
theorem C62_any_time {bs : List (Str × Gram)} (hf : IsFile w lo slo m sc n gs (bs.map fun b => (b.1, .own b.2))) (hok : ScopesOK w.st)
    (hgs : ∀ g ∈ gs, Sane d g) (hbs : ∀ x g, lastDef bs x = some g → Sane d g)
    (hused : Used (tableOf w.nodes) cfg m (Suits d) w.st s) (hb : blen p.src ≤ isizeMax) (hd : Suits d p.src) :
    ∃ bs', IsFile ⟨w.nodes, s⟩ lo slo m sc n gs (bs'.map fun b => (b.1, .own b.2)) ∧
      Settled (fun fuel => tokenize (tableOf w.nodes) cfg fuel (Ctx.new p s.newSCtx.1 name) m s.newSCtx.2)
        (ScriptRecurs p (blen p.src) n gs bs' 0) (scriptDepth gs bs (blen p.src)) := by
  obtain ⟨h1, h2⟩ := within_start hgs hbs
  have key : ∃ bs', Keeping w lo slo m sc n gs (scriptTerms gs bs) (scriptLabels gs bs) d bs' s := by
    induction hused with
    | refl => exact ⟨bs, h2, hf, hok⟩
    | @parse s1 s' p name fuel r _ hb hp ht ih =>
      obtain ⟨bs1, ih⟩ := ih
      have := keeping_sim (cfg := cfg) (name := name) ih h1 hb hp fuel
      rw [ht] at this
      generalize runScript p (blen p.src) n gs fuel 0 bs1 = y at this
      cases y with
      | none => exact this.elim
      | some x => exact ⟨x.2, this⟩
  obtain ⟨bs', h⟩ := key
  exact ⟨bs', h.file, keeping_settled h h1 hb hd⟩

/-- **C62**, from the text of a script without imports, for the first parse. -/
theorem C62_text_first {env : Env} {src : Str} {nm : Option Str} {bs : List (Str × Gram)} (ha : Ascii src) (hs : blen src ≤ isizeMax)
    (h : Syntax.Script env src nm gs (bs.map fun b => .own b.1 b.2)) (hm : Compiled env w) (hok : ScopesOK w.st)
    (hgs : ∀ g ∈ gs, Sane d g) (hbs : ∀ x g, lastDef bs x = some g → Sane d g) :
    ∃ N m sc w', (∀ fuel, N ≤ fuel → compileScriptFromStr env fuel src name w = .ok m sc w') ∧
      ∀ cfg p cn, blen p.src ≤ isizeMax → Suits d p.src →
        Settled (fun fuel => tokenize (tableOf w'.nodes) cfg fuel (Ctx.new p w'.st.newSCtx.1 cn) m w'.st.newSCtx.2)
          (ScriptRecurs p (blen p.src) (nm.getD name) gs bs 0) (scriptDepth gs bs (blen p.src)) := by
  obtain ⟨N, m, sc, w', h1, h2, h3⟩ := C49_str (name := name) ha hs h w hm.milds hok
  obtain ⟨h4, h5⟩ := within_start hgs hbs
  exact ⟨N, m, sc, w', h1, fun cfg p cn hb hd => keeping_settled ⟨h5, h3, h2⟩ h4 hb hd⟩

/-- **C62**, from the text of a script without imports, for every parse: the depth at which it
is known whether a parse comes to an end does not depend on what has been parsed before. -/
theorem C62_text {env : Env} {src : Str} {nm : Option Str} {bs : List (Str × Gram)} (hre : CutsAll env) (ha : Ascii src)
    (hs : blen src ≤ isizeMax) (h : Syntax.Script env src nm gs (bs.map fun b => .own b.1 b.2)) (hm : Compiled env w)
    (hok : ScopesOK w.st) :
    ∃ N m sc w', (∀ fuel, N ≤ fuel → compileScriptFromStr env fuel src name w = .ok m sc w') ∧
      ∀ cfg s p cn, Used (tableOf w'.nodes) cfg m Ascii w'.st s → blen p.src ≤ isizeMax → Ascii p.src →
        ∃ bs', IsFile ⟨w'.nodes, s⟩ w.nodes.length w.st.sctxs.length m sc (nm.getD name) gs (bs'.map fun b => (b.1, .own b.2)) ∧
          Settled (fun fuel => tokenize (tableOf w'.nodes) cfg fuel (Ctx.new p s.newSCtx.1 cn) m s.newSCtx.2)
            (ScriptRecurs p (blen p.src) (nm.getD name) gs bs' 0) (scriptDepth gs bs (blen p.src)) := by
  obtain ⟨h1, h2⟩ := script_sane hre h
  obtain ⟨N, m, sc, w', h3, h4, h5⟩ := C49_str (name := name) ha hs h w hm.milds hok
  refine ⟨N, m, sc, w', h3, fun cfg s p cn hu hb hp => C62_any_time h5 h4 h1 (fun x g hx =>
    h2 x g (List.mem_map.mpr ⟨(x, g), lastDef_mem hx, rfl⟩)) ?_ hb (suits_of_ascii hp)⟩
  induction hu with
  | refl => exact .refl
  | parse _ hb hp ht ih => exact .parse ih hb (suits_of_ascii hp) ht

/-- **C62**, from the text of a script with imports, if using a definition does not change
what names stand for. -/
theorem C62_imports {env : Env} {src file : Str} {fromFile : Option Str} {bs : List (Str × Thing)} {R : Str → Prop}
    (h : Text env src name fromFile n gs bs) (hm : Compiled env w)
    (hok : ScopesOK w.st) (hq : QuietAll R gs) (ht : TameDefs R bs) (hgs : ∀ g ∈ gs, Sane d g) (hbs : SaneDefs d bs) :
    ∃ N m sc w', (∀ fuel, N ≤ fuel → compileScript env fuel ⟨src, file⟩ name fromFile w = .ok m sc w') ∧
      ∀ cfg s p nm, Used (tableOf w'.nodes) cfg m (Suits d) w'.st s → blen p.src ≤ isizeMax →
        Suits d p.src →
        Settled (fun fuel => tokenize (tableOf w'.nodes) cfg fuel (Ctx.new p s.newSCtx.1 nm) m s.newSCtx.2)
          (FixedRecurs p (blen p.src) n gs bs 0) (fixedDepth n gs bs (blen p.src)) := by
  obtain ⟨N, m, sc, w', h1, h2⟩ := C50_text (file := file) h hm hok hq ht hgs hbs
  refine ⟨N, m, sc, w', h1, fun cfg s p nm hu hb hd => ⟨fun hr fuel => ?_, fun hr fuel hf => ?_⟩⟩
  · exact Sim.diverges (h2 cfg s p nm fuel hu hb hd) (fixed_endless hgs hbs whole_cut hr)
  · obtain ⟨x, hx⟩ := Option.isSome_iff_exists.mp (fixed_finite (n := n) hgs hbs (whole_cut (src := p.src)) hr)
    obtain ⟨r, s', h, -⟩ := Sim.returns (h2 cfg s p nm fuel hu hb hd) (runFixed_mono hf hx)
    exact ⟨r, s', h⟩

/-! ### Examples -/

namespace Example
open SyntaxExample Syntax CompileExample

/-- `A` is `A`: the first parse of every text tries `A` again at its start. -/
theorem self_recurs {stop : Nat} : ScriptRecurs p stop n twice [("A".toList, .ref "A".toList true "A".toList)] 0 := by
  refine ⟨⟨.gram (.ref "A".toList true "A".toList), 1, 0, [("A".toList, .ref "A".toList true "A".toList)]⟩,
    ⟨.gram (.ref "A".toList true "A".toList), 1, 0,
      [("A".toList, .ref "A".toList true "A".toList), ("A".toList, .ref "A".toList true "A".toList)]⟩, Or.inr ?_, .one ?_, rfl, rfl, rfl, ?_⟩
  · refine .more (u := ⟨.inside twice, 0, 0, [("A".toList, .ref "A".toList true "A".toList)]⟩) ?_
      (.more (u := ⟨.flat twice, 1, 0, [("A".toList, .ref "A".toList true "A".toList)]⟩) ?_
      (.more (u := ⟨.all twice, 1, 0, [("A".toList, .ref "A".toList true "A".toList)]⟩) ?_
      (.more (u := ⟨.gram (nameOf "A"), 1, 0, [("A".toList, .ref "A".toList true "A".toList)]⟩) ?_ (.one ?_))))
    · exact InParts.here
    · exact rfl
    · exact rfl
    · exact InParts.here
    · exact ⟨_, rfl, rfl⟩
  · exact ⟨_, rfl, rfl⟩
  · intro x
    show lastDef _ x = lastDef ([("A".toList, Gram.ref "A".toList true "A".toList)] ++ [("A".toList, Gram.ref "A".toList true "A".toList)]) x
    rw [lastDef_append]
    split
    · subst x; rfl
    · rfl

/-- The text of this script, compiled: it is settled that no parse comes to an end. -/
theorem C62_example {w : World} (hm : Compiled files w) (hok : ScopesOK w.st) :
    ∃ N m sc w', (∀ fuel, N ≤ fuel →
      compileScriptFromStr files fuel "<!--[adextopa version='1'] A = <A> -->(<A>)(<='b'>)(<A>)".toList "S".toList w = .ok m sc w') ∧
    ∀ cfg p cn, blen p.src ≤ isizeMax → ∀ fuel,
      tokenize (tableOf w'.nodes) cfg fuel (Ctx.new p w'.st.newSCtx.1 cn) m w'.st.newSCtx.2 = .diverge := by
  obtain ⟨N, m, sc, w', h1, h2⟩ := C62_text_first (name := "S".toList) (d := .none)
    (bs := [("A".toList, .ref "A".toList true "A".toList)])
    (by unfold Ascii; decide) (by decide) self_ok hm hok
    (fun g hg => by
      unfold twice at hg
      simp only [List.mem_cons, List.not_mem_nil, or_false] at hg
      rcases hg with rfl | rfl | rfl
      · exact .ref
      · exact .equals
      · exact .ref)
    (fun x g hx => by
      cases List.mem_singleton.mp (lastDef_mem hx)
      exact .ref)
  exact ⟨N, m, sc, w', h1, fun cfg p cn hb => (h2 cfg p cn hb fun _ _ _ h => h.elim).never self_recurs⟩

/-- Perhaps `b`, then `A`, then `c`. -/
def inner : Gram := inOrder "In" [.opt (lit "b"), nameOf "A", lit "c"]

/-- `x`, or the above. -/
def outer : Gram := oneOf "A" [lit "x", inner]

/-- The definition of `A`. -/
def nested : List (Str × Gram) := [("A".toList, outer)]

/-- With the text `bxc` the script comes to an end. -/
example : (runScript ⟨"bxc".toList, []⟩ 3 "S".toList [nameOf "A"] 12 0 nested).isSome = true := by
  decide +kernel

/-- With `c`, trying `A` leads to trying `A` at the same position. -/
theorem nested_again {st : List (Str × Gram)} :
    During scriptGrammar scriptNames ⟨"c".toList, []⟩ 1 ⟨.gram outer, 1, 0, st⟩
      ⟨.gram outer, 1, 0, st ++ [("A".toList, outer)] ++ [("In".toList, inner)]⟩ := by
  refine .more (u := ⟨.gram inner, 1, 0, st ++ [("A".toList, outer)]⟩) ?_
    (.more (u := ⟨.gram (nameOf "A"), 1, 0, st ++ [("A".toList, outer)] ++ [("In".toList, inner)]⟩) ?_ (.one ?_))
  · exact InChoice.later (y := .fail) (st1 := st ++ [("A".toList, outer)]) ⟨1, rfl⟩ (Or.inl rfl) .here
  · exact InParts.later (y := .skip 0) (st1 := st ++ [("A".toList, outer)] ++ [("In".toList, inner)]) ⟨2, rfl⟩ (by nofun) (by nofun) .here
  · refine ⟨.gram outer, ?_, rfl⟩
    show (lastDef (st ++ [("A".toList, outer)] ++ [("In".toList, inner)]) "A".toList).map Part.gram = _
    rw [lastDef_append, if_neg (by decide), lastDef_append, if_pos rfl]
    rfl

/-- With the text `c` the same script does not come to an end. -/
theorem nested_recurs : ScriptRecurs ⟨"c".toList, []⟩ 1 "S".toList [nameOf "A"] nested 0 := by
  refine ⟨_, _, Or.inr ?_, nested_again (st := nested ++ [("A".toList, outer)] ++ [("In".toList, inner)]), ?_⟩
  · refine .more (u := ⟨.inside [nameOf "A"], 0, 0, nested⟩) ?_ (.more (u := ⟨.flat [nameOf "A"], 1, 0, nested⟩) ?_
      (.more (u := ⟨.all [nameOf "A"], 1, 0, nested⟩) ?_ (.more (u := ⟨.gram (nameOf "A"), 1, 0, nested⟩) ?_
        (.more (u := ⟨.gram outer, 1, 0, nested⟩) ?_ nested_again))))
    · exact InParts.here
    · exact rfl
    · exact rfl
    · exact InParts.here
    · exact ⟨.gram outer, rfl, rfl⟩
  · refine ⟨rfl, rfl, rfl, fun x => ?_⟩
    dsimp only
    simp only [lastDef_append]
    split
    · rfl
    · split <;> rfl

example : ∀ fuel, runScript ⟨"c".toList, []⟩ 1 "S".toList [nameOf "A"] fuel 0 nested = none :=
  fun _ => script_endless nested_recurs

/-- The terms and the names that are counted. -/
example : (scriptTerms [nameOf "A"] nested).length = 8 ∧ scriptDepth [nameOf "A"] nested 1 = (8 + 4) * 2 * 9 ^ 3 := by
  decide +kernel

/-- With imports. -/
example : fixedDepth "S".toList [nameOf "A"] [("A".toList, .own outer)] 1 = (5 + 8) * 2 := by
  decide +kernel

/-- With imports, too, the text decides. -/
example : (runFixed ⟨"bxc".toList, []⟩ 3 "S".toList [nameOf "A"] [("A".toList, .own outer)] 26 0).isSome = true ∧
    ∀ fuel, runFixed ⟨"c".toList, []⟩ 1 "S".toList [nameOf "A"] [("A".toList, .own outer)] fuel 0 = none := by
  refine ⟨by decide +kernel, fun fuel => ?_⟩
  have hl : ∀ x, Sane .none (lit x) := fun _ => .equals
  refine C62_fixed_depth (d := .none) (n := "S".toList) (fuel := 26) (fun g hg => ?_) (.mk fun x th hx => ?_) whole_cut (by decide +kernel) ?_ fuel
  · cases List.mem_singleton.mp hg
    exact .ref
  · have := lastDef_mem hx
    cases List.mem_singleton.mp this
    refine .own (.group fun g hg => ?_)
    rcases List.mem_cons.mp hg with rfl | hg
    · exact hl _
    · cases List.mem_singleton.mp hg
      refine .group fun g hg => ?_
      simp only [List.mem_cons, List.not_mem_nil, or_false] at hg
      rcases hg with rfl | rfl | rfl
      · exact .opt (hl _)
      · exact .ref
      · exact hl _
  · rw [← Option.isNone_iff_eq_none]
    decide +kernel

end Example

end Adx.Interp
