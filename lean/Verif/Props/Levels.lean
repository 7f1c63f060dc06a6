import Verif.Proofs.FixedRank
import Verif.Props.InterpExample
/-
  C53: scripts without left recursion come to an end with every text, and left recursion does
  not.
-/
namespace Adx.Interp

open Peg (Cut Ready Sim)
open Syntax (Text)

variable {cfg : Cfg} {p : Parser} {stop : Nat} {m : MatcherId} {c : Ctx} {sc : SCtxId} {s : State} {P : Plan}
  {pl : List (Str × Thing) → Plan} {n name : Str} {gs : List Gram} {fuel : Nat} {w : World} {lo slo : Nat} {d : Quotes}

/-! ### One script -/

/-- **C53** for the meaning of scripts: a depth of recursion that is linear in the length of
the text suffices. -/
theorem C53_run {bs : List (Str × Gram)} {pos : Nat} (hb : Blank P.blank) (hP : P.ok gs bs = true) (hgs : ∀ g ∈ gs, Sane d g)
    (hbs : ∀ x g, lastDef bs x = some g → Sane d g) (hpos : Cut p.src stop pos)
    (hf : (stop - pos + 1) * perByte P gs bs ≤ fuel) : ∃ x, runScript p stop n gs fuel pos bs = some x := by
  obtain ⟨h1, h2⟩ := fine_of_ok hP hgs hbs
  obtain ⟨x, hx, -⟩ := run_total (n := n) hb h1 h2 hpos hf
  exact ⟨x, hx⟩

/-- The engine returns when the interpreter does. -/
theorem Sim.returns {α β : Type} {x : Res α} {y : Option β} {Q : α → State → β → Prop} (h : Sim x y Q) {b : β} (hy : y = some b) :
    ∃ r s', x = .ok r s' ∧ Q r s' b := by
  subst hy
  cases x with
  | ok r s' => exact ⟨r, s', rfl, h⟩
  | panic e => exact h.elim
  | diverge => exact h.elim

/-- The engine runs out of depth when the interpreter does. -/
theorem Sim.diverges {α β : Type} {x : Res α} {y : Option β} {Q : α → State → β → Prop} (h : Sim x y Q) (hy : y = none) :
    x = .diverge := by
  subst hy
  cases x with
  | ok r s' => exact h.elim
  | panic e => exact h.elim
  | diverge => rfl

/-- **C53** for the engine. -/
theorem C53_script {bs : List (Str × Gram)} (hf : IsFile w lo slo m sc n gs (bs.map fun b => (b.1, .own b.2))) (hok : ScopesOK w.st)
    (hc : Ready p stop c) (hcut : Cut p.src stop c.offset.start) (hb : blen p.src ≤ isizeMax)
    (hu : c.scope < w.st.sctxs.length) (hne : sc ≠ c.scope)
    (hfree : ∀ x y, w.st.lookup c.scope x = some (.matcher y) → y = m)
    (hgs : ∀ g ∈ gs, Sane (AsciiBetween p.src) g) (hbs : ∀ x g, lastDef bs x = some g → Sane (AsciiBetween p.src) g)
    (hbl : Blank P.blank) (hP : P.ok gs bs = true) (hfuel : (stop - c.offset.start + 1) * perByte P gs bs ≤ fuel) :
    ∃ r s', tokenize (tableOf w.nodes) cfg fuel c m w.st = .ok r s' := by
  obtain ⟨x, hx⟩ := C53_run (n := n) hbl hP hgs hbs hcut hfuel
  obtain ⟨r, s', h, -⟩ := Sim.returns (C50_script (cfg := cfg) hf hok hc hcut hb hu hne hfree hgs hbs) hx
  exact ⟨r, s', h⟩

/-- What stays true of a script while texts are parsed with it. -/
structure Lasting (w : World) (lo slo : Nat) (m : MatcherId) (sc : SCtxId) (n : Str) (gs : List Gram) (P : Plan) (D : Nat) (d : Quotes)
    (s : State) : Prop where
  file : ∃ bs, FineDefs P D d bs ∧ IsFile ⟨w.nodes, s⟩ lo slo m sc n gs (bs.map fun b => (b.1, .own b.2))
  ok : ScopesOK s

theorem FineDefs.weaken {D : Nat} {bs : List (Str × Gram)} (h : FineDefs P D d bs) {d' : Quotes} (hd : ∀ a b e, d a b e → d' a b e) : FineDefs P D d' bs :=
  fun x g hx => ⟨(h x g hx).1, (h x g hx).2.obeys, (h x g hx).2.size, (h x g hx).2.sane.imp hd⟩

/-- Without new delimiters the definitions stay sane for the same reason. -/
theorem lasting_step {D : Nat} (hl : Lasting w lo slo m sc n gs P D d s) (hgs : ∀ g ∈ gs, Fine P D d g) (hbl : Blank P.blank)
    (hb : blen p.src ≤ isizeMax) (hd : Suits d p.src) :
    (∀ r s', tokenize (tableOf w.nodes) cfg fuel (Ctx.new p s.newSCtx.1 name) m s.newSCtx.2 = .ok r s' →
      Lasting w lo slo m sc n gs P D d s') ∧
    ((blen p.src + 1) * ((P.top + 2) * (D + 1) + 4) ≤ fuel →
      ∃ r s', tokenize (tableOf w.nodes) cfg fuel (Ctx.new p s.newSCtx.1 name) m s.newSCtx.2 = .ok r s') := by
  obtain ⟨⟨bs, hbs, hf⟩, hok⟩ := hl
  have hlt : sc < s.sctxs.length := by
    cases hf with
    | mk _ _ _ _ _ _ _ _ _ _ h => exact h.lt
  have hf' : IsFile ⟨w.nodes, s.newSCtx.2⟩ lo slo m sc n gs (bs.map fun b => (b.1, .own b.2)) :=
    hf.mono ⟨fun _ _ _ h => h, by simp [State.newSCtx], fun k _ hk x => new_look hk⟩
  have hsim := C50_script (cfg := cfg) (fuel := fuel) (p := p) (stop := blen p.src) (w := ⟨w.nodes, s.newSCtx.2⟩) (c := Ctx.new p s.newSCtx.1 name) hf' hok.newSCtx
    ⟨rfl, rfl, rfl⟩ whole_cut hb (by show s.sctxs.length < s.newSCtx.2.sctxs.length; simp [State.newSCtx]) (Nat.ne_of_lt hlt)
    (by
      intro x y hx
      rw [show (Ctx.new p s.newSCtx.1 name).scope = s.newSCtx.1 from rfl] at hx
      dsimp only at hx
      rw [new_free] at hx
      cases hx)
    (fun g hg => (hgs g hg).sane.imp hd) (fun x g hx => (hbs x g hx).2.sane.imp hd)
  constructor
  · intro r s' h
    dsimp only at hsim
    rw [h] at hsim
    cases hx : runScript p (blen p.src) n gs fuel 0 bs with
    | none =>
      rw [show (Ctx.new p s.newSCtx.1 name).offset.start = 0 from rfl, hx] at hsim
      exact hsim.elim
    | some x =>
      rw [show (Ctx.new p s.newSCtx.1 name).offset.start = 0 from rfl, hx] at hsim
      obtain ⟨-, -, h3, h4, -⟩ := hsim
      have := eval_ok (p := p) (stop := blen p.src) (script_closed (P := P) (D := D) (d := d)) (script_ranked hbl).idle fuel
        (.whole n gs) 0 ⟨rfl, hgs⟩ 0 bs whole_cut hbs x hx
      exact ⟨⟨x.2, this.2.1, h3⟩, h4⟩
  · intro hfuel
    obtain ⟨x, hx, -⟩ := run_total (n := n) (fuel := fuel) hbl hgs hbs (whole_cut (src := p.src)) hfuel
    obtain ⟨r, s', h, -⟩ := Sim.returns hsim hx
    exact ⟨r, s', h⟩

/-- **C53**: every parse of a text comes to an end, whatever has been parsed before and
whatever this has done to the definitions. -/
theorem C53_any_time {bs : List (Str × Gram)} (hf : IsFile w lo slo m sc n gs (bs.map fun b => (b.1, .own b.2))) (hok : ScopesOK w.st)
    (hgs : ∀ g ∈ gs, Sane d g) (hbs : ∀ x g, lastDef bs x = some g → Sane d g) (hbl : Blank P.blank) (hP : P.ok gs bs = true)
    (hused : Used (tableOf w.nodes) cfg m (Suits d) w.st s) (hb : blen p.src ≤ isizeMax) (hd : Suits d p.src)
    (hfuel : (blen p.src + 1) * perByte P gs bs ≤ fuel) :
    ∃ r s', tokenize (tableOf w.nodes) cfg fuel (Ctx.new p s.newSCtx.1 name) m s.newSCtx.2 = .ok r s' := by
  obtain ⟨h1, h2⟩ := fine_of_ok hP hgs hbs
  have key : Lasting w lo slo m sc n gs P (max (sizes gs) (sizes (bs.map Prod.snd))) d s := by
    induction hused with
    | refl => exact ⟨⟨bs, h2, hf⟩, hok⟩
    | parse _ hb hp ht ih => exact (lasting_step ih h1 hbl hb hp).1 _ _ ht
  exact (lasting_step key h1 hbl hb hd).2 hfuel

/-- **C53**, from the text of a script: it is compiled, and every parse with it comes to an
end. -/
theorem C53_text {env : Env} {src : Str} {nm : Option Str} {bs : List (Str × Gram)} (ha : Ascii src) (hs : blen src ≤ isizeMax)
    (h : Syntax.Script env src nm gs (bs.map fun b => .own b.1 b.2)) (hm : Compiled env w) (hok : ScopesOK w.st)
    (hgs : ∀ g ∈ gs, Sane d g) (hbs : ∀ x g, lastDef bs x = some g → Sane d g) (hbl : Blank P.blank) (hP : P.ok gs bs = true) :
    ∃ N m sc w', (∀ fuel, N ≤ fuel → compileScriptFromStr env fuel src name w = .ok m sc w') ∧
      ∀ cfg s p cn fuel, Used (tableOf w'.nodes) cfg m (Suits d) w'.st s → blen p.src ≤ isizeMax → Suits d p.src →
        (blen p.src + 1) * perByte P gs bs ≤ fuel →
        ∃ r s', tokenize (tableOf w'.nodes) cfg fuel (Ctx.new p s.newSCtx.1 cn) m s.newSCtx.2 = .ok r s' := by
  obtain ⟨N, m, sc, w', h1, h2, h3⟩ := C49_str (name := name) ha hs h w hm.milds hok
  exact ⟨N, m, sc, w', h1, fun cfg s p cn fuel hu hb hd hfuel => C53_any_time h3 h2 hgs hbs hbl hP hu hb hd hfuel⟩

theorem guess_blank {blank : Regex → Bool} {cap k : Nat} {all : List (Str × Gram)} : (Plan.guess blank cap all k).blank = blank := by
  induction k with
  | zero => rfl
  | succ k ih => exact ih

/-- **C53** for texts of one byte per character: it suffices that a program finds the script
not to be left recursive. -/
theorem C53_checked {env : Env} {src : Str} {nm : Option Str} {bs : List (Str × Gram)} {blank : Regex → Bool} (hre : CutsAll env)
    (ha : Ascii src) (hs : blen src ≤ isizeMax) (h : Syntax.Script env src nm gs (bs.map fun b => .own b.1 b.2)) (hm : Compiled env w)
    (hok : ScopesOK w.st) (hbl : Blank blank) (hP : notLeftRecursive blank gs bs = true) :
    ∃ K N m sc w', (∀ fuel, N ≤ fuel → compileScriptFromStr env fuel src name w = .ok m sc w') ∧
      ∀ cfg s p cn fuel, Used (tableOf w'.nodes) cfg m Ascii w'.st s → blen p.src ≤ isizeMax → Ascii p.src →
        (blen p.src + 1) * K ≤ fuel →
        ∃ r s', tokenize (tableOf w'.nodes) cfg fuel (Ctx.new p s.newSCtx.1 cn) m s.newSCtx.2 = .ok r s' := by
  obtain ⟨h1, h2⟩ := script_sane hre h
  obtain ⟨N, m, sc, w', h3, h4⟩ := C53_text (name := name) ha hs h hm hok h1 (fun x g hx =>
    h2 x g (List.mem_map.mpr ⟨(x, g), lastDef_mem hx, rfl⟩)) (by rw [guess_blank]; exact hbl) hP
  refine ⟨_, N, m, sc, w', h3, fun cfg s p cn fuel hu hb hp hf => h4 cfg s p cn fuel ?_ hb (suits_of_ascii hp) hf⟩
  induction hu with
  | refl => exact .refl
  | parse _ hb hp ht ih => exact .parse ih hb (suits_of_ascii hp) ht

/-! ### Imports -/

/-- **C53** for scripts with imports, if using a definition does not change what names stand
for. -/
theorem C53_fixed {R : Str → Prop} {bs : List (Str × Thing)} (hf : IsFile w lo slo m sc n gs bs) (hok : ScopesOK w.st)
    (hq : QuietAll R gs) (ht : TameDefs R bs) (hgs : ∀ g ∈ gs, Sane d g) (hbs : SaneDefs d bs)
    (hbl : ∀ bs, Blank (pl bs).blank) (hP : okDefs pl (pl bs) bs = true)
    (hused : Used (tableOf w.nodes) cfg m (Suits d) w.st s)
    (hb : blen p.src ≤ isizeMax) (hd : Suits d p.src) (hfuel : (blen p.src + 1) * cost pl (.file 0 n gs bs) ≤ fuel) :
    ∃ r s', tokenize (tableOf w.nodes) cfg fuel (Ctx.new p s.newSCtx.1 name) m s.newSCtx.2 = .ok r s' := by
  obtain ⟨x, hx⟩ := fixed_total (p := p) (fuel := fuel) (n := n) hbl hgs hbs hP whole_cut hfuel
  obtain ⟨r, s', h, -⟩ := Sim.returns (C50_any_time (cfg := cfg) (name := name) hf hok hq ht hgs hbs hused hb hd) hx
  exact ⟨r, s', h⟩

/-- **C53**, from the text of a script with imports. -/
theorem C53_imports {env : Env} {src file : Str} {fromFile : Option Str} {bs : List (Str × Thing)} {R : Str → Prop}
    (h : Text env src name fromFile n gs bs) (hm : Compiled env w)
    (hok : ScopesOK w.st) (hq : QuietAll R gs) (ht : TameDefs R bs) (hgs : ∀ g ∈ gs, Sane d g) (hbs : SaneDefs d bs)
    (hbl : ∀ bs, Blank (pl bs).blank) (hP : okDefs pl (pl bs) bs = true) :
    ∃ N m sc w', (∀ fuel, N ≤ fuel → compileScript env fuel ⟨src, file⟩ name fromFile w = .ok m sc w') ∧
      ∀ cfg s p nm fuel, Used (tableOf w'.nodes) cfg m (Suits d) w'.st s → blen p.src ≤ isizeMax →
        Suits d p.src → (blen p.src + 1) * cost pl (.file 0 n gs bs) ≤ fuel →
        ∃ r s', tokenize (tableOf w'.nodes) cfg fuel (Ctx.new p s.newSCtx.1 nm) m s.newSCtx.2 = .ok r s' := by
  obtain ⟨N, m, sc, w', h1, h2, h3⟩ := C49_compiles (file := file) h w hm.milds hok
  exact ⟨N, m, sc, w', h1, fun cfg s p nm fuel hu hb hd hf => C53_fixed h3 h2 hq ht hgs hbs hbl hP hu hb hd hf⟩

/-- **C53** for scripts with imports and texts of one byte per character: it suffices that a
program finds no left recursion. -/
theorem C53_imports_checked {env : Env} {src file : Str} {fromFile : Option Str} {bs : List (Str × Thing)} {R : Str → Prop}
    {blank : Regex → Bool} (hre : CutsAll env) (h : Text env src name fromFile n gs bs) (hm : Compiled env w) (hok : ScopesOK w.st)
    (hq : QuietAll R gs) (ht : TameDefs R bs) (hbl : Blank blank) (hP : okDefs (planFor blank) (planFor blank bs) bs = true) :
    ∃ K N m sc w', (∀ fuel, N ≤ fuel → compileScript env fuel ⟨src, file⟩ name fromFile w = .ok m sc w') ∧
      ∀ cfg s p nm fuel, Used (tableOf w'.nodes) cfg m Ascii w'.st s → blen p.src ≤ isizeMax → Ascii p.src →
        (blen p.src + 1) * K ≤ fuel →
        ∃ r s', tokenize (tableOf w'.nodes) cfg fuel (Ctx.new p s.newSCtx.1 nm) m s.newSCtx.2 = .ok r s' := by
  obtain ⟨h1, h2⟩ := text_sane hre h
  obtain ⟨N, m, sc, w', h3, h4⟩ := C53_imports (file := file) (pl := planFor blank) h hm hok hq ht h1 h2
    (fun bs => by
      unfold planFor
      dsimp only
      rw [guess_blank]
      exact hbl) hP
  refine ⟨_, N, m, sc, w', h3, fun cfg s p nm fuel hu hb hp hf => h4 cfg s p nm fuel ?_ hb (suits_of_ascii hp) hf⟩
  induction hu with
  | refl => exact .refl
  | parse _ hb hp ht ih => exact .parse ih hb (suits_of_ascii hp) ht

/-! ### Left recursion -/

/-- **C53**, the other way: if the first pattern of a script begins with a name, and this
leads from name to name without end, then the script does not come to an end, with any text,
at any depth of recursion. -/
theorem C53_left_recursion {env : Env} {src : Str} {nm : Option Str} {g : Gram} {bs : List (Str × Gram)} {X : Str → Prop} (ha : Ascii src)
    (hs : blen src ≤ isizeMax) (h : Syntax.Script env src nm (g :: gs) (bs.map fun b => .own b.1 b.2)) (hm : Compiled env w)
    (hok : ScopesOK w.st) (hgs : ∀ g' ∈ g :: gs, Sane d g') (hbs : ∀ x g, lastDef bs x = some g → Sane d g) (hg : Starts X g)
    (hX : ∀ x, X x → ∃ g, lastDef bs x = some g ∧ Starts X g) :
    ∃ N m sc w', (∀ fuel, N ≤ fuel → compileScriptFromStr env fuel src name w = .ok m sc w') ∧
      ∀ cfg p cn fuel, blen p.src ≤ isizeMax → Suits d p.src →
        tokenize (tableOf w'.nodes) cfg fuel (Ctx.new p w'.st.newSCtx.1 cn) m w'.st.newSCtx.2 = .diverge := by
  obtain ⟨N, m, sc, w', h1, h2⟩ := C50_text_first (name := name) ha hs h hm hok hgs hbs
  exact ⟨N, m, sc, w', h1, fun cfg p cn fuel hb hd => Sim.diverges (h2 cfg p cn fuel hb hd) (starts_run hg hX fuel)⟩

/-! ### Examples -/

namespace Example
open SyntaxExample Syntax CompileExample

/-- A name, a literal, a sequence, a choice. -/
def nameOf (x : String) : Gram := .ref "Ref".toList false x.toList
@[inherit_doc nameOf] def lit (x : String) : Gram := .equals "Equals".toList false x.toList
@[inherit_doc nameOf] def inOrder (n : String) (gs : List Gram) : Gram := .group n.toList true false gs
@[inherit_doc nameOf] def oneOf (n : String) (gs : List Gram) : Gram := .group n.toList true true gs

/-- Sums of numbers, and of sums in parentheses. -/
example : notLeftRecursive (fun _ => true) [nameOf "Sum"]
    [("Sum".toList, inOrder "Sum" [nameOf "Term", .opt (inOrder "More" [lit "+", nameOf "Sum"])]),
      ("Term".toList, oneOf "Term" [inOrder "Group" [lit "(", nameOf "Sum", lit ")"], lit "1"])] = true := by
  decide +kernel

/-- The textbook way to write sums is left recursive. -/
example : notLeftRecursive (fun _ => true) [nameOf "Sum"]
    [("Sum".toList, oneOf "Sum" [inOrder "Plus" [nameOf "Sum", lit "+", lit "1"], lit "1"])] = false := by
  decide +kernel

/-- Left recursion behind something that may be absent. -/
example : notLeftRecursive (fun _ => true) [nameOf "A"]
    [("A".toList, inOrder "A" [nameOf "B", nameOf "A", lit "a"]), ("B".toList, .opt (lit "b"))] = false := by
  decide +kernel

/-- Names that are given inside count, too: behind the first part, `B` is a use of `A`. -/
example : notLeftRecursive (fun _ => true) [nameOf "A"]
    [("A".toList, inOrder "A" [lit "a", .ref "B".toList true "A".toList]), ("B".toList, lit "b")] = true ∧
    notLeftRecursive (fun _ => true) [nameOf "A"]
    [("A".toList, inOrder "A" [nameOf "B", lit "a", .ref "B".toList true "A".toList]), ("B".toList, lit "b")] = false := by
  decide +kernel

/-- The plan for any number of `a`, twice. -/
theorem many_plan : (Plan.mk [("A".toList, (0, false))] fun _ => true).ok twice
    [("A".toList, .loop 0 usizeMax (.equals "A".toList true ['a']))] = true ∧
    perByte ⟨[("A".toList, (0, false))], fun _ => true⟩ twice
      [("A".toList, .loop 0 usizeMax (.equals "A".toList true ['a']))] = 8 := by
  decide +kernel

/-- The script whose definition changes when it is used comes to an end with every text,
whatever has been parsed before. -/
theorem C53_example {w : World} (hm : Compiled files w) (hok : ScopesOK w.st) :
    ∃ N m sc w', (∀ fuel, N ≤ fuel →
      compileScriptFromStr files fuel "<!--[adextopa version='1'] A = <='a'>* -->(<A>)(<='b'>)(<A>)".toList "S".toList w = .ok m sc w') ∧
    ∀ cfg s p cn fuel, Used (tableOf w'.nodes) cfg m (fun _ => True) w'.st s → blen p.src ≤ isizeMax → (blen p.src + 1) * 8 ≤ fuel →
      ∃ r s', tokenize (tableOf w'.nodes) cfg fuel (Ctx.new p s.newSCtx.1 cn) m s.newSCtx.2 = .ok r s' := by
  obtain ⟨N, m, sc, w', h1, h2⟩ := C53_text (name := "S".toList) (d := .none)
    (bs := [("A".toList, .loop 0 usizeMax (.equals "A".toList true ['a']))])
    (by unfold Ascii; decide) (by decide) many_ok hm hok
    (fun g hg => by
      unfold twice at hg
      simp only [List.mem_cons, List.not_mem_nil, or_false] at hg
      rcases hg with rfl | rfl | rfl
      · exact .ref
      · exact .equals
      · exact .ref)
    (fun x g hx => by
      unfold lastDef at hx
      rw [List.reverse_singleton, List.find?_singleton] at hx
      split at hx
      · cases hx
        exact .loop .equals
      · cases hx)
    (fun _ _ _ => rfl) many_plan.1
  refine ⟨N, m, sc, w', h1, fun cfg s p cn fuel hu hb hf => h2 cfg s p cn fuel ?_ hb (fun _ _ _ h => h.elim) (by rw [many_plan.2]; exact hf)⟩
  induction hu with
  | refl => exact .refl
  | parse _ hb _ ht ih => exact .parse ih hb (fun _ _ _ h => h.elim) ht

/-- `A` is `A`. -/
theorem self_ok : Syntax.Script files "<!--[adextopa version='1'] A = <A> -->(<A>)(<='b'>)(<A>)".toList none twice
    [.own "A".toList (.ref "A".toList true "A".toList)] := by
  refine .headed (w1 := "<!--[adextopa version='1'] A = <A> -->(<A>)(<='b'>)(<A>)".toList) (w2 := "(<A>)(<='b'>)(<A>)".toList)
    (name := none) (.done (gap _ [] _ rfl) (by decide)) ?_ items_ok
  refine Header.mk (w := " version='1'] A = <A> -->(<A>)(<='b'>)(<A>)".toList)
    (w1 := "version='1'] A = <A> -->(<A>)(<='b'>)(<A>)".toList)
    (w2 := " A = <A> -->(<A>)(<='b'>)(<A>)".toList) (v := ['1']) (as := [⟨"version".toList, ['1'], ['1']⟩]) (n := 1)
    (blanks _ [' '] _ rfl) ?_ rfl (.digit (ch := '1') rfl) (by decide) ?_ ?_
  · exact .cons (n := "version".toList) (w1 := "='1'] A = <A> -->(<A>)(<='b'>)(<A>)".toList)
      (w2 := "'1'] A = <A> -->(<A>)(<='b'>)(<A>)".toList)
      (w3 := "'1'] A = <A> -->(<A>)(<='b'>)(<A>)".toList) (w4 := "] A = <A> -->(<A>)(<='b'>)(<A>)".toList)
      (w5 := "] A = <A> -->(<A>)(<='b'>)(<A>)".toList)
      (munch _ _ _ _ rfl) (by decide) (by decide) (blanks _ [] _ rfl) (blanks _ [] _ rfl)
      (.mk (.plain (by decide) (by decide) (.done _))) (gap _ [] _ rfl) (.nil (by simp [attrChar]))
  · refine .definition (w1 := "A = <A> -->(<A>)(<='b'>)(<A>)".toList) (n := "A".toList)
      (w2 := " = <A> -->(<A>)(<='b'>)(<A>)".toList) (w3 := " <A> -->(<A>)(<='b'>)(<A>)".toList)
      (w4 := "<A> -->(<A>)(<='b'>)(<A>)".toList) (w5 := " -->(<A>)(<='b'>)(<A>)".toList)
      (gap _ [' '] _ rfl) (identifier _ _ _ rfl rfl) (gap _ [' '] _ rfl) (gap _ [' '] _ rfl) ?_ (.done (gap _ [' '] _ rfl))
    exact Definition.mk (outer := .none) (inner := .none) (w1 := "A> -->(<A>)(<='b'>)(<A>)".toList)
      (w2 := "A> -->(<A>)(<='b'>)(<A>)".toList)
      (w3 := "> -->(<A>)(<='b'>)(<A>)".toList) (w4 := "> -->(<A>)(<='b'>)(<A>)".toList) (as := []) (r := none) (gap _ [] _ rfl)
      (.custom (identifier _ _ _ rfl rfl)) (gap _ [] _ rfl) (.nil (by simp [attrChar])) (.once (by decide))
  · rintro w3 ⟨u, hu⟩
    have h1 := (Munch.unique hu (munch space _ [' '] "A = <A> -->(<A>)(<='b'>)(<A>)".toList rfl)).2
    cases h1

/-- The script is accepted, and does not come to an end with any text. -/
theorem C53_self {w : World} (hm : Compiled files w) (hok : ScopesOK w.st) :
    ∃ N m sc w', (∀ fuel, N ≤ fuel →
      compileScriptFromStr files fuel "<!--[adextopa version='1'] A = <A> -->(<A>)(<='b'>)(<A>)".toList "S".toList w = .ok m sc w') ∧
    ∀ cfg p cn fuel, blen p.src ≤ isizeMax →
      tokenize (tableOf w'.nodes) cfg fuel (Ctx.new p w'.st.newSCtx.1 cn) m w'.st.newSCtx.2 = .diverge := by
  have one : ∀ {x g}, lastDef [("A".toList, Gram.ref "A".toList true "A".toList)] x = some g → g = .ref "A".toList true "A".toList := by
    intro x g hx
    unfold lastDef at hx
    rw [List.reverse_singleton, List.find?_singleton] at hx
    split at hx
    · cases hx; rfl
    · cases hx
  obtain ⟨N, m, sc, w', h1, h2⟩ := C53_left_recursion (name := "S".toList) (d := .none) (X := fun x => x = "A".toList)
    (bs := [("A".toList, .ref "A".toList true "A".toList)])
    (by unfold Ascii; decide) (by decide) self_ok hm hok
    (fun g hg => by
      simp only [List.mem_cons, List.not_mem_nil, or_false] at hg
      rcases hg with rfl | rfl | rfl
      · exact .ref
      · exact .equals
      · exact .ref)
    (fun x g hx => by cases one hx; exact .ref)
    (.ref rfl) (by rintro x rfl; exact ⟨_, rfl, .ref rfl⟩)
  exact ⟨N, m, sc, w', h1, fun cfg p cn fuel hb => h2 cfg p cn fuel hb fun _ _ _ h => h.elim⟩

/-- A script with an imported definition that may match nothing. -/
example : okDefs (planFor fun _ => true) (planFor (fun _ => true) [("A".toList, .own (inOrder "A" [nameOf "B", lit "a"])),
    ("B".toList, .member 1 [("C".toList, .own (.opt (lit "c")))] "C".toList "B".toList)])
    [("A".toList, .own (inOrder "A" [nameOf "B", lit "a"])),
      ("B".toList, .member 1 [("C".toList, .own (.opt (lit "c")))] "C".toList "B".toList)] = true := by
  decide +kernel

/-- Behind it, `A` would be left recursive. -/
example : okDefs (planFor fun _ => true) (planFor (fun _ => true) [("A".toList, .own (inOrder "A" [nameOf "B", nameOf "A"])),
    ("B".toList, .member 1 [("C".toList, .own (.opt (lit "c")))] "C".toList "B".toList)])
    [("A".toList, .own (inOrder "A" [nameOf "B", nameOf "A"])),
      ("B".toList, .member 1 [("C".toList, .own (.opt (lit "c")))] "C".toList "B".toList)] = false := by
  decide +kernel

end Example

end Adx.Interp
