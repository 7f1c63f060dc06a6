import Verif.Proofs.Toil
import Verif.Props.Depth
import Verif.Props.Levels
import Verif.Props.Linked
/-
  C71: the number of tokens that a parse with a script makes.
-/
namespace Adx.Interp

open Peg (Cut Ready Sim)
open Syntax (Text)

variable {cfg : Cfg} {p : Parser} {stop : Nat} {m : MatcherId} {c : Ctx} {sc : SCtxId} {s s' : State} {P : Plan}
  {n name : Str} {gs : List Gram} {fuel : Nat} {w : World} {lo slo hi lo' : Nat} {d : Quotes} {r : Except Failure TokId}

theorem Sim.ends {α β : Type} {x : Res α} {y : Option β} {Q : α → State → β → Prop} (h : Sim x y Q) {a : α} {s : State} (hx : x = .ok a s) :
    ∃ b, y = some b ∧ Q a s b := by
  subst hx
  cases y with
  | some b => exact ⟨b, rfl, h⟩
  | none => exact h.elim

/-! ### The number -/

/-- **C71**: a parse with matchers that refer to each other by names makes as many tokens as
the interpreter says, with those that are thrown away again. -/
theorem C71_exact {T : Table} {G : Grammar MatcherId} {S : MatcherId → Prop} {K : SCtxId → Prop} {C : Str → Prop} (hF : Forms T G S K C)
    (hb : blen p.src ≤ isizeMax) (hasc : ∀ m, S m → (G.expr m).Between p.src) (hm : S m) (hK : K c.scope) (hc : Ready p stop c)
    (hcut : Cut p.src stop c.offset.start) (hk : Knows S K C s) (h : tokenize T cfg fuel c m s = .ok r s') :
    s'.toks.length = s.toks.length + work G heapNames p stop fuel m c.scope c.offset.start (vars s) := by
  obtain ⟨x, -, -, -, -, -, h1⟩ := Sim.ends (tokenize_sim hF hb hasc hm hK hc hcut hk) h
  exact h1

/-- **C71**, from the text of a script: after any texts, each further parse makes as many
tokens as the interpreter says for the definitions that there are by then. -/
theorem C71_text {env : Env} {src file : Str} {fromFile : Option Str} {bs : List (Str × Thing)} (h : Text env src name fromFile n gs bs)
    (hm : Compiled env w) (hok : ScopesOK w.st) (hgs : ∀ g ∈ gs, Sane d g) (hbs : SaneDefs d bs) :
    ∃ N m sc w', (∀ fuel, N ≤ fuel → compileScript env fuel ⟨src, file⟩ name fromFile w = .ok m sc w') ∧
      ∀ cfg ps, (∀ p ∈ ps, blen p.src ≤ isizeMax ∧ Suits d p.src) → ∀ s, Parses (tableOf w'.nodes) cfg m ps w'.st s →
        ∃ σ, After n gs ps (scopesOf bs) σ ∧ ∀ p nm fuel, blen p.src ≤ isizeMax → Suits d p.src → ∀ r s',
          tokenize (tableOf w'.nodes) cfg fuel (Ctx.new p s.newSCtx.1 nm) m s.newSCtx.2 = .ok r s' →
          s'.toks.length = s.toks.length + work linkedGrammar linkedNames p (blen p.src) fuel (.whole n gs) 0 0 σ := by
  obtain ⟨N, m, sc, w', h1, h2, h3, h4⟩ := C49_plants (file := file) h w hm.milds hok
  refine ⟨N, m, sc, w', h1, fun cfg ps hps s hs => ?_⟩
  have hin : ∃ lo, InScope w' lo sc bs := by
    cases h3 with
    | mk _ _ _ _ _ _ _ _ _ _ h => exact ⟨_, h⟩
  obtain ⟨_, hin⟩ := hin
  obtain ⟨σ, h5, h6⟩ := (linked_parses h3 .here (spread h4) (laid_start h2 hin hbs h4) hgs hps).1 hs
  refine ⟨σ, h5, fun p nm fuel hb hd r s' ht => ?_⟩
  have hS := linked_run (cfg := cfg) (fuel := fuel) (c := Ctx.new p s.newSCtx.1 nm) h3 .here (spread h4) (h6.new (spread h4)) ⟨rfl, rfl, rfl⟩
    whole_cut hb h6.alive (by show s.sctxs.length < s.newSCtx.2.sctxs.length; simp [State.newSCtx])
    (by
      intro x y hx
      rw [show (Ctx.new p s.newSCtx.1 nm).scope = s.newSCtx.1 from rfl, new_free] at hx
      cases hx) hgs hd
  obtain ⟨x, -, -, -, h7, -⟩ := Sim.ends hS ht
  exact h7

/-! ### Bounds -/

/-- What stays true of a script while texts are parsed with it. -/
structure Holding (w : World) (lo slo : Nat) (m : MatcherId) (sc : SCtxId) (n : Str) (gs : List Gram) (P : Plan) (D : Nat) (d : Quotes)
    (Q : Gram → Prop) (F : Str → Gram → Prop) (s : State) : Prop where
  file : ∃ bs, (FineDefs P D d bs ∧ KeptDefs Q F bs) ∧ IsFile ⟨w.nodes, s⟩ lo slo m sc n gs (bs.map fun b => (b.1, .own b.2))
  ok : ScopesOK s

theorem holding_step {D : Nat} {Q : Gram → Prop} {F : Str → Gram → Prop} (hl : Holding w lo slo m sc n gs P D d Q F s)
    (hQ : Kept Q F) (hgs : ∀ g ∈ gs, Fine P D d g) (hq : ∀ g ∈ gs, Q g) (hbl : Blank P.blank)
    (hb : blen p.src ≤ isizeMax) (hd : Suits d p.src)
    (h : tokenize (tableOf w.nodes) cfg fuel (Ctx.new p s.newSCtx.1 name) m s.newSCtx.2 = .ok r s') :
    Holding w lo slo m sc n gs P D d Q F s' ∧ ∃ bs, FineDefs P D d bs ∧ KeptDefs Q F bs ∧
      s'.toks.length = s.toks.length + work scriptGrammar scriptNames p (blen p.src) fuel (.whole n gs) 0 0 bs := by
  obtain ⟨⟨bs, hbs, hf⟩, hok⟩ := hl
  have hlt : sc < s.sctxs.length := by
    cases hf with
    | mk _ _ _ _ _ _ _ _ _ _ h => exact h.lt
  have hf' : IsFile ⟨w.nodes, s.newSCtx.2⟩ lo slo m sc n gs (bs.map fun b => (b.1, .own b.2)) :=
    hf.mono ⟨fun _ _ _ h => h, by simp [State.newSCtx], fun k _ hk x => new_look hk⟩
  have hsim := script_run (cfg := cfg) (fuel := fuel) (p := p) (stop := blen p.src) (w := ⟨w.nodes, s.newSCtx.2⟩) (c := Ctx.new p s.newSCtx.1 name) hf' hok.newSCtx
    ⟨rfl, rfl, rfl⟩ whole_cut hb (by show s.sctxs.length < s.newSCtx.2.sctxs.length; simp [State.newSCtx]) (Nat.ne_of_lt hlt)
    (by
      intro x y hx
      rw [show (Ctx.new p s.newSCtx.1 name).scope = s.newSCtx.1 from rfl] at hx
      dsimp only at hx
      rw [new_free] at hx
      cases hx)
    (fun g hg => (hgs g hg).sane.imp hd) (fun x g hx => (hbs.1 x g hx).2.sane.imp hd)
  obtain ⟨x, hx, -, -, h1, h2, h3, -⟩ := Sim.ends hsim h
  have hk := eval_ok (p := p) (stop := blen p.src) (kept_closed (P := P) (D := D) (d := d) hQ) (Z := idlePart P)
    (fun m k hm h => (script_ranked hbl).idle m k hm.1 (by
      revert h
      cases scriptGrammar.expr m with
      | call y =>
        rintro ⟨st, m, hi, h⟩
        exact ⟨st, m, hi.1, h⟩
      | _ => exact fun h => h)) fuel (.whole n gs) 0 ⟨⟨rfl, hgs⟩, hq⟩ 0 bs whole_cut hbs x hx
  exact ⟨⟨⟨x.2, hk.2.1, h2⟩, h3⟩, bs, hbs.1, hbs.2, h1⟩

theorem holding {D : Nat} {Q : Gram → Prop} {F : Str → Gram → Prop} {s0 : State} (hl : Holding w lo slo m sc n gs P D d Q F s0)
    (hQ : Kept Q F) (hgs : ∀ g ∈ gs, Fine P D d g) (hq : ∀ g ∈ gs, Q g) (hbl : Blank P.blank)
    (hused : Used (tableOf w.nodes) cfg m (Suits d) s0 s) : Holding w lo slo m sc n gs P D d Q F s := by
  induction hused with
  | refl => exact hl
  | parse _ hb hp ht ih => exact (holding_step ih hQ hgs hq hbl hb hp ht).1

theorem frugal_iff {K : Nat} {bs : List (Str × Gram)} : P.frugal K gs bs = true ↔
    ((0 < K ∧ gs.length ≤ K) ∧ P.spareAll K gs = true) ∧ P.spareAll K (bs.map Prod.snd) = true := by
  unfold Plan.frugal
  rw [Bool.and_eq_true, Bool.and_eq_true, Bool.and_eq_true, decide_eq_true_iff, decide_eq_true_iff]

theorem def_mem {bs : List (Str × Gram)} {x : Str} {g : Gram} (h : lastDef bs x = some g) : g ∈ bs.map Prod.snd :=
  List.mem_map.mpr ⟨_, lastDef_mem h, rfl⟩

/-- **C71** for scripts that are not recursive: whatever has been parsed before, the number of
tokens is bounded by a polynomial in the length of the text. -/
theorem C71_polynomial_any_time {bs : List (Str × Gram)} {K : Nat} (hf : IsFile w lo slo m sc n gs (bs.map fun b => (b.1, .own b.2)))
    (hok : ScopesOK w.st) (hgs : ∀ g ∈ gs, Sane d g) (hbs : ∀ x g, lastDef bs x = some g → Sane d g) (hbl : Blank P.blank)
    (hP : P.ok gs bs = true) (hK : P.frugal K gs bs = true) (hT : P.tiers gs bs = true)
    (hused : Used (tableOf w.nodes) cfg m (Suits d) w.st s) (hb : blen p.src ≤ isizeMax) (hd : Suits d p.src)
    (h : tokenize (tableOf w.nodes) cfg fuel (Ctx.new p s.newSCtx.1 name) m s.newSCtx.2 = .ok r s') :
    s'.toks.length ≤ s.toks.length + ((blen p.src + 1) * K + 1) ^ perByte P gs bs := by
  obtain ⟨h1, h2⟩ := fine_of_ok hP hgs hbs
  obtain ⟨⟨⟨hK0, hlen⟩, hsp⟩, hsd⟩ := frugal_iff.mp hK
  unfold Plan.tiers at hT
  rw [List.all_eq_true] at hT
  have htier : ∀ b ∈ bs ++ namedAll gs ++ namedAll (bs.map Prod.snd), P.depth b.2 ≤ P.level b.1 := fun b hb =>
    of_decide_eq_true (hT b hb)
  have hq : ∀ g ∈ gs, P.spare K g = true ∧ Tiered P g := fun g hg =>
    ⟨spareAll_mem hsp hg, fun b hb => htier b (by simp [namedAll_mem hg hb])⟩
  have hk : KeptDefs (fun g => P.spare K g = true ∧ Tiered P g) (fun x g => P.depth g ≤ P.level x) bs := fun x g hx =>
    ⟨htier (x, g) (by simp [lastDef_mem hx]), spareAll_mem hsd (def_mem hx), fun b hb => htier b (by
      rw [List.mem_append]; exact Or.inr (namedAll_mem (def_mem hx) hb))⟩
  obtain ⟨-, bs', h3, h4, h5⟩ := holding_step (holding ⟨⟨bs, ⟨h2, hk⟩, hf⟩, hok⟩ tiered_kept h1 hq hbl hused) tiered_kept h1 hq hbl hb hd h
  rw [h5]
  exact Nat.add_le_add_left (script_work_tiers hbl hK0 h1 hsp hlen (fun g hg => (hq g hg).2) h3 h4 whole_cut) _

/-- **C71** for scripts that may be recursive, but not left recursive: the number of tokens is
bounded by a function of the length of the text, the script and nothing else. -/
theorem C71_exponential_any_time {bs : List (Str × Gram)} {K : Nat} (hf : IsFile w lo slo m sc n gs (bs.map fun b => (b.1, .own b.2)))
    (hok : ScopesOK w.st) (hgs : ∀ g ∈ gs, Sane d g) (hbs : ∀ x g, lastDef bs x = some g → Sane d g) (hbl : Blank P.blank)
    (hP : P.ok gs bs = true) (hK : P.frugal K gs bs = true)
    (hused : Used (tableOf w.nodes) cfg m (Suits d) w.st s) (hb : blen p.src ≤ isizeMax) (hd : Suits d p.src)
    (h : tokenize (tableOf w.nodes) cfg fuel (Ctx.new p s.newSCtx.1 name) m s.newSCtx.2 = .ok r s') :
    s'.toks.length ≤ s.toks.length + ((blen p.src + 1) * K + 1) ^ ((blen p.src + 1) * perByte P gs bs) := by
  obtain ⟨h1, h2⟩ := fine_of_ok hP hgs hbs
  obtain ⟨⟨⟨hK0, hlen⟩, hsp⟩, hsd⟩ := frugal_iff.mp hK
  obtain ⟨r', s2, h0⟩ := C53_any_time (name := name) hf hok hgs hbs hbl hP hused hb hd (Nat.le_refl _)
  have hsame : s2 = s' := by
    have a1 := C06_tokenize_depth_independent (Nat.le_max_left fuel ((blen p.src + 1) * perByte P gs bs)) (by rw [h]; nofun)
    have a2 := C06_tokenize_depth_independent (Nat.le_max_right fuel ((blen p.src + 1) * perByte P gs bs)) (by rw [h0]; nofun)
    rw [a1, h, h0] at a2
    cases a2
    rfl
  subst hsame
  have hq : ∀ g ∈ gs, P.spare K g = true := fun g hg => spareAll_mem hsp hg
  have hk : KeptDefs (fun g => P.spare K g = true) (fun _ _ => True) bs := fun x g hx => ⟨trivial, spareAll_mem hsd (def_mem hx)⟩
  obtain ⟨-, bs', h3, h4, h5⟩ := holding_step (holding ⟨⟨bs, ⟨h2, hk⟩, hf⟩, hok⟩ spare_kept h1 hq hbl hused) spare_kept h1 hq hbl hb hd h0
  rw [h5]
  exact Nat.add_le_add_left (script_work_le hbl hK0 h1 hsp hlen h3 h4 whole_cut) _

/-- **C71**, from the text of a script: it is compiled, and the number of tokens that a parse
makes is bounded. -/
theorem C71_bound {env : Env} {src : Str} {nm : Option Str} {bs : List (Str × Gram)} {K : Nat} (ha : Ascii src) (hs : blen src ≤ isizeMax)
    (h : Syntax.Script env src nm gs (bs.map fun b => .own b.1 b.2)) (hm : Compiled env w) (hok : ScopesOK w.st)
    (hgs : ∀ g ∈ gs, Sane d g) (hbs : ∀ x g, lastDef bs x = some g → Sane d g) (hbl : Blank P.blank) (hP : P.ok gs bs = true)
    (hK : P.frugal K gs bs = true) :
    ∃ N m sc w', (∀ fuel, N ≤ fuel → compileScriptFromStr env fuel src name w = .ok m sc w') ∧
      ∀ cfg s p cn fuel r s', Used (tableOf w'.nodes) cfg m (Suits d) w'.st s → blen p.src ≤ isizeMax → Suits d p.src →
        tokenize (tableOf w'.nodes) cfg fuel (Ctx.new p s.newSCtx.1 cn) m s.newSCtx.2 = .ok r s' →
        s'.toks.length ≤ s.toks.length + ((blen p.src + 1) * K + 1) ^ ((blen p.src + 1) * perByte P gs bs) ∧
        (P.tiers gs bs = true → s'.toks.length ≤ s.toks.length + ((blen p.src + 1) * K + 1) ^ perByte P gs bs) := by
  obtain ⟨N, m, sc, w', h1, h2, h3⟩ := C49_str (name := name) ha hs h w hm.milds hok
  exact ⟨N, m, sc, w', h1, fun cfg s p cn fuel r s' hu hb hd ht =>
    ⟨C71_exponential_any_time h3 h2 hgs hbs hbl hP hK hu hb hd ht, fun hT =>
      C71_polynomial_any_time h3 h2 hgs hbs hbl hP hK hT hu hb hd ht⟩⟩

/-! ### Examples -/

namespace Example
open SyntaxExample Syntax CompileExample

/-- Three patterns at most, repetitions that consume, and no recursion. -/
theorem many_frugal : (Plan.mk [("A".toList, (0, false))] fun _ => true).frugal 3 twice
      [("A".toList, .loop 0 usizeMax (.equals "A".toList true ['a']))] = true ∧
    (Plan.mk [("A".toList, (0, false))] fun _ => true).tiers twice
      [("A".toList, .loop 0 usizeMax (.equals "A".toList true ['a']))] = true := by
  decide +kernel

/-- What the script `(<A>)(<='b'>)(<A>)` with `A = <='a'>*` costs for `aabaa`. -/
theorem C71_many_cost : work scriptGrammar scriptNames ⟨"aabaa".toList, []⟩ 5 12 (.whole "S".toList twice) 0 0
    [("A".toList, .loop 0 usizeMax (.equals "A".toList true ['a']))] = 7 := by
  decide +kernel

/-- Repeating what may be absent is not frugal. -/
example : (Plan.mk [] fun _ => true).frugal 3 [.loop 0 usizeMax (.opt (lit "a"))] [] = false := by decide +kernel

/-- Sums and sums in parentheses are frugal, but recursive. -/
example : (Plan.guess (fun _ => true) 9 [("Sum".toList, inOrder "Sum" [nameOf "Term", .opt (inOrder "More" [lit "+", nameOf "Sum"])]),
      ("Term".toList, oneOf "Term" [inOrder "Group" [lit "(", nameOf "Sum", lit ")"], lit "1"])] 9).frugal 3 [nameOf "Sum"]
    [("Sum".toList, inOrder "Sum" [nameOf "Term", .opt (inOrder "More" [lit "+", nameOf "Sum"])]),
      ("Term".toList, oneOf "Term" [inOrder "Group" [lit "(", nameOf "Sum", lit ")"], lit "1"])] = true ∧
    (Plan.guess (fun _ => true) 9 [("Sum".toList, inOrder "Sum" [nameOf "Term", .opt (inOrder "More" [lit "+", nameOf "Sum"])]),
      ("Term".toList, oneOf "Term" [inOrder "Group" [lit "(", nameOf "Sum", lit ")"], lit "1"])] 9).tiers [nameOf "Sum"]
    [("Sum".toList, inOrder "Sum" [nameOf "Term", .opt (inOrder "More" [lit "+", nameOf "Sum"])]),
      ("Term".toList, oneOf "Term" [inOrder "Group" [lit "(", nameOf "Sum", lit ")"], lit "1"])] = false := by
  decide +kernel

/-- The script whose definition changes when it is used: for every text, and whatever has
been parsed before. -/
theorem C71_example {w : World} (hm : Compiled files w) (hok : ScopesOK w.st) :
    ∃ N m sc w', (∀ fuel, N ≤ fuel →
      compileScriptFromStr files fuel "<!--[adextopa version='1'] A = <='a'>* -->(<A>)(<='b'>)(<A>)".toList "S".toList w = .ok m sc w') ∧
    ∀ cfg s p cn fuel r s', Used (tableOf w'.nodes) cfg m (Suits .none) w'.st s → blen p.src ≤ isizeMax →
      tokenize (tableOf w'.nodes) cfg fuel (Ctx.new p s.newSCtx.1 cn) m s.newSCtx.2 = .ok r s' →
      s'.toks.length ≤ s.toks.length + ((blen p.src + 1) * 3 + 1) ^ 8 := by
  obtain ⟨N, m, sc, w', h1, h2⟩ := C71_bound (name := "S".toList) (d := .none)
    (bs := [("A".toList, .loop 0 usizeMax (.equals "A".toList true ['a']))])
    (by unfold Ascii; decide) (by decide) many_ok hm hok
    (fun g hg => by
      unfold twice at hg
      simp only [List.mem_cons, List.not_mem_nil, or_false] at hg
      rcases hg with rfl | rfl | rfl
      · exact .ref
      · exact .equals
      · exact .ref)
    (fun x g hx => by
      unfold lastDef at hx
      rw [List.reverse_singleton, List.find?_singleton] at hx
      split at hx
      · cases hx
        exact .loop .equals
      · cases hx)
    (fun _ _ _ => rfl) many_plan.1 many_frugal.1
  refine ⟨N, m, sc, w', h1, fun cfg s p cn fuel r s' hu hb ht => ?_⟩
  have h3 := (h2 cfg s p cn fuel r s' hu hb (fun _ _ _ h => h.elim) ht).2 many_frugal.2
  rw [many_plan.2] at h3
  exact h3

end Example

end Adx.Interp
