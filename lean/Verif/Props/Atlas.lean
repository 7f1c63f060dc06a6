import Verif.Proofs.Atlas
import Verif.Props.Toil
import Verif.Props.LinkedExample
/-
  C72: scripts with imports come to an end, whatever their definitions.
-/
namespace Adx.Interp

open Peg (Cut Sim)
open Syntax (Text)

variable {A : Atlas} {d : Quotes} {p : Parser} {stop pos fuel K : Nat} {n name : Str} {gs : List Gram} {bs : List (Str × Thing)} {w : World}

theorem charted_of {W : Demand} (h : A.meets W gs bs = true) (hgs : ∀ g ∈ gs, Sane d g) (hbs : ∀ b ∈ bs, Deep d b.2) :
    ((∀ g ∈ gs, Charted A d W 1 g) ∧ W.few gs = true) ∧ ChartedAll A d W (scopesOf bs) := by
  unfold Atlas.meets at h
  rw [Bool.and_eq_true] at h
  exact ⟨⟨charted_terms h.1 hgs, (terms_iff.mp h.1).2⟩, charted_start h.2 hbs⟩

section

variable {W : Demand} {σ : Layout}

theorem after_charted (hQ : Passes W) (hb : ∀ k, Blank (A.plan k).blank) (hgs : ∀ g ∈ gs, Charted A d W 1 g) (hfew : W.few gs = true)
    {ps : List Parser} {σ' : Layout} (h : After n gs ps σ σ') : ChartedAll A d W σ → ChartedAll A d W σ' := by
  induction h with
  | nil => exact id
  | cons h _ ih => exact fun hσ => ih (linked_stays hQ hb hgs hfew hσ whole_cut h)

theorem after_total (hQ : Passes W) (hb : ∀ k, Blank (A.plan k).blank) (hgs : ∀ g ∈ gs, Charted A d W 1 g) (hfew : W.few gs = true)
    (ps : List Parser) : ∀ {σ}, ChartedAll A d W σ → ∃ σ', After n gs ps σ σ' := by
  induction ps with
  | nil => exact fun _ => ⟨_, .nil⟩
  | cons p ps ih =>
    intro σ hσ
    obtain ⟨x, hx⟩ := linked_total (n := n) hQ hb hgs hfew hσ (whole_cut (src := p.src)) (Nat.le_refl _)
    obtain ⟨σ', h⟩ := ih (linked_stays hQ hb hgs hfew hσ whole_cut hx)
    exact ⟨σ', .cons hx h⟩

end

theorem any_passes : Passes .none := ⟨fun _ _ _ _ _ => rfl, fun _ _ _ _ _ => rfl⟩

/-- **C72** for the meaning of scripts: a depth of recursion that is linear in the length of
the text suffices. -/
theorem C72_run (hb : ∀ k, Blank (A.plan k).blank) (hA : A.ok gs bs = true) (hgs : ∀ g ∈ gs, Sane d g) (hbs : ∀ b ∈ bs, Deep d b.2)
    {ps : List Parser} {σ : Layout} (ha : After n gs ps (scopesOf bs) σ) (hpos : Cut p.src stop pos)
    (hf : (stop - pos + 1) * A.perByte ≤ fuel) : ∃ x, runLinked p stop n gs fuel pos σ = some x := by
  obtain ⟨⟨h1, -⟩, h2⟩ := charted_of hA hgs hbs
  exact linked_total any_passes hb h1 rfl (after_charted any_passes hb h1 rfl ha h2) hpos hf

/-- **C72**, from the text of a script: it is compiled, any texts can be parsed with it one
after the other, and after that every further parse comes to an end. -/
theorem C72_text {env : Env} {src file : Str} {fromFile : Option Str} (h : Text env src name fromFile n gs bs) (hm : Compiled env w)
    (hok : ScopesOK w.st) (hgs : ∀ g ∈ gs, Sane d g) (hbs : ∀ b ∈ bs, Deep d b.2) (hb : ∀ k, Blank (A.plan k).blank)
    (hA : A.ok gs bs = true) :
    ∃ N m sc w', (∀ fuel, N ≤ fuel → compileScript env fuel ⟨src, file⟩ name fromFile w = .ok m sc w') ∧
      ∀ cfg ps, (∀ p ∈ ps, blen p.src ≤ isizeMax ∧ Suits d p.src) →
        (∃ s, Parses (tableOf w'.nodes) cfg m ps w'.st s) ∧
        ∀ s, Parses (tableOf w'.nodes) cfg m ps w'.st s → ∀ p nm fuel, blen p.src ≤ isizeMax → Suits d p.src →
          (blen p.src + 1) * A.perByte ≤ fuel →
          ∃ r s', tokenize (tableOf w'.nodes) cfg fuel (Ctx.new p s.newSCtx.1 nm) m s.newSCtx.2 = .ok r s' := by
  obtain ⟨N, m, sc, w', h1, h2⟩ := C63_text (file := file) h hm hok hgs (deep_defs hbs)
  obtain ⟨⟨h3, -⟩, h4⟩ := charted_of hA hgs hbs
  refine ⟨N, m, sc, w', h1, fun cfg ps hps => ⟨?_, fun s hs p nm fuel hbl hd hf => ?_⟩⟩
  · obtain ⟨σ, hσ⟩ := after_total (n := n) any_passes hb h3 rfl ps h4
    exact (h2 cfg ps hps).1 σ hσ
  · obtain ⟨σ, h5, h6⟩ := (h2 cfg ps hps).2 s hs
    obtain ⟨x, hx⟩ := C72_run (p := p) (pos := 0) hb hA hgs hbs h5 whole_cut hf
    obtain ⟨r, s', h7, -⟩ := Sim.returns (h6 p nm fuel hbl hd) hx
    exact ⟨r, s', h7⟩

theorem tokens_le {W : Demand} {env : Env} {src file : Str} {fromFile : Option Str} (hQ : Passes W) (h : Text env src name fromFile n gs bs)
    (hm : Compiled env w) (hok : ScopesOK w.st) (hgs : ∀ g ∈ gs, Sane d g) (hbs : ∀ b ∈ bs, Deep d b.2) (hb : ∀ k, Blank (A.plan k).blank)
    (hA : A.meets W gs bs = true) :
    ∃ N m sc w', (∀ fuel, N ≤ fuel → compileScript env fuel ⟨src, file⟩ name fromFile w = .ok m sc w') ∧
      ∀ cfg ps, (∀ p ∈ ps, blen p.src ≤ isizeMax ∧ Suits d p.src) → ∀ s, Parses (tableOf w'.nodes) cfg m ps w'.st s →
        ∀ p nm fuel r s', blen p.src ≤ isizeMax → Suits d p.src →
          tokenize (tableOf w'.nodes) cfg fuel (Ctx.new p s.newSCtx.1 nm) m s.newSCtx.2 = .ok r s' →
          ∃ σ, ChartedAll A d W σ ∧ s'.toks.length = s.toks.length +
            work linkedGrammar linkedNames p (blen p.src) ((blen p.src + 1) * A.perByte) (.whole n gs) 0 0 σ := by
  obtain ⟨⟨h1, hfew⟩, h2⟩ := charted_of hA hgs hbs
  obtain ⟨N, m, sc, w', h3, h4⟩ := C71_text (file := file) h hm hok hgs (deep_defs hbs)
  obtain ⟨N', m', sc', w2, h3', h4'⟩ := C63_text (file := file) h hm hok hgs (deep_defs hbs)
  have he := (h3 (max N N') (Nat.le_max_left ..)).symm.trans (h3' (max N N') (Nat.le_max_right ..))
  cases he
  refine ⟨N, m, sc, w', h3, fun cfg ps hps s hs p nm fuel r s' hbl hd ht => ?_⟩
  obtain ⟨σ, h5, h6⟩ := h4 cfg ps hps s hs
  obtain ⟨σ', h5', h6'⟩ := (h4' cfg ps hps).2 s hs
  obtain rfl := C63_unique h5 h5'
  have h7 := after_charted hQ hb h1 hfew h5 h2
  obtain ⟨x, hx⟩ := linked_total (p := p) (stop := blen p.src) (pos := 0) (n := n) hQ hb h1 hfew h7 whole_cut (Nat.le_refl _)
  obtain ⟨r0, s0, h0, -⟩ := Sim.returns (h6' p nm _ hbl hd) hx
  have hsame : s0 = s' := by
    have a1 := C06_tokenize_depth_independent (Nat.le_max_left fuel ((blen p.src - 0 + 1) * A.perByte)) (by rw [ht]; nofun)
    have a2 := C06_tokenize_depth_independent (Nat.le_max_right fuel ((blen p.src - 0 + 1) * A.perByte)) (by rw [h0]; nofun)
    rw [a1, ht, h0] at a2
    cases a2
    rfl
  subst hsame
  exact ⟨σ, h7, h6 p nm _ hbl hd _ _ h0⟩

/-- **C72**: the number of tokens that each of these parses makes is bounded. -/
theorem C72_tokens {env : Env} {src file : Str} {fromFile : Option Str} (h : Text env src name fromFile n gs bs) (hm : Compiled env w)
    (hok : ScopesOK w.st) (hgs : ∀ g ∈ gs, Sane d g) (hbs : ∀ b ∈ bs, Deep d b.2) (hb : ∀ k, Blank (A.plan k).blank)
    (hA : A.frugal K gs bs = true) :
    ∃ N m sc w', (∀ fuel, N ≤ fuel → compileScript env fuel ⟨src, file⟩ name fromFile w = .ok m sc w') ∧
      ∀ cfg ps, (∀ p ∈ ps, blen p.src ≤ isizeMax ∧ Suits d p.src) → ∀ s, Parses (tableOf w'.nodes) cfg m ps w'.st s →
        ∀ p nm fuel r s', blen p.src ≤ isizeMax → Suits d p.src →
          tokenize (tableOf w'.nodes) cfg fuel (Ctx.new p s.newSCtx.1 nm) m s.newSCtx.2 = .ok r s' →
          s'.toks.length ≤ s.toks.length + ((blen p.src + 1) * K + 1) ^ ((blen p.src + 1) * A.perByte) := by
  unfold Atlas.frugal at hA
  rw [Bool.and_eq_true, decide_eq_true_iff] at hA
  obtain ⟨⟨h1, hfew⟩, -⟩ := charted_of hA.2 hgs hbs
  obtain ⟨N, m, sc, w', h3, h4⟩ := tokens_le (file := file) spare_passes h hm hok hgs hbs hb hA.2
  refine ⟨N, m, sc, w', h3, fun cfg ps hps s hs p nm fuel r s' hbl hd ht => ?_⟩
  obtain ⟨σ, h5, h6⟩ := h4 cfg ps hps s hs p nm fuel r s' hbl hd ht
  rw [h6]
  exact Nat.add_le_add_left (linked_work_le spare_bounds spare_passes hb hA.1 h1 hfew h5 whole_cut) _

/-- **C72**: if the definitions are not recursive, by a polynomial in the length of the text. -/
theorem C72_polynomial {env : Env} {src file : Str} {fromFile : Option Str} (h : Text env src name fromFile n gs bs) (hm : Compiled env w)
    (hok : ScopesOK w.st) (hgs : ∀ g ∈ gs, Sane d g) (hbs : ∀ b ∈ bs, Deep d b.2) (hb : ∀ k, Blank (A.plan k).blank)
    (hA : A.tiers K gs bs = true) :
    ∃ N m sc w', (∀ fuel, N ≤ fuel → compileScript env fuel ⟨src, file⟩ name fromFile w = .ok m sc w') ∧
      ∀ cfg ps, (∀ p ∈ ps, blen p.src ≤ isizeMax ∧ Suits d p.src) → ∀ s, Parses (tableOf w'.nodes) cfg m ps w'.st s →
        ∀ p nm fuel r s', blen p.src ≤ isizeMax → Suits d p.src →
          tokenize (tableOf w'.nodes) cfg fuel (Ctx.new p s.newSCtx.1 nm) m s.newSCtx.2 = .ok r s' →
          s'.toks.length ≤ s.toks.length + ((blen p.src + 1) * K + 1) ^ A.perByte := by
  unfold Atlas.tiers at hA
  rw [Bool.and_eq_true, decide_eq_true_iff] at hA
  obtain ⟨⟨h1, hfew⟩, -⟩ := charted_of hA.2 hgs hbs
  obtain ⟨N, m, sc, w', h3, h4⟩ := tokens_le (file := file) tiers_passes h hm hok hgs hbs hb hA.2
  refine ⟨N, m, sc, w', h3, fun cfg ps hps s hs p nm fuel r s' hbl hd ht => ?_⟩
  obtain ⟨σ, h5, h6⟩ := h4 cfg ps hps s hs p nm fuel r s' hbl hd ht
  rw [h6]
  exact Nat.add_le_add_left (linked_work_tiers hb hA.1 h1 hfew h5 whole_cut) _

/-! ### Texts of one byte per character -/

theorem brought_deep {t : Nat} {ths : List (Str × Thing)} {cur : Str} {ids : List (Str × Str)} (hg : ∀ g ∈ gs, Sane d g)
    (hb : ∀ b ∈ bs, Deep d b.2) (h : Syntax.Brought t gs bs n cur ids ths) : ∀ b ∈ ths, Deep d b.2 := by
  induction h with
  | nil => exact fun b hb => by cases hb
  | root _ _ ih => exact fun b hm => (List.mem_cons.mp hm).elim (fun he => he ▸ .file hg hb) (ih b)
  | member _ _ _ ih => exact fun b hm => (List.mem_cons.mp hm).elim (fun he => he ▸ .member hb) (ih b)

/-- What texts mean makes sense, also where it is not in use. -/
theorem text_deep {env : Env} (hc : CutsAll env) {src : Str} {fromFile : Option Str} (h : Text env src name fromFile n gs bs) :
    (∀ g ∈ gs, Sane .any g) ∧ ∀ b ∈ bs, Deep .any b.2 := by
  refine Text.rec (env := env)
    (motive_1 := fun src name fromFile n gs bs _ => (∀ g ∈ gs, Sane .any g) ∧ ∀ b ∈ bs, Deep .any b.2)
    (motive_2 := fun file n gs bs _ => (∀ g ∈ gs, Sane .any g) ∧ ∀ b ∈ bs, Deep .any b.2)
    (motive_3 := fun fromFile _ ss bs _ => (∀ n g, Syntax.Stmt.own n g ∈ ss → Sane .any g) → ∀ b ∈ bs, Deep .any b.2)
    ?_ ?_ ?_ ?_ ?_ h
  · intro src name fromFile nm gs ss bs _ _ h _ ih
    obtain ⟨h1, h2⟩ := script_sane hc h
    exact ⟨h1, ih h2⟩
  · exact fun _ _ _ ih => ih
  · exact fun _ b hb => by cases hb
  · intro fromFile t name g ss bs _ ih hs b hb
    rcases List.mem_cons.mp hb with rfl | hb
    · exact .own (hs name g (List.mem_cons_self ..))
    · exact ih (fun n g hg => hs n g (List.mem_cons_of_mem _ hg)) b hb
  · intro base t path joined file ids n0 n gs fbs ths ss bs _ _ _ hbr _ ih ih' hs b hb
    rcases List.mem_append.mp hb with hb | hb
    · exact brought_deep ih.1 ih.2 hbr b hb
    · exact ih' (fun n g hg => hs n g (List.mem_cons_of_mem _ hg)) b hb

/-- **C72** for texts of one byte per character: it suffices that the plans are right. -/
theorem C72_ascii {env : Env} {src file : Str} {fromFile : Option Str} (hre : CutsAll env) (h : Text env src name fromFile n gs bs)
    (hm : Compiled env w) (hok : ScopesOK w.st) (hb : ∀ k, Blank (A.plan k).blank) (hA : A.ok gs bs = true) :
    ∃ N m sc w', (∀ fuel, N ≤ fuel → compileScript env fuel ⟨src, file⟩ name fromFile w = .ok m sc w') ∧
      ∀ cfg ps, (∀ p ∈ ps, blen p.src ≤ isizeMax ∧ Ascii p.src) →
        (∃ s, Parses (tableOf w'.nodes) cfg m ps w'.st s) ∧
        ∀ s, Parses (tableOf w'.nodes) cfg m ps w'.st s → ∀ p nm fuel, blen p.src ≤ isizeMax → Ascii p.src →
          (blen p.src + 1) * A.perByte ≤ fuel →
          ∃ r s', tokenize (tableOf w'.nodes) cfg fuel (Ctx.new p s.newSCtx.1 nm) m s.newSCtx.2 = .ok r s' := by
  obtain ⟨h1, h2⟩ := text_deep hre h
  obtain ⟨N, m, sc, w', h3, h4⟩ := C72_text (file := file) h hm hok h1 h2 hb hA
  refine ⟨N, m, sc, w', h3, fun cfg ps hps => ?_⟩
  obtain ⟨h5, h6⟩ := h4 cfg ps fun p hp => ⟨(hps p hp).1, suits_of_ascii (hps p hp).2⟩
  exact ⟨h5, fun s hs p nm fuel hl hp hf => h6 s hs p nm fuel hl (suits_of_ascii hp) hf⟩

theorem atlas_blank {blank : Regex → Bool} {k : Nat} : ((Atlas.guess blank gs bs).plan k).blank = blank := by
  unfold Atlas.guess Atlas.planAt
  dsimp only
  split <;> rfl

/-- **C72**: it suffices that a program finds plans. -/
theorem C72_checked {env : Env} {src file : Str} {fromFile : Option Str} {blank : Regex → Bool} (hre : CutsAll env)
    (h : Text env src name fromFile n gs bs) (hm : Compiled env w) (hok : ScopesOK w.st) (hb : Blank blank)
    (hA : Atlas.found blank gs bs = true) :
    ∃ K N m sc w', (∀ fuel, N ≤ fuel → compileScript env fuel ⟨src, file⟩ name fromFile w = .ok m sc w') ∧
      ∀ cfg ps, (∀ p ∈ ps, blen p.src ≤ isizeMax ∧ Ascii p.src) →
        (∃ s, Parses (tableOf w'.nodes) cfg m ps w'.st s) ∧
        ∀ s, Parses (tableOf w'.nodes) cfg m ps w'.st s → ∀ p nm fuel, blen p.src ≤ isizeMax → Ascii p.src →
          (blen p.src + 1) * K ≤ fuel →
          ∃ r s', tokenize (tableOf w'.nodes) cfg fuel (Ctx.new p s.newSCtx.1 nm) m s.newSCtx.2 = .ok r s' :=
  ⟨_, C72_ascii hre h hm hok (fun _ => by rw [atlas_blank]; exact hb) hA⟩

/-! ### Examples -/

namespace LinkedExample

/-- Plans for the script of C63 whose definitions change when they are used. -/
def map : Atlas where
  plan k := if k = 1 then ⟨[("P".toList, (0, false)), ("Q".toList, (0, false))], fun _ => true⟩
    else ⟨[("A".toList, (0, false)), ("B".toList, (1, false))], fun _ => true⟩
  size _ := 1
  base k := if k = 1 then 8 else 0

/-- They are right. -/
theorem map_right : map.ok visit (bag 1) = true ∧ map.frugal 3 visit (bag 1) = true ∧ map.tiers 3 visit (bag 1) = true ∧ map.perByte = 16 := by
  decide +kernel

/-- They are not right if `B` is not above `A`, nor if a script is not above what it imports. -/
theorem map_wrong : Atlas.ok { map with plan := fun _ => ⟨[], fun _ => true⟩ } visit (bag 1) = false ∧
    Atlas.ok { map with base := fun k => if k = 1 then 7 else 0 } visit (bag 1) = false := by
  decide +kernel

/-- No plans are right for a definition of an imported file that begins with itself. -/
theorem map_left (A : Atlas) : A.ok [] [("P".toList, .member 0 [("A".toList, .own (.ref "A".toList true "A".toList))] "A".toList "P".toList)] = false := by
  cases h : A.ok [] [("P".toList, .member 0 [("A".toList, .own (.ref "A".toList true "A".toList))] "A".toList "P".toList)] with
  | false => rfl
  | true =>
    unfold Atlas.ok Atlas.meets at h
    rw [Bool.and_eq_true] at h
    have h1 := okDefs_mem' h.2 (List.mem_singleton.mpr rfl)
    unfold Atlas.okThing at h1
    rw [Bool.and_eq_true] at h1
    have h2 := okDefs_mem' h1.2 (List.mem_singleton.mpr rfl)
    have h3 : (A.plan (branch 1 0)).level "A".toList + 1 ≤ (A.plan (branch 1 0)).level "A".toList := by
      unfold Atlas.okThing at h2
      rw [Bool.and_eq_true, Bool.and_eq_true, Bool.and_eq_true, Bool.and_eq_true] at h2
      have := (fits_iff.mp h2.1.1.1.1).1
      unfold Plan.height at this
      exact this
    omega

/-- Plans are found for this script, and none for the other. -/
theorem map_found : Atlas.found (fun _ => true) visit (bag 1) = true ∧ (Atlas.guess (fun _ => true) visit (bag 1)).perByte = 28 ∧
    Atlas.found (fun _ => true) [] [("P".toList, .member 0 [("A".toList, .own (.ref "A".toList true "A".toList))] "A".toList "P".toList)] = false := by
  decide +kernel

open Example (inOrder oneOf nameOf lit)

/-- Sums in parentheses. -/
def sums : List (Str × Thing) :=
  [("Sum".toList, .own (inOrder "Sum" [nameOf "Term", .opt (inOrder "More" [lit "+", nameOf "Sum"])])),
   ("Term".toList, .own (oneOf "Term" [lit "1", inOrder "In" [lit "(", nameOf "Sum", lit ")"]]))]

/-- Plans are found for a script that imports a script that imports sums, under other names and as a whole. -/
theorem sums_found : Atlas.found (fun _ => true) [nameOf "S", .opt (nameOf "F")]
    [("S".toList, .member 0 [("U".toList, .member 0 sums "Sum".toList "U".toList), ("V".toList, .own (inOrder "V" [nameOf "U", nameOf "V"]))]
      "V".toList "S".toList), ("F".toList, .file 1 "F".toList [nameOf "Sum"] sums)] = true ∧
    Atlas.found (fun _ => true) [nameOf "S"]
      [("S".toList, .member 0 [("U".toList, .member 0 sums "Sum".toList "U".toList), ("V".toList, .own (inOrder "V" [.opt (nameOf "U"), nameOf "V"]))]
        "V".toList "S".toList)] = false := by
  decide +kernel

/-- Plans are found for a name that stands for a member that may match without consuming, and
for names that are given in patterns, of the script and of a file. -/
theorem idle_found : Atlas.found (fun _ => true) [nameOf "Q"]
      [("P".toList, .member 0 [("A".toList, .own (.opt (lit "a")))] "A".toList "P".toList), ("Q".toList, .own (inOrder "Q" [nameOf "P", lit "x"]))] = true ∧
    Atlas.found (fun _ => true) [nameOf "Q"]
      [("P".toList, .member 0 [("A".toList, .own (.opt (lit "a")))] "A".toList "P".toList), ("Q".toList, .own (inOrder "Q" [nameOf "P", nameOf "Q"]))] = false ∧
    Atlas.found (fun _ => true) [inOrder "G" [nameOf "A"]] [("A".toList, .own (lit "a"))] = true ∧
    Atlas.found (fun _ => true) [nameOf "F"] [("F".toList, .file 0 "F".toList [inOrder "G" [nameOf "A"]] [("A".toList, .own (lit "a"))])] = true := by
  decide +kernel

/-- Sums are recursive, and the script has more than two patterns. -/
theorem sums_tiers : (Atlas.guess (fun _ => true) [nameOf "Sum"] sums).frugal 3 [nameOf "Sum"] sums = true ∧
    (Atlas.guess (fun _ => true) [nameOf "Sum"] sums).tiers 3 [nameOf "Sum"] sums = false ∧
    map.frugal 2 visit (bag 1) = false := by
  decide +kernel

theorem bag_deep {t : Nat} : ∀ b ∈ bag t, Deep .none b.2 := by
  have hs : ∀ b ∈ stock, Deep .none b.2 := by
    intro b hb
    unfold stock at hb
    simp only [List.mem_cons, List.not_mem_nil, or_false] at hb
    rcases hb with rfl | rfl
    · exact .own (.loop .equals)
    · exact .own .ref
  intro b hb
  unfold bag at hb
  simp only [List.mem_cons, List.not_mem_nil, or_false] at hb
  rcases hb with rfl | rfl
  · exact .member hs
  · exact .member hs

/-- Every parse with this script comes to an end. -/
theorem C72_example {w : World} (hm : Compiled shop w) (hok : ScopesOK w.st) :
    ∃ N m sc w', (∀ fuel, N ≤ fuel → compileScript shop fuel ⟨singly, "s".toList⟩ "S".toList (some "s".toList) w = .ok m sc w') ∧
      ∀ cfg ps, (∀ p ∈ ps, blen p.src ≤ isizeMax) →
        (∃ s, Parses (tableOf w'.nodes) cfg m ps w'.st s) ∧
        ∀ s, Parses (tableOf w'.nodes) cfg m ps w'.st s → ∀ p nm fuel, blen p.src ≤ isizeMax → (blen p.src + 1) * 16 ≤ fuel →
          ∃ r s', tokenize (tableOf w'.nodes) cfg fuel (Ctx.new p s.newSCtx.1 nm) m s.newSCtx.2 = .ok r s' := by
  have hany : ∀ p : Parser, Suits .none p.src := fun _ _ _ _ h => h.elim
  obtain ⟨N, m, sc, w', h1, h2⟩ := C72_text (A := map) (file := "s".toList) bags_ok.2 hm hok visit_sane bag_deep (by
    intro k re w h
    unfold map
    dsimp only
    split <;> rfl) map_right.1
  rw [map_right.2.2.2] at h2
  refine ⟨N, m, sc, w', h1, fun cfg ps hps => ?_⟩
  obtain ⟨h3, h4⟩ := h2 cfg ps fun p hp => ⟨hps p hp, hany p⟩
  exact ⟨h3, fun s hs p nm fuel hb hf => h4 s hs p nm fuel hb (hany p) hf⟩

/-- What the script costs for `aabaa`, the first time and the second. -/
theorem C72_cost : work linkedGrammar linkedNames ⟨"aabaa".toList, []⟩ 5 20 (.whole "S".toList visit) 0 0 (scopesOf (bag 1)) = 9 ∧
    ((runLinked ⟨"aabaa".toList, []⟩ 5 "S".toList visit 20 0 (scopesOf (bag 1))).map fun x =>
      work linkedGrammar linkedNames ⟨"aabaa".toList, []⟩ 5 20 (.whole "S".toList visit) 0 0 x.2) = some 7 := by
  decide +kernel

end LinkedExample

end Adx.Interp
