import Verif.Proofs.ToilImports
import Verif.Props.Toil
/-
  C71 for scripts with imports.
-/
namespace Adx.Interp

open Peg (Cut Ready Sim)
open Syntax (Text)

variable {cfg : Cfg} {p : Parser} {m : MatcherId} {sc : SCtxId} {s s' : State} {pl : List (Str × Thing) → Plan}
  {n name : Str} {gs : List Gram} {fuel K : Nat} {w : World} {lo slo : Nat} {d : Quotes} {r : Except Failure TokId}
  {bs : List (Str × Thing)} {R : Str → Prop}

/-- The number of tokens that a further parse makes. -/
theorem fixed_count (hf : IsFile w lo slo m sc n gs bs) (hok : ScopesOK w.st) (hq : QuietAll R gs) (ht : TameDefs R bs)
    (hgs : ∀ g ∈ gs, Sane d g) (hbs : SaneDefs d bs) (hused : Used (tableOf w.nodes) cfg m (Suits d) w.st s)
    (hb : blen p.src ≤ isizeMax) (hd : Suits d p.src)
    (h : tokenize (tableOf w.nodes) cfg fuel (Ctx.new p s.newSCtx.1 name) m s.newSCtx.2 = .ok r s') :
    s'.toks.length = s.toks.length + work fixedGrammar noNames p (blen p.src) fuel (.whole n gs bs) 0 0 () := by
  have key : Steady R w s := by
    clear h
    induction hused with
    | refl => exact .start hok
    | @parse s1 s' p name fuel r _ hb hp ht' ih =>
      obtain ⟨x, -, -, h2⟩ := Sim.ends (fixed_new (cfg := cfg) (fuel := fuel) (name := name) hf ih hb hq ht hgs hbs hp) ht'
      exact h2
  have hS := fixed_run (cfg := cfg) (fuel := fuel) (c := Ctx.new p s.newSCtx.1 name) hf key.new ⟨rfl, rfl, rfl⟩ whole_cut hb key.alive
    (by show s.sctxs.length < s.newSCtx.2.sctxs.length; simp [State.newSCtx])
    (by
      intro x y hx
      rw [show (Ctx.new p s.newSCtx.1 name).scope = s.newSCtx.1 from rfl, new_free] at hx
      cases hx) hq ht (fun g hg => (hgs g hg).imp hd) (hbs.imp hd)
  obtain ⟨x, -, -, -, h1, -⟩ := Sim.ends hS h
  exact h1

/-- **C71** for scripts with imports, if using a definition does not change what names stand
for: whatever has been parsed before, the number of tokens is bounded. -/
theorem C71_imports_any_time (hf : IsFile w lo slo m sc n gs bs) (hok : ScopesOK w.st)
    (hq : QuietAll R gs) (ht : TameDefs R bs) (hgs : ∀ g ∈ gs, Sane d g) (hbs : SaneDefs d bs)
    (hbl : ∀ bs, Blank (pl bs).blank) (hP : okDefs pl (pl bs) bs = true) (hK : frugalAll pl K gs bs = true)
    (hused : Used (tableOf w.nodes) cfg m (Suits d) w.st s) (hb : blen p.src ≤ isizeMax) (hd : Suits d p.src)
    (h : tokenize (tableOf w.nodes) cfg fuel (Ctx.new p s.newSCtx.1 name) m s.newSCtx.2 = .ok r s') :
    s'.toks.length ≤ s.toks.length + ((blen p.src + 1) * K + 1) ^ ((blen p.src + 1) * cost pl (.file 0 n gs bs)) ∧
    (tiersAll pl bs = true → s'.toks.length ≤ s.toks.length + ((blen p.src + 1) * K + 1) ^ cost pl (.file 0 n gs bs)) := by
  constructor
  · obtain ⟨r', s2, h0⟩ := C53_fixed (name := name) hf hok hq ht hgs hbs hbl hP hused hb hd (Nat.le_refl _)
    have hsame : s2 = s' := by
      have a1 := C06_tokenize_depth_independent (Nat.le_max_left fuel ((blen p.src + 1) * cost pl (.file 0 n gs bs))) (by rw [h]; nofun)
      have a2 := C06_tokenize_depth_independent (Nat.le_max_right fuel ((blen p.src + 1) * cost pl (.file 0 n gs bs))) (by rw [h0]; nofun)
      rw [a1, h, h0] at a2
      cases a2
      rfl
    subst hsame
    rw [fixed_count hf hok hq ht hgs hbs hused hb hd h0]
    exact Nat.add_le_add_left (fixed_work_le hbl hgs hbs hP hK whole_cut) _
  · intro hT
    rw [fixed_count hf hok hq ht hgs hbs hused hb hd h]
    exact Nat.add_le_add_left (fixed_work_tiers hbl hgs hbs hP hK hT whole_cut) _

/-- **C71**, from the text of a script with imports. -/
theorem C71_imports {env : Env} {src file : Str} {fromFile : Option Str}
    (h : Text env src name fromFile n gs bs) (hm : Compiled env w)
    (hok : ScopesOK w.st) (hq : QuietAll R gs) (ht : TameDefs R bs) (hgs : ∀ g ∈ gs, Sane d g) (hbs : SaneDefs d bs)
    (hbl : ∀ bs, Blank (pl bs).blank) (hP : okDefs pl (pl bs) bs = true) (hK : frugalAll pl K gs bs = true) :
    ∃ N m sc w', (∀ fuel, N ≤ fuel → compileScript env fuel ⟨src, file⟩ name fromFile w = .ok m sc w') ∧
      ∀ cfg s p nm fuel r s', Used (tableOf w'.nodes) cfg m (Suits d) w'.st s → blen p.src ≤ isizeMax → Suits d p.src →
        tokenize (tableOf w'.nodes) cfg fuel (Ctx.new p s.newSCtx.1 nm) m s.newSCtx.2 = .ok r s' →
        s'.toks.length ≤ s.toks.length + ((blen p.src + 1) * K + 1) ^ ((blen p.src + 1) * cost pl (.file 0 n gs bs)) ∧
        (tiersAll pl bs = true → s'.toks.length ≤ s.toks.length + ((blen p.src + 1) * K + 1) ^ cost pl (.file 0 n gs bs)) := by
  obtain ⟨N, m, sc, w', h1, h2, h3⟩ := C49_compiles (file := file) h w hm.milds hok
  exact ⟨N, m, sc, w', h1, fun cfg s p nm fuel r s' hu hb hd ht' => C71_imports_any_time h3 h2 hq ht hgs hbs hbl hP hK hu hb hd ht'⟩

/-! ### Examples -/

namespace Example

/-- A file with the definition `D` of a digit, and with lists of digits as its pattern. -/
def digits : Thing := .file 1 "Digits".toList [.loop 0 usizeMax (.group "G".toList false false [nameOf "D", lit ","])] [("D".toList, .own (oneOf "D" [lit "0", lit "1"]))]

/-- `D` of the same file, under the name `E`. -/
def digit : Thing := .member 1 [("D".toList, .own (oneOf "D" [lit "0", lit "1"]))] "D".toList "E".toList

/-- A script that uses the file and its definition is frugal and not recursive. -/
theorem digits_frugal :
    okDefs (planFor fun _ => true) (planFor (fun _ => true) [("L".toList, digits), ("E".toList, digit)]) [("L".toList, digits), ("E".toList, digit)] = true ∧
    frugalAll (planFor fun _ => true) 2 [nameOf "L", nameOf "E"] [("L".toList, digits), ("E".toList, digit)] = true ∧
    tiersAll (planFor fun _ => true) [("L".toList, digits), ("E".toList, digit)] = true ∧
    cost (planFor fun _ => true) (.file 0 "S".toList [nameOf "L", nameOf "E"] [("L".toList, digits), ("E".toList, digit)]) = 15 := by
  decide +kernel

/-- With one alternative less than there are it is not. -/
example : frugalAll (planFor fun _ => true) 1 [nameOf "L"] [("L".toList, digits)] = false := by
  decide +kernel

/-- Lists of lists of digits are recursive. -/
example : tiersAll (planFor fun _ => true) [("L".toList, .own (inOrder "L" [lit "(", .opt (nameOf "L"), lit ")"]))] = false := by
  decide +kernel

/-- What the script costs for `0,1,1`. -/
theorem C71_digits_cost : work fixedGrammar noNames ⟨"0,1,1".toList, []⟩ 5 30
    (.whole "S".toList [nameOf "L", nameOf "E"] [("L".toList, digits), ("E".toList, digit)]) 0 0 () = 18 := by
  decide +kernel

end Example

end Adx.Interp
