import Verif.Proofs.InterpScript
import Verif.Spec.Meaning
/-
  The terms that texts of scripts mean make sense.
-/
namespace Adx.Interp

open Peg (Cuts)
open Syntax (Matcher Choices Patterns Definition Pattern Items Statements Header Script Stmt Text File Defines Brought Mod Attr)

variable {env : Env}

theorem Sane.called {d : Quotes} {g : Gram} (h : Sane d g) (n : Str) : Sane d (g.called n) := by
  unfold Gram.called
  split
  · exact h
  · cases h with
    | equals => exact .equals
    | regex h => exact .regex h
    | sequence h ha hb => exact .sequence h ha hb
    | ref => exact .ref
    | null => exact .null
    | group h => exact .group h
    | loop h => exact .loop h
    | opt h => exact .opt h
    | not h => exact .not h
    | discard h => exact .discard h
    | attrs h => exact .attrs h

theorem Sane.wrap {d : Quotes} {g : Gram} (h : Sane d g) (m : Mod) : Sane d (m.wrap g) := by
  cases m with
  | none => exact h
  | opt => exact .opt h
  | not => exact .not h

theorem Sane.repeated {d : Quotes} {g : Gram} (h : Sane d g) (r : Option (Nat × Nat)) : Sane d (Syntax.repeated r g) := by
  cases r with
  | none => exact h
  | some r => exact .loop h

theorem Sane.attributed {d : Quotes} {g : Gram} (h : Sane d g) (as : List Attr) : Sane d (Syntax.attributed as g) := by
  unfold Syntax.attributed
  split
  · exact h
  · exact .attrs h

mutual

theorem matcher_sane (hc : CutsAll env) {w rest : Str} {g : Gram} : Matcher env w g rest → Sane .any g
  | .equals _ _ => .equals
  | .regex _ _ _ hr => .regex (hc _ _ hr)
  | .sequence _ _ _ _ _ _ ha hb => .sequence trivial ha hb
  | .custom _ => .ref
  | .switch h => .group (choices_sane hc h)
  | .program h => .group (patterns_sane hc h)
termination_by structural h => h

theorem choices_sane (hc : CutsAll env) {w rest : Str} {gs : List Gram} : Choices env w gs rest → ∀ g ∈ gs, Sane .any g
  | .last _ h _ => fun g hg => List.mem_singleton.mp hg ▸ pattern_sane hc h
  | .lastBar _ h _ _ => fun g hg => List.mem_singleton.mp hg ▸ pattern_sane hc h
  | .more _ h _ hs => fun g hg => (List.mem_cons.mp hg).elim (fun he => he ▸ pattern_sane hc h) (choices_sane hc hs g)
termination_by structural h => h

theorem patterns_sane (hc : CutsAll env) {w rest : Str} {gs : List Gram} : Patterns env w gs rest → ∀ g ∈ gs, Sane .any g
  | .last _ h _ => fun g hg => List.mem_singleton.mp hg ▸ pattern_sane hc h
  | .more _ h _ hs => fun g hg => (List.mem_cons.mp hg).elim (fun he => he ▸ pattern_sane hc h) (patterns_sane hc hs g)
termination_by structural h => h

theorem definition_sane (hc : CutsAll env) {n w rest : Str} {g : Gram} : Definition env n w g rest → Sane .any g
  | .mk _ h _ _ _ => (((((matcher_sane hc h).called _).attributed _).wrap _).repeated _).wrap _
termination_by structural h => h

theorem pattern_sane (hc : CutsAll env) {w rest : Str} {g : Gram} : Pattern env w g rest → Sane .any g
  | .plain h => .discard (definition_sane hc h)
  | .captured _ h _ => definition_sane hc h
  | .named _ _ _ h _ => definition_sane hc h
termination_by structural h => h

end

theorem items_sane (hc : CutsAll env) {w : Str} {gs : List Gram} (h : Items env w gs) : ∀ g ∈ gs, Sane .any g := by
  induction h with
  | done => exact fun g hg => by cases hg
  | comment _ _ _ ih => exact ih
  | pattern _ h _ ih => exact fun g hg => (List.mem_cons.mp hg).elim (fun he => he ▸ pattern_sane hc h) (ih g)

theorem statements_sane (hc : CutsAll env) {w rest : Str} {ss : List Stmt} (h : Statements env w ss rest) :
    ∀ n g, Stmt.own n g ∈ ss → Sane .any g := by
  induction h with
  | done => exact fun n g hg => by cases hg
  | comment _ _ _ ih => exact ih
  | imports _ _ _ _ _ _ _ ih =>
    intro n g hg
    rcases List.mem_cons.mp hg with h | h
    · cases h
    · exact ih n g h
  | definition _ _ _ _ h _ ih =>
    intro n g hg
    rcases List.mem_cons.mp hg with h' | h'
    · cases h'
      exact definition_sane hc h
    · exact ih n g h'
  | «alias» _ _ _ _ _ _ ih =>
    intro n g hg
    rcases List.mem_cons.mp hg with h' | h'
    · cases h'
      exact .ref
    · exact ih n g h'

theorem script_sane (hc : CutsAll env) {w : Str} {nm : Option Str} {gs : List Gram} {ss : List Stmt} (h : Script env w nm gs ss) :
    (∀ g ∈ gs, Sane .any g) ∧ ∀ n g, Stmt.own n g ∈ ss → Sane .any g := by
  cases h with
  | headed _ h1 h2 =>
    refine ⟨items_sane hc h2, ?_⟩
    cases h1 with
    | mk _ _ _ _ _ h => exact statements_sane hc h
  | bare _ h1 h2 =>
    exact ⟨fun g hg => (List.mem_cons.mp hg).elim (fun he => he ▸ pattern_sane hc h1) (items_sane hc h2 g), fun n g hg => by cases hg⟩

theorem brought_sane {t : Nat} {gs : List Gram} {bs : List (Str × Thing)} {n cur : Str} {ids : List (Str × Str)} {ths : List (Str × Thing)}
    (hg : ∀ g ∈ gs, Sane .any g) (hb : SaneDefs .any bs) (h : Brought t gs bs n cur ids ths) : ∀ b ∈ ths, SaneThing .any b.2 := by
  induction h with
  | nil => exact fun b hb => by cases hb
  | root _ _ ih => exact fun b hm => (List.mem_cons.mp hm).elim (fun he => he ▸ .file hg hb) (ih b)
  | member _ _ _ ih => exact fun b hm => (List.mem_cons.mp hm).elim (fun he => he ▸ .member hb) (ih b)

/-- What texts mean makes sense. -/
theorem text_sane (hc : CutsAll env) {src name : Str} {fromFile : Option Str} {n : Str} {gs : List Gram} {bs : List (Str × Thing)}
    (h : Text env src name fromFile n gs bs) : (∀ g ∈ gs, Sane .any g) ∧ SaneDefs .any bs := by
  refine Text.rec (env := env)
    (motive_1 := fun src name fromFile n gs bs _ => (∀ g ∈ gs, Sane .any g) ∧ SaneDefs .any bs)
    (motive_2 := fun file n gs bs _ => (∀ g ∈ gs, Sane .any g) ∧ SaneDefs .any bs)
    (motive_3 := fun fromFile _ ss bs _ => (∀ n g, Stmt.own n g ∈ ss → Sane .any g) → ∀ b ∈ bs, SaneThing .any b.2)
    ?_ ?_ ?_ ?_ ?_ h
  · intro src name fromFile nm gs ss bs _ _ h _ ih
    obtain ⟨h1, h2⟩ := script_sane hc h
    exact ⟨h1, .mk fun x th hx => ih h2 _ (lastDef_mem hx)⟩
  · exact fun _ _ _ ih => ih
  · exact fun _ b hb => by cases hb
  · intro fromFile t name g ss bs _ ih hs b hb
    rcases List.mem_cons.mp hb with rfl | hb
    · exact .own (hs name g (List.mem_cons_self ..))
    · exact ih (fun n g hg => hs n g (List.mem_cons_of_mem _ hg)) b hb
  · intro base t path joined file ids n0 n gs fbs ths ss bs _ _ _ hbr _ ih ih' hs b hb
    rcases List.mem_append.mp hb with hb | hb
    · exact brought_sane ih.1 ih.2 hbr b hb
    · exact ih' (fun n g hg => hs n g (List.mem_cons_of_mem _ hg)) b hb

end Adx.Interp
