import Verif.Proofs.LayersCompile
import Verif.Props.Import
import Verif.Props.LinkedExample
/-
  C69: references among matchers and scopes.
-/
namespace Adx

section

variable {T : Table} {s : State} {o : Obj}

theorem printList_some {f : Obj → Option (List Obj)} {os : List Obj} : (printList f os).isSome ↔ ∀ o ∈ os, (f o).isSome := by
  induction os with
  | nil => simp [printList]
  | cons o os ih =>
    unfold printList
    rw [List.forall_mem_cons]
    cases h : f o with
    | none => simp
    | some a => simp [ih]

theorem printObj_more {d e : Nat} (hd : d ≤ e) : ∀ {o : Obj}, (printObj T s d o).isSome → (printObj T s e o).isSome := by
  induction d generalizing e with
  | zero => intro o h; cases h
  | succ d ih =>
    intro o h
    obtain ⟨e, rfl⟩ : ∃ x, e = x + 1 := ⟨e - 1, by omega⟩
    unfold printObj at h ⊢
    rw [Option.isSome_map, printList_some] at h ⊢
    exact fun o' ho => ih (Nat.le_of_succ_le_succ hd) (h o' ho)

/-- **C69**: a matcher or scope context can be printed if and only if all chains of references that
start at it end. -/
theorem C69_print : (∃ d, (printObj T s d o).isSome) ↔ Bounded T s o := by
  constructor
  · rintro ⟨d, h⟩
    induction d generalizing o with
    | zero => cases h
    | succ d ih =>
      unfold printObj at h
      rw [Option.isSome_map, printList_some] at h
      exact .mk fun o' ho => ih (h o' (holds_iff.mp ho))
  · intro h
    induction h with
    | @mk o _ ih =>
      have : ∀ os : List Obj, (∀ o' ∈ os, ∃ d, (printObj T s d o').isSome) → ∃ d, ∀ o' ∈ os, (printObj T s d o').isSome := by
        intro os
        induction os with
        | nil => exact fun _ => ⟨0, fun _ h => nomatch h⟩
        | cons x os ihs =>
          intro h
          obtain ⟨d1, h1⟩ := h x List.mem_cons_self
          obtain ⟨d2, h2⟩ := ihs fun y hy => h y (List.mem_cons_of_mem _ hy)
          refine ⟨max d1 d2, fun y hy => ?_⟩
          rcases List.mem_cons.mp hy with rfl | hy
          · exact printObj_more (Nat.le_max_left ..) h1
          · exact printObj_more (Nat.le_max_right ..) (h2 y hy)
      obtain ⟨d, hd⟩ := this (o.refs T s) fun o' ho => ih o' (holds_iff.mpr ho)
      refine ⟨d + 1, ?_⟩
      unfold printObj
      rw [Option.isSome_map, printList_some]
      exact hd

theorem printList_mem {f : Obj → Option (List Obj)} {os l : List Obj} (h : printList f os = some l) {x : Obj} :
    x ∈ l ↔ ∃ o ∈ os, ∃ a, f o = some a ∧ x ∈ a := by
  induction os generalizing l with
  | nil =>
    cases h
    simp
  | cons o os ih =>
    unfold printList at h
    cases hf : f o with
    | none => rw [hf] at h; cases h
    | some a =>
      rw [hf] at h
      obtain ⟨b, hb, rfl⟩ := Option.map_eq_some_iff.mp h
      rw [List.mem_append, ih hb]
      simp [hf]

/-- **C69**: what is printed is the matcher itself and all that can be reached from it. -/
theorem C69_text {d : Nat} {l : List Obj} (h : printObj T s d o = some l) {x : Obj} : x ∈ l ↔ x = o ∨ HoldsPath T s o x := by
  induction d generalizing o l with
  | zero => cases h
  | succ d ih =>
    unfold printObj at h
    obtain ⟨b, hb, rfl⟩ := Option.map_eq_some_iff.mp h
    rw [List.mem_cons, printList_mem hb]
    refine or_congr_right ⟨?_, fun hx => ?_⟩
    · rintro ⟨o', ho, a, ha, hx⟩
      rcases (ih ha).mp hx with rfl | hx
      · exact .one (holds_iff.mpr ho)
      · exact .more (holds_iff.mpr ho) hx
    · have key : ∀ o', Holds T s o o' → ∃ a, printObj T s d o' = some a := fun o' ho =>
        Option.isSome_iff_exists.mp (printList_some.mp (by rw [hb]; rfl) o' (holds_iff.mp ho))
      cases hx with
      | one ho =>
        obtain ⟨a, ha⟩ := key _ ho
        exact ⟨_, holds_iff.mp ho, a, ha, (ih ha).mpr (.inl rfl)⟩
      | more ho hs =>
        obtain ⟨a, ha⟩ := key _ ho
        exact ⟨_, holds_iff.mp ho, a, ha, (ih ha).mpr (.inr hs)⟩

theorem Bounded.path {o' : Obj} (h : Bounded T s o) (hp : HoldsPath T s o o') : Bounded T s o' := by
  induction hp with
  | one h' => cases h with | mk h => exact h _ h'
  | more h' _ ih => cases h with | mk h => exact ih (h _ h')

/-- **C69**: from where a cycle can be reached, printing has no end. -/
theorem C69_cycle {o' : Obj} (h : HoldsPath T s o' o') : ¬Bounded T s o' ∧ (HoldsPath T s o o' → ¬Bounded T s o) := by
  have g : ∀ x, Bounded T s x → ¬HoldsPath T s x x := by
    intro x hx
    induction hx with
    | @mk x hb ih =>
      have turn : ∀ {a b c : Obj}, HoldsPath T s a b → Holds T s b c → HoldsPath T s a c := by
        intro a b c hab hbc
        induction hab with
        | one h => exact .more h (.one hbc)
        | more h _ ih => exact .more h (ih hbc)
      intro hp
      cases hp with
      | one h => exact ih _ h (.one h)
      | more h1 hs => exact ih _ h1 (turn hs h1)
  exact ⟨fun hb => g o' hb h, fun hp hb => g o' (hb.path hp) h⟩

/-- **C69**: if all contexts that can be entered from a context rank lower, this stays so in every
run, and nothing that it leaves behind in these contexts is part of a cycle. -/
theorem C69_runs {cfg : Cfg} {ρ : SCtxId → Nat} {D : SCtxId → Prop} (hT : ∀ m, (T m).LeavesScopes) {m : MatcherId} {c : Ctx}
    {sc : SCtxId} (hsc : D sc) (hm : Layered T ρ D sc m) (hs : InLayers T ρ D s) {r : R} {s' : State} (h : Runs T cfg m c sc s r s') :
    InLayers T ρ D s' ∧ Bounded T s' (.mat m) ∧ ∀ k, D k → Bounded T s' (.ctx k) := by
  obtain ⟨n, h⟩ := h
  have hi := exec_layers hT n m c sc hsc hm s r s' hs h
  have hb : ∀ k, D k → Bounded T s' (.ctx k) := fun k hk => hi.bounded _ k rfl hk
  exact ⟨hi, hm.bounded fun j hj _ => hb j hj, hb⟩

end

section

open Interp (Parses)

variable {env : Env} {w w' : World} {fuel : Nat} {parser : Parser} {name : Str} {fromFile : Option Str}
  {m : MatcherId} {sc : SCtxId}

theorem parses_layers {cfg : Cfg} {n0 : Nat} (hT : Milds w.nodes) (hm : ∀ {k L : Nat}, w.st.sctxs.length ≤ k →
      Layered (tableOf w.nodes) (scopeRank w.st.sctxs.length) (InReach w n0 L) k m) {ps : List Parser} {s s' : State}
    (hN : w.st.sctxs.length ≤ s.sctxs.length)
    (hs : InLayers (tableOf w.nodes) (scopeRank w.st.sctxs.length) (InReach w n0 s.sctxs.length) s)
    (h : Parses (tableOf w.nodes) cfg m ps s s') :
    w.st.sctxs.length ≤ s'.sctxs.length ∧
      InLayers (tableOf w.nodes) (scopeRank w.st.sctxs.length) (InReach w n0 s'.sctxs.length) s' := by
  induction h with
  | nil => exact ⟨hN, hs⟩
  | @cons p ps s s1 s' nm fuel r h _ ih =>
    have hlen : s.newSCtx.2.sctxs.length = s.sctxs.length + 1 := by simp [State.newSCtx]
    have hc := tokenize_count hT.table h
    have hk : InReach w n0 s.newSCtx.2.sctxs.length s.newSCtx.1 :=
      .inr ⟨hN, by rw [hlen]; exact Nat.lt_succ_self _⟩
    have h1 := tokenize_layers (fun m => (hT.table m).leaves) (c := Ctx.new p s.newSCtx.1 nm) hk (hm hN) _ _ _ (layers_newSCtx hN hs) h
    rw [← hc] at h1
    exact ih (by omega) h1

theorem bounded_all {n0 : Nat} {s : State} (hm : ∀ {k L : Nat}, w.st.sctxs.length ≤ k →
      Layered (tableOf w.nodes) (scopeRank w.st.sctxs.length) (InReach w n0 L) k m) (hN : w.st.sctxs.length ≤ s.sctxs.length)
    (hs : InLayers (tableOf w.nodes) (scopeRank w.st.sctxs.length) (InReach w n0 s.sctxs.length) s) (hsc : Described w n0 sc) :
    Bounded (tableOf w.nodes) s (.mat m) ∧ Bounded (tableOf w.nodes) s (.ctx sc) ∧
      ∀ k, w.st.sctxs.length ≤ k → k < s.sctxs.length → Bounded (tableOf w.nodes) s (.ctx k) :=
  ⟨(hm (k := s.sctxs.length) hN).bounded fun j hj _ => hs.bounded _ j rfl hj, hs.bounded _ sc rfl (.inl hsc),
    fun k h1 h2 => hs.bounded _ k rfl (.inr ⟨h1, h2⟩)⟩

/-- **C69**: after a script was compiled and any texts were parsed with it, with any results, no chain
of references that starts at its matcher, at its scope or at the context of one of the parses is without an end. -/
theorem C69_parses (hw : Compiled env w) (hok : ScopesOK w.st) (h : compileScript env fuel parser name fromFile w = .ok m sc w')
    {cfg : Cfg} {ps : List Parser} {s : State} (hs : Parses (tableOf w'.nodes) cfg m ps w'.st s) :
    Bounded (tableOf w'.nodes) s (.mat m) ∧ Bounded (tableOf w'.nodes) s (.ctx sc) ∧
      ∀ k, w'.st.sctxs.length ≤ k → k < s.sctxs.length → Bounded (tableOf w'.nodes) s (.ctx k) := by
  obtain ⟨hok', n, gs, bs, _, hf, _⟩ := compile_brings env fuel parser name fromFile w m sc w' hw.milds hok h
  have hslim : SlimFrom w.st.sctxs.length w'.st := by
    have := slim_compile env w.st.sctxs.length fuel parser name fromFile w (slim_start w.st)
    rw [h] at this
    exact this
  have hd : Described w' w.st.sctxs.length sc := by
    cases hf with
    | mk _ hs _ _ _ _ _ _ _ _ hb => exact ⟨hs, _, _, hb⟩
  have hm : ∀ {k L : Nat}, w'.st.sctxs.length ≤ k →
      Layered (tableOf w'.nodes) (scopeRank w'.st.sctxs.length) (InReach w' w.st.sctxs.length L) k m :=
    fun hk => hf.layered (Nat.le_refl _) (.inr hk)
  obtain ⟨hN, hi⟩ := parses_layers (hw.script h).milds hm (Nat.le_refl _) (layers_start hok' hslim rfl) hs
  exact bounded_all hm hN hi hd

/-- **C69**: a compiled script has no cycles of references, whatever it imports; it can be printed. -/
theorem C69_compiled (hw : Compiled env w) (hok : ScopesOK w.st) (h : compileScript env fuel parser name fromFile w = .ok m sc w') :
    Bounded (tableOf w'.nodes) w'.st (.mat m) ∧ Bounded (tableOf w'.nodes) w'.st (.ctx sc) ∧
      ∃ d l, printObj (tableOf w'.nodes) w'.st d (.mat m) = some l := by
  obtain ⟨h1, h2, _⟩ := C69_parses (cfg := env.cfg) hw hok h .nil
  obtain ⟨d, hd⟩ := C69_print.mpr h1
  exact ⟨h1, h2, d, Option.isSome_iff_exists.mp hd⟩

end

/-! ### Examples -/

namespace AcyclicExample

/-- `SetScope(k, P)`, with a program `P` that has a `SetScope(k, ..)` in it. -/
def nodes : Table := tableOf [.setScope (some 0) 1, .program [2] "P".toList true none false, .setScope (some 0) 3,
  .equals "E".toList false (.str ['u'])]

def heap : State := ⟨[], [], [[], []]⟩

/-- **C69**: a grammar of the library need not stay so: here there is no cycle of references, and all
can be printed; a successful parse of one character makes a cycle of the context, the program in it, and
`SetScope` in that, and after that the grammar cannot be printed. -/
theorem C69_one_parse : printObj nodes heap 5 (.mat 0) = some [.mat 0, .ctx 0, .mat 1, .mat 2, .ctx 0, .mat 3] ∧
    ∃ t s, tokenize nodes ⟨false⟩ 9 (Ctx.new ⟨['u'], []⟩ 1 []) 0 heap = .ok (.ok t) s ∧
      HoldsPath nodes s (.ctx 0) (.ctx 0) ∧ ∀ d, printObj nodes s d (.mat 0) = none := by
  refine ⟨by decide +kernel, ?_⟩
  have h : (tokenize nodes ⟨false⟩ 9 (Ctx.new ⟨['u'], []⟩ 1 []) 0 heap).holds
      (fun r s => r.toOption.isSome && decide (s.lookup 0 "P".toList = some (.matcher 1))) = true := by decide +kernel
  obtain ⟨r, s, hr, hs⟩ := Res.of_holds h
  rw [Bool.and_eq_true, decide_eq_true_eq] at hs
  cases r with
  | error f => cases hs.1
  | ok t =>
    have hc : HoldsPath nodes s (.ctx 0) (.ctx 0) :=
      .more (.var (x := 1) (lookup_binds hs.2)) (.more (.part (x := 2) (.program (List.mem_singleton.mpr rfl))) (.one (.scope (b := 3) rfl)))
    refine ⟨t, s, hr, hc, fun d => ?_⟩
    cases hp : printObj nodes s d (.mat 0) with
    | none => rfl
    | some l => exact ((C69_cycle hc).2 (.one (.scope (b := 1) rfl)) (C69_print.mp ⟨d, by rw [hp]; rfl⟩)).elim

/-- Non-vacuity of `C69_runs`: the definition `X` of another file that is imported as `Y`. -/
example : InLayers (tableOf ImportExample.world.nodes) (fun k => 1 - k) (fun k => k < 2) ImportExample.world.st ∧
    Layered (tableOf ImportExample.world.nodes) (fun k => 1 - k) (fun k => k < 2) 0 3 ∧
    printObj (tableOf ImportExample.world.nodes) ImportExample.world.st 4 (.mat 3) = some [.mat 3, .ctx 1, .mat 0, .mat 2, .mat 0] := by
  have h0 : ∀ k, Layered (tableOf ImportExample.world.nodes) (fun k => 1 - k) (fun k => k < 2) k 0 := fun k =>
    .plain (fun j b h => nomatch h) fun x hx => nomatch refers_iff.mp hx
  refine ⟨⟨⟨?_, ?_, ?_⟩, fun k hk => hk, fun k hk x hx => ?_⟩, ?_, by decide +kernel⟩
  · intro sc st h i hi
    match sc, h with
    | 0, h => cases h; cases hi
    | 1, h => cases h; cases List.mem_singleton.mp hi; decide
  · intro sc st h
    match sc, h with
    | 0, h => cases h; simp
    | 1, h => cases h; simp
  · intro a b s1 s2 h1 h2 hne i hi
    match a, b, h1, h2 with
    | 0, _, h1, _ => cases h1; cases hi
    | 1, 0, _, h2 => cases h2; simp
    | 1, 1, _, _ => exact (hne rfl).elim
  · obtain ⟨st, i, n, h1, h2, h3⟩ := hx
    match k, h1 with
    | 0, h1 => cases h1; cases h2
    | 1, h1 =>
      cases h1
      cases List.mem_singleton.mp h2
      change (if "X".toList = n then some (Var.matcher 0) else none) = some (.matcher x) at h3
      split at h3
      · cases h3
        exact h0 1
      · cases h3
  · exact .scope (j := 1) (b := 2) rfl (by decide) (by decide)
      (.plain (fun j b h => nomatch h) fun x hx => by cases refers_iff.mp hx with | head => exact h0 1 | tail _ h => cases h)

open Interp.LinkedExample in
/-- Non-vacuity of `C69_compiled` and `C69_parses`: a script with imports. -/
example {w : World} (hm : Compiled shop w) (hok : ScopesOK w.st) : ∃ fuel m sc w' d l,
    compileScript shop fuel ⟨jointly, "s".toList⟩ "S".toList (some "s".toList) w = .ok m sc w' ∧
      printObj (tableOf w'.nodes) w'.st d (.mat m) = some l := by
  obtain ⟨N, m, sc, w', h, _⟩ := C49_plants (file := "s".toList) bags_ok.1 w hm.milds hok
  obtain ⟨_, _, d, l, hl⟩ := C69_compiled hm hok (h N (Nat.le_refl _))
  exact ⟨N, m, sc, w', d, l, h N (Nat.le_refl _), hl⟩

end AcyclicExample

end Adx
