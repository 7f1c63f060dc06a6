import Verif.Proofs.Calm
import Verif.Proofs.Fit
/-
  When the hooks of `build_matcher_from_tokens` panic.
-/
namespace Adx

theorem step_calm {α : Type} {P : String → Prop} {D : Prop} {x : C α} {b : Build} {Q : α → List Node → Prop}
    (h : Calm P D x b.w.st.toks b.w.nodes Q) {R : Except ParseError Unit × Build → Prop}
    {k : α → Build → Except ParseError Unit × Build} {ke : Str → ParseError}
    (hk : ∀ a ns, Q a ns → R (k a { b with w := { b.w with nodes := ns } }))
    (he : ∀ e, R (.error (ke e), b))
    (hp : ∀ m, P m → R (.error ⟨[], none⟩, { b with crash := some (some m) }))
    (hd : D → R (.error ⟨[], none⟩, { b with crash := some none })) :
    R (Build.step x b k ke) := by
  unfold Calm at h
  unfold Build.step
  cases hx : x b.w.st.toks b.w.nodes with
  | ok a ns => rw [hx] at h; exact hk a ns h
  | err e => exact he e
  | panic m => rw [hx] at h; exact hp m h
  | diverge => rw [hx] at h; exact hd h

/-! ### The tokens while more are made -/

theorem Sound.transport {src : Str} {toks toks' : List Token} {k : Token} (h : Sound src toks k)
    (hs : ∀ c ∈ k.children, nameAt toks' c = nameAt toks c) : Sound src toks' k := by
  have h1 : ∀ n, HasNamed toks' k n ↔ HasNamed toks k n := fun n => by
    constructor
    · rintro ⟨c, hc, he⟩
      exact ⟨c, hc, by rw [← hs c hc]; exact he⟩
    · rintro ⟨c, hc, he⟩
      exact ⟨c, hc, by rw [hs c hc]; exact he⟩
  have h2 : ∀ n, AllNamed toks k n → AllNamed toks' k n := fun n ha c hc => by rw [hs c hc]; exact ha c hc
  exact {
    inside := h.inside
    error := h.error
    literal := h.literal
    custom := h.custom
    named := h.named
    sequence := h.sequence
    captured := fun hn => ⟨(h.captured hn).1, fun hh => (h.captured hn).2 ((h1 _).mp hh)⟩
    attr := h.attr
    attrs := fun hn => h2 _ (h.attrs hn)
    repeats := fun hn => (h1 _).mpr (h.repeats hn)
    assigns := h.assigns
    imports := fun hn => ⟨(h1 _).mpr (h.imports hn).1, (h1 _).mpr (h.imports hn).2⟩
    identifiers := fun hn => h2 _ (h.identifiers hn)
    identifier := fun hn => (h1 _).mpr (h.identifier hn) }

theorem Fed.transport {src : Str} {toks toks' : List Token} {l : List TokId} (h : Fed src toks l) (hs : SameOn l toks toks') :
    Fed src toks' l := by
  intro u hu
  obtain ⟨k, hk, hso, hc⟩ := h u hu
  exact ⟨k, hs.at_ hu hk, hso.transport fun c hc' => hs.nameAt (hc c hc'), hc⟩

theorem Cause.transport {env : Env} {toks toks' : List Token} {l : List TokId} {m : String} (h : Cause env toks l m)
    (hs : SameOn l toks toks') : Cause env toks' l m := by
  cases h with
  | start ht hk hn hc hck hv =>
    exact .start ht (hs.at_ ht hk) hn hc (hs.at_ (hs.closed _ ht _ hk _ (List.mem_of_getElem? hc)) hck) hv
  | stop ht hk hn hc hck hv =>
    exact .stop ht (hs.at_ ht hk) hn hc (hs.at_ (hs.closed _ ht _ hk _ (List.mem_of_getElem? hc)) hck) hv
  | regex ht hk hn hv hr he => exact .regex ht (hs.at_ ht hk) hn hv (hs.regexText (hs.closed _ ht _ hk) hr) he

/-! ### The hooks -/

/-- The range of an error is inside the source. -/
def Placed (src : Str) (e : ParseError) : Prop :=
  ∀ r, e.range = some r → r.start ≤ blen src ∧ r.stop ≤ blen src

/-- The scopes are in order, and no hook has panicked. -/
def Running (b : Build) : Prop := ScopesOK b.w.st ∧ b.crash = none

/-- How a hook may fail: with an error, or a panic with a message of `P`. -/
def Halted (P : String → Prop) (src : Str) (e : ParseError) (b : Build) : Prop :=
  match b.crash with
  | none => Placed src e
  | some (some m) => P m
  | some none => False

theorem patternError_placed {src : Str} (e : Str) : Placed src (patternError e) := by
  intro r h; cases h

theorem Running.halted {P : String → Prop} {src : Str} {e : ParseError} {b : Build} (h : Running b) (he : Placed src e) :
    Halted P src e b := by
  unfold Halted
  rw [h.2]
  exact he

theorem HookDone.both {σ : Type} {I I' : σ → Prop} {J J' : ParseError → σ → Prop} {r : Except ParseError Unit × σ}
    (h : HookDone I J r) (h' : HookDone I' J' r) : HookDone (fun s => I s ∧ I' s) (fun e s => J e s ∧ J' e s) r := by
  rcases r with ⟨_ | _, s⟩
  · exact ⟨h, h'⟩
  · exact ⟨h, h'⟩

section
variable {env : Env} {src : Str} {l ts : List TokId} {P : String → Prop} {w0 : World} {b : Build} {x : TokId} {k : Token} {depth : Nat}

theorem hookError_calm (hf : Fed src w0.st.toks l) (hs : SameOn l w0.st.toks b.w.st.toks) (h : Running b) (hx : x ∈ l)
    (hk : w0.st.toks[x]? = some k) (hn : k.name = "Error".toList) :
    HookDone Running (Halted P src) (hookError x b) := by
  obtain ⟨msg, hm⟩ := (hf.sound hx hk).error hn
  unfold hookError
  refine step_calm (P := fun _ => False) (D := False) (Q := fun _ _ => True) ?_ (fun _ _ _ => h)
    (fun e => h.halted (patternError_placed e)) (fun _ h => h.elim) (fun h => h.elim)
  apply Calm.bind
  refine Calm.tok (hs.at_ hx hk) ?_
  rw [hm]
  exact trivial

theorem hookAdextopaScope_calm (hg : Going w0 b) (hs : SameOn l w0.st.toks b.w.st.toks) (h : Running b) (hx : x ∈ l)
    (hk : w0.st.toks[x]? = some k) :
    HookDone Running (Halted P src) (hookAdextopaScope w0.nodes.length x b) := by
  unfold hookAdextopaScope
  refine step_calm (P := fun _ => False) (D := False) (Q := fun _ _ => True) ?_ (fun _ _ _ => h)
    (fun e => h.halted (patternError_placed e)) (fun _ h => h.elim) (fun h => h.elim)
  apply Calm.bind
  refine Calm.tok (hs.at_ hx hk) ?_
  cases ha : k.getAttribute "name".toList with
  | none => exact Calm.pure trivial
  | some n =>
    obtain ⟨ps, i, f, he⟩ := setName_program (toks := b.w.st.toks) (n := n) hg.root
    unfold Calm
    dsimp only
    rw [he]
    trivial

theorem Running.bind (h : Running b) (hg : Going w0 b) (n : Str) (m : MatcherId) : Running (b.bind w0.st.sctxs.length n m) := by
  refine ⟨h.1.bindVar ?_ _ _, h.2⟩
  rcases hg.own.stack with h | ⟨i, h, -⟩
  · exact (List.getElem?_eq_some_iff.mp h).1
  · exact (List.getElem?_eq_some_iff.mp h).1

theorem hookAssignment_calm (hf : Fed src w0.st.toks l) (hP : ∀ m, Cause env w0.st.toks l m → P m)
    (hs : SameOn l w0.st.toks b.w.st.toks) (hg : Going w0 b) (h : Running b) (hx : x ∈ l)
    (hk : w0.st.toks[x]? = some k) (hn : k.name = "AssignmentExpression".toList) (hd : ¬ Deep w0.st.toks depth x) :
    HookDone Running (Halted P src) (hookAssignment env depth w0.st.sctxs.length x b) := by
  have hf' := hf.transport hs
  have hd' : ¬ Deep b.w.st.toks depth x := fun hh => hd (hh.transport hs.symm hx)
  have hso := hf'.sound hx (hs.at_ hx hk)
  have hch := hf'.children hx (hs.at_ hx hk)
  have hlen := hso.assigns hn
  -- it does not run forever
  have hfin : (hookAssignment env depth w0.st.sctxs.length x b).2.crash ≠ some none := by
    refine hookAssignment_effect (env := env) (P := fun r => r.2.crash ≠ some none) rfl (hs.at_ hx hk) hn hd' ?_ ?_ ?_ ?_
    · intro ns _ _; rw [show _ = b.crash from rfl, h.2]; nofun
    · intro ns n m g _ _ _; rw [show _ = b.crash from rfl, h.2]; nofun
    · intro e _; rw [show _ = b.crash from rfl, h.2]; nofun
    · intro m _; nofun
  have main : (hookAssignment env depth w0.st.sctxs.length x b).2.crash ≠ some none →
      HookDone Running (Halted P src) (hookAssignment env depth w0.st.sctxs.length x b) := by
    unfold hookAssignment
    refine step_calm (R := fun r => r.2.crash ≠ some none → HookDone Running (Halted P src) r)
      (P := Cause env b.w.st.toks l) (D := True) (Q := fun _ _ => True) ?_ ?_
      (fun e _ => h.halted (patternError_placed e)) (fun m hm _ => hP m (hm.transport hs.symm)) (fun _ hc => (hc rfl).elim)
    · apply Calm.bind
      refine Calm.tok (hs.at_ hx hk) ?_
      apply Calm.bind
      refine Calm.child (Nat.lt_of_lt_of_le (by decide) hlen) fun a ha hma => ?_
      obtain ⟨ak, hak, -⟩ := hf' a (hch _ hma)
      apply Calm.bind
      refine Calm.tok hak ?_
      dsimp only
      apply Calm.bind
      refine Calm.child (Nat.lt_of_lt_of_le (by decide) hlen) fun v hv hmv => ?_
      obtain ⟨vk, hvk, -⟩ := hf' v (hch _ hmv)
      apply Calm.bind
      refine Calm.tok hvk ?_
      split
      · exact Calm.bind (Calm.mk (Calm.pure trivial))
      split
      · apply Calm.bind
        exact (calm_definition hf' (constructPattern_spec env _ depth) (calm_pattern hf' depth) (hch _ hmv) _ _ _).mono
          fun _ _ _ => Calm.pure trivial
      · exact Calm.pure trivial
    · rintro r ns - -
      cases r with
      | none => exact h
      | some p => exact Running.bind (w0 := w0) (b := b) h hg p.1 p.2
  exact main hfin

theorem hookPatternScope_calm (hf : Fed src w0.st.toks l) (hP : ∀ m, Cause env w0.st.toks l m → P m)
    (hs : SameOn l w0.st.toks b.w.st.toks) (hg : Going w0 b) (h : Running b) (hx : x ∈ l)
    (hk : w0.st.toks[x]? = some k) (hd : ¬ Deep w0.st.toks depth x) :
    HookDone Running (Halted P src) (hookPatternScope env depth (w0.nodes.length + 1) x b) := by
  have hf' := hf.transport hs
  have hd' : ¬ Deep b.w.st.toks depth x := fun hh => hd (hh.transport hs.symm hx)
  have hch := hf'.children hx (hs.at_ hx hk)
  have hfin : (hookPatternScope env depth (w0.nodes.length + 1) x b).2.crash ≠ some none := by
    unfold hookPatternScope
    refine step_spec (P := fun r => r.2.crash ≠ some none) (Q := fun _ _ => True) (E := True) (D := Deep b.w.st.toks depth x)
      ?_ ?_ ?_ ?_ (fun h => (hd' h).elim)
    · apply CPost.bind
      refine CPost.tok (fun k' hk' => ?_) fun _ => trivial
      have : ∀ (cs : List TokId) (ns : List Node), (∀ c ∈ cs, Below b.w.st.toks x c) →
          CPost (constructScope env depth (w0.nodes.length + 1) cs) b.w.st.toks ns (fun _ _ => True) True (Deep b.w.st.toks depth x) := by
        intro cs
        induction cs with
        | nil => intro ns _; exact trivial
        | cons c cs ih =>
          intro ns hb
          unfold constructScope
          apply CPost.bind
          refine CPost.tok (fun _ _ => ?_) fun _ => trivial
          dsimp only
          split
          · apply CPost.bind
            refine (constructPattern_spec env _ depth c ns).mono ?_ (fun _ => trivial) (fun h => h.weaken_below (hb c (by simp)))
            rintro p ns1 -
            apply CPost.bind
            unfold CPost C.addPattern
            dsimp only
            split
            · rename_i heq
              split at heq
              · cases heq; exact ih _ fun c hc => hb c (List.mem_cons_of_mem _ hc)
              · cases heq; exact ih _ fun c hc => hb c (List.mem_cons_of_mem _ hc)
              · cases heq
            · trivial
            · trivial
            · rename_i heq
              split at heq <;> cases heq
          · exact ih _ fun c hc => hb c (List.mem_cons_of_mem _ hc)
      exact this _ _ fun c hc => .child hk' hc
    · intro _ ns _; rw [show _ = b.crash from rfl, h.2]; nofun
    · intro e _; rw [show _ = b.crash from rfl, h.2]; nofun
    · intro m _; nofun
  have main : (hookPatternScope env depth (w0.nodes.length + 1) x b).2.crash ≠ some none →
      HookDone Running (Halted P src) (hookPatternScope env depth (w0.nodes.length + 1) x b) := by
    unfold hookPatternScope
    refine step_calm (R := fun r => r.2.crash ≠ some none → HookDone Running (Halted P src) r)
      (P := Cause env b.w.st.toks l) (D := True) (Q := fun _ _ => True) ?_ (fun _ _ _ _ => h)
      (fun e _ => h.halted (patternError_placed e)) (fun m hm _ => hP m (hm.transport hs.symm)) (fun _ hc => (hc rfl).elim)
    apply Calm.bind
    refine Calm.tok (hs.at_ hx hk) ?_
    exact calm_scope hf' _ hch hg.inner
  exact main hfin

/-! ### Imports -/

theorem importIdentifier_calm (hf : Fed src w0.st.toks l) (hs : SameOn l w0.st.toks b.w.st.toks) (hg : Going w0 b) (h : Running b)
    {isc : SCtxId} {root : MatcherId} {file : Str} (hp : IsProgram b.w.nodes root) (hr : w0.nodes.length ≤ root) {c : TokId} (hc : c ∈ l)
    (hn : nameAt w0.st.toks c = some "ImportIdentifier".toList) :
    HookDone Running (Halted P src) (importIdentifier w0.st.sctxs.length isc root file c b) := by
  have hf' := hf.transport hs
  obtain ⟨k, hk, hso, hch⟩ := hf' c hc
  have hname : k.name = "ImportIdentifier".toList := by
    rw [← hs.nameAt hc, nameAt_of hk] at hn
    exact Option.some.inj hn
  unfold importIdentifier
  refine step_calm (P := fun _ => False) (D := False)
    (Q := fun p ns => ns = b.w.nodes ∧ p.1.matched.start ≤ blen src ∧ p.1.matched.stop ≤ blen src) ?_ ?_
    (fun e => h.halted (patternError_placed e)) (fun _ h => h.elim) (fun h => h.elim)
  · apply Calm.bind
    refine Calm.tok hk ?_
    apply Calm.bind
    refine Calm.findChild ?_ fun ha => ((hso.identifier hname).not_absent ha).elim
    intro i hi
    obtain ⟨ik, hik, -⟩ := hi.exists_
    apply Calm.bind
    refine Calm.pure ?_
    apply Calm.bind
    refine Calm.tok hik ?_
    have hin := (hf'.sound (hch _ hi.mem) hik).inside
    apply Calm.bind
    refine Calm.findChild ?_ ?_
    · intro a ha
      obtain ⟨ak, hak, -⟩ := ha.exists_
      apply Calm.bind
      refine Calm.tok hak ?_
      apply Calm.bind
      exact Calm.pure ⟨rfl, hin⟩
    · intro _
      apply Calm.bind
      exact Calm.pure ⟨rfl, hin⟩
  · rintro ⟨ik, name⟩ ns ⟨rfl, hin⟩
    have herr : ∀ msg, Halted P src ⟨msg, some ik.matched⟩ b := fun msg => h.halted fun r hr => by cases hr; exact hin
    dsimp only
    split
    · split
      · exact herr _
      · obtain ⟨ps, i, f, he⟩ := setName_program (toks := b.w.st.toks) (n := name) hp
        unfold Build.step
        rw [he]
        exact Running.bind (w0 := w0) (b := { b with w := { b.w with nodes := b.w.nodes.set root (.program ps name true i f) } }) h
          (hg.setProgram hr) _ _
    · split
      · rename_i m hm
        exact Running.bind (w0 := w0) (b := b) h hg name _
      · exact herr _

theorem importIdentifiers_calm (hf : Fed src w0.st.toks l) (hl : Pre w0.st.toks ts l)
    {isc : SCtxId} {root : MatcherId} {file : Str} (hr : w0.nodes.length ≤ root) (cs : List TokId) :
    ∀ {b : Build}, Going w0 b → Running b → IsProgram b.w.nodes root → (∀ c ∈ cs, c ∈ l) →
    (∀ c ∈ cs, nameAt w0.st.toks c = some "ImportIdentifier".toList) →
    HookDone Running (Halted P src) (importIdentifiers w0.st.sctxs.length isc root file cs b) := by
  induction cs with
  | nil => intro b _ h _ _ _; exact h
  | cons c cs ih =>
    intro b hg h hp hcs hn
    unfold importIdentifiers
    obtain ⟨h1, h2⟩ := importIdentifier_safe (isc := isc) (file := file) hg hr hp c
    have h3 := importIdentifier_calm (P := P) (isc := isc) (file := file) hf (SameOn.of_pre hl hg.toks) hg h hp hr
      (hcs c (by simp)) (hn c (by simp))
    cases hx : importIdentifier w0.st.sctxs.length isc root file c b with
    | mk r b' =>
      rw [hx] at h1 h3
      cases r with
      | ok u => exact ih h1 h3 (h2 u b' hx) (fun c hc => hcs c (List.mem_cons_of_mem _ hc)) fun c hc => hn c (List.mem_cons_of_mem _ hc)
      | error e => exact h3

/-- How the compilation of a file may end. -/
def Rests (P : String → Prop) : BuildRes → Prop
  | .ok _ _ w => ScopesOK w.st
  | .err _ => True
  | .panic m => P m
  | .diverge => False

/-- With enough fuel, the compilation of the file always has the same end. -/
def Settles (P : String → Prop) (f : Nat → World → BuildRes) : Prop :=
  ∀ w, Milds w.nodes → ScopesOK w.st → ∃ N r, (∀ fuel, N ≤ fuel → f fuel w = r) ∧ Rests P r

/-- What is needed to know about the imports of a script. -/
structure Reaches (env : Env) (P : String → Prop) (cf : Nat → Str → World → BuildRes) (base path : Str) : Prop where
  parent : env.relative base path = none → P "called `Option::unwrap()` on a `None` value"
  known : ∀ joined, env.relative base path = some joined → env.canonical joined = none →
    P "called `Result::unwrap()` on an `Err` value"
  file : ∀ joined file, env.relative base path = some joined → env.canonical joined = some file →
    Settles P fun fuel => cf fuel file

theorem hookImport_calm {cf : Nat → Str → World → BuildRes} {fromFile : Option Str}
    (hsafe : ∀ fuel file w, Milds w.nodes → FileSafe w (cf fuel file w))
    (hreach : ∀ base path, fromFile = some base → ImportsPath w0.st.toks l path → Reaches env P cf base path)
    (hf : Fed src w0.st.toks l) (hl : Pre w0.st.toks ts l) (hg : Going w0 b) (h : Running b) (hx : x ∈ l)
    (hk : w0.st.toks[x]? = some k) (hn : k.name = "ImportStatement".toList) :
    ∃ N r, (∀ fuel, N ≤ fuel → hookImport env (cf fuel) fromFile w0.st.sctxs.length x b = r) ∧
      HookDone Running (Halted P src) r := by
  have hs := SameOn.of_pre hl hg.toks
  have hf' := hf.transport hs
  have hso := hf.sound hx hk
  have hch := hf.children hx hk
  cases hff : fromFile with
  | none =>
    refine ⟨0, hookImport env (cf 0) none w0.st.sctxs.length x b, fun _ _ => rfl, ?_⟩
    unfold hookImport
    refine step_calm (P := fun _ => False) (D := False) (Q := fun j _ => j = k) (Calm.tok (hs.at_ hx hk) rfl) ?_
      (fun e => h.halted (patternError_placed e)) (fun _ h => h.elim) (fun h => h.elim)
    rintro _ ns rfl
    refine h.halted fun r hr => ?_
    cases hr
    exact hso.inside
  | some base =>
    obtain ⟨hids, hpath⟩ := hso.imports hn
    have first : ∀ n, HasNamed w0.st.toks k n → ∃ c ck, findChild b.w.st.toks n.toList k.children = some c ∧
        First w0.st.toks [n] k.children c ∧ c ∈ l ∧ w0.st.toks[c]? = some ck ∧ ck.name = n.toList := by
      intro n hh
      have hsp := findChild_spec b.w.st.toks n k.children
      cases hc : findChild b.w.st.toks n.toList k.children with
      | none => rw [hc] at hsp; exact (hh.not_absent (hs.symm.absent hch hsp)).elim
      | some c =>
        rw [hc] at hsp
        have hsp := hs.symm.first hch hsp
        obtain ⟨ck, h1, h2⟩ := hsp.name
        exact ⟨c, ck, rfl, hsp, hch _ hsp.mem, h1, h2⟩
    obtain ⟨ids, idk, k2, hids, hil, hidk, hidn⟩ := first _ hids
    obtain ⟨q, qk, k4, hq, hql, hqk, -⟩ := first _ hpath
    have hre := hreach base qk.getValue hff ⟨x, k, q, qk, hx, hk, hn, hq, hqk, rfl⟩
    have k1 := hs.at_ hx hk
    have k3 := hs.at_ hil hidk
    have k5 := hs.at_ hql hqk
    cases hj : env.relative base qk.getValue with
    | none =>
      refine ⟨0, (.error ⟨[], none⟩, { b with crash := some (some "called `Option::unwrap()` on a `None` value") }), fun fuel _ => ?_,
        hre.parent hj⟩
      simp only [hookImport, Build.step, bind, C.bind', C.tok, k1, C.findChild, k2, C.ofOpt, pure, C.pure', k3, k4, k5, hj, C.panic]
    | some joined =>
      cases hc : env.canonical joined with
      | none =>
        refine ⟨0, (.error ⟨[], none⟩, { b with crash := some (some "called `Result::unwrap()` on an `Err` value") }), fun fuel _ => ?_,
          hre.known joined hj hc⟩
        simp only [hookImport, Build.step, bind, C.bind', C.tok, k1, C.findChild, k2, C.ofOpt, pure, C.pure', k3, k4, k5, hj, hc, C.panic]
      | some file =>
        obtain ⟨N, r, hrun, hend⟩ := hre.file joined file hj hc b.w hg.milds h.1
        have key : ∀ fuel, N ≤ fuel → hookImport env (cf fuel) (some base) w0.st.sctxs.length x b =
            match r with
            | .ok root isc w => importIdentifiers w0.st.sctxs.length isc root file idk.children { b with w := w }
            | .err es => Build.fail ⟨[], none⟩ { b with errors := b.errors ++ es }
            | .panic m => (.error ⟨[], none⟩, { b with crash := some (some m) })
            | .diverge => (.error ⟨[], none⟩, { b with crash := some none }) := by
          intro fuel hfu
          simp only [hookImport, Build.step, bind, C.bind', C.tok, k1, C.findChild, k2, C.ofOpt, pure, C.pure', k3, k4, k5, hj, hc,
            hrun fuel hfu]
          cases r <;> rfl
        refine ⟨N, _, key, ?_⟩
        cases r with
        | ok root isc w =>
          have hsf := hsafe N file b.w hg.milds
          rw [show cf N file b.w = _ from hrun N (Nat.le_refl _)] at hsf
          obtain ⟨h1, h2, h3, h4, h5, h6⟩ := hsf
          refine importIdentifiers_calm hf hl (Nat.le_trans hg.nodes.length_le h4) idk.children
            (b := { b with w := w }) ⟨hg.nodes.trans h1, hg.toks.trans h2, h3, hg.root.prefix h1, hg.inner.prefix h1,
              hg.own.grow h6.scopes h6.sctxs⟩ ⟨hend, h.2⟩ h5 (hf.children hil hidk) ((hf.sound hil hidk).identifiers hidn)
        | err es => exact Running.halted (b := { b with errors := b.errors ++ es }) h fun r hr => by cases hr
        | panic m => exact hend
        | diverge => exact hend

/-! ### The visit -/

theorem callHooks_calm {cf : Nat → Str → World → BuildRes} {fromFile : Option Str}
    (hsafe : ∀ fuel file w, Milds w.nodes → FileSafe w (cf fuel file w))
    (hP : ∀ m, Cause env w0.st.toks l m → P m)
    (hreach : ∀ base path, fromFile = some base → ImportsPath w0.st.toks l path → Reaches env P cf base path)
    (hf : Fed src w0.st.toks l) (hl : Pre w0.st.toks ts l) (hd : w0.st.toks.length ≤ depth) (xs : List TokId) :
    ∀ {b : Build}, (∀ x ∈ xs, x ∈ l) → Going w0 b → Running b →
    ∃ N r, (∀ fuel, N ≤ fuel → callHooks w0.st.toks
      (buildHooks env (cf fuel) fromFile depth w0.nodes.length (w0.nodes.length + 1) w0.st.sctxs.length) xs b = r) ∧
      match r with
      | .ok b => Running b
      | .err e b => Halted P src e b
      | _ => False := by
  induction xs with
  | nil => intro b _ _ h; exact ⟨0, .ok b, fun _ _ => rfl, h⟩
  | cons x xs ih =>
    intro b hxs hg h
    have hx := hxs x (by simp)
    obtain ⟨k, hk⟩ : ∃ k, w0.st.toks[x]? = some k := ⟨_, List.getElem?_eq_getElem (hl.valid x hx)⟩
    have hdx := hl.not_deep hx hd
    have hs := SameOn.of_pre hl hg.toks
    have ih := fun {b} => ih (b := b) fun y hy => hxs y (List.mem_cons_of_mem _ hy)
    -- a hook
    have key : ∀ (hook : Nat → Hook Build),
        (∀ fuel, hookFor (buildHooks env (cf fuel) fromFile depth w0.nodes.length (w0.nodes.length + 1) w0.st.sctxs.length)
          k.name = some (hook fuel)) →
        (∀ fuel, HookSafe w0 (hook fuel x b)) →
        (∃ N r, (∀ fuel, N ≤ fuel → hook fuel x b = r) ∧ HookDone Running (Halted P src) r) →
        ∃ N r, (∀ fuel, N ≤ fuel → callHooks w0.st.toks
          (buildHooks env (cf fuel) fromFile depth w0.nodes.length (w0.nodes.length + 1) w0.st.sctxs.length) (x :: xs) b = r) ∧
          match r with
          | .ok b => Running b
          | .err e b => Halted P src e b
          | _ => False := by
      rintro hook hfor hgo ⟨N, ⟨r, b1⟩, hrun, hdone⟩
      have hg1 := hgo N
      rw [hrun N (Nat.le_refl _)] at hg1
      have hb : ∀ fuel, N ≤ fuel → callHooks w0.st.toks
          (buildHooks env (cf fuel) fromFile depth w0.nodes.length (w0.nodes.length + 1) w0.st.sctxs.length) (x :: xs) b =
          match r with
          | .ok _ => callHooks w0.st.toks
            (buildHooks env (cf fuel) fromFile depth w0.nodes.length (w0.nodes.length + 1) w0.st.sctxs.length) xs b1
          | .error e => .err e b1 := by
        intro fuel hfu
        have hb : (w0.st.toks[x]?).bind (fun k => hookFor
            (buildHooks env (cf fuel) fromFile depth w0.nodes.length (w0.nodes.length + 1) w0.st.sctxs.length) k.name) =
            some (hook fuel) := by
          rw [hk]; exact hfor fuel
        conv => lhs; unfold callHooks
        rw [hb]
        dsimp only
        rw [hrun fuel hfu]
        cases r <;> rfl
      cases r with
      | error e => exact ⟨N, _, hb, hdone⟩
      | ok u =>
        obtain ⟨N', r', hrun', hr'⟩ := ih hg1 hdone
        exact ⟨max N N', r', fun fuel hfu => (hb fuel (by omega)).trans (hrun' fuel (by omega)), hr'⟩
    by_cases h1 : k.name = "Error".toList
    · exact key (fun _ => hookError) (fun _ => h1 ▸ hookFor_hit (pre := []) rfl (by decide)) (fun _ => hookError_safe hg x)
        ⟨0, _, fun _ _ => rfl, hookError_calm hf hs h hx hk h1⟩
    by_cases h2 : k.name = "AdextopaScope".toList
    · exact key (fun _ => hookAdextopaScope w0.nodes.length) (fun _ => h2 ▸ hookFor_hit (pre := [_]) rfl (by simp))
        (fun _ => hookAdextopaScope_safe hg x) ⟨0, _, fun _ _ => rfl, hookAdextopaScope_calm hg hs h hx hk⟩
    by_cases h3 : k.name = "AssignmentExpression".toList
    · exact key (fun _ => hookAssignment env depth w0.st.sctxs.length) (fun _ => h3 ▸ hookFor_hit (pre := [_, _]) rfl (by simp))
        (fun _ => hookAssignment_safe hg x) ⟨0, _, fun _ _ => rfl, hookAssignment_calm hf hP hs hg h hx hk h3 hdx⟩
    by_cases h4 : k.name = "ImportStatement".toList
    · exact key (fun fuel => hookImport env (cf fuel) fromFile w0.st.sctxs.length)
        (fun _ => h4 ▸ hookFor_hit (pre := [_, _, _]) rfl (by simp))
        (fun fuel => hookImport_safe (hsafe fuel) hg x) (hookImport_calm hsafe hreach hf hl hg h hx hk h4)
    by_cases h5 : k.name = "PatternScope".toList
    · exact key (fun _ => hookPatternScope env depth (w0.nodes.length + 1))
        (fun _ => h5 ▸ hookFor_hit (pre := [_, _, _, _]) rfl (by simp)) (fun _ => hookPatternScope_safe hg x)
        ⟨0, _, fun _ _ => rfl, hookPatternScope_calm hf hP hs hg h hx hk hdx⟩
    obtain ⟨N, r, hrun, hr⟩ := ih hg h
    refine ⟨N, r, fun fuel hfu => ?_, hr⟩
    have hb : (w0.st.toks[x]?).bind (fun k => hookFor
        (buildHooks env (cf fuel) fromFile depth w0.nodes.length (w0.nodes.length + 1) w0.st.sctxs.length) k.name) =
        none := by
      rw [hk]
      refine hookFor_miss ?_ (by simp [buildHooks])
      simp only [buildHooks, List.map_cons, List.map_nil, List.mem_cons, List.not_mem_nil, or_false, not_or]
      exact ⟨h1, h2, h3, h4, h5⟩
    conv => lhs; unfold callHooks
    rw [hb]
    exact hrun fuel hfu

/-- How the build of a script ends whose tokens are as expected. -/
theorem build_calm {cf : Nat → Str → World → BuildRes} {fromFile : Option Str} {t : TokId} {ctx : Ctx} {name : Str} {w : World}
    (hsafe : ∀ fuel file w, Milds w.nodes → FileSafe w (cf fuel file w))
    (hP : ∀ m, Cause env w.st.toks l m → P m)
    (hreach : ∀ base path, fromFile = some base → ImportsPath w.st.toks l path → Reaches env P cf base path)
    (hf : Fed ctx.parser.src w.st.toks l) (ha : Ascii ctx.parser.src) (hm : Milds w.nodes) (hok : ScopesOK w.st)
    (hk : w.st.toks[t]? = some k) (hl : Pre w.st.toks [t] l) (hd : w.st.toks.length ≤ depth) :
    ∃ N r, (∀ fuel, N ≤ fuel → buildMatcherFromTokens env (cf fuel) depth t ctx name fromFile w = r) ∧ Rests P r := by
  by_cases hn : k.name = "Script".toList
  case neg => exact ⟨0, _, fun _ _ => C39_not_script hk hn, trivial⟩
  have hM := Means.start (name := name) hm hok
  obtain ⟨N, r, hrun, hr⟩ := callHooks_calm (depth := depth) hsafe hP hreach hf hl hd l (fun _ h => h) hM.going ⟨hM.ok, rfl⟩
  refine ⟨N, buildResult ctx w.nodes.length w.st.sctxs.length r, fun fuel hfu => ?_, ?_⟩
  · rw [← hrun fuel hfu]
    unfold buildMatcherFromTokens
    rw [hk]
    dsimp only
    rw [if_neg (by simpa using hn)]
    rw [← C31_visit_preorder _ _ hl hd]
    rfl
  · cases r with
    | ok b => exact hr.1
    | dangling => exact False.elim hr
    | diverge => exact False.elim hr
    | err e b =>
      unfold buildResult
      dsimp only at hr ⊢
      unfold Halted at hr
      cases hc : b.crash with
      | some c => cases c <;> rw [hc] at hr <;> exact hr
      | none =>
        rw [hc] at hr
        dsimp only at hr ⊢
        split
        · have hin : (e.range.getD ⟨0, 0⟩).start ≤ blen ctx.parser.src ∧ (e.range.getD ⟨0, 0⟩).stop ≤ blen ctx.parser.src := by
            cases he : e.range with
            | none => exact ⟨Nat.zero_le _, Nat.zero_le _⟩
            | some r => exact hr r he
          split
          · trivial
          · rename_i he
            exact (errorString_some (p := False) rfl (.of_ascii ha hin.1) (.of_ascii ha hin.2) he).elim
        · trivial

end

end Adx
