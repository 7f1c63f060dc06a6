import Verif.Proofs.Reads
/-
  Reading with builders: passes of programs, switches and loops.
-/
namespace Adx.Read

/-- Matcher `m` was allocated by builder `x`. -/
def Is (E : Setting) (x : B MatcherId) (m : MatcherId) : Prop :=
  ∃ ns, (x ns).1 = m ∧ ∀ i nd, (x ns).2[i]? = some nd → E.T i = nd

/-- A builder only adds matchers. -/
class Adds (x : B MatcherId) : Prop where
  adds : ∀ ns, ns <+: (x ns).2

/-- All builders of a list only add matchers. -/
class AddsAll (xs : List (B MatcherId)) : Prop where
  adds : ∀ x ∈ xs, ∀ ns, ns <+: (x ns).2

instance : AddsAll [] := ⟨fun _ h => by cases h⟩
instance {x : B MatcherId} {xs : List (B MatcherId)} [h : Adds x] [h' : AddsAll xs] : AddsAll (x :: xs) :=
  ⟨fun y hy => by
    rcases List.mem_cons.mp hy with rfl | hy
    · exact h.adds
    · exact h'.adds y hy⟩

theorem adds_mk (n : Node) : Adds (B.mk n) := ⟨fun ns => List.prefix_append ns [n]⟩

theorem adds_wrap {f : MatcherId → Node} {x : B MatcherId} (h : Adds x) : Adds (do B.mk (f (← x))) :=
  ⟨fun ns => (h.adds ns).trans (List.prefix_append _ _)⟩

theorem mapM_adds {xs : List (B MatcherId)} (h : ∀ x ∈ xs, ∀ ns, ns <+: (x ns).2) (ns : List Node) :
    ns <+: (xs.mapM id ns).2 := by
  induction xs generalizing ns with
  | nil => exact List.prefix_rfl
  | cons x xs ih =>
    rw [List.mapM_cons]
    exact (h x (List.mem_cons_self ..) ns).trans (ih (fun y hy => h y (List.mem_cons_of_mem _ hy)) _)

/-- The builders of programs, switches and loops. -/
def prog (xs : List (B MatcherId)) (name : Str) (cu : Bool) (iter : Option (Nat × Nat)) (first : Bool) : B MatcherId := do
  let ps ← xs.mapM id
  B.mk (.program ps name cu iter first)

instance {xs : List (B MatcherId)} {name : Str} {cu : Bool} {iter : Option (Nat × Nat)} {first : Bool} [h : AddsAll xs] :
    Adds (prog xs name cu iter first) :=
  ⟨fun ns => (mapM_adds h.adds ns).trans (List.prefix_append _ _)⟩

section
variable {E : Setting} {x : B MatcherId} {m : MatcherId}

theorem Is.mk {n : Node} (h : Is E (B.mk n) m) : E.T m = n := by
  obtain ⟨ns, rfl, h⟩ := h
  exact h _ _ (by show (ns ++ [n])[ns.length]? = _; simp)

theorem Is.wrap {f : MatcherId → Node} (h : Is E (do B.mk (f (← x))) m) : ∃ b, Is E x b ∧ E.T m = f b := by
  obtain ⟨ns, rfl, h⟩ := h
  refine ⟨(x ns).1, ⟨ns, rfl, fun i nd hi => ?_⟩, ?_⟩
  · refine h i nd ?_
    show ((x ns).2 ++ [f (x ns).1])[i]? = _
    rw [List.getElem?_append_left (List.getElem?_eq_some_iff.mp hi).1, hi]
  · refine h _ _ ?_
    show ((x ns).2 ++ [f (x ns).1])[(x ns).2.length]? = _
    simp

theorem mapM_is {xs : List (B MatcherId)} (ha : ∀ x ∈ xs, ∀ ns, ns <+: (x ns).2) {ns : List Node}
    (h : ∀ i nd, (xs.mapM id ns).2[i]? = some nd → E.T i = nd) : List.Forall₂ (Is E) xs (xs.mapM id ns).1 := by
  induction xs generalizing ns with
  | nil => exact .nil
  | cons x xs ih =>
    rw [List.mapM_cons] at h ⊢
    have hx := mapM_adds (fun y hy => ha y (List.mem_cons_of_mem _ hy)) (x ns).2
    refine .cons ⟨ns, rfl, fun i nd hi => ?_⟩ (ih (fun y hy => ha y (List.mem_cons_of_mem _ hy)) h)
    refine h i nd ?_
    obtain ⟨l, hl⟩ := hx
    show (xs.mapM id (x ns).2).2[i]? = _
    rw [← hl, List.getElem?_append_left (List.getElem?_eq_some_iff.mp hi).1, hi]

theorem Is.prog {xs : List (B MatcherId)} {name : Str} {cu : Bool} {iter : Option (Nat × Nat)} {first : Bool}
    [ha : AddsAll xs] (h : Is E (prog xs name cu iter first) m) :
    ∃ ms, List.Forall₂ (Is E) xs ms ∧ E.T m = .program ms name cu iter first := by
  obtain ⟨ns, rfl, h⟩ := h
  refine ⟨(xs.mapM id ns).1, mapM_is ha.adds fun i nd hi => ?_, ?_⟩
  · refine h i nd ?_
    show ((xs.mapM id ns).2 ++ [_])[i]? = _
    rw [List.getElem?_append_left (List.getElem?_eq_some_iff.mp hi).1, hi]
  · refine h _ _ ?_
    show ((xs.mapM id ns).2 ++ [_])[(xs.mapM id ns).2.length]? = _
    rw [List.getElem?_concat_length]
    rfl
end

/-- The matchers of builder `x` at the rest `w` of the text give `g`. -/
def BReads (E : Setting) (K K' : Option Nat) (x : B MatcherId) (w : Str) (g : Got) : Prop :=
  ∀ m, Is E x m → Reads E K K' m w g

/-- How a pass ends. -/
inductive End
  | done (K : Option Nat) (a : Run)
  | fails (K : Option Nat) (a : Run)
  | breaks (K : Option Nat) (name : Str) (g : Got) (a : Run)
  | fatal (K : Option Nat)

/-- One pass over the parts of a program. -/
inductive Pass (E : Setting) : Option Nat → List (B MatcherId) → Run → End → Prop
  | nil {K a} : Pass E K [] a (.done K a)
  | cons {K K1 x xs a g o} (h : BReads E K K1 x a.rest g) (h' : Pass E K1 xs (a.take E g) o)
      (ht : g.taken = true := by rfl) (hr : a.far = E.at_ a.rest := by rfl) : Pass E K (x :: xs) a o
  | fail {K K1 x xs a} (h : BReads E K K1 x a.rest .fail) : Pass E K (x :: xs) a (.fails K1 a)
  | brk {K K1 x xs a n g} (h : BReads E K K1 x a.rest (.brk n g)) (ht : g.paid = true := by rfl)
      (hr : a.far = E.at_ a.rest := by rfl) : Pass E K (x :: xs) a (.breaks K1 n g a)
  | fatal {K K1 x xs a} (h : BReads E K K1 x a.rest .fatal) : Pass E K (x :: xs) a (.fatal K1)

section
variable {E : Setting} {w name : Str} {s : State} {a : Acc} {r : Run} {c : Ctx} {sc : SCtxId}
  {K K' : Option Nat} {xs : List (B MatcherId)} {ms : List MatcherId}

theorem here_inside {w' : Str} (h : E.Here w c) {prog : TokId} :
    E.Here w' { c.setStart (E.at_ w') with stack := prog :: c.stack } :=
  ⟨h.parser, by show (⟨E.at_ w', c.offset.stop⟩ : Range) = _; rw [h.offset], h.debug⟩

/-- One step of the engine. -/
theorem step_reads (hw : E.Has w) (hc : E.Here w c) {prog : TokId} (h : Tracks E w name prog s a r)
    (hs : Scoped E K sc s) {x : B MatcherId} {m : MatcherId} {g : Got} {K1 : Option Nat}
    (hx : BReads E K K1 x r.rest g) (hm : Is E x m) :
    g.Good E r.rest ∧ g.Con r.rest (E.T m).isConsuming ∧
    ∃ q s1, partsOf E.T E.cfg c sc prog m a.pos s q s1 ∧ Shows E r.rest s1.toks (prog + 1) q g ∧
      Tracks E w name prog s1 a r ∧ Scoped E K1 sc s1 := by
  obtain ⟨h1, h2, q, s1, h4, h5, h6⟩ := hx m hm _ sc s (hw.tail h.ok.sfx) (here_inside (prog := prog) hc) hs
  have hprog : prog < s.toks.length := (List.getElem?_eq_some_iff.mp h.tok).1
  refine ⟨h1, h2, q, s1, ?_, ?_, h.keep (Reads.keeps h4), h6⟩
  · unfold partsOf
    rw [h.pos]
    exact h4
  · cases h5 with
    | fail => exact .fail
    | fatal => exact .fatal
    | ok h5 => exact .ok (h5.lower hprog)

/-- The engine follows a pass. -/
theorem Pass.run (hw : E.Has w) (hc : E.Here w c) {prog : TokId} {o : End} (hp : Pass E K xs r o)
    (hms : List.Forall₂ (Is E) xs ms) (h : Tracks E w name prog s a r) (hs : Scoped E K sc s) :
    ∃ out s1, Adx.Pass E.T E.cfg (partsOf E.T E.cfg c sc prog) prog (E.at_ w) false ms a s out s1 ∧
      match (generalizing := false) o with
      | .done K' r' => ∃ a', out = .done a' ∧ Tracks E w name prog s1 a' r' ∧ Scoped E K' sc s1
      | .fails K' r' => ∃ a', out = .fails a' ∧ Tracks E w name prog s1 a' r' ∧ Scoped E K' sc s1
      | .breaks K' n g r' => ∃ a' d a2 s2, out = .acts (.brk n d) a' ∧
          TakesPayload E.cfg prog (E.at_ w) d a' s1 a2 s2 ∧
          Tracks E w name prog s2 a2 (r'.take E g) ∧ Scoped E K' sc s2
      | .fatal K' => ∃ e, out = .raises e ∧ Scoped E K' sc s1 := by
  induction hp generalizing ms a s with
  | nil =>
    cases hms
    exact ⟨_, _, .nil, a, rfl, h, hs⟩
  | @cons K K1 x xs r g o hx hp ht hr ih =>
    cases hms with
    | @cons _ m _ ms hm hms =>
    obtain ⟨h1, h2, q, s1, h3, h4, h5, h6⟩ := step_reads hw hc h hs hx hm
    cases h4 with
    | fail => cases ht
    | fatal => cases ht
    | @ok y _ h4 =>
      obtain ⟨a', s2, h7, h8, h9⟩ := h5.take hw h1 ht h2 hr (Nat.le_refl _) h4
      obtain ⟨out, s3, h10, h11⟩ := ih hms h8 (h9 _ _ h6)
      exact ⟨out, s3, .takes h3 (fun h => by cases h) h7 h10, h11⟩
  | @fail K K1 x xs r hx =>
    cases hms with
    | @cons _ m _ ms hm hms =>
    obtain ⟨h1, h2, q, s1, h3, h4, h5, h6⟩ := step_reads hw hc h hs hx hm
    cases h4 with
    | fail => exact ⟨_, _, .fails rfl h3, a, rfl, h5, h6⟩
    | ok h4 => cases h4
  | @brk K K1 x xs r n g hx ht hr =>
    cases hms with
    | @cons _ m _ ms hm hms =>
    obtain ⟨h1, h2, q, s1, h3, h4, h5, h6⟩ := step_reads hw hc h hs hx hm
    cases h4 with
    | ok h4 =>
      cases h4 with
      | brk h4 =>
        obtain ⟨a', s2, h7, h8, h9⟩ := h5.pay hw (g := g) h1 ht hr (Nat.le_refl _) h4
        exact ⟨_, _, .acts h3 .brk, a, _, a', s2, rfl, h7, h8, h9 _ _ h6⟩

  | @fatal K K1 x xs r hx =>
    cases hms with
    | @cons _ m _ ms hm hms =>
    obtain ⟨h1, h2, q, s1, h3, h4, h5, h6⟩ := step_reads hw hc h hs hx hm
    cases h4 with
    | fatal => exact ⟨_, _, .raises h3, _, rfl, h6⟩
    | ok h4 => cases h4

theorem Tracks.begin (hw : E.Has w) (s : State) : Tracks E w name s.toks.length (s.withProgram E.p name) (.start (E.at_ w)) (.start E w) := by
  refine ⟨rfl, rfl, Or.inl ⟨rfl, rfl, rfl⟩, .nil, ⟨List.suffix_refl _, Nat.le_refl _, hw.le, ?_, ?_, ?_⟩, ?_⟩
  · intro _ k hk
    cases hk
  · intro k hk
    cases hk
  · intro h
    exact (h rfl).elim
  · show (s.toks ++ [_])[s.toks.length]? = _
    simp

/-- What a program returns that has read `r`. -/
inductive Gives (E : Setting) (w name : Str) (r : Run) : Got → Prop
  | nothing (h : r.kids = [] ∨ r.caps = []) : Gives E w name r .fail
  | tok {w'} (h1 : r.kids ≠ []) (h2 : r.caps ≠ []) (h3 : r.loose = false) (h4 : w' <:+ w) (h5 : r.far = E.at_ w') :
      Gives E w name r (.tok w' (r.tree E name w))

theorem Gives.good {g : Got} (h : Gives E w name r g) (hok : RunOk E w r) : g.Good E w := by
  cases h with
  | nothing => trivial
  | tok h1 h2 h3 h4 h5 => exact ⟨h4, by show (⟨_, r.far⟩ : Range) = _; rw [h5], hok.tree h3 h2⟩

theorem Gives.run {g : Got} (h : Gives E w name r g) {prog : TokId} (ht : Tracks E w name prog s a r) (hs : Scoped E K sc s) :
    ∃ q s', Completes prog a s q s' ∧ Shows E w s'.toks prog q g ∧ Scoped E K sc s' ∧
      ((g = .fail ∧ q = .err .fail) ∨ ∃ x, q = .ok x) := by
  cases h with
  | nothing h => exact ⟨_, _, ht.nothing h, .fail, hs, Or.inl ⟨rfl, rfl⟩⟩
  | tok h1 h2 h3 h4 h5 =>
    obtain ⟨s', h6, h7, h8⟩ := ht.finish h1 h2
    exact ⟨_, _, h6, .ok (.tok h7), h8 _ _ hs, Or.inr ⟨_, rfl⟩⟩

/-- Hand a break on. -/
def Got.onward (n : Str) : Got → Got
  | .fail => .fail
  | g => .brk n g

/-- What a program gives. -/
inductive ProgramGives (E : Setting) (w name : Str) : End → Option Nat → Got → Prop
  | done {K : Option Nat} {a : Run} {g : Got} (h : Gives E w name a g) : ProgramGives E w name (.done K a) K g
  | fails {K : Option Nat} {a : Run} : ProgramGives E w name (.fails K a) K .fail
  | breaks {K : Option Nat} {n : Str} {g : Got} {a : Run} {g' : Got} (h : Gives E w name (a.take E g) g') :
      ProgramGives E w name (.breaks K n g a) K (g'.onward n)
  | fatal {K : Option Nat} : ProgramGives E w name (.fatal K) K .fatal

variable {m : MatcherId} {cu : Bool} {g : Got}

theorem enter_begin (hw : E.Has w) (hs : Scoped E K sc s) (hn : (E.T m).hasCustomName = true → E.Names m (E.T m).name) :
    Tracks E w name s.toks.length ((entered E.T m sc s).withProgram E.p name) (.start (E.at_ w)) (.start E w) ∧
    Scoped E K sc ((entered E.T m sc s).withProgram E.p name) := by
  have h1 := Tracks.begin (name := name) hw (entered E.T m sc s)
  rw [entered_toks] at h1
  exact ⟨h1, (hs.enter hn).grow⟩

/-- A result that a given heap may show is good. -/
theorem onward_good {n : Str} (h : g.Good E w) : (g.onward n).Good E w := by
  cases g <;> exact h

theorem onward_con {n : Str} {con : Bool} (h : g.Con w con) : (g.onward n).Con w con := by
  cases g <;> trivial

theorem Gives.con (h : Gives E w name r g) : g.Con w true := by
  cases h <;> trivial

theorem ProgramGives.con {o : End} (h : ProgramGives E w name o K g) : g.Con w true := by
  cases h with
  | done h => exact h.con
  | fails => trivial
  | breaks h => exact onward_con h.con
  | fatal => trivial

theorem consuming_program {iter : Option (Nat × Nat)} {first : Bool} (hm : E.T m = .program ms name cu iter first) :
    (E.T m).isConsuming = true := by
  rw [hm]
  rfl

/-- A program. -/
theorem reads_program (hm : E.T m = .program ms name cu none false) (hn : cu = true → E.Names m name)
    (hms : List.Forall₂ (Is E) xs ms) {o : End} (hp : Pass E K xs (.start E w) o) (hg : ProgramGives E w name o K' g) :
    Reads E K K' m w g := by
  intro c sc s hw hc hs
  rw [consuming_program hm, and_left_comm]
  refine ⟨hg.con, ?_⟩
  obtain ⟨h1, h2⟩ := enter_begin (name := name) hw hs (m := m) (by rw [hm]; exact hn)
  obtain ⟨out, s1, h3, h4⟩ := hp.run hw hc hms h1 h2
  simp only [program_iff hm hc.debug]
  unfold ProgramRuns
  rw [hc.parser, hc.offset, entered_toks]
  cases hg with
  | done hg =>
    obtain ⟨a', rfl, h5, h6⟩ := h4
    obtain ⟨q, s', h7, h8, h9, -⟩ := hg.run h5 h6
    exact ⟨hg.good h5.ok, q, s', .next h3 (.over (.completes (fun _ _ h => (by cases h)) h7)), h8, h9⟩
  | fails =>
    obtain ⟨a', rfl, h5, h6⟩ := h4
    exact ⟨trivial, _, _, .failsProgram rfl h3, .fail, h6⟩
  | @breaks _ n _ _ g' hg =>
    obtain ⟨a', d, a2, s2, rfl, h5, h6, h7⟩ := h4
    obtain ⟨q, s', h8, h9, h10, h11⟩ := hg.run h6 h7
    refine ⟨onward_good (hg.good h6.ok), ?_⟩
    rcases h11 with ⟨rfl, rfl⟩ | ⟨x, rfl⟩
    · exact ⟨_, _, .breakNothing rfl h3 h5 (fun h => h.1 rfl) h8, .fail, h10⟩
    · refine ⟨_, _, .breakOut rfl h3 h5 (fun h => h.1 rfl) h8, ?_, h10⟩
      cases h9 with
      | ok h9 => cases h9 with
        | tok h9 => exact .ok (.brk (.tok h9))
        | _ => cases hg
  | fatal =>
    obtain ⟨e, rfl, h5⟩ := h4
    exact ⟨trivial, _, _, .raises h3, .fatal, h5⟩

/-- Completed rounds of a loop; each moves on. -/
inductive Rounds (E : Setting) (xs : List (B MatcherId)) : Option Nat → Run → Option Nat → Run → Prop
  | zero {K : Option Nat} {r : Run} : Rounds E xs K r K r
  | next {K K1 K2 : Option Nat} {r r1 r2 : Run} (h : Pass E K xs r (.done K1 r1)) (hlt : blen r1.rest < blen r.rest)
      (h' : Rounds E xs K1 r1 K2 r2) : Rounds E xs K r K2 r2

/-- What a loop gives, by its last round. -/
inductive LoopGives (E : Setting) (w name : Str) : End → Option Nat → Got → Prop
  | fails {K : Option Nat} {a : Run} {g : Got} (h : Gives E w name a g) : LoopGives E w name (.fails K a) K g
  | breaks {K : Option Nat} {n : Str} {g : Got} {a : Run} {g' : Got} (hn : n = name ∨ n = [])
      (h : Gives E w name (a.take E g) g') : LoopGives E w name (.breaks K n g a) K g'
  | fatal {K : Option Nat} : LoopGives E w name (.fatal K) K .fatal

theorem LoopGives.con {o : End} (h : LoopGives E w name o K g) : g.Con w true := by
  cases h with
  | fails h => exact h.con
  | breaks _ h => exact h.con
  | fatal => trivial

theorem Rounds.run (hw : E.Has w) (hc : E.Here w c) {prog : TokId} {iter : Option (Nat × Nat)} {r1 : Run}
    (hp : Rounds E xs K r K' r1)
    (hms : List.Forall₂ (Is E) xs ms) (h : Tracks E w name prog s a r) (hs : Scoped E K sc s) :
    ∃ n a1 s1, n + blen r1.rest ≤ blen r.rest ∧ Tracks E w name prog s1 a1 r1 ∧ Scoped E K' sc s1 ∧
      ∀ left count q s', Adx.Loops E.T E.cfg (partsOf E.T E.cfg c sc prog) prog (E.at_ w) name ms iter false
          left (count + n) a1 s1 q s' →
        Adx.Loops E.T E.cfg (partsOf E.T E.cfg c sc prog) prog (E.at_ w) name ms iter false
          (left + n) count a s q s' := by
  induction hp generalizing a s with
  | zero => exact ⟨0, a, s, by omega, h, hs, fun _ _ _ _ h => h⟩
  | @next K K1 K2 r r1 r2 hp hlt _ ih =>
    obtain ⟨out, s1, h3, a', rfl, h5, h6⟩ := hp.run hw hc hms h hs
    obtain ⟨n, a1, s2, h7, h8, h9, h10⟩ := ih h5 h6
    refine ⟨n + 1, a1, s2, by omega, h8, h9, fun left count q s' hl => ?_⟩
    refine .next h3 (h10 left (count + 1) q s' ?_)
    have : count + 1 + n = count + (n + 1) := by omega
    rw [this]
    exact hl

/-- A loop. -/
theorem reads_loop {lo hi : Nat} (hm : E.T m = .program ms name cu (some (lo, hi)) false) (hn : cu = true → E.Names m name)
    (hlo : isizeMax + lo < hi) (hms : List.Forall₂ (Is E) xs ms) {o : End} {K1 : Option Nat} {r : Run}
    (hr : Rounds E xs K (.start E w) K1 r) (hp : Pass E K1 xs r o) (hg : LoopGives E w name o K' g) :
    Reads E K K' m w g := by
  intro c sc s hw hc hs
  rw [consuming_program hm, and_left_comm]
  refine ⟨hg.con, ?_⟩
  obtain ⟨h1, h2⟩ := enter_begin (name := name) hw hs (m := m) (by rw [hm]; exact hn)
  obtain ⟨n, a1, s1, hle, h3, h4, h5⟩ := hr.run (iter := some (lo, hi)) hw hc hms h1 h2
  obtain ⟨out, s2, h6, h7⟩ := hp.run hw hc hms h3 h4
  simp only [program_iff hm hc.debug]
  unfold ProgramRuns
  rw [hc.parser, hc.offset, entered_toks]
  obtain ⟨left, hleft⟩ : ∃ left, maxPasses (some (lo, hi)) = left + 1 + n := by
    refine ⟨hi - lo - n - 1, ?_⟩
    show hi - lo = _
    have : blen (Run.start E w).rest ≤ blen E.p.src := suffix_blen hw
    have := E.small
    omega
  rw [hleft]
  cases hg with
  | fails hg =>
    obtain ⟨a', rfl, h8, h9⟩ := h7
    obtain ⟨q, s', h10, h11, h12, -⟩ := hg.run h8 h9
    exact ⟨hg.good h8.ok, q, s', h5 _ _ _ _ (.failsLoop (by simp) h6 h10), h11, h12⟩
  | @breaks _ b _ _ g' hb hg =>
    obtain ⟨a', d, a2, s3, rfl, h8, h9, h10⟩ := h7
    obtain ⟨q, s', h11, h12, h13, -⟩ := hg.run h9 h10
    exact ⟨hg.good h9.ok, q, s', h5 _ _ _ _ (.breakHere rfl h6 h8 ⟨by simp, hb⟩ h11), h12, h13⟩
  | fatal =>
    obtain ⟨e, rfl, h8⟩ := h7
    exact ⟨trivial, _, _, h5 _ _ _ _ (.raises h6), .fatal, h8⟩

/-- Results that a switch returns. -/
def Got.chosen (w : Str) : Got → Prop
  | .tok _ _ | .splice _ _ | .brk _ _ => True
  | .past w' => blen w' < blen w
  | _ => False

/-- Alternatives. -/
inductive Picks (E : Setting) (w : Str) : Option Nat → List (B MatcherId) → Option Nat → Got → Prop
  | nil {K : Option Nat} : Picks E w K [] K .fail
  | here {K K1 : Option Nat} {x : B MatcherId} {xs : List (B MatcherId)} {g : Got} (h : BReads E K K1 x w g)
      (hg : g.chosen w) : Picks E w K (x :: xs) K1 g
  | next {K K1 K2 : Option Nat} {x : B MatcherId} {xs : List (B MatcherId)} {g : Got} (h : BReads E K K1 x w .fail)
      (h' : Picks E w K1 xs K2 g) : Picks E w K (x :: xs) K2 g
  | fatal {K K1 : Option Nat} {x : B MatcherId} {xs : List (B MatcherId)} (h : BReads E K K1 x w .fatal) :
      Picks E w K (x :: xs) K1 .fatal

theorem Picks.run (hw : E.Has w) (hc : E.Here w c) {prog : TokId} (hp : Picks E w K xs K' g)
    (hms : List.Forall₂ (Is E) xs ms) (h : Tracks E w name prog s a (.start E w)) (hs : Scoped E K sc s) :
    g.Good E w ∧ g.Con w true ∧
    ∃ s1, Scoped E K' sc s1 ∧
      ((g = .fail ∧ Adx.Pass E.T E.cfg (partsOf E.T E.cfg c sc prog) prog (E.at_ w) true ms a s (.done a) s1) ∨
       (∃ x, ShowsS E w s1.toks (prog + 1) x g ∧
          Adx.Pass E.T E.cfg (partsOf E.T E.cfg c sc prog) prog (E.at_ w) true ms a s (.picks x) s1) ∨
       (∃ n d g', g = .brk n g' ∧ ShowsS E w s1.toks (prog + 1) d g' ∧
          Adx.Pass E.T E.cfg (partsOf E.T E.cfg c sc prog) prog (E.at_ w) true ms a s (.acts (.brk n d) a) s1) ∨
       (∃ e, g = .fatal ∧ Adx.Pass E.T E.cfg (partsOf E.T E.cfg c sc prog) prog (E.at_ w) true ms a s (.raises e) s1)) := by
  induction hp generalizing ms s with
  | nil =>
    cases hms
    exact ⟨trivial, trivial, s, hs, Or.inl ⟨rfl, .nil⟩⟩
  | @here K K1 x xs g hx hg =>
    cases hms with
    | @cons _ m _ ms hm hms =>
    obtain ⟨h1, h2, q, s1, h3, h4, h5, h6⟩ := step_reads hw hc h hs hx hm
    refine ⟨h1, ?_, s1, h6, ?_⟩
    · cases g <;> first | trivial | exact Or.inl rfl | exact hg.elim
    · cases h4 with
      | fail => exact hg.elim
      | fatal => exact hg.elim
      | ok h4 =>
        cases h4 with
        | @past k w' hk =>
          refine Or.inr (Or.inl ⟨_, .past hk, .picks rfl h3 (.skip ?_)⟩)
          have := hw.lt h1 hg
          have : k + E.at_ w = E.at_ w' := hk
          omega
        | tok hr =>
          obtain ⟨k, -, hk, hpl, -⟩ := hr.root
          exact Or.inr (Or.inl ⟨_, .tok hr, .picks rfl h3 (.token hk hpl.kind)⟩)
        | splice hr =>
          obtain ⟨k, -, hk, hpl, -⟩ := hr.root
          exact Or.inr (Or.inl ⟨_, .splice hr, .picks rfl h3 (.proxy hk hpl.kind)⟩)
        | aside => exact hg.elim
        | pin => exact hg.elim
        | none => exact hg.elim
        | note => exact hg.elim
        | odd => exact hg.elim
        | brk h4 => exact Or.inr (Or.inr (Or.inl ⟨_, _, _, rfl, h4, .acts h3 .brk⟩))
  | @next K K1 K2 x xs g hx _ ih =>
    cases hms with
    | @cons _ m _ ms hm hms =>
    obtain ⟨h1, h2, q, s1, h3, h4, h5, h6⟩ := step_reads hw hc h hs hx hm
    cases h4 with
    | ok h4 => cases h4
    | fail =>
      obtain ⟨h7, h8, s2, h9, h10⟩ := ih hms h5 h6
      refine ⟨h7, h8, s2, h9, ?_⟩
      rcases h10 with ⟨rfl, h10⟩ | ⟨y, h10, h11⟩ | ⟨n, d, g', rfl, h10, h11⟩ | ⟨e, rfl, h11⟩
      · exact Or.inl ⟨rfl, .misses rfl h3 h10⟩
      · exact Or.inr (Or.inl ⟨y, h10, .misses rfl h3 h11⟩)
      · exact Or.inr (Or.inr (Or.inl ⟨n, d, g', rfl, h10, .misses rfl h3 h11⟩))
      · exact Or.inr (Or.inr (Or.inr ⟨e, rfl, .misses rfl h3 h11⟩))
  | @fatal K K1 x xs hx =>
    cases hms with
    | @cons _ m _ ms hm hms =>
    obtain ⟨h1, h2, q, s1, h3, h4, h5, h6⟩ := step_reads hw hc h hs hx hm
    cases h4 with
    | ok h4 => cases h4
    | fatal => exact ⟨trivial, trivial, s1, h6, Or.inr (Or.inr (Or.inr ⟨_, rfl, .raises h3⟩))⟩

/-- A switch. -/
theorem reads_switch (hm : E.T m = .program ms name cu none true) (hn : cu = true → E.Names m name)
    (hms : List.Forall₂ (Is E) xs ms) (hp : Picks E w K xs K' g) : Reads E K K' m w g := by
  intro c sc s hw hc hs
  obtain ⟨h1, h2⟩ := enter_begin (name := name) hw hs (m := m) (by rw [hm]; exact hn)
  obtain ⟨h3, h4, s1, h5, h6⟩ := hp.run hw hc hms h1 h2
  rw [consuming_program hm]
  refine ⟨h3, h4, ?_⟩
  simp only [program_iff hm hc.debug]
  unfold ProgramRuns
  rw [hc.parser, hc.offset, entered_toks]
  rcases h6 with ⟨rfl, h6⟩ | ⟨x, h6, h7⟩ | ⟨n, d, g', rfl, h6, h7⟩ | ⟨e, rfl, h7⟩
  · exact ⟨_, s1, .next h6 (.over (.completes (fun _ _ h => (by cases h)) (.nothing (Or.inl rfl)))), .fail, h5⟩
  · exact ⟨_, s1, .picks h7, .ok (h6.lower (Nat.le_succ _)), h5⟩
  · exact ⟨_, s1, .switchBreak rfl h7, .ok (.brk (h6.lower (Nat.le_succ _))), h5⟩
  · exact ⟨_, s1, .raises h7, .fatal, h5⟩

end

end Adx.Read
