import Verif.Proofs.LaxText
import Verif.Proofs.TotalParse
/-
  Reading any text: whole scripts, and what is left of them when the errors are gathered.
-/
namespace Adx.Read

open Syntax (Gap Stmt Comments)
open B
open Peg (Keeps)

section
variable {E : Setting} {K : Option Nat} {w w' rest name : Str} {x : B MatcherId} {xs : List (B MatcherId)} {uni : Uni} {env : Env}
  {prog : TokId} {s s' s1 : State} {a a' : Acc} {c : Ctx} {sc : SCtxId} {m : MatcherId} {g : Got} {trees : List Tr} {N M : Rel}

/-- What a program has collected. -/
structure Follows (E : Setting) (w name : Str) (prog : TokId) (s : State) (a : Acc) (rest : Str) (trees : List Tr) : Prop where
  sfx : rest <:+ w
  pos : a.pos = E.at_ rest
  mats : ∀ m ∈ a.mats, m.start ≤ blen E.p.src ∧ m.stop ≤ blen E.p.src
  kids : Reps E s.toks (prog + 1) a.kids trees
  tok : s.toks[prog]? = some (Token.mk' E.p name ⟨0, 0⟩)

/-- A token is added. -/
theorem Follows.add (hw : E.Has w) (h : Follows E w name prog s a rest trees) (hk : Keeps s.toks.length s s1) {t : TokId} {tree : Tr} {k : Token}
    (ht : Reps E s1.toks s.toks.length [t] [tree]) (hkt : s1.toks[t]? = some k) (hs' : w' <:+ rest) (hp' : k.matched.stop = E.at_ w')
    (hst : k.matched.start ≤ k.matched.stop) (hne : a.mats ≠ [] ∨ k.matched.start ≠ k.matched.stop) :
    Follows E w name prog (s1.put t (k.adopted prog (lowest a.mats))) (a.add true t (k.adopted prog (lowest a.mats))) w'
      (trees ++ [.node (k.adopted prog (lowest a.mats)).info tree.kids]) := by
  obtain ⟨k0, hl, hk0, hpl, -, -⟩ := ht.root
  rw [hkt] at hk0
  cases hk0
  obtain ⟨f1, f2, f3, f4, f5⟩ := adopted_facts (prog := prog) (lo := lowest a.mats) hpl
  have hle : k.matched.stop ≤ blen E.p.src := by
    rw [hp']
    exact ((hw.tail h.sfx).tail hs').le
  have hprog : prog < s.toks.length := (List.getElem?_eq_some_iff.mp h.tok).1
  have hsame : ∀ (i : Nat) (ki : Token), s.toks[i]? = some ki → (s1.put t (k.adopted prog (lowest a.mats))).toks[i]? = some ki := by
    intro i ki hi
    have hlt : i < s.toks.length := (List.getElem?_eq_some_iff.mp hi).1
    show (s1.toks.set t _)[i]? = _
    rw [List.getElem?_set_ne (Nat.ne_of_gt (Nat.lt_of_lt_of_le hlt hl)), hk.same i hlt, hi]
  have hin : (k.adopted prog (lowest a.mats)).matched.start ≤ blen E.p.src := by
    rcases f5 with f5 | f5
    · rw [f5]
      exact Nat.le_trans hst hle
    · rcases hne with hne | hne
      · rw [f5]
        obtain ⟨x, l, hx⟩ := List.exists_cons_of_ne_nil hne
        have hmem : x ∈ a.mats := by rw [hx]; exact List.mem_cons_self ..
        exact Nat.le_trans (lowest_le hmem) (h.mats x hmem).1
      · rw [adopted_wide hne]
        exact Nat.le_trans hst hle
  refine ⟨hs'.trans h.sfx, ?_, ?_, ?_, hsame _ _ h.tok⟩
  · show (k.adopted prog (lowest a.mats)).matched.stop = _
    rw [f4, hp']
  · intro m hm
    have hm : m ∈ a.mats ++ [(k.adopted prog (lowest a.mats)).matched] := hm
    rcases List.mem_append.mp hm with hm | hm
    · exact h.mats m hm
    · rw [List.mem_singleton.mp hm]
      exact ⟨hin, by rw [f4]; exact hle⟩
  · exact (reps_same h.kids hsame).append ((reps_put ht hkt (adopted_plain hpl hin) f1).lower hprog)

/-- One part of the program. -/
theorem Follows.step (hw : E.Has w) (hc : E.Here w c) (h : Follows E w name prog s a rest trees) (hs : Scoped E K sc s)
    (hx : BReads E K K x rest g) (hm : Is E x m) (hg : Lands E rest (N rest) g) (ho : a.mats ≠ [] ∨ ∀ t, g ≠ .odd t) :
    ∃ q s1, partsOf E.T E.cfg c sc prog m a.pos s q s1 ∧ Scoped E K sc s1 ∧
      (q = .err .fail ∨ (∃ e, q = .err (.error e)) ∨ ∃ y a' s2 rest' l, q = .ok y ∧ Takes E.cfg prog (E.at_ w) true y a s1 a' s2 ∧
        Follows E w name prog s2 a' rest' (trees ++ l) ∧ N rest rest' l ∧ a'.mats ≠ [] ∧ Scoped E K sc s2) := by
  have hwr := hw.tail h.sfx
  obtain ⟨h1, h2, q, s1, h4, h5, h6⟩ := hx m hm _ sc s hwr (here_inside (prog := prog) hc) hs
  have hkeep := Reads.keeps h4
  have hprog : prog < s.toks.length := (List.getElem?_eq_some_iff.mp h.tok).1
  refine ⟨q, s1, by unfold partsOf; rw [h.pos]; exact h4, h6, ?_⟩
  have hb := E.small
  have := usz
  have := u64
  have hrle := hwr.le
  cases h5 with
  | fail => exact Or.inl rfl
  | fatal => exact Or.inr (Or.inl ⟨_, rfl⟩)
  | ok h5 =>
    refine Or.inr (Or.inr ?_)
    cases h5 with
    | @past k w' hk =>
      have h3 : w' <:+ rest := h1
      have h7 := hwr.mono h3
      have h8 := (hwr.tail h3).le
      have h9 := hw.le
      have h10 := h.pos
      obtain ⟨n, rfl⟩ : ∃ n : Nat, k = n := ⟨k.toNat, by omega⟩
      cases hg with
      | past hN =>
        refine ⟨_, a.jump (E.at_ w) (E.at_ w'), s1, w', [], rfl, .skip rfl ?_, ⟨h3.trans h.sfx, rfl, ?_, ?_, ?_⟩, hN, by simp [Acc.jump], h6⟩
        · have : E.at_ w' = a.pos + n := by omega
          rw [this]
          exact Peg.moves_nat (by omega)
        · intro m hm
          have hm : m ∈ a.mats ++ [⟨E.at_ w, E.at_ w'⟩] := hm
          rcases List.mem_append.mp hm with hm | hm
          · exact h.mats m hm
          · rw [List.mem_singleton.mp hm]
            exact ⟨h9, h8⟩
        · rw [List.append_nil]
          exact keeps_reps hkeep (Nat.le_refl _) h.kids
        · rw [hkeep.same _ hprog, h.tok]
    | @tok t tree w' hrep =>
      obtain ⟨g1, g2, g3⟩ := h1
      obtain ⟨k, hl, hk, hpl, hi, hch⟩ := hrep.root
      have hmt : k.matched = tree.matched := congrArg Info.matched hi
      obtain ⟨f1, f2, f3, f4, f5⟩ := g3.facts
      have hwide : k.matched.start ≠ k.matched.stop := by rw [hmt]; omega
      have hst : tree.matched.start = E.at_ rest := by rw [g2]
      have hsp : k.matched.stop = E.at_ w' := by rw [hmt, g2]
      have hinfo : (Tr.node (k.adopted prog (lowest a.mats)).info tree.kids) = tree := by
        rw [adopted_wide hwide]
        cases tree with
        | node i ks =>
          have : k.info = i := hi
          rw [← this]
          rfl
      cases hg with
      | tok hN =>
        have h11 := h.add hw hkeep hrep hk g1 hsp (by rw [hmt]; omega) (Or.inr hwide)
        rw [hinfo] at h11
        refine ⟨_, _, _, w', [tree], rfl, .token hk hpl.kind ?_, h11, hN, by simp [Acc.add, Acc.cover], h6.put hk hpl.kind⟩
        intro _ _
        rw [hmt, h.pos]
        omega
    | @odd t tree hrep =>
      obtain ⟨g0, g1, g2, g3, g4⟩ := h1
      obtain ⟨k, hl, hk, hpl, hi, hch⟩ := hrep.root
      have hmt : k.matched = tree.matched := congrArg Info.matched hi
      have hmn : k.name = tree.name := congrArg Info.name hi
      have hmf : k.flags = tree.info.flags := congrArg Info.flags hi
      cases hg with
      | @odd w' _ hf hn hsp hsf hN =>
        obtain ⟨e1, e2, e3, e4, e5⟩ := adopted_facts (prog := prog) (lo := lowest a.mats) hpl
        have hmats : a.mats ≠ [] := ho.resolve_right fun h => h tree rfl
        have h11 := h.add hw hkeep hrep hk hsf (by rw [hmt, hsp]) (by rw [hmt]; omega) (Or.inl hmats)
        refine ⟨_, _, _, w', _, rfl, .token hk hpl.kind ?_, h11, hN _ ?_ ?_, by simp [Acc.add, Acc.cover], h6.put hk hpl.kind⟩
        · intro _ h0
          rw [hmf, hf] at h0
          exact absurd h0 (by decide)
        · show (k.adopted prog (lowest a.mats)).flags = _
          rw [e3, hmf, hf]
        · show (k.adopted prog (lowest a.mats)).name = _
          rw [e2, hmn, hn]
    | splice => cases hg
    | aside => cases hg
    | pin => cases hg
    | none => cases hg
    | brk => cases hg
    | note => cases hg

/-- The parts of a program, and what comes out of all. -/
inductive Route (E : Setting) (K : Option Nat) : List (B MatcherId) → Rel → Prop
  | nil : Route E K [] Stop
  | cons {x : B MatcherId} {xs : List (B MatcherId)} {N M : Rel} (hc : ∀ m, Is E x m → (E.T m).isConsuming = true)
      (hx : ∀ w, E.Has w → ∃ g, BReads E K K x w g ∧ g.Good E w ∧ Lands E w (N w) g) (hr : Route E K xs M) : Route E K (x :: xs) (Seq N M)

theorem Follows.run (hw : E.Has w) (hc : E.Here w c) (hr : Route E K xs M) : ∀ {ms : List MatcherId}, List.Forall₂ (Is E) xs ms →
    ∀ {s : State} {a : Acc} {rest : Str} {trees : List Tr}, Follows E w name prog s a rest trees → a.mats ≠ [] → Scoped E K sc s →
    ∃ out s1, Adx.Pass E.T E.cfg (partsOf E.T E.cfg c sc prog) prog (E.at_ w) false ms a s out s1 ∧ Scoped E K sc s1 ∧
      ((∃ a', out = .fails a') ∨ (∃ e, out = .raises e) ∨ ∃ a' rest' l, out = .done a' ∧ Follows E w name prog s1 a' rest' (trees ++ l) ∧ M rest rest' l) := by
  induction hr with
  | nil =>
    intro ms hms s a rest trees h _ hs
    cases hms
    exact ⟨_, _, .nil, hs, Or.inr (Or.inr ⟨_, _, [], rfl, by rw [List.append_nil]; exact h, rfl, rfl⟩)⟩
  | @cons x xs N M p1 p2 hr ih =>
    intro ms hms s a rest trees h hne hs
    cases hms with
    | @cons _ m _ ms hm hms =>
    obtain ⟨g, g1, g2, g3⟩ := p2 rest (hw.tail h.sfx)
    obtain ⟨q, s1, h1, h2, h3⟩ := h.step hw hc hs g1 hm g3 (Or.inl hne)
    rcases h3 with rfl | ⟨e, rfl⟩ | ⟨y, a', s2, rest', l, rfl, h4, h5, hN, h6, h7⟩
    · exact ⟨_, _, .fails rfl h1, h2, Or.inl ⟨_, rfl⟩⟩
    · exact ⟨_, _, .raises h1, h2, Or.inr (Or.inl ⟨_, rfl⟩)⟩
    · obtain ⟨out, s3, h8, h9, h10⟩ := ih hms h5 h6 h7
      refine ⟨out, s3, .takes h1 (fun h => by cases h) (by rw [p1 m hm]; exact h4) h8, h9, ?_⟩
      rcases h10 with h10 | h10 | ⟨a2, r2, l2, rfl, h11, h12⟩
      · exact Or.inl h10
      · exact Or.inr (Or.inl h10)
      · refine Or.inr (Or.inr ⟨a2, r2, l ++ l2, rfl, ?_, _, l, l2, rfl, hN, h12⟩)
        rw [← List.append_assoc]
        exact h11

/-- The token of a program. -/
theorem Follows.finish (h : Follows E w name prog s a rest trees) :
    Completes prog a s (.err .fail) s ∨ ∃ s' tree, Completes prog a s (.ok (.token prog)) s' ∧ Reps E s'.toks prog [prog] [tree] ∧
      tree.name = name ∧ tree.info.flags = 0 ∧ tree.matched.start ≤ blen E.p.src ∧ tree.matched.stop ≤ blen E.p.src ∧ tree.kids = trees ∧
      ∀ K sc, Scoped E K sc s → Scoped E K sc s' := by
  by_cases hn : a.kids = [] ∨ lowest a.caps = usizeMax ∨ lowest a.mats = usizeMax
  · exact Or.inl (.nothing hn)
  · simp only [not_or] at hn
    obtain ⟨n1, n2, n3⟩ := hn
    have hin : (span a.mats).start ≤ blen E.p.src ∧ (span a.mats).stop ≤ blen E.p.src := by
      refine ⟨?_, highest_mem_le fun m hm => (h.mats m hm).2⟩
      cases hm : a.mats with
      | nil =>
        rw [hm] at n3
        exact (n3 rfl).elim
      | cons x l =>
        have hx : x ∈ a.mats := by rw [hm]; exact List.mem_cons_self ..
        have h3 := lowest_le hx
        rw [hm] at h3
        exact Nat.le_trans h3 (h.mats x hx).1
    refine Or.inr ⟨_, .node ⟨name, span a.caps, span a.mats, none, [], 0⟩ trees, .token n1 n2 n3 h.tok, ?_, rfl, rfl, hin.1, hin.2, rfl, fun K sc hs => hs.put h.tok rfl⟩
    refine Reps.of_root (Nat.le_refl _) (put_get h.tok) ⟨rfl, Or.inl rfl, rfl, rfl, rfl, hin⟩ rfl ?_
    show Reps E (s.put prog _).toks (prog + 1) a.kids trees
    refine h.kids.change fun i k hi hk' => ⟨k.parent, ?_⟩
    show (s.toks.set prog _)[i]? = _
    rw [List.getElem?_set_ne (by omega), hk']

/-- The children of a script. -/
def ScriptR (E : Setting) (env : Env) (w : Str) (l : List Tr) : Prop := ∃ w1 w2 w3 w4 l1 l3 l4, l = l1 ++ (l3 ++ l4) ∧ FrontsR w w1 l1 ∧ Gap w1 w2 ∧
  HeadR E env w2 w3 l3 ∧ ScopedR E env w3 w4 l4 ∧ ∃ t ∈ l, t.name = "AdextopaScope".toList ∨ t.name = "PatternScope".toList

/-- What comes out of the grammar of scripts, for every text. -/
theorem script_comes (hE : E.errs = true) (hS : Scripts E uni) (hw : E.Has w) (hc : E.Here w c) (hs : Scoped E none sc s)
    (hm : Is E (Script.script uni) m) :
    ∃ r s', Runs E.T E.cfg m c sc s r s' ∧ Scoped E none sc s' ∧ (r = .err .fail ∨ (∃ e, r = .err (.error e)) ∨
      ∃ t tree, r = .ok (.token t) ∧ Reps E s'.toks s.toks.length [t] [tree] ∧
        ((tree.name = "Script".toList ∧ tree.info.flags = 0 ∧ ScriptR E env w tree.kids) ∨ tree.name = errorName)) := by
  obtain ⟨b, hb, hmap⟩ := Is.wrap (f := fun m => .map m Script.scriptDone passFailure) hm
  obtain ⟨ms, hms, hprog⟩ := Is.prog (E := E) (xs := [optional (loopN "PreHead" [Script.wsn0, Script.comment]), Script.wsn0,
    optional (Script.adextopaScope uni), optional (Script.patternScope uni)]) (name := "Script".toList) (cu := true) (iter := none) (first := false) hb
  have hopt : ∀ (x : B MatcherId) m, Is E (optional x) m → (E.T m).isConsuming = true := by
    intro x m hm
    obtain ⟨b, -, h⟩ := Is.wrap (f := fun m => .optional m) hm
    rw [h]
    rfl
  have hgap : ∀ w, E.Has w → ∃ g, BReads E none none Script.wsn0 w g ∧ g.Good E w ∧ Lands E w (GapR w) g := by
    intro w hw
    obtain ⟨rest, h⟩ := gap_any w
    exact ⟨_, reads_gap h, h.suffix, .past ⟨rfl, h⟩⟩
  have hparts : Route E none [Script.wsn0, optional (Script.adextopaScope uni), optional (Script.patternScope uni)]
      (Seq GapR (Seq (HeadR E env) (Seq (ScopedR E env) Stop))) := by
    refine .cons (fun m hm => ?_) hgap (.cons (hopt _) (fun w hw => ?_) (.cons (hopt _) (fun w hw => ?_) .nil))
    · obtain ⟨b, -, h⟩ := Is.wrap (f := fun m => .discard m) hm
      rw [h]
      rfl
    · obtain ⟨g, g1, g2, g3⟩ := header_lands (env := env) hE hS hw
      exact g3.optional g1 g2
    · obtain ⟨g, g1, g2, g3⟩ := patterns_land (env := env) hE hS hw
      exact g3.optional g1 g2
  obtain ⟨hT, hS0⟩ := enter_begin (name := "Script".toList) hw hs (m := b) (by rw [hprog]; exact fun _ => Free.names (n := "Script") (by decide))
  have hL : Follows E w "Script".toList s.toks.length ((entered E.T b sc s).withProgram E.p "Script".toList) (.start (E.at_ w)) w [] :=
    ⟨List.suffix_refl _, rfl, (fun _ h => by cases h), .nil, hT.tok⟩
  have hrun : ∀ {r : R} {s' : State}, Loops E.T E.cfg (partsOf E.T E.cfg c sc s.toks.length) s.toks.length (E.at_ w) "Script".toList ms none false 1 0
      (.start (E.at_ w)) ((entered E.T b sc s).withProgram E.p "Script".toList) r s' → Runs E.T E.cfg b c sc s r s' := by
    intro r s' h
    refine (program_iff hprog hc.debug).mpr ?_
    unfold ProgramRuns
    rw [hc.parser, hc.offset, entered_toks]
    exact h
  cases hms with
  | @cons x m1 xs ms hm1 hms =>
  obtain ⟨g, g1, g2, g3, g4⟩ := front_lands hw
  obtain ⟨q, s1, h1, h2, h3⟩ := hL.step (N := FrontsR) hw hc hS0 g1 hm1 g3 (Or.inr g4)
  have hfail : ∀ {e : Failure} {s' : State}, Runs E.T E.cfg b c sc s (.err e) s' → Runs E.T E.cfg m c sc s (.err e) s' :=
    fun h => (C41_map hmap).mpr (Or.inr (Or.inl ⟨_, _, h, rfl⟩))
  rcases h3 with rfl | ⟨e, rfl⟩ | ⟨y, a', s2, rest', l1, rfl, h4, h5, hN, h6, h7⟩
  · exact ⟨_, _, hfail (hrun (.failsProgram rfl (.fails rfl h1))), h2, Or.inl rfl⟩
  · exact ⟨_, _, hfail (hrun (.raises (.raises h1))), h2, Or.inr (Or.inl ⟨_, rfl⟩)⟩
  · obtain ⟨out, s3, h8, h9, h10⟩ := Follows.run hw hc hparts hms h5 h6 h7
    have hpass : Adx.Pass E.T E.cfg (partsOf E.T E.cfg c sc s.toks.length) s.toks.length (E.at_ w) false (m1 :: ms) (.start (E.at_ w))
        ((entered E.T b sc s).withProgram E.p "Script".toList) out s3 :=
      .takes h1 (fun h => by cases h) (by rw [hopt _ _ hm1]; exact h4) h8
    rcases h10 with ⟨a2, rfl⟩ | ⟨e, rfl⟩ | ⟨a2, rest2, l2, rfl, h11, w2, k1, k2, rfl, ⟨rfl, r1⟩, w3, l3, k3, rfl, r2, w4, l4, k4, rfl, r3, rfl, rfl⟩
    · exact ⟨_, _, hfail (hrun (.failsProgram rfl hpass)), h9, Or.inl rfl⟩
    · exact ⟨_, _, hfail (hrun (.raises hpass)), h9, Or.inr (Or.inl ⟨_, rfl⟩)⟩
    · rcases h11.finish with h12 | ⟨s4, tree, h12, h13, h14, h14', h15, h16, h17, h18⟩
      · exact ⟨_, _, hfail (hrun (.next hpass (.over (.completes (fun _ _ h => (by cases h)) h12)))), h9, Or.inl rfl⟩
      · have hb' := hrun (.next hpass (.over (.completes (fun _ _ h => (by cases h)) h12)))
        obtain ⟨k, -, hk, hpl, hi, hch⟩ := h13.root
        have hkm : k.matched = tree.matched := congrArg Info.matched hi
        obtain ⟨o, o1, o2, o3⟩ : ∃ o, k.findChild "AdextopaScope".toList s4 = .ok o s4 ∧
            (o = none → ∀ t ∈ tree.kids, t.name ≠ "AdextopaScope".toList) ∧
            (o ≠ none → ∃ t ∈ tree.kids, t.name = "AdextopaScope".toList) := by
          by_cases h : ∃ t ∈ tree.kids, t.name = "AdextopaScope".toList
          · obtain ⟨o, o1, o2⟩ := findChild_any (n := "AdextopaScope".toList) hch
            exact ⟨o, o1, o2, fun _ => h⟩
          · have h : ∀ t ∈ tree.kids, t.name ≠ "AdextopaScope".toList := fun t ht hn => h ⟨t, ht, hn⟩
            exact ⟨none, findChild_none hch h, fun _ => h, fun h => (h rfl).elim⟩
        obtain ⟨p, p1, p2, p3⟩ : ∃ o, k.findChild "PatternScope".toList s4 = .ok o s4 ∧
            (o = none → ∀ t ∈ tree.kids, t.name ≠ "PatternScope".toList) ∧
            (o ≠ none → ∃ t ∈ tree.kids, t.name = "PatternScope".toList) := by
          by_cases h : ∃ t ∈ tree.kids, t.name = "PatternScope".toList
          · obtain ⟨o, o1, o2⟩ := findChild_any (n := "PatternScope".toList) hch
            exact ⟨o, o1, o2, fun _ => h⟩
          · have h : ∀ t ∈ tree.kids, t.name ≠ "PatternScope".toList := fun t ht hn => h ⟨t, ht, hn⟩
            exact ⟨none, findChild_none hch h, fun _ => h, fun h => (h rfl).elim⟩
        by_cases hnone : o = none ∧ p = none
        · obtain ⟨s5, q1, q2, q3⟩ := newError_run (msg := "Nothing to parse. No scopes found.".toList) hE (c := c.withName "Map".toList) hc.parser h15 h16
            (s := s4) (lo := s.toks.length) (Nat.le_of_lt (List.getElem?_eq_some_iff.mp hk).1)
          refine ⟨_, _, (C41_map hmap).mpr (Or.inl ⟨_, _, Or.inl hb', ?_⟩), q3 (h18 _ _ h9), Or.inr (Or.inr ⟨_, _, rfl, q2, Or.inr rfl⟩)⟩
          unfold Script.scriptDone
          rw [bind_run (getTok_ok.mpr ⟨hk, rfl⟩), bind_run o1, bind_run p1, if_pos hnone, hkm, bind_run q1]
          rfl
        · refine ⟨_, _, (C41_map hmap).mpr (Or.inl ⟨_, _, Or.inl hb', ?_⟩), h18 _ _ h9, Or.inr (Or.inr ⟨_, _, rfl, h13,
            Or.inl ⟨h14, h14', ?_⟩⟩)⟩
          · unfold Script.scriptDone
            rw [bind_run (getTok_ok.mpr ⟨hk, rfl⟩), bind_run o1, bind_run p1, if_neg hnone]
            rfl
          · have hex : ∃ t ∈ tree.kids, t.name = "AdextopaScope".toList ∨ t.name = "PatternScope".toList := by
              by_cases ho : o = none
              · obtain ⟨t, t1, t2⟩ := p3 fun hp => hnone ⟨ho, hp⟩
                exact ⟨t, t1, Or.inr t2⟩
              · obtain ⟨t, t1, t2⟩ := o3 ho
                exact ⟨t, t1, Or.inl t2⟩
            rw [h17] at hex ⊢
            exact ⟨_, _, _, _, l1, l3, l4, by simp, hN, r1, r2, r3, hex⟩

/-! ### Gathering errors -/

theorem filtered_plain {k : Token} {q : TokId → Bool} (h : Plain E k) : Plain E { k with children := k.children.filter q } := by
  refine ⟨h.kind, h.flags.imp_right fun hh => ⟨hh.1, hh.2.flags, hh.2.name, hh.2.message, ?_⟩, h.parser, h.cap, h.mat, h.inside⟩
  show k.children.filter q = []
  rw [hh.2.children]
  rfl

variable {toks toks' : List Token} {lo : Nat} {ts l : List TokId}

theorem plain_error {k : Token} {t : TokId} (h : Plain E k) (hk : toks[t]? = some k) : isErrorTok toks t = true ↔ k.flags ≠ 0 := by
  rw [isErrorTok_eq hk]
  unfold Token.flagsEnabled
  rcases h.flags with hf | ⟨-, hf⟩
  · rw [hf]
    decide
  · rw [hf.flags]
    decide

/-- What is left of trees, when the errors among the children are taken away. -/
theorem Reps.purged (h : Reps E toks lo ts trees) : ∀ {l}, Pre toks ts l →
    (∀ u ∈ l, ∀ j, toks[u]? = some j → toks'[u]? = some { j with children := j.children.filter (fun c => ! isErrorTok toks c) }) →
    Reps E toks' lo (ts.filter (fun c => ! isErrorTok toks c)) (purges trees) ∧ Reps E toks' lo ts (trees.map Tr.purge) := by
  induction h with
  | nil => exact fun _ _ => ⟨by rw [purges_nil]; exact .nil, .nil⟩
  | @cons lo t k ts cs trees hl hk hpl hc hr ih1 ih2 =>
    intro l hp hch
    cases hp with
    | @cons _ k' _ l1 l2 hk' hc' hs' =>
      cases hk.symm.trans hk'
      obtain ⟨a1, -⟩ := ih1 hc' fun u hu => hch u (List.mem_cons_of_mem _ (List.mem_append_left _ hu))
      obtain ⟨b1, b2⟩ := ih2 hs' fun u hu => hch u (List.mem_cons_of_mem _ (List.mem_append_right _ hu))
      have hroot := hch t (List.mem_cons_self ..) k hk
      have he : (Tr.node k.info cs).purge = .node k.info (purges cs) := purge_node
      refine ⟨?_, ?_⟩
      · by_cases hf : k.flags = 0
        · have e : isErrorTok toks t = false := by
            cases h : isErrorTok toks t with
            | false => rfl
            | true => exact ((plain_error hpl hk).mp h hf).elim
          rw [List.filter_cons, e, purges_cons (show (Tr.node k.info cs).info.flags = 0 from hf), he]
          exact Reps.cons (k := { k with children := k.children.filter (fun c => ! isErrorTok toks c) }) hl hroot (filtered_plain hpl) a1 b1
        · rw [List.filter_cons, (plain_error hpl hk).mpr hf, purges_drop (show (Tr.node k.info cs).info.flags ≠ 0 from hf)]
          exact b1
      · rw [List.map_cons, he]
        exact Reps.cons (k := { k with children := k.children.filter (fun c => ! isErrorTok toks c) }) hl hroot (filtered_plain hpl) a1 b2

theorem Reps.plains (h : Reps E toks lo ts trees) : ∀ {l}, Pre toks ts l → ∀ u ∈ l, ∃ k, lo ≤ u ∧ toks[u]? = some k ∧ Plain E k := by
  induction h with
  | nil =>
    intro l hp u hu
    cases hp
    cases hu
  | @cons lo t k ts cs trees hl hk hpl hc hr ih1 ih2 =>
    intro l hp u hu
    cases hp with
    | @cons _ k' _ l1 l2 hk' hc' hs' =>
      cases hk.symm.trans hk'
      rcases List.mem_cons.mp hu with rfl | hu
      · exact ⟨k, hl, hk, hpl⟩
      · rcases List.mem_append.mp hu with hu | hu
        · obtain ⟨k, h1, h2⟩ := ih1 hc' u hu
          exact ⟨k, Nat.le_trans hl (Nat.le_of_succ_le h1), h2⟩
        · exact ih2 hs' u hu

theorem _root_.Adx.Buried.errors {es : List TokId} (h : Buried toks ts es) : ∀ e ∈ es, isErrorTok toks e = true := by
  induction h with
  | nil => exact fun e he => by cases he
  | cons hk _ _ ih1 ih2 =>
    intro e he
    rcases List.mem_append.mp he with he | he
    · rcases List.mem_append.mp he with he | he
      · exact ih1 e he
      · exact (List.mem_filter.mp he).2
    · exact ih2 e he

/-- A tree after the errors below it have been gathered. -/
theorem Reps.collected {s : State} {t : TokId} {tree : Tr} (h : Reps E s.toks lo [t] [tree]) (hf : tree.info.flags = 0)
    {l : List TokId} (hp : Pre s.toks [t] l) (hn : l.Nodup) :
    ∃ s' es, collectErrorsTop t s = .ok () s' ∧ Reps E s'.toks lo [t] [.node tree.info (tree.kids.map Tr.purge ++ es)] ∧
      ∀ e ∈ es, e.info.flags ≠ 0 := by
  cases hp with
  | @cons _ k _ l1 l2 hk hc hs =>
    cases hs
    rw [List.append_nil] at *
    obtain ⟨es, s', hb, hrun, -, -, g3, g4, g5, g6⟩ := C23_gather hk hc hn
    obtain ⟨k', hl, hk', hpl, hi, hch⟩ := h.root
    cases hk.symm.trans hk'
    obtain ⟨-, hkids⟩ := hch.purged hc g5
    have herr : ∀ es', (∀ e ∈ es', e ∈ es) → ∃ trees, Reps E s'.toks (t + 1) es' trees ∧ ∀ e ∈ trees, e.info.flags ≠ 0 := by
      intro es'
      induction es' with
      | nil => exact fun _ => ⟨[], .nil, fun _ h => by cases h⟩
      | cons e es' ih =>
        intro hall
        obtain ⟨trees, h1, h2⟩ := ih fun x hx => hall x (List.mem_cons_of_mem _ hx)
        have he := hall e (List.mem_cons_self ..)
        have hel := hb.within hc e he
        obtain ⟨j, j1, j2, j3⟩ := hch.plains hc e hel
        have hj := g5 e hel j j2
        have hjf := (plain_error j3 j2).mp (hb.errors e he)
        have hwrong := j3.flags.resolve_left hjf
        have hnil : j.children.filter (fun c => ! isErrorTok s.toks c) = [] := by
          rw [hwrong.2.children]
          rfl
        refine ⟨_, .cons j1 hj (filtered_plain j3) (cs := []) ?_ h1, ?_⟩
        · show Reps E s'.toks (e + 1) (j.children.filter _) []
          rw [hnil]
          exact .nil
        · intro x hx
          rcases List.mem_cons.mp hx with rfl | hx
          · exact hjf
          · exact h2 x hx
    obtain ⟨trees, e1, e2⟩ := herr es fun _ h => h
    refine ⟨s', trees, hrun, ?_, e2⟩
    have hflag : k.flags = 0 := (congrArg Info.flags hi).trans hf
    refine Reps.of_root hl g4 ⟨hpl.kind, Or.inl hflag, hpl.parser, hpl.cap, hpl.mat, hpl.inside⟩ hi ?_
    exact hkids.append e1

/-- Errors say nothing. -/
theorem Told.flagged {t : Tr} (h : t.info.flags ≠ 0) : Told E env [t] (fun gs ss nm => gs = [] ∧ ss = [] ∧ nm = none) := by
  intro toks lo is l gs ss hr hp hs
  cases hr with
  | @cons _ i k is cs _ hl hk hpl hc hr =>
    cases hr
    have hw := (hpl.flags.resolve_left h).2
    cases hp with
    | @cons _ k' _ l1 l2 hk' hc' hs' =>
      cases hs'
      cases hk.symm.trans hk'
      rw [hw.children] at hc'
      cases hc'
      have hn : k.name = "Error".toList := hw.name
      refine ⟨none, fun n => ?_, ?_⟩
      · unfold scriptName
        rw [hk]
        dsimp only
        rw [if_neg (by rw [hn]; exact toList_ne (by decide))]
        rfl
      · obtain ⟨msg, hmsg⟩ := Option.isSome_iff_exists.mp hw.message
        have : ScriptSays env toks [i] ([] ++ []) ([] ++ []) := .cons (.own (bs := []) (.error hk hn hmsg)) .nil
        obtain ⟨rfl, rfl⟩ := hs.unique this
        exact ⟨rfl, rfl, rfl⟩

theorem Told.allFlagged {es : List Tr} (h : ∀ e ∈ es, e.info.flags ≠ 0) : Told E env es (fun gs ss nm => gs = [] ∧ ss = [] ∧ nm = none) := by
  induction es with
  | nil => exact Told.quiet (fun _ h => by cases h)
  | cons e es ih =>
    refine Told.append (ts := [e]) (Told.flagged (h e (List.mem_cons_self ..))) (ih fun x hx => h x (List.mem_cons_of_mem _ hx)) ?_
    rintro _ _ _ _ _ _ ⟨rfl, rfl, rfl⟩ ⟨rfl, rfl, rfl⟩
    exact ⟨rfl, rfl, rfl⟩

/-! ### What a script says -/

theorem not_gap_nil {v : Str} (hb : Begins v) : v ≠ [] := by
  rintro rfl
  rcases hb with h | h
  · cases h
  · exact h fun c hc => by cases hc

/-- **What the tokens of any text say, the text says**, in the language that takes liberties. -/
theorem ScriptR.told {l es : List Tr} (h : ScriptR E env w l) (he : ∀ e ∈ es, e.info.flags ≠ 0)
    (hn : ∀ nm gs ss, ¬ Syntax.Script env w nm gs ss) :
    Told E env (l.map Tr.purge ++ es) (fun gs ss nm => Lax.Script env w nm gs ss) := by
  obtain ⟨w1, w2, w3, w4, l1, l3, l4, rfl, ⟨h1, h1'⟩, h2, h3, h4, hex⟩ := h
  have hcom := h1 w2 h2
  obtain ⟨hga, hhead⟩ := comments_again hcom
  have q1 : Told E env (l1.map Tr.purge) (fun gs ss nm => gs = [] ∧ ss = [] ∧ nm = none) := by
    refine Told.quiet fun t ht => ?_
    rcases h1' with rfl | ⟨t', rfl, -, -, hq⟩
    · cases ht
    · rw [List.mem_singleton.mp ht]
      exact hq
  have flag : ∀ t : Tr, t.info.flags = IS_ERROR → Told E env [t.purge] (fun gs ss nm => gs = [] ∧ ss = [] ∧ nm = none) := by
    intro t ht
    refine Told.flagged ?_
    rw [purge_info, ht]
    decide
  have key : ∀ {P : List Gram → List Stmt → Option Str → Prop}, Told E env ((l3 ++ l4).map Tr.purge) P →
      Told E env ((l1 ++ (l3 ++ l4)).map Tr.purge ++ es) P := by
    intro P h
    rw [List.map_append]
    refine Told.append (Told.append q1 h (Q := P) ?_) (Told.allFlagged he) ?_
    · rintro _ _ _ gs ss nm ⟨rfl, rfl, rfl⟩ h
      rw [Option.or_none]
      exact h
    · rintro gs ss nm _ _ _ h ⟨rfl, rfl, rfl⟩
      rw [List.append_nil, List.append_nil]
      exact h
  have names1 : ∀ t ∈ l1, ¬ (t.name = "AdextopaScope".toList ∨ t.name = "PatternScope".toList) := by
    intro t ht
    rcases h1' with rfl | ⟨t', rfl, -, hn', -⟩
    · cases ht
    · rw [List.mem_singleton.mp ht, hn']
      rintro (h | h) <;> exact absurd (String.toList_inj.mp h) (by decide)
  have namesE : ∀ t : Tr, t.name = errorName → ¬ (t.name = "AdextopaScope".toList ∨ t.name = "PatternScope".toList) := by
    intro t ht
    have ht : t.name = "Error".toList := ht
    rw [ht]
    rintro (h | h) <;> exact absurd (String.toList_inj.mp h) (by decide)
  refine key ?_
  rw [List.map_append]
  rcases h3 with ⟨rfl, rfl⟩ | ⟨t, rfl, tf, tn, ht⟩ | ⟨t, rfl, tf, tn, ht⟩
  · -- no header
    rcases h4 with rfl | ⟨t, rfl, tf, tn, ⟨v, v1, v2⟩, ht⟩ | ⟨t, rfl, tf, tn⟩
    · obtain ⟨t, ht, ht'⟩ := hex
      simp only [List.append_nil] at ht
      exact (names1 t ht ht').elim
    · refine ht.mono ?_
      rintro gs ss nm ⟨rfl, rfl, -, hb⟩
      obtain ⟨g, gs', v', rfl, b1, b2⟩ := hb _ hga hhead
      exact .bare hcom b1 b2
    · obtain ⟨t', ht, ht'⟩ := hex
      rcases List.mem_append.mp ht with ht | ht
      · exact (names1 t' ht ht').elim
      · rw [List.mem_singleton.mp ht] at ht'
        exact (namesE _ tn ht').elim
  · -- a header
    rcases h4 with rfl | ⟨t', rfl, tf', tn', -, ht'⟩ | ⟨t', rfl, tf', tn'⟩
    · rw [List.map_nil, List.append_nil]
      refine ht.mono ?_
      rintro gs ss nm ⟨rfl, hh⟩
      exact .junk hcom hh hn
    · refine Told.append ht ht' ?_
      rintro gs ss nm gs' ss' nm' ⟨rfl, hh⟩ ⟨rfl, rfl, hi, -⟩
      rw [List.append_nil, Option.none_or]
      exact .headed hcom hh hi
    · refine Told.append ht (flag t' tf') ?_
      rintro gs ss nm gs' ss' nm' ⟨rfl, hh⟩ ⟨rfl, rfl, rfl⟩
      rw [List.append_nil, List.append_nil, Option.none_or]
      exact .junk hcom hh hn
  · -- an error
    rcases h4 with rfl | ⟨t', rfl, tf', tn', ⟨v, v1, v2⟩, ht'⟩ | ⟨t', rfl, tf', tn'⟩
    · obtain ⟨t', ht1, ht2⟩ := hex
      rcases List.mem_append.mp ht1 with ht1 | ht1
      · exact (names1 t' ht1 ht2).elim
      · rw [List.append_nil, List.mem_singleton] at ht1
        rw [ht1] at ht2
        exact (namesE _ tn ht2).elim
    · rcases ht with ⟨x1, x2, x3, u, as, rfl, b1, b2, b3, b4⟩ | ⟨v', c1, c2⟩
      · refine Told.append (flag t tf) ht' ?_
        rintro gs ss nm gs' ss' nm' ⟨rfl, rfl, rfl⟩ ⟨rfl, rfl, hi, -⟩
        exact .noVersion hcom b1 b2 b3 b4 hi
      · have := v1.unique c1
        subst this
        exact (v2.not_barred c2).elim
    · obtain ⟨x, ht1, ht2⟩ := hex
      rcases List.mem_append.mp ht1 with ht1 | ht1
      · exact (names1 x ht1 ht2).elim
      · simp only [List.singleton_append, List.mem_cons, List.not_mem_nil, or_false] at ht1
        rcases ht1 with rfl | rfl
        · exact (namesE _ tn ht2).elim
        · exact (namesE _ tn' ht2).elim

end

end Adx.Read
