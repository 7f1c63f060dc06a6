import Verif.Proofs.TotalText
/-
  Reading any text with the grammar of scripts: whole scripts.  The errors of a header
  and of the patterns may lie anywhere, so this is done on the side of the engine.
-/
namespace Adx.Read

open B
open Peg (Keeps)

section
variable {E : Setting} {K K1 : Option Nat} {w w' rest name : Str} {x : B MatcherId} {xs : List (B MatcherId)} {u : Uni} {Q : Tr → Prop}
  {prog : TokId} {s s' s1 : State} {a a' : Acc} {c : Ctx} {sc : SCtxId} {m : MatcherId} {g : Got}

/-- What a program has collected, as far as it matters here. -/
structure Loosely (E : Setting) (w name : Str) (Q : Tr → Prop) (prog : TokId) (s : State) (a : Acc) (rest : Str) : Prop where
  sfx : rest <:+ w
  pos : a.pos = E.at_ rest
  mats : ∀ m ∈ a.mats, m.start ≤ blen E.p.src ∧ m.stop ≤ blen E.p.src
  kids : ∃ trees, Reps E s.toks (prog + 1) a.kids trees ∧ ∀ t ∈ trees, Well t ∧ Q t
  tok : s.toks[prog]? = some (Token.mk' E.p name ⟨0, 0⟩)

theorem adopted_plain {k : Token} {lo : Nat} (h : Plain E k) (hlo : (k.adopted prog lo).matched.start ≤ blen E.p.src) :
    Plain E (k.adopted prog lo) := by
  unfold Token.adopted at *
  split
  · rename_i hif
    rw [if_pos hif] at hlo
    unfold Token.setCaptured Token.setMatched at *
    rw [h.kind] at *
    dsimp only at *
    refine ⟨rfl, h.flags.imp_right fun hh => ⟨hh.1, hh.2.flags, hh.2.name, hh.2.message, hh.2.children⟩, h.parser, ?_, ?_, hlo, h.inside.2⟩
    · rw [h.parser]
    · rw [h.parser]
  · exact h.parent _

theorem adopted_facts {k : Token} {lo : Nat} (h : Plain E k) : (k.adopted prog lo).children = k.children ∧ (k.adopted prog lo).name = k.name ∧
    (k.adopted prog lo).flags = k.flags ∧ (k.adopted prog lo).matched.stop = k.matched.stop ∧
    ((k.adopted prog lo).matched.start = k.matched.start ∨ (k.adopted prog lo).matched.start = lo) := by
  unfold Token.adopted
  split
  · unfold Token.setCaptured Token.setMatched
    rw [h.kind]
    exact ⟨rfl, rfl, rfl, rfl, Or.inr rfl⟩
  · exact ⟨rfl, rfl, rfl, rfl, Or.inl rfl⟩

theorem reps_put {t : TokId} {tree : Tr} {k k' : Token} {lo : Nat} (h : Reps E s.toks lo [t] [tree]) (hk : s.toks[t]? = some k) (hp : Plain E k')
    (hc : k'.children = k.children) : Reps E (s.put t k').toks lo [t] [.node k'.info tree.kids] := by
  obtain ⟨k0, hl, hk0, -, -, hch⟩ := h.root
  rw [hk] at hk0
  cases hk0
  refine Reps.of_root hl (put_get hk) hp rfl ?_
  rw [hc]
  refine hch.change fun i k hi hk' => ⟨k.parent, ?_⟩
  show (s.toks.set t _)[i]? = _
  rw [List.getElem?_set_ne (Nat.ne_of_lt hi), hk']

theorem highest_mem_le {l : List Range} {n : Nat} (h : ∀ m ∈ l, m.stop ≤ n) : highest l ≤ n := by
  induction l with
  | nil => exact Nat.zero_le _
  | cons x l ih =>
    have h1 := h x (List.mem_cons_self ..)
    have h2 := ih fun m hm => h m (List.mem_cons_of_mem _ hm)
    show max _ _ ≤ _
    omega

/-- A token is added. -/
theorem Loosely.add (hw : E.Has w) (h : Loosely E w name Q prog s a rest) (hk : Keeps s.toks.length s s1) {t : TokId} {tree : Tr} {k : Token}
    (ht : Reps E s1.toks s.toks.length [t] [tree]) (hkt : s1.toks[t]? = some k)
    (hwell : Well (.node (k.adopted prog (lowest a.mats)).info tree.kids)) (hQ : Q (.node (k.adopted prog (lowest a.mats)).info tree.kids))
    (hpos : E.at_ rest ≤ k.matched.stop) (hst : k.matched.start ≤ k.matched.stop) (hle : k.matched.stop ≤ blen E.p.src)
    (hne : a.mats ≠ [] ∨ k.matched.start ≠ k.matched.stop) :
    ∃ rest', Loosely E w name Q prog (s1.put t (k.adopted prog (lowest a.mats))) (a.add true t (k.adopted prog (lowest a.mats))) rest' := by
  obtain ⟨k0, hl, hk0, hpl, -, -⟩ := ht.root
  rw [hkt] at hk0
  cases hk0
  obtain ⟨f1, f2, f3, f4, f5⟩ := adopted_facts (prog := prog) (lo := lowest a.mats) hpl
  obtain ⟨rest', hs', hp'⟩ := (hw.tail h.sfx).spot hpos hle
  have hprog : prog < s.toks.length := (List.getElem?_eq_some_iff.mp h.tok).1
  have hsame : ∀ (i : Nat) (ki : Token), s.toks[i]? = some ki → (s1.put t (k.adopted prog (lowest a.mats))).toks[i]? = some ki := by
    intro i ki hi
    have hlt : i < s.toks.length := (List.getElem?_eq_some_iff.mp hi).1
    show (s1.toks.set t _)[i]? = _
    rw [List.getElem?_set_ne (Nat.ne_of_gt (Nat.lt_of_lt_of_le hlt hl)), hk.same i hlt, hi]
  have hin : (k.adopted prog (lowest a.mats)).matched.start ≤ blen E.p.src := by
    rcases f5 with f5 | f5
    · rw [f5]
      exact Nat.le_trans hst hle
    · rcases hne with hne | hne
      · rw [f5]
        obtain ⟨x, l, hx⟩ := List.exists_cons_of_ne_nil hne
        have hmem : x ∈ a.mats := by rw [hx]; exact List.mem_cons_self ..
        exact Nat.le_trans (lowest_le hmem) (h.mats x hmem).1
      · rw [adopted_wide hne]
        exact Nat.le_trans hst hle
  refine ⟨rest', hs'.trans h.sfx, ?_, ?_, ?_, hsame _ _ h.tok⟩
  · show (k.adopted prog (lowest a.mats)).matched.stop = _
    rw [f4, hp']
  · intro m hm
    have hm : m ∈ a.mats ++ [(k.adopted prog (lowest a.mats)).matched] := hm
    rcases List.mem_append.mp hm with hm | hm
    · exact h.mats m hm
    · rw [List.mem_singleton.mp hm]
      exact ⟨hin, by rw [f4]; exact hle⟩
  · obtain ⟨trees, h1, h2⟩ := h.kids
    refine ⟨trees ++ [.node (k.adopted prog (lowest a.mats)).info tree.kids], ?_, ?_⟩
    · exact (reps_same h1 hsame).append ((reps_put ht hkt (adopted_plain hpl hin) f1).lower hprog)
    · intro t ht
      rcases List.mem_append.mp ht with ht | ht
      · exact h2 t ht
      · rw [List.mem_singleton.mp ht]
        exact ⟨hwell, hQ⟩

/-- One part of the program. -/
theorem Loosely.step (hw : E.Has w) (hc : E.Here w c) (h : Loosely E w name Q prog s a rest) (hs : Scoped E K sc s)
    (hx : BReads E K K1 x rest g) (hm : Is E x m) (_ : (E.T m).isConsuming = true) {Q' : Tr → Prop} (hg : Fair Q' g)
    (hQ : ∀ t, Q' t → Q t) (hQe : ∀ t, t.name = errorName → Q t) (ho : a.mats ≠ [] ∨ ∀ t, g ≠ .odd t) :
    ∃ q s1, partsOf E.T E.cfg c sc prog m a.pos s q s1 ∧ Scoped E K1 sc s1 ∧
      (q = .err .fail ∨ (∃ e, q = .err (.error e)) ∨ ∃ y a' s2 rest', q = .ok y ∧ Takes E.cfg prog (E.at_ w) true y a s1 a' s2 ∧
        Loosely E w name Q prog s2 a' rest' ∧ a'.mats ≠ [] ∧ Scoped E K1 sc s2) := by
  have hwr := hw.tail h.sfx
  obtain ⟨h1, h2, q, s1, h4, h5, h6⟩ := hx m hm _ sc s hwr (here_inside (prog := prog) hc) hs
  have hkeep := Reads.keeps h4
  have hprog : prog < s.toks.length := (List.getElem?_eq_some_iff.mp h.tok).1
  refine ⟨q, s1, by unfold partsOf; rw [h.pos]; exact h4, h6, ?_⟩
  have hb := E.small
  have := usz
  have := u64
  have hrle := hwr.le
  cases h5 with
  | fail => exact Or.inl rfl
  | fatal => exact Or.inr (Or.inl ⟨_, rfl⟩)
  | ok h5 =>
    refine Or.inr (Or.inr ?_)
    cases h5 with
    | @past k w' hk =>
      have h3 : w' <:+ rest := h1
      have h7 := hwr.mono h3
      have h8 := (hwr.tail h3).le
      have h9 := hw.le
      have h10 := h.pos
      obtain ⟨n, rfl⟩ : ∃ n : Nat, k = n := ⟨k.toNat, by omega⟩
      refine ⟨_, a.jump (E.at_ w) (E.at_ w'), s1, w', rfl, .skip rfl ?_, ⟨h3.trans h.sfx, rfl, ?_, ?_, ?_⟩, by simp [Acc.jump], h6⟩
      · have : E.at_ w' = a.pos + n := by omega
        rw [this]
        exact Peg.moves_nat (by omega)
      · intro m hm
        have hm : m ∈ a.mats ++ [⟨E.at_ w, E.at_ w'⟩] := hm
        rcases List.mem_append.mp hm with hm | hm
        · exact h.mats m hm
        · rw [List.mem_singleton.mp hm]
          exact ⟨h9, h8⟩
      · obtain ⟨trees, h11, h12⟩ := h.kids
        exact ⟨trees, keeps_reps hkeep (Nat.le_refl _) h11, h12⟩
      · rw [hkeep.same _ hprog, h.tok]
    | @tok t tree w' hrep =>
      obtain ⟨g1, g2, g3⟩ := h1
      obtain ⟨k, hl, hk, hpl, hi, hch⟩ := hrep.root
      have hmt : k.matched = tree.matched := congrArg Info.matched hi
      obtain ⟨f1, f2, f3, f4, f5⟩ := g3.facts
      have hwide : k.matched.start ≠ k.matched.stop := by rw [hmt]; omega
      have hst : tree.matched.start = E.at_ rest := by rw [g2]
      have hinfo : (Tr.node (k.adopted prog (lowest a.mats)).info tree.kids) = tree := by
        rw [adopted_wide hwide]
        cases tree with
        | node i ks =>
          have : k.info = i := hi
          rw [← this]
          rfl
      cases hg with
      | tok hwell hq =>
        obtain ⟨rest', h11⟩ := h.add hw hkeep hrep hk (by rw [hinfo]; exact hwell) (by rw [hinfo]; exact hQ _ hq) (by rw [hmt]; omega) (by rw [hmt]; omega)
          (by rw [hmt]; omega) (Or.inr hwide)
        refine ⟨_, _, _, rest', rfl, .token hk hpl.kind ?_, h11, by simp [Acc.add, Acc.cover], h6.put hk hpl.kind⟩
        intro _ _
        rw [hmt, h.pos]
        omega
    | @odd t tree hrep =>
      obtain ⟨g0, g1, g2, g3, g4⟩ := h1
      obtain ⟨k, hl, hk, hpl, hi, hch⟩ := hrep.root
      have hmt : k.matched = tree.matched := congrArg Info.matched hi
      have hmn : k.name = tree.name := congrArg Info.name hi
      have hmf : k.flags = tree.info.flags := congrArg Info.flags hi
      cases hg with
      | odd hwell hf hn =>
        obtain ⟨e1, e2, e3, e4, e5⟩ := adopted_facts (prog := prog) (lo := lowest a.mats) hpl
        have hn' : (Tr.node (k.adopted prog (lowest a.mats)).info tree.kids).name = errorName := by
          show (k.adopted prog (lowest a.mats)).name = _
          rw [e2, hmn, hn]
        have hmats : a.mats ≠ [] := ho.resolve_right fun h => h tree rfl
        obtain ⟨rest', h11⟩ := h.add hw hkeep hrep hk (.node (fit_at 0 rfl hn' (by
            show (k.adopted prog (lowest a.mats)).flags ≠ 0
            rw [e3, hmf, hf]
            decide)) hwell.kids) (hQe _ hn') (by rw [hmt]; omega) (by rw [hmt]; omega) (by rw [hmt]; omega) (Or.inl hmats)
        refine ⟨_, _, _, rest', rfl, .token hk hpl.kind ?_, h11, by simp [Acc.add, Acc.cover], h6.put hk hpl.kind⟩
        intro _ h0
        rw [hmf, hf] at h0
        exact absurd h0 (by decide)
    | splice => cases hg
    | aside => cases hg
    | pin => cases hg
    | none => cases hg
    | brk => cases hg
    | note => cases hg

theorem Fair.mono {Q' : Tr → Prop} (h : Fair Q g) (hQ : ∀ t, Q t → Q' t) : Fair Q' g := by
  cases h with
  | fail => exact .fail
  | fatal => exact .fatal
  | past => exact .past
  | tok h hq => exact .tok h (hQ _ hq)
  | odd h hf hn => exact .odd h hf hn

theorem Fair.optional (h : Fair Q g) (hx : BReads E K K1 x w g) (hg : g.Good E w) :
    ∃ g', BReads E K K1 (B.optional x) w g' ∧ g'.Good E w ∧ Fair Q g' ∧ ((∀ t, g ≠ .odd t) → ∀ t, g' ≠ .odd t) := by
  cases h with
  | fail => exact ⟨_, .optional hx, List.suffix_refl _, .past, fun _ _ h => by cases h⟩
  | fatal => exact ⟨_, .optional hx, trivial, .fatal, fun _ _ h => by cases h⟩
  | past => exact ⟨_, .optional hx, hg, .past, fun _ _ h => by cases h⟩
  | tok h hQ => exact ⟨_, .optional hx, hg, .tok h hQ, fun _ _ h => by cases h⟩
  | odd h hf hn => exact ⟨_, .optional hx, hg, .odd h hf hn, fun h => (h _ rfl).elim⟩

/-- The names of the children of a script. -/
def scriptParts : List String := ["PreHead", "AdextopaScope", "PatternScope", "Error"]

/-- What a script is made of. -/
def ScriptPart (t : Tr) : Prop := ∃ n ∈ scriptParts, t.name = n.toList

theorem fair_prehead (hw : E.Has w) : ∃ g, BReads E K K (optional (loopN "PreHead" [Script.wsn0, Script.comment])) w g ∧ g.Good E w ∧
    Fair (fun t => t.name = "PreHead".toList) g ∧ ∀ t, g ≠ .odd t := by
  have hT : Turn E K (blen w + 1) "PreHead".toList (fun _ => True) true [Script.wsn0, Script.comment] :=
    .cons (s := false) (fun w hw _ => (tot_wsn0 hw).turn fun _ _ _ _ => trivial) <|
    .cons (s := true) (fun w hw _ => (tot_comment hw).turn fun _ _ _ _ => trivial) .nil
  obtain ⟨g, h1, h2, h3⟩ := hT.round.loopN (name := "PreHead") (lo := .unbounded) hw (Nat.lt_succ_self _)
  have h4 := h3.solo fun i l _ hn _ => Loose.fit (n := "PreHead") (by decide) hn
  have h5 : Fair (fun t => t.name = "PreHead".toList) g ∧ ∀ t, g ≠ .odd t := by
    cases h4 with
    | fail => exact ⟨.fail, fun _ h => by cases h⟩
    | fatal => exact ⟨.fatal, fun _ h => by cases h⟩
    | tok h hn => exact ⟨.tok h hn, fun _ h => by cases h⟩
  obtain ⟨g', h6, h7, h8, h9⟩ := h5.1.optional h1 h2
  exact ⟨g', h6, h7, h8, h9 h5.2⟩

theorem fair_wsn0 (hw : E.Has w) : ∃ g, BReads E K K Script.wsn0 w g ∧ g.Good E w ∧ Fair (fun _ => False) g ∧ ∀ t, g ≠ .odd t := by
  have key : ∀ {n pattern : String} {as : List (List RxItem)}, Free n →
      ∃ g, BReads E K K (discard (B.regexN n (mkRx pattern as))) w g ∧ g.Good E w ∧ Fair (fun _ => False) g ∧ ∀ t, g ≠ .odd t := by
    intro n pattern as hn
    rcases rx_cases (pattern := pattern) (as := as) w with h | h | ⟨u, w', rfl, hu, h⟩
    · exact ⟨_, .discard (.regexN_fail h hn), trivial, .fail, fun _ h => by cases h⟩
    · exact ⟨_, .discard (.regexN_empty h hn), List.suffix_refl _, .past, fun _ h => by cases h⟩
    · exact ⟨_, .discard (.regexN hu h hn) (leafT_clean hn.clean), (leaf_good (name := n.toList) hw hu).1, .past, fun _ h => by cases h⟩
  exact key (n := "Whitespace") (by decide)

/-- The parts of a script, and what comes out of each. -/
def Parts4 (E : Setting) (K : Option Nat) (xs : List (B MatcherId)) : Prop :=
  ∀ x ∈ xs, (∀ m, Is E x m → (E.T m).isConsuming = true) ∧ ∀ w, E.Has w → ∃ g, BReads E K K x w g ∧ g.Good E w ∧ Fair ScriptPart g

theorem Loosely.run (hw : E.Has w) (hc : E.Here w c) {ms : List MatcherId} (hms : List.Forall₂ (Is E) xs ms) (hp : Parts4 E K xs) :
    ∀ {s : State} {a : Acc} {rest : Str}, Loosely E w name ScriptPart prog s a rest → a.mats ≠ [] → Scoped E K sc s →
    ∃ out s1, Adx.Pass E.T E.cfg (partsOf E.T E.cfg c sc prog) prog (E.at_ w) false ms a s out s1 ∧ Scoped E K sc s1 ∧
      ((∃ a', out = .fails a') ∨ (∃ e, out = .raises e) ∨ ∃ a' rest', out = .done a' ∧ Loosely E w name ScriptPart prog s1 a' rest') := by
  induction hms with
  | nil => exact fun h _ hs => ⟨_, _, .nil, hs, Or.inr (Or.inr ⟨_, _, rfl, h⟩)⟩
  | @cons x m xs ms hm _ ih =>
    intro s a rest h hne hs
    obtain ⟨p1, p2⟩ := hp x (List.mem_cons_self ..)
    obtain ⟨g, g1, g2, g3⟩ := p2 rest (hw.tail h.sfx)
    obtain ⟨q, s1, h1, h2, h3⟩ := h.step hw hc hs g1 hm (p1 m hm) g3 (fun _ h => h) (fun t ht => ⟨"Error", by decide, ht⟩) (Or.inl hne)
    rcases h3 with rfl | ⟨e, rfl⟩ | ⟨y, a', s2, rest', rfl, h4, h5, h6, h7⟩
    · exact ⟨_, _, .fails rfl h1, h2, Or.inl ⟨_, rfl⟩⟩
    · exact ⟨_, _, .raises h1, h2, Or.inr (Or.inl ⟨_, rfl⟩)⟩
    · obtain ⟨out, s3, h8, h9, h10⟩ := ih (fun x hx => hp x (List.mem_cons_of_mem _ hx)) h5 h6 h7
      exact ⟨out, s3, .takes h1 (fun h => by cases h) (by rw [p1 m hm]; exact h4) h8, h9, h10⟩

/-- The token of a program. -/
theorem Loosely.finish (h : Loosely E w name Q prog s a rest) :
    Completes prog a s (.err .fail) s ∨ ∃ s' tree, Completes prog a s (.ok (.token prog)) s' ∧ Reps E s'.toks prog [prog] [tree] ∧
      tree.name = name ∧ tree.info.flags = 0 ∧ tree.matched.start ≤ blen E.p.src ∧ tree.matched.stop ≤ blen E.p.src ∧ (∀ k ∈ tree.kids, Well k ∧ Q k) ∧
      ∀ K sc, Scoped E K sc s → Scoped E K sc s' := by
  by_cases hn : a.kids = [] ∨ lowest a.caps = usizeMax ∨ lowest a.mats = usizeMax
  · exact Or.inl (.nothing hn)
  · obtain ⟨trees, h1, h2⟩ := h.kids
    simp only [not_or] at hn
    obtain ⟨n1, n2, n3⟩ := hn
    have hin : (span a.mats).start ≤ blen E.p.src ∧ (span a.mats).stop ≤ blen E.p.src := by
      refine ⟨?_, highest_mem_le fun m hm => (h.mats m hm).2⟩
      cases hm : a.mats with
      | nil =>
        rw [hm] at n3
        exact (n3 rfl).elim
      | cons x l =>
        have hx : x ∈ a.mats := by rw [hm]; exact List.mem_cons_self ..
        have h3 := lowest_le hx
        rw [hm] at h3
        exact Nat.le_trans h3 (h.mats x hx).1
    refine Or.inr ⟨_, .node ⟨name, span a.caps, span a.mats, none, [], 0⟩ trees, .token n1 n2 n3 h.tok, ?_, rfl, rfl, hin.1, hin.2, h2, fun K sc hs => hs.put h.tok rfl⟩
    refine Reps.of_root (Nat.le_refl _) (put_get h.tok) ⟨rfl, Or.inl rfl, rfl, rfl, rfl, hin⟩ rfl ?_
    show Reps E (s.put prog _).toks (prog + 1) a.kids trees
    refine h1.change fun i k hi hk' => ⟨k.parent, ?_⟩
    show (s.toks.set prog _)[i]? = _
    rw [List.getElem?_set_ne (by omega), hk']

/-- **Something comes out of the grammar of scripts for every text**: a failure, an
error, or a token that looks as it should. -/
theorem script_total (hE : E.errs = true) (hS : Scripts E u) (hw : E.Has w) (hc : E.Here w c) (hs : Scoped E none sc s)
    (hm : Is E (Script.script u) m) :
    ∃ r s', Runs E.T E.cfg m c sc s r s' ∧ Scoped E none sc s' ∧ (r = .err .fail ∨ (∃ e, r = .err (.error e)) ∨
      ∃ t tree, r = .ok (.token t) ∧ Reps E s'.toks s.toks.length [t] [tree] ∧ Well tree ∧
        ((tree.name = "Script".toList ∧ tree.info.flags = 0 ∧ ∀ k ∈ tree.kids, ScriptPart k) ∨ tree.name = errorName)) := by
  obtain ⟨b, hb, hmap⟩ := Is.wrap (f := fun m => .map m Script.scriptDone passFailure) hm
  obtain ⟨ms, hms, hprog⟩ := Is.prog (E := E) (xs := [optional (loopN "PreHead" [Script.wsn0, Script.comment]), Script.wsn0,
    optional (Script.adextopaScope u), optional (Script.patternScope u)]) (name := "Script".toList) (cu := true) (iter := none) (first := false) hb
  have hopt : ∀ (x : B MatcherId) m, Is E (optional x) m → (E.T m).isConsuming = true := by
    intro x m hm
    obtain ⟨b, -, h⟩ := Is.wrap (f := fun m => .optional m) hm
    rw [h]
    rfl
  have hparts : Parts4 E none [Script.wsn0, optional (Script.adextopaScope u), optional (Script.patternScope u)] := by
    intro x hx
    simp only [List.mem_cons, List.not_mem_nil, or_false] at hx
    rcases hx with rfl | rfl | rfl
    · refine ⟨fun m hm => ?_, fun w hw => ?_⟩
      · obtain ⟨b, -, h⟩ := Is.wrap (f := fun m => .discard m) hm
        rw [h]
        rfl
      · obtain ⟨g, g1, g2, g3, -⟩ := fair_wsn0 (K := none) hw
        exact ⟨g, g1, g2, g3.mono fun _ h => h.elim⟩
    · refine ⟨hopt _, fun w hw => ?_⟩
      obtain ⟨g, g1, g2, g3⟩ := tot_header hE hS hw
      obtain ⟨g', h1, h2, h3, -⟩ := g3.optional g1 g2
      exact ⟨g', h1, h2, h3.mono fun t h => h.elim (fun h => ⟨_, by decide, h⟩) (fun h => ⟨"Error", by decide, h⟩)⟩
    · refine ⟨hopt _, fun w hw => ?_⟩
      obtain ⟨g, g1, g2, g3⟩ := tot_patterns hE hS hw
      obtain ⟨g', h1, h2, h3, -⟩ := g3.optional g1 g2
      exact ⟨g', h1, h2, h3.mono fun t h => ⟨_, by decide, h⟩⟩
  obtain ⟨hT, hS0⟩ := enter_begin (name := "Script".toList) hw hs (m := b) (by rw [hprog]; exact fun _ => Free.names (n := "Script") (by decide))
  have hL : Loosely E w "Script".toList ScriptPart s.toks.length ((entered E.T b sc s).withProgram E.p "Script".toList) (.start (E.at_ w)) w :=
    ⟨List.suffix_refl _, rfl, (fun _ h => by cases h), ⟨[], .nil, fun _ h => by cases h⟩, hT.tok⟩
  have hrun : ∀ {r : R} {s' : State}, Loops E.T E.cfg (partsOf E.T E.cfg c sc s.toks.length) s.toks.length (E.at_ w) "Script".toList ms none false 1 0
      (.start (E.at_ w)) ((entered E.T b sc s).withProgram E.p "Script".toList) r s' → Runs E.T E.cfg b c sc s r s' := by
    intro r s' h
    refine (program_iff hprog hc.debug).mpr ?_
    unfold ProgramRuns
    rw [hc.parser, hc.offset, entered_toks]
    exact h
  cases hms with
  | @cons x m1 xs ms hm1 hms =>
  obtain ⟨g, g1, g2, g3, g4⟩ := fair_prehead (K := none) hw
  obtain ⟨q, s1, h1, h2, h3⟩ := hL.step hw hc hS0 g1 hm1 (hopt _ _ hm1) g3 (fun t h => ⟨_, by decide, h⟩) (fun t ht => ⟨"Error", by decide, ht⟩) (Or.inr g4)
  have hfail : ∀ {e : Failure} {s' : State}, Runs E.T E.cfg b c sc s (.err e) s' → Runs E.T E.cfg m c sc s (.err e) s' :=
    fun h => (C41_map hmap).mpr (Or.inr (Or.inl ⟨_, _, h, rfl⟩))
  rcases h3 with rfl | ⟨e, rfl⟩ | ⟨y, a', s2, rest', rfl, h4, h5, h6, h7⟩
  · exact ⟨_, _, hfail (hrun (.failsProgram rfl (.fails rfl h1))), h2, Or.inl rfl⟩
  · exact ⟨_, _, hfail (hrun (.raises (.raises h1))), h2, Or.inr (Or.inl ⟨_, rfl⟩)⟩
  · obtain ⟨out, s3, h8, h9, h10⟩ := h5.run hw hc hms hparts h6 h7
    have hpass : Adx.Pass E.T E.cfg (partsOf E.T E.cfg c sc s.toks.length) s.toks.length (E.at_ w) false (m1 :: ms) (.start (E.at_ w))
        ((entered E.T b sc s).withProgram E.p "Script".toList) out s3 :=
      .takes h1 (fun h => by cases h) (by rw [hopt _ _ hm1]; exact h4) h8
    rcases h10 with ⟨a2, rfl⟩ | ⟨e, rfl⟩ | ⟨a2, rest2, rfl, h11⟩
    · exact ⟨_, _, hfail (hrun (.failsProgram rfl hpass)), h9, Or.inl rfl⟩
    · exact ⟨_, _, hfail (hrun (.raises hpass)), h9, Or.inr (Or.inl ⟨_, rfl⟩)⟩
    · rcases h11.finish with h12 | ⟨s4, tree, h12, h13, h14, h14', h15, h16, h17, h18⟩
      · exact ⟨_, _, hfail (hrun (.next hpass (.over (.completes (fun _ _ h => (by cases h)) h12)))), h9, Or.inl rfl⟩
      · have hb' := hrun (.next hpass (.over (.completes (fun _ _ h => (by cases h)) h12)))
        obtain ⟨k, -, hk, hpl, hi, hch⟩ := h13.root
        obtain ⟨o, o1, -⟩ := findChild_any (n := "AdextopaScope".toList) hch
        obtain ⟨p, p1, -⟩ := findChild_any (n := "PatternScope".toList) hch
        have hkm : k.matched = tree.matched := congrArg Info.matched hi
        by_cases hnone : o = none ∧ p = none
        · obtain ⟨s5, q1, q2, q3⟩ := newError_run (msg := "Nothing to parse. No scopes found.".toList) hE (c := c.withName "Map".toList) hc.parser h15 h16
            (s := s4) (lo := s.toks.length) (Nat.le_of_lt (List.getElem?_eq_some_iff.mp hk).1)
          refine ⟨_, _, (C41_map hmap).mpr (Or.inl ⟨_, _, Or.inl hb', ?_⟩), q3 (h18 _ _ h9), Or.inr (Or.inr ⟨_, _, rfl, q2, well_error, Or.inr rfl⟩)⟩
          unfold Script.scriptDone
          rw [bind_run (getTok_ok.mpr ⟨hk, rfl⟩), bind_run o1, bind_run p1, if_pos hnone, hkm, bind_run q1]
          rfl
        · refine ⟨_, _, (C41_map hmap).mpr (Or.inl ⟨_, _, Or.inl hb', ?_⟩), h18 _ _ h9, Or.inr (Or.inr ⟨_, _, rfl, h13,
            ?_, Or.inl ⟨h14, h14', fun k hk => (h17 k hk).2⟩⟩)⟩
          · unfold Script.scriptDone
            rw [bind_run (getTok_ok.mpr ⟨hk, rfl⟩), bind_run o1, bind_run p1, if_neg hnone]
            rfl
          · cases tree with
            | node i ks => exact .node (Loose.fit (n := "Script") (by decide) h14) fun k hk => (h17 k hk).1

end

end Adx.Read
