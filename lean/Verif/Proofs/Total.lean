import Verif.Proofs.Mistakes
import Verif.Proofs.ScriptRegex
/-
  Reading any text: something comes out of every matcher of the grammar of scripts, and
  the trees have the shape that the builder relies on.
-/
namespace Adx.Read

open B

/-! ### Shapes -/

/-- The children that are no errors. -/
def solid (ks : List Tr) : List Tr := ks.filter fun k => decide (k.info.flags = 0)

/-- What tokens of certain names have to look like. -/
def shapeRules : List (String × (Info → List Tr → Prop)) := [
  ("Error", fun i _ => i.flags ≠ 0),
  ("EqualsMatcher", fun _ ks => 1 ≤ (solid ks).length),
  ("CustomMatcher", fun _ ks => 1 ≤ (solid ks).length),
  ("MatcherName", fun _ ks => 1 ≤ (solid ks).length),
  ("SequenceMatcher", fun _ ks => 3 ≤ (solid ks).length),
  ("PatternDefinitionCaptured", fun _ ks => 1 ≤ (solid ks).length ∧
    ((∃ k ∈ ks, k.name = "MatcherName".toList) → 2 ≤ (solid ks).length)),
  ("Attribute", fun _ ks => 2 ≤ (solid ks).length),
  ("Attributes", fun _ ks => ∀ k ∈ ks, k.name = "Attribute".toList),
  ("RepeatRange", fun _ ks => ∃ k ∈ solid ks, k.name = "Minimum".toList),
  ("AssignmentExpression", fun _ ks => 2 ≤ (solid ks).length),
  ("ImportStatement", fun _ ks => (∃ k ∈ solid ks, k.name = "ImportIdentifiers".toList) ∧ ∃ k ∈ solid ks, k.name = "Path".toList),
  ("ImportIdentifiers", fun _ ks => ∀ k ∈ ks, k.name = "ImportIdentifier".toList),
  ("ImportIdentifier", fun _ ks => ∃ k ∈ solid ks, k.name = "ImportName".toList)]

/-- A token with these children looks as it should. -/
def Fit (i : Info) (ks : List Tr) : Prop := ∀ q ∈ shapeRules, i.name = q.1.toList → q.2 i ks

/-- A tree in which everything looks as it should. -/
inductive Well : Tr → Prop
  | node {i : Info} {ks : List Tr} (h : Fit i ks) (hk : ∀ k ∈ ks, Well k) : Well (.node i ks)

/-- A name without rules. -/
def Loose (n : String) : Prop := n ∉ shapeRules.map Prod.fst

instance (n : String) : Decidable (Loose n) := inferInstanceAs (Decidable (_ ∉ _))

theorem Loose.fit {n : String} (h : Loose n) {i : Info} (hi : i.name = n.toList) {ks : List Tr} : Fit i ks := by
  intro q hq hn
  rw [hi] at hn
  exact (h (List.mem_map.mpr ⟨q, hq, (String.toList_inj.mp hn).symm⟩)).elim

theorem rules_nodup : (shapeRules.map Prod.fst).Nodup := by decide

/-- The rule for this name. -/
theorem fit_at (j : Nat) {n : String} {f : Info → List Tr → Prop} (hr : shapeRules[j]? = some (n, f)) {i : Info} {ks : List Tr}
    (hi : i.name = n.toList) (h : f i ks) : Fit i ks := by
  intro q hq hn
  rw [hi] at hn
  have h1 := String.toList_inj.mp hn
  obtain ⟨j', hj'⟩ := List.mem_iff_getElem?.mp hq
  have h2 : (shapeRules.map Prod.fst)[j]? = some n := by rw [List.getElem?_map, hr]; rfl
  have h3 : (shapeRules.map Prod.fst)[j']? = some n := by rw [List.getElem?_map, hj', h1]; rfl
  have hlt := (List.getElem?_eq_some_iff.mp h2).1
  have : j = j' := (List.getElem?_inj hlt rules_nodup).mp (h2.trans h3.symm)
  subst this
  rw [hr] at hj'
  cases hj'
  exact h

theorem Well.fit {t : Tr} (h : Well t) : Fit t.info t.kids := by
  cases h
  assumption

theorem Well.kids {t : Tr} (h : Well t) : ∀ k ∈ t.kids, Well k := by
  cases h
  assumption

/-! ### Outcomes -/

/-- The outcomes of matchers that consume: `N` is what is known of the tokens; with
`strict`, skips are not empty. -/
inductive Nice (E : Setting) (strict : Bool) (w : Str) (N : List Tr → Prop) : Got → Prop
  | fail : Nice E strict w N .fail
  | fatal : Nice E strict w N .fatal
  | past {w' : Str} (h : N []) (hs : strict = true → blen w' < blen w) : Nice E strict w N (.past w')
  | tok {w' : Str} {t : Tr} (h : Well t) (hN : N [t]) : Nice E strict w N (.tok w' t)
  | splice {w' : Str} {t : Tr} (h : ∀ k ∈ t.kids, Well k) (hN : N t.kids) (hs : t.matched.stop = E.at_ w') :
      Nice E strict w N (.splice w' t)
  | pin (h : N []) (hs : strict = false) : Nice E strict w N .pin

/-- Something comes out. -/
def Tot (E : Setting) (K : Option Nat) (strict : Bool) (x : B MatcherId) (w : Str) (N : List Tr → Prop) : Prop :=
  ∃ g, BReads E K K x w g ∧ g.Good E w ∧ Nice E strict w N g

/-- The tokens of one after the tokens of the other. -/
def Join (N M : List Tr → Prop) (l : List Tr) : Prop := ∃ l1 l2, l = l1 ++ l2 ∧ N l1 ∧ M l2

/-- One token of this name; `M` is what is known of its children. -/
def One (n : String) (M : List Tr → Prop) (l : List Tr) : Prop :=
  ∃ t : Tr, l = [t] ∧ t.name = n.toList ∧ t.info.flags = 0 ∧ M t.kids

/-- The outcomes of matchers that give one token. -/
inductive Solo (n : String) (M : List Tr → Prop) : Got → Prop
  | fail : Solo n M .fail
  | fatal : Solo n M .fatal
  | tok {w' : Str} {t : Tr} (h : Well t) (hn : t.name = n.toList) (hf : t.info.flags = 0) (hM : M t.kids) : Solo n M (.tok w' t)

/-- One token comes out, or nothing. -/
def Tot1 (E : Setting) (K : Option Nat) (x : B MatcherId) (w : Str) (n : String) (M : List Tr → Prop) : Prop :=
  ∃ g, BReads E K K x w g ∧ g.Good E w ∧ Solo n M g

def Nil (l : List Tr) : Prop := l = []
def Any (_ : List Tr) : Prop := True

/-- What a program has read, while nothing is odd. -/
structure Inv (E : Setting) (w : Str) (a : Run) : Prop where
  ok : RunOk E w a
  sync : a.far = E.at_ a.rest
  tight : a.loose = false
  well : ∀ k ∈ a.kids, Well k

section
variable {E : Setting} {K : Option Nat} {w w' : Str} {x : B MatcherId} {xs : List (B MatcherId)} {N M : List Tr → Prop} {strict : Bool}
  {a : Run} {g : Got}

theorem Nice.mono (h : Nice E strict w N g) (hN : ∀ l, N l → M l) : Nice E strict w M g := by
  cases h with
  | fail => exact .fail
  | fatal => exact .fatal
  | past h hs => exact .past (hN _ h) hs
  | tok h hn => exact .tok h (hN _ hn)
  | splice h hn hs => exact .splice h (hN _ hn) hs
  | pin h hs => exact .pin (hN _ h) hs

theorem Nice.slack (h : Nice E strict w N g) : Nice E false w N g := by
  cases h with
  | fail => exact .fail
  | fatal => exact .fatal
  | past h hs => exact .past h (fun h => by cases h)
  | tok h hn => exact .tok h hn
  | splice h hn hs => exact .splice h hn hs
  | pin h hs => exact .pin h rfl

theorem Solo.nice {n : String} (h : Solo n M g) : Nice E true w (One n M) g := by
  cases h with
  | fail => exact .fail
  | fatal => exact .fatal
  | tok h hn hf hM => exact .tok h ⟨_, rfl, hn, hf, hM⟩

theorem Tot1.tot {n : String} (h : Tot1 E K x w n M) : Tot E K true x w (One n M) := by
  obtain ⟨g, h1, h2, h3⟩ := h
  exact ⟨g, h1, h2, h3.nice⟩

theorem Tot.mono (h : Tot E K strict x w N) (hN : ∀ l, N l → M l) : Tot E K strict x w M := by
  obtain ⟨g, h1, h2, h3⟩ := h
  exact ⟨g, h1, h2, h3.mono hN⟩

theorem Tot.slack (h : Tot E K strict x w N) : Tot E K false x w N := by
  obtain ⟨g, h1, h2, h3⟩ := h
  exact ⟨g, h1, h2, h3.slack⟩

theorem Tot.any (h : Tot E none strict x w N) : ∃ g, BReads E K none x w g ∧ g.Good E w ∧ Nice E strict w N g := by
  obtain ⟨g, h1, h2, h3⟩ := h
  exact ⟨g, h1.any, h2, h3⟩

/-! ### Runs -/

theorem RunOk.grow (h : RunOk E w a) {w1 : Str} {f : Nat} {ks : List Tr} {cs : List Range} (hw : w1 <:+ w) (hf : a.far ≤ f)
    (hle : E.at_ w1 ≤ f) (hb : f ≤ blen E.p.src) (hk : ∀ k ∈ ks, k.name ≠ errorName → k.Ok (E.at_ w) f) (hc : ∀ c ∈ cs, c.start ≤ f)
    (hs : cs ≠ [] → E.at_ w < f) : RunOk E w ⟨w1, f, a.kids ++ ks, a.caps ++ cs, a.loose⟩ := by
  refine ⟨hw, hle, hb, fun hl k hk' hn => ?_, fun c hc' => ?_, fun hcs => ?_⟩
  · rcases List.mem_append.mp hk' with hk' | hk'
    · exact (h.kids hl k hk' hn).mono (Nat.le_refl _) hf
    · exact hk k hk' hn
  · rcases List.mem_append.mp hc' with hc' | hc'
    · exact Nat.le_trans (h.caps c hc') hf
    · exact hc c hc'
  · by_cases hcc : cs = []
    · subst hcc
      rw [List.append_nil] at hcs
      exact Nat.lt_of_lt_of_le (h.some hcs) hf
    · exact hs hcc

theorem Inv.start (hw : E.Has w) : Inv E w (.start E w) := by
  refine ⟨⟨List.suffix_refl _, Nat.le_refl _, hw.le, ?_, ?_, ?_⟩, rfl, rfl, fun _ h => by cases h⟩
  · intro _ k hk
    cases hk
  · intro k hk
    cases hk
  · intro h
    exact (h rfl).elim

theorem Inv.past (hw : E.Has w) (h : Inv E w a) (hs : w' <:+ a.rest) : Inv E w (a.take E (.past w')) := by
  have h1 := (hw.tail h.ok.sfx).mono hs
  have := h.ok.grow (w1 := w') (f := E.at_ w') (ks := []) (cs := []) (hs.trans h.ok.sfx) (by rw [h.sync]; exact h1) (Nat.le_refl _)
    ((hw.tail h.ok.sfx).tail hs).le (fun _ h => by cases h) (fun _ h => by cases h) (fun h => (h rfl).elim)
  rw [List.append_nil, List.append_nil] at this
  exact ⟨this, rfl, h.tight, h.well⟩

theorem kids_ok {lo hi f : Nat} {t : Tr} (h : t.Ok lo hi) (hf : t.matched.stop ≤ f) : t.Ok lo f := by
  cases h with
  | node a1 a2 a3 a4 hk => exact .node a1 a2 hf a4 hk

theorem Inv.tok (hw : E.Has w) (h : Inv E w a) {t : Tr} (hg : (Got.tok w' t).Good E a.rest) (ht : Well t) :
    Inv E w (a.take E (.tok w' t)) ∧ blen w' < blen a.rest := by
  obtain ⟨g1, g2, g3⟩ := hg
  have hr := hw.tail h.ok.sfx
  have h1 := hr.mono g1
  have h2 := hr.len
  have h3 := (hr.tail g1).len
  obtain ⟨f1, f2, f3, f4, f5⟩ := g3.facts
  have f1' := hw.mono h.ok.sfx
  rw [g2] at f2
  refine ⟨⟨h.ok.grow (ks := [t]) (cs := [t.captured]) (g1.trans h.ok.sfx) (by rw [h.sync]; exact h1) (Nat.le_refl _)
    (hr.tail g1).le ?_ ?_ ?_, rfl, h.tight, ?_⟩, ?_⟩
  · intro k hk _
    rw [List.mem_singleton.mp hk]
    exact (kids_ok g3 (by rw [g2])).mono f1' (Nat.le_refl _)
  · intro c hc
    rw [List.mem_singleton.mp hc]
    rw [g2] at f4
    exact f4
  · intro _
    exact Nat.lt_of_le_of_lt f1' f2
  · intro k hk
    rcases List.mem_append.mp hk with hk | hk
    · exact h.well k hk
    · rw [List.mem_singleton.mp hk]
      exact ht
  · replace f2 : E.at_ a.rest < E.at_ w' := f2
    omega

theorem Inv.splice (hw : E.Has w) (h : Inv E w a) {t : Tr} (hg : (Got.splice w' t).Good E a.rest) (ht : ∀ k ∈ t.kids, Well k) :
    RunOk E w (a.take E (.splice w' t)) ∧ (∀ k ∈ (a.take E (.splice w' t)).kids, Well k) ∧ (a.take E (.splice w' t)).loose = false ∧
      (t.matched.stop = E.at_ w' → Inv E w (a.take E (.splice w' t)) ∧ blen w' < blen a.rest) := by
  obtain ⟨g1, g2, g3, g4, ⟨l, g5, g6⟩, g7⟩ := hg
  have hr := hw.tail h.ok.sfx
  have h1 := hr.mono g1
  have h2 := hr.len
  have h3 := (hr.tail g1).len
  obtain ⟨f1, f2, f3, f4, f5⟩ := g3.facts
  have f1' := hw.mono h.ok.sfx
  rw [g2] at f2
  have hok : RunOk E w (a.take E (.splice w' t)) := by
    refine h.ok.grow (ks := t.kids) (cs := t.captured :: t.kids.map Tr.captured) (g1.trans h.ok.sfx) (by rw [h.sync]; omega) g4 f3 ?_ ?_ ?_
    · intro k hk hn
      exact (f5 k hk hn).mono f1' (Nat.le_refl _)
    · intro c hc
      rcases List.mem_cons.mp hc with rfl | hc
      · exact f4
      · obtain ⟨k, hk, rfl⟩ := List.mem_map.mp hc
        have := (f5 k hk (g7 k hk)).facts
        omega
    · intro _
      exact Nat.lt_of_le_of_lt f1' f2
  have hwell : ∀ k ∈ (a.take E (.splice w' t)).kids, Well k := by
    intro k hk
    rcases List.mem_append.mp hk with hk | hk
    · exact h.well k hk
    · exact ht k hk
  refine ⟨hok, hwell, h.tight, fun hs => ⟨⟨hok, hs, h.tight, hwell⟩, ?_⟩⟩
  omega

/-- Take up a nice outcome. -/
theorem Inv.nice (hw : E.Has w) (h : Inv E w a) (hg : g.Good E a.rest) (hn : Nice E strict a.rest N g) :
    g = .fail ∨ g = .fatal ∨ (g.taken = true ∧ Inv E w (a.take E g) ∧ (a.take E g).rest <:+ a.rest ∧
      (strict = true → blen (a.take E g).rest < blen a.rest) ∧
      ∃ l, (a.take E g).kids = a.kids ++ l ∧ N l ∧ (l ≠ [] → blen (a.take E g).rest < blen a.rest)) := by
  cases hn with
  | fail => exact Or.inl rfl
  | fatal => exact Or.inr (Or.inl rfl)
  | past hN hs =>
    exact Or.inr (Or.inr ⟨rfl, h.past hw hg, hg, hs, [], (List.append_nil _).symm, hN, fun h => (h rfl).elim⟩)
  | @tok w' t ht hN =>
    obtain ⟨h1, h2⟩ := h.tok hw hg ht
    exact Or.inr (Or.inr ⟨rfl, h1, hg.1, fun _ => h2, [t], rfl, hN, fun _ => h2⟩)
  | @splice w' t ht hN hs =>
    obtain ⟨h1, h2⟩ := (h.splice hw hg ht).2.2.2 hs
    exact Or.inr (Or.inr ⟨rfl, h1, hg.1, fun _ => h2, t.kids, rfl, hN, fun _ => h2⟩)
  | pin hN hs =>
    exact Or.inr (Or.inr ⟨rfl, h, List.suffix_refl _, (fun h => by rw [hs] at h; cases h), [], (List.append_nil _).symm, hN,
      fun h => (h rfl).elim⟩)

/-! ### Programs -/

/-- Something comes out of each of the parts of a program, for rests of less than `n`
bytes; `M` is what is known of the tokens. -/
inductive Line (E : Setting) (K : Option Nat) : Nat → List (B MatcherId) → (List Tr → Prop) → Prop
  | nil {n : Nat} : Line E K n [] Nil
  | cons {n : Nat} {x : B MatcherId} {xs : List (B MatcherId)} {N M : List Tr → Prop}
      (h : ∀ w, E.Has w → blen w < n → Tot E K false x w N) (h' : Line E K n xs M) : Line E K n (x :: xs) (Join N M)
  | eat {n : Nat} {x : B MatcherId} {xs : List (B MatcherId)} {N M : List Tr → Prop}
      (h : ∀ w, E.Has w → blen w < n + 1 → Tot E K true x w N) (h' : Line E K n xs M) : Line E K (n + 1) (x :: xs) (Join N M)

theorem Line.go {n : Nat} (h : Line E K n xs M) (hw : E.Has w) : ∀ {a : Run}, Inv E w a → blen a.rest < n →
    ∃ o, Pass E K xs a o ∧ match (generalizing := false) o with
      | .done K' a' => K' = K ∧ Inv E w a' ∧ a'.rest <:+ a.rest ∧ ∃ l, a'.kids = a.kids ++ l ∧ M l ∧ (l ≠ [] → blen a'.rest < blen a.rest)
      | .fails K' a' => K' = K ∧ Inv E w a' ∧ a'.rest <:+ a.rest
      | .breaks .. => False
      | .fatal K' => K' = K := by
  induction h with
  | nil =>
    intro a ha hn
    exact ⟨_, .nil, rfl, ha, List.suffix_refl _, [], (List.append_nil _).symm, rfl, fun h => (h rfl).elim⟩
  | @cons n x xs N M hx _ ih =>
    intro a ha hn
    obtain ⟨g, h1, h2, h3⟩ := hx a.rest (hw.tail ha.ok.sfx) hn
    rcases ha.nice hw h2 h3 with rfl | rfl | ⟨ht, hi, hs, -, l, hl, hN, hlt⟩
    · exact ⟨_, .fail h1, rfl, ha, List.suffix_refl _⟩
    · exact ⟨_, .fatal h1, rfl⟩
    · obtain ⟨o, h4, h5⟩ := ih hi (Nat.lt_of_le_of_lt (suffix_blen hs) hn)
      refine ⟨o, .cons h1 h4 ht ha.sync, ?_⟩
      cases o with
      | done K' a' =>
        obtain ⟨b1, b2, b3, l', b4, b5, b6⟩ := h5
        refine ⟨b1, b2, b3.trans hs, l ++ l', by rw [b4, hl, List.append_assoc], ⟨l, l', rfl, hN, b5⟩, fun hne => ?_⟩
        have := suffix_blen b3
        have := suffix_blen hs
        by_cases hl0 : l = []
        · by_cases hl1 : l' = []
          · rw [hl0, hl1] at hne
            exact (hne rfl).elim
          · have := b6 hl1
            omega
        · have := hlt hl0
          omega
      | fails K' a' => exact ⟨h5.1, h5.2.1, h5.2.2.trans hs⟩
      | breaks => exact h5.elim
      | fatal => exact h5
  | @eat n x xs N M hx _ ih =>
    intro a ha hn
    obtain ⟨g, h1, h2, h3⟩ := hx a.rest (hw.tail ha.ok.sfx) hn
    rcases ha.nice hw h2 h3 with rfl | rfl | ⟨ht, hi, hs, hst, l, hl, hN, hlt⟩
    · exact ⟨_, .fail h1, rfl, ha, List.suffix_refl _⟩
    · exact ⟨_, .fatal h1, rfl⟩
    · have hst := hst rfl
      obtain ⟨o, h4, h5⟩ := ih hi (by omega)
      refine ⟨o, .cons h1 h4 ht ha.sync, ?_⟩
      cases o with
      | done K' a' =>
        obtain ⟨b1, b2, b3, l', b4, b5, b6⟩ := h5
        refine ⟨b1, b2, b3.trans hs, l ++ l', by rw [b4, hl, List.append_assoc], ⟨l, l', rfl, hN, b5⟩, fun _ => ?_⟩
        have := suffix_blen b3
        omega
      | fails K' a' => exact ⟨h5.1, h5.2.1, h5.2.2.trans hs⟩
      | breaks => exact h5.elim
      | fatal => exact h5

/-- What is left where a program ends. -/
theorem far_spot (hw : E.Has w) (h : RunOk E w a) : ∃ w', w' <:+ w ∧ E.at_ w' = a.far :=
  hw.spot (Nat.le_trans (hw.mono h.sfx) h.le) h.far

theorem gives_any (hw : E.Has w) (h : RunOk E w a) (hl : a.loose = false) {name : Str} :
    Gives E w name a .fail ∨ ∃ w', w' <:+ w ∧ a.far = E.at_ w' ∧ a.kids ≠ [] ∧ a.caps ≠ [] ∧ Gives E w name a (.tok w' (a.tree E name w)) := by
  by_cases h1 : a.kids = [] ∨ a.caps = []
  · exact Or.inl (.nothing h1)
  · obtain ⟨w', h2, h3⟩ := far_spot hw h
    exact Or.inr ⟨w', h2, h3.symm, (fun h => h1 (Or.inl h)), (fun h => h1 (Or.inr h)),
      .tok (fun h => h1 (Or.inl h)) (fun h => h1 (Or.inr h)) hl h2 h3.symm⟩

theorem Tot1.programN {n : String} [AddsAll xs] {b : Nat} (h : Line E K b xs M) (hw : E.Has w) (hb : blen w < b)
    (hfit : ∀ i l, M l → i.name = n.toList → i.flags = 0 → Fit i l) (hn : Free n := by decide) :
    Tot1 E K (programN n xs) w n M := by
  obtain ⟨o, h1, h2⟩ := h.go hw (.start hw) hb
  cases o with
  | done K' a =>
    obtain ⟨rfl, h3, h4, l, h5, h6, h7⟩ := h2
    rcases gives_any hw h3.ok h3.tight (name := n.toList) with h8 | ⟨w', h8, h9, -, -, h10⟩
    · exact ⟨_, .programN h1 (.done h8) hn, trivial, .fail⟩
    · refine ⟨_, .programN h1 (.done h10) hn, h10.good h3.ok, .tok (.node ?_ h3.well) rfl rfl ?_⟩
      · refine hfit _ _ ?_ rfl rfl
        rw [h5]
        exact h6
      · show M a.kids
        rw [h5]
        exact h6
  | fails K' a =>
    obtain ⟨rfl, -⟩ := h2
    exact ⟨_, .programN h1 .fails hn, trivial, .fail⟩
  | breaks => exact h2.elim
  | fatal K' =>
    obtain rfl := h2
    exact ⟨_, .programN h1 .fatal hn, trivial, .fatal⟩

theorem Tot.programN {n : String} [AddsAll xs] {b : Nat} (h : Line E K b xs M) (hw : E.Has w) (hb : blen w < b)
    (hfit : ∀ i l, M l → i.name = n.toList → i.flags = 0 → Fit i l) (hn : Free n := by decide) :
    Tot E K true (B.programN n xs) w (One n M) := (Tot1.programN h hw hb hfit hn).tot

/-! ### Loops -/

/-- What a program or loop has collected in the end. -/
structure Held (E : Setting) (w : Str) (a : Run) (Q : Tr → Prop) : Prop where
  ok : RunOk E w a
  tight : a.loose = false
  kids : ∀ k ∈ a.kids, Well k ∧ Q k

/-- Something comes out of each round of a loop, for rests of less than `n` bytes. -/
def Round (E : Setting) (K : Option Nat) (n : Nat) (name : Str) (xs : List (B MatcherId)) (Q : Tr → Prop) : Prop :=
  ∀ w a, E.Has w → Inv E w a → blen a.rest < n → (∀ k ∈ a.kids, Q k) → ∃ o, Pass E K xs a o ∧ match (generalizing := false) o with
    | .done K' a' => K' = K ∧ Inv E w a' ∧ blen a'.rest < blen a.rest ∧ ∀ k ∈ a'.kids, Q k
    | .fails K' a' => K' = K ∧ Held E w a' Q
    | .breaks K' m g a' => K' = K ∧ (m = name ∨ m = []) ∧ Held E w (a'.take E g) Q
    | .fatal K' => K' = K

theorem Round.rounds {n : Nat} {name : Str} {Q : Tr → Prop} (h : Round E K n name xs Q) (hw : E.Has w) : ∀ (b : Nat) {a : Run}, Inv E w a →
    blen a.rest < n → blen a.rest ≤ b → (∀ k ∈ a.kids, Q k) → ∃ a' o, Rounds E xs K a K a' ∧ Pass E K xs a' o ∧
      match (generalizing := false) o with
      | .done .. => False
      | .fails K' a' => K' = K ∧ Held E w a' Q
      | .breaks K' m g a' => K' = K ∧ (m = name ∨ m = []) ∧ Held E w (a'.take E g) Q
      | .fatal K' => K' = K := by
  intro b
  induction b with
  | zero =>
    intro a ha hn hb hq
    obtain ⟨o, h1, h2⟩ := h w a hw ha hn hq
    cases o with
    | done K' a' => omega
    | fails => exact ⟨_, _, .zero, h1, h2⟩
    | breaks => exact ⟨_, _, .zero, h1, h2⟩
    | fatal => exact ⟨_, _, .zero, h1, h2⟩
  | succ b ih =>
    intro a ha hn hb hq
    obtain ⟨o, h1, h2⟩ := h w a hw ha hn hq
    cases o with
    | done K' a' =>
      obtain ⟨rfl, h3, h4, h5⟩ := h2
      obtain ⟨a2, o, h6, h7, h8⟩ := ih h3 (by omega) (by omega) h5
      exact ⟨a2, o, .next h1 h4 h6, h7, h8⟩
    | fails => exact ⟨_, _, .zero, h1, h2⟩
    | breaks => exact ⟨_, _, .zero, h1, h2⟩
    | fatal => exact ⟨_, _, .zero, h1, h2⟩

/-- The breaks of a loop. -/
inductive Leaves (E : Setting) (w : Str) (name : Str) (Q : Tr → Prop) : Got → Prop
  | past {m w' : Str} (hm : m = name ∨ m = []) : Leaves E w name Q (.brk m (.past w'))
  | splice {m w' : Str} {t : Tr} (hm : m = name ∨ m = []) (h : ∀ k ∈ t.kids, Well k ∧ Q k) : Leaves E w name Q (.brk m (.splice w' t))

/-- Something comes out, perhaps a break. -/
def TotB (E : Setting) (K : Option Nat) (strict : Bool) (name : Str) (Q : Tr → Prop) (x : B MatcherId) (w : Str) : Prop :=
  ∃ g, BReads E K K x w g ∧ g.Good E w ∧ (Nice E strict w (fun l => ∀ k ∈ l, Q k) g ∨ Leaves E w name Q g)

theorem Tot.turn {name : Str} {Q : Tr → Prop} (h : Tot E K strict x w N) (hN : ∀ l, N l → ∀ k ∈ l, Q k) : TotB E K strict name Q x w := by
  obtain ⟨g, h1, h2, h3⟩ := h.mono hN
  exact ⟨g, h1, h2, Or.inl h3⟩

/-- The parts of a round; with `true`, some part moves on. -/
inductive Turn (E : Setting) (K : Option Nat) (n : Nat) (name : Str) (Q : Tr → Prop) : Bool → List (B MatcherId) → Prop
  | nil : Turn E K n name Q false []
  | cons {s s' : Bool} {x : B MatcherId} {xs : List (B MatcherId)} (h : ∀ w, E.Has w → blen w < n → TotB E K s name Q x w)
      (h' : Turn E K n name Q s' xs) : Turn E K n name Q (s || s') (x :: xs)

theorem Turn.go {n : Nat} {name : Str} {Q : Tr → Prop} (h : Turn E K n name Q strict xs) (hw : E.Has w) : ∀ {a : Run}, Inv E w a → blen a.rest < n →
    (∀ k ∈ a.kids, Q k) → ∃ o, Pass E K xs a o ∧ match (generalizing := false) o with
      | .done K' a' => K' = K ∧ Inv E w a' ∧ a'.rest <:+ a.rest ∧ (strict = true → blen a'.rest < blen a.rest) ∧ ∀ k ∈ a'.kids, Q k
      | .fails K' a' => K' = K ∧ Held E w a' Q
      | .breaks K' m g a' => K' = K ∧ (m = name ∨ m = []) ∧ Held E w (a'.take E g) Q
      | .fatal K' => K' = K := by
  induction h with
  | nil =>
    intro a ha hn hq
    exact ⟨_, .nil, rfl, ha, List.suffix_refl _, (fun h => by cases h), hq⟩
  | @cons s s' x xs hx _ ih =>
    intro a ha hn hq
    obtain ⟨g, h1, h2, h3⟩ := hx a.rest (hw.tail ha.ok.sfx) hn
    rcases h3 with h3 | h3
    · rcases ha.nice hw h2 h3 with rfl | rfl | ⟨ht, hi, hs, hst, l, hl, hN, hlt⟩
      · exact ⟨_, .fail h1, rfl, ha.ok, ha.tight, fun k hk => ⟨ha.well k hk, hq k hk⟩⟩
      · exact ⟨_, .fatal h1, rfl⟩
      · have hq' : ∀ k ∈ (a.take E g).kids, Q k := by
          intro k hk
          rw [hl] at hk
          rcases List.mem_append.mp hk with hk | hk
          · exact hq k hk
          · exact hN k hk
        obtain ⟨o, h4, h5⟩ := ih hi (Nat.lt_of_le_of_lt (suffix_blen hs) hn) hq'
        refine ⟨o, .cons h1 h4 ht ha.sync, ?_⟩
        cases o with
        | done K' a' =>
          obtain ⟨b1, b2, b3, b4, b5⟩ := h5
          refine ⟨b1, b2, b3.trans hs, fun hst' => ?_, b5⟩
          have := suffix_blen b3
          have := suffix_blen hs
          rcases (Bool.or_eq_true _ _).mp hst' with h | h
          · have := hst h
            omega
          · have := b4 h
            omega
        | fails => exact h5
        | breaks => exact h5
        | fatal => exact h5
    · cases h3 with
      | @past m w' hm =>
        have := ha.past hw h2
        exact ⟨_, .brk h1 rfl ha.sync, rfl, hm, this.ok, this.tight, fun k hk => ⟨this.well k hk, hq k hk⟩⟩
      | @splice m w' t hm hk =>
        obtain ⟨a1, a2, a3, -⟩ := ha.splice hw h2 fun k hk' => (hk k hk').1
        refine ⟨_, .brk h1 rfl ha.sync, rfl, hm, a1, a3, fun k hk' => ⟨a2 k hk', ?_⟩⟩
        rcases List.mem_append.mp hk' with hk' | hk'
        · exact hq k hk'
        · exact (hk k hk').2

theorem Turn.round {n : Nat} {name : Str} {Q : Tr → Prop} (h : Turn E K n name Q true xs) : Round E K n name xs Q := by
  intro w a hw ha hn hq
  obtain ⟨o, h1, h2⟩ := h.go hw ha hn hq
  refine ⟨o, h1, ?_⟩
  cases o with
  | done => exact ⟨h2.1, h2.2.1, h2.2.2.2.1 rfl, h2.2.2.2.2⟩
  | fails => exact h2
  | breaks => exact h2
  | fatal => exact h2

/-- What comes out of a loop. -/
inductive Bunch (E : Setting) (w : Str) (name : Str) (Q : Tr → Prop) : Got → Prop
  | fail : Bunch E w name Q .fail
  | fatal : Bunch E w name Q .fatal
  | tok {a : Run} {w' : Str} (h : Held E w a Q) (hne : a.kids ≠ []) : Bunch E w name Q (.tok w' (a.tree E name w))

theorem Round.gives {n : Nat} {name : Str} {Q : Tr → Prop} (h : Round E K n name xs Q) (hw : E.Has w) (hn : blen w < n) :
    ∃ r o g, Rounds E xs K (.start E w) K r ∧ Pass E K xs r o ∧ LoopGives E w name o K g ∧ g.Good E w ∧ Bunch E w name Q g := by
  obtain ⟨r, o, h1, h2, h3⟩ := h.rounds hw (blen w) (.start hw) hn (Nat.le_refl _) (fun _ h => by cases h)
  have key : ∀ a : Run, Held E w a Q → ∃ g, Gives E w name a g ∧ g.Good E w ∧ Bunch E w name Q g := by
    intro a ha
    rcases gives_any hw ha.ok ha.tight (name := name) with h8 | ⟨w', h8, h9, h10, -, h11⟩
    · exact ⟨_, h8, trivial, .fail⟩
    · exact ⟨_, h11, h11.good ha.ok, .tok ha h10⟩
  cases o with
  | done => exact h3.elim
  | fails K' a =>
    obtain ⟨rfl, h4⟩ := h3
    obtain ⟨g, h5, h6, h7⟩ := key a h4
    exact ⟨r, _, g, h1, h2, .fails h5, h6, h7⟩
  | breaks K' m g' a =>
    obtain ⟨rfl, hm, h4⟩ := h3
    obtain ⟨g, h5, h6, h7⟩ := key _ h4
    exact ⟨r, _, g, h1, h2, .breaks hm h5, h6, h7⟩
  | fatal K' =>
    obtain rfl := h3
    exact ⟨r, _, _, h1, h2, .fatal, trivial, .fatal⟩

theorem Round.loop {n : Nat} {Q : Tr → Prop} [AddsAll xs] (h : Round E K n "Loop".toList xs Q) (hw : E.Has w) (hn : blen w < n) :
    ∃ g, BReads E K K (B.loop xs) w g ∧ g.Good E w ∧ Bunch E w "Loop".toList Q g := by
  obtain ⟨r, o, g, h1, h2, h3, h4, h5⟩ := h.gives hw hn
  exact ⟨g, .loop h1 h2 h3, h4, h5⟩

theorem Round.loopN {n : Nat} {name : String} {lo : Bound} {Q : Tr → Prop} [AddsAll xs] (h : Round E K n name.toList xs Q) (hw : E.Has w)
    (hn : blen w < n) (hlo : (getRange lo .unbounded).1 ≤ 1 := by decide) (hf : Free name := by decide) :
    ∃ g, BReads E K K (B.loopN name xs lo .unbounded) w g ∧ g.Good E w ∧ Bunch E w name.toList Q g := by
  obtain ⟨r, o, g, h1, h2, h3, h4, h5⟩ := h.gives hw hn
  exact ⟨g, .loopN h1 h2 h3 hlo hf, h4, h5⟩

/-- A loop as a part of a program. -/
theorem Bunch.solo {name : String} {Q : Tr → Prop} (h : Bunch E w name.toList Q g)
    (hfit : ∀ i l, (∀ k ∈ l, Q k) → i.name = name.toList → i.flags = 0 → Fit i l) :
    Solo name (fun l => ∀ k ∈ l, Q k) g := by
  cases h with
  | fail => exact .fail
  | fatal => exact .fatal
  | tok h hne =>
    have hq := fun k hk => (h.kids k hk).2
    exact .tok (.node (hfit _ _ hq rfl rfl) fun k hk => (h.kids k hk).1) rfl rfl hq

/-- The children of a loop in place of it. -/
inductive Spliced (E : Setting) (w : Str) (Q : Tr → Prop) : Got → Prop
  | fail : Spliced E w Q .fail
  | fatal : Spliced E w Q .fatal
  | splice {t : Tr} {w' : Str} (h : ∀ k ∈ t.kids, Well k ∧ Q k) : Spliced E w Q (.splice w' t)

/-- Where the children of a token end. -/
theorem kids_end (hw : E.Has w) {t : Tr} (hg : (Got.tok w' t).Good E w) (hne : t.kids ≠ []) (hq : ∀ k ∈ t.kids, k.name ≠ errorName) :
    ∃ w'' k, w' <:+ w'' ∧ w'' <:+ w ∧ t.kids.getLast? = some k ∧ k.matched.stop = E.at_ w'' := by
  obtain ⟨g1, g2, g3⟩ := hg
  obtain ⟨f1, f2, f3, f4, f5⟩ := g3.facts
  have hl := List.getLast?_eq_some_getLast hne
  have hm := List.getLast_mem hne
  have hk := (f5 _ hm (hq _ hm)).facts
  rw [g2] at hk
  obtain ⟨w'', h1, h2⟩ := hw.spot (n := (t.kids.getLast hne).matched.stop) (by omega) (Nat.le_trans hk.2.2.1 (hw.tail g1).le)
  refine ⟨w'', _, ?_, h1, hl, h2.symm⟩
  rcases List.suffix_or_suffix_of_suffix g1 h1 with h | h
  · exact h
  · have h3 := (hw.tail g1).mono h
    have h4 : E.at_ w'' ≤ E.at_ w' := by rw [h2]; exact hk.2.2.1
    have h5 := (hw.tail g1).len
    have h6 := (hw.tail h1).len
    have h7 : w'' = w' := by
      refine h.eq_of_length ?_
      have a1 := blen_ascii (hw.tail h1).ascii
      have a2 := blen_ascii (hw.tail g1).ascii
      omega
    rw [h7]

theorem Bunch.splice (hw : E.Has w) {name : Str} {Q : Tr → Prop} (hx : BReads E K K x w g) (hg : g.Good E w) (h : Bunch E w name Q g)
    (hq : ∀ k, Q k → k.name ≠ errorName) : ∃ g, BReads E K K (proxyChildren x) w g ∧ g.Good E w ∧ Spliced E w Q g := by
  cases h with
  | fail => exact ⟨_, .proxyChildren hx .fail, trivial, .fail⟩
  | fatal => exact ⟨_, .proxyChildren hx .fatal, trivial, .fatal⟩
  | @tok a w' h hne =>
    have hq' : ∀ k ∈ (a.tree E name w).kids, k.name ≠ errorName := fun k hk => hq k (h.kids k hk).2
    obtain ⟨w'', k, h1, h2, h3, h4⟩ := kids_end hw hg hne hq'
    exact ⟨_, .proxyChildren hx (.tok h1 h2 h3 h4 hq'), splice_good hw hg h1 h2 h3 h4 hq', .splice h.kids⟩

/-- A program that ends with such a loop. -/
theorem Tot.group {n : String} {x y : B MatcherId} [Adds x] [Adds y] {Q : Tr → Prop} (hw : E.Has w) (hx : Tot E K true x w N)
    (hy : ∀ w', E.Has w' → blen w' < blen w → ∃ g, BReads E K K y w' g ∧ g.Good E w' ∧ Spliced E w' Q g)
    (hfit : ∀ i l, Join N (fun l => ∀ k ∈ l, Q k) l → i.name = n.toList → i.flags = 0 → Fit i l) :
    ∃ o g, Pass E K [x, y] (.start E w) o ∧ ProgramGives E w n.toList o K g ∧ g.Good E w ∧ Solo n (Join N fun l => ∀ k ∈ l, Q k) g := by
  obtain ⟨g, h1, h2, h3⟩ := hx
  have hi := Inv.start hw
  rcases hi.nice hw (show g.Good E (Run.start E w).rest from h2) h3 with rfl | rfl | ⟨ht, hi, hs, hst, l, hl, hN, hlt⟩
  · exact ⟨_, _, .fail h1, .fails, trivial, .fail⟩
  · exact ⟨_, _, .fatal h1, .fatal, trivial, .fatal⟩
  · obtain ⟨g', h4, h5, h6⟩ := hy _ (hw.tail hs) (hst rfl)
    cases h6 with
    | fail => exact ⟨_, _, .cons h1 (.fail h4) ht, .fails, trivial, .fail⟩
    | fatal => exact ⟨_, _, .cons h1 (.fatal h4) ht, .fatal, trivial, .fatal⟩
    | @splice t w' h6 =>
      obtain ⟨a1, a2, a3, -⟩ := hi.splice hw h5 fun k hk => (h6 k hk).1
      have hp : Pass E K [x, y] (.start E w) (.done K (((Run.start E w).take E g).take E (.splice w' t))) :=
        .cons h1 (.cons h4 .nil rfl hi.sync) ht
      have hJ : Join N (fun l => ∀ k ∈ l, Q k) (((Run.start E w).take E g).take E (.splice w' t)).kids :=
        ⟨l, t.kids, by rw [show (((Run.start E w).take E g).take E (.splice w' t)).kids = ((Run.start E w).take E g).kids ++ t.kids from rfl, hl]; rfl,
          hN, fun k hk => (h6 k hk).2⟩
      rcases gives_any hw a1 a3 (name := n.toList) with h8 | ⟨w'', h8, h9, h10, -, h11⟩
      · exact ⟨_, _, hp, .done h8, trivial, .fail⟩
      · exact ⟨_, _, hp, .done h11, h11.good a1, .tok (.node (hfit _ _ hJ rfl rfl) a2) rfl rfl hJ⟩

/-! ### Alternatives -/

theorem picks_total (hw : E.Has w) (h : ∀ x ∈ xs, Tot E K true x w N) : ∃ g, Picks E w K xs K g ∧ g.Good E w ∧ Nice E true w N g := by
  induction xs with
  | nil => exact ⟨_, .nil, trivial, .fail⟩
  | cons x xs ih =>
    obtain ⟨g, h1, h2, h3⟩ := h x (by simp)
    cases h3 with
    | fail =>
      obtain ⟨g', h4, h5, h6⟩ := ih fun x hx => h x (List.mem_cons_of_mem _ hx)
      exact ⟨g', .next h1 h4, h5, h6⟩
    | fatal => exact ⟨_, .fatal h1, h2, .fatal⟩
    | past hN hs => exact ⟨_, .here h1 (hs rfl), h2, .past hN hs⟩
    | tok ht hN => exact ⟨_, .here h1 trivial, h2, .tok ht hN⟩
    | splice ht hN hs => exact ⟨_, .here h1 trivial, h2, .splice ht hN hs⟩
    | pin _ hs => cases hs

theorem picks_leaves {name : Str} {Q : Tr → Prop} (h : ∀ x ∈ xs, TotB E K true name Q x w) : ∃ g, Picks E w K xs K g ∧ g.Good E w ∧
    (Nice E true w (fun l => ∀ k ∈ l, Q k) g ∨ Leaves E w name Q g) := by
  induction xs with
  | nil => exact ⟨_, .nil, trivial, Or.inl .fail⟩
  | cons x xs ih =>
    obtain ⟨g, h1, h2, h3⟩ := h x (by simp)
    rcases h3 with h3 | h3
    · cases h3 with
      | fail =>
        obtain ⟨g', h4, h5, h6⟩ := ih fun x hx => h x (List.mem_cons_of_mem _ hx)
        exact ⟨g', .next h1 h4, h5, h6⟩
      | fatal => exact ⟨_, .fatal h1, h2, Or.inl .fatal⟩
      | past hN hs => exact ⟨_, .here h1 (hs rfl), h2, Or.inl (.past hN hs)⟩
      | tok ht hN => exact ⟨_, .here h1 trivial, h2, Or.inl (.tok ht hN)⟩
      | splice ht hN hs => exact ⟨_, .here h1 trivial, h2, Or.inl (.splice ht hN hs)⟩
      | pin _ hs => cases hs
    · refine ⟨g, .here h1 ?_, h2, Or.inr h3⟩
      cases h3 <;> trivial

theorem TotB.switch {name : Str} {Q : Tr → Prop} [AddsAll xs] (h : ∀ x ∈ xs, TotB E K true name Q x w) : TotB E K true name Q (B.switch xs) w := by
  obtain ⟨g, h1, h2, h3⟩ := picks_leaves h
  exact ⟨g, .switch h1, h2, h3⟩

theorem Tot.switch [AddsAll xs] (hw : E.Has w) (h : ∀ x ∈ xs, Tot E K true x w N) : Tot E K true (switch xs) w N := by
  obtain ⟨g, h1, h2, h3⟩ := picks_total hw h
  exact ⟨g, .switch h1, h2, h3⟩

theorem Tot.switchN {n : String} [AddsAll xs] (hw : E.Has w) (h : ∀ x ∈ xs, Tot E K true x w N) (hn : Free n := by decide) :
    Tot E K true (switchN n xs) w N := by
  obtain ⟨g, h1, h2, h3⟩ := picks_total hw h
  exact ⟨g, .switchN h1 hn, h2, h3⟩

/-! ### Wrappers -/

theorem Tot.optional (h : Tot E K strict x w N) (hN : N []) : Tot E K false (optional x) w N := by
  obtain ⟨g, h1, h2, h3⟩ := h
  cases h3 with
  | fail => exact ⟨_, .optional h1, List.suffix_refl _, .past hN (fun h => by cases h)⟩
  | fatal => exact ⟨_, .optional h1, h2, .fatal⟩
  | past hN hs => exact ⟨_, .optional h1, h2, .past hN (fun h => by cases h)⟩
  | tok ht hN => exact ⟨_, .optional h1, h2, .tok ht hN⟩
  | splice ht hN hs => exact ⟨_, .optional h1, h2, .splice ht hN hs⟩
  | pin hN hs => exact ⟨_, .optional h1, h2, .pin hN rfl⟩

/-! ### Leaves -/

theorem well_leaf {n : String} {w w' : Str} (h : Loose n := by decide) : Well (leafT E n.toList w w') :=
  .node (h.fit rfl) (fun _ h => by cases h)

theorem well_delim {n : String} {w w1 w2 w' val : Str} (h : Loose n := by decide) : Well (delimT E n.toList w w1 w2 w' val) :=
  .node (h.fit rfl) (fun _ h => by cases h)

theorem Tot.equalsN {n s : String} (hw : E.Has w) (hn : Free n := by decide) (hl : Loose n := by decide) (hs : s.toList ≠ [] := by simp) :
    Tot E K true (equalsN n s) w (One n Nil) := by
  by_cases h : s.toList <+: w
  · obtain ⟨w', rfl⟩ := h
    exact ⟨_, .equalsN hn rfl hs, leaf_good hw hs, .tok (well_leaf hl) ⟨_, rfl, rfl, rfl, rfl⟩⟩
  · exact ⟨_, .equalsN_fail h hn, trivial, .fail⟩

theorem Tot.skip {s : String} (hw : E.Has w) (hs : s.toList ≠ [] := by simp) : Tot E K true (discard (equals s)) w Nil := by
  by_cases h : s.toList <+: w
  · obtain ⟨w', rfl⟩ := h
    refine ⟨_, .discard (.equals rfl hs), (leaf_good (name := "Equals".toList) hw hs).1, .past rfl fun _ => ?_⟩
    exact suffix_lt (List.suffix_append ..) (by simpa using hs)
  · exact ⟨_, .discard (.equals_fail h), trivial, .fail⟩

/-- Where a regular expression stops. -/
theorem rx_cases {pattern : String} {as : List (List RxItem)} (w : Str) :
    (∀ n, (mkRx pattern as).find w ≠ some (0, n)) ∨ (mkRx pattern as).find w = some (0, 0) ∨
    ∃ u w', w = u ++ w' ∧ u ≠ [] ∧ (mkRx pattern as).find (u ++ w') = some (0, blen u) := by
  cases h : (mkRx pattern as).find w with
  | none => exact Or.inl fun n hn => by cases hn
  | some ab =>
    obtain ⟨a, b⟩ := ab
    by_cases ha : a = 0
    · subst ha
      obtain ⟨pre, u, w', h1, h2, h3⟩ := rxFind_cut as w 0 0 b h
      obtain rfl : pre = [] := by
        cases pre with
        | nil => rfl
        | cons c pre =>
          have := utf8Size_pos c
          simp only [blen] at h2
          omega
      rw [List.nil_append] at h1
      rw [Nat.zero_add] at h3
      subst h3 h1
      by_cases hu : u = []
      · subst hu
        exact Or.inr (Or.inl rfl)
      · exact Or.inr (Or.inr ⟨u, w', rfl, hu, h⟩)
    · exact Or.inl fun n hn => by cases hn; exact ha rfl

/-- Regular expressions all of whose alternatives begin with a character. -/
def Leads (as : List (List RxItem)) : Prop := ∀ is ∈ as, ∃ p is', is = .one p :: is'

theorem Leads.pos {as : List (List RxItem)} (h : Leads as) {n : Nat} (hn : rxAlt as w = some n) : 0 < n := by
  induction as with
  | nil => cases hn
  | cons is as ih =>
    obtain ⟨p, is', rfl⟩ := h is (by simp)
    unfold rxAlt at hn
    split at hn
    · rename_i k hk
      cases hn
      cases w with
      | nil => cases hk
      | cons c w =>
        unfold rxSeq at hk
        dsimp only at hk
        split at hk
        · obtain ⟨m, -, rfl⟩ := Option.map_eq_some_iff.mp hk
          have := utf8Size_pos c
          omega
        · cases hk
    · exact ih (fun is his => h is (List.mem_cons_of_mem _ his)) hn

theorem Leads.find {as : List (List RxItem)} (h : Leads as) {pattern : String} : (mkRx pattern as).find w ≠ some (0, 0) := by
  intro hf
  replace hf : rxFind as 0 w = some (0, 0) := hf
  cases w with
  | nil =>
    obtain ⟨n, hn, he⟩ := Option.map_eq_some_iff.mp hf
    have := h.pos hn
    have he := (Prod.mk.inj he).2
    omega
  | cons c w =>
    unfold rxFind at hf
    split at hf
    · rename_i n hn
      have := h.pos hn
      have hf := (Prod.mk.inj (Option.some.inj hf)).2
      omega
    · obtain ⟨pre, x, post, h1, h2, h3⟩ := rxFind_cut as _ _ _ _ hf
      have := utf8Size_pos c
      omega

theorem Tot.regexN {n : String} {pattern : String} {as : List (List RxItem)} (hw : E.Has w) (hn : Free n := by decide)
    (hl : Loose n := by decide) : Tot E K false (regexN n (mkRx pattern as)) w (fun l => l = [] ∨ One n Nil l) := by
  rcases rx_cases (pattern := pattern) (as := as) w with h | h | ⟨u, w', rfl, hu, h⟩
  · exact ⟨_, .regexN_fail h hn, trivial, .fail⟩
  · exact ⟨_, .regexN_empty h hn, List.suffix_refl _, .past (Or.inl rfl) (fun h => by cases h)⟩
  · exact ⟨_, .regexN hu h hn, leaf_good hw hu, .tok (well_leaf hl) (Or.inr ⟨_, rfl, rfl, rfl, rfl⟩)⟩

theorem Tot.regexN_one {n : String} {pattern : String} {as : List (List RxItem)} (hw : E.Has w) (ha : Leads as) (hn : Free n := by decide)
    (hl : Loose n := by decide) : Tot E K true (B.regexN n (mkRx pattern as)) w (One n Nil) := by
  rcases rx_cases (pattern := pattern) (as := as) w with h | h | ⟨u, w', rfl, hu, h⟩
  · exact ⟨_, .regexN_fail h hn, trivial, .fail⟩
  · exact (ha.find h).elim
  · exact ⟨_, .regexN hu h hn, leaf_good hw hu, .tok (well_leaf hl) ⟨_, rfl, rfl, rfl, rfl⟩⟩

theorem Tot.skipRegex {pattern : String} {as : List (List RxItem)} (hw : E.Has w) : Tot E K false (discard (regex (mkRx pattern as))) w Nil := by
  rcases rx_cases (pattern := pattern) (as := as) w with h | h | ⟨u, w', rfl, hu, h⟩
  · exact ⟨_, .discard (.regex_fail h), trivial, .fail⟩
  · exact ⟨_, .discard (.regex_empty h), List.suffix_refl _, .past rfl (fun h => by cases h)⟩
  · exact ⟨_, .discard (.regex hu h), (leaf_good (name := "Matches".toList) hw hu).1,
      .past rfl (fun h => by cases h)⟩

theorem Tot.skipRegexN {n pattern : String} {as : List (List RxItem)} (hw : E.Has w) (hn : Free n := by decide) :
    Tot E K false (discard (B.regexN n (mkRx pattern as))) w Nil := by
  rcases rx_cases (pattern := pattern) (as := as) w with h | h | ⟨u, w', rfl, hu, h⟩
  · exact ⟨_, .discard (.regexN_fail h hn), trivial, .fail⟩
  · exact ⟨_, .discard (.regexN_empty h hn), List.suffix_refl _, .past rfl (fun h => by cases h)⟩
  · exact ⟨_, .discard (.regexN hu h hn) (leafT_clean hn.clean), (leaf_good (name := n.toList) hw hu).1,
      .past rfl (fun h => by cases h)⟩

theorem body_good {n : String} {a z e w1 raw val : Str} (hw : E.Has (a ++ w1)) (ha : a ≠ []) (hb : Body z e w1 raw val w) :
    (Got.tok w (delimT E n.toList (a ++ w1) w1 (z ++ w) w val)).Good E (a ++ w1) := by
  have hsplit := hb.split
  have hw1 : E.Has w1 := hw.tail (List.suffix_append ..)
  have hs0 : z ++ w <:+ w1 := by rw [hsplit, List.append_assoc]; exact List.suffix_append ..
  have hs1 : w <:+ z ++ w := List.suffix_append ..
  have l0 := hw.lt (List.suffix_append a w1) (suffix_lt (List.suffix_append ..) (by simpa using ha))
  have l1 := hw1.mono (hs1.trans hs0)
  refine ⟨(hs1.trans hs0).trans (List.suffix_append ..), rfl, .node (Nat.le_refl _) ?_ (hw1.tail (hs1.trans hs0)).le ?_ (fun _ h => by cases h)⟩
  · show E.at_ (a ++ w1) < E.at_ w
    omega
  · exact l1

theorem Tot.sequenceN {n sa sz se : String} (hw : E.Has w) (hn : Free n := by decide) (hl : Loose n := by decide)
    (ha : sa.toList ≠ [] := by simp) (hz : sz.toList ≠ [] := by simp) : Tot E K true (sequenceN n sa sz se) w (One n Nil) := by
  by_cases h : ∃ w1 raw val rest, w = sa.toList ++ w1 ∧ Body sz.toList se.toList w1 raw val rest
  · obtain ⟨w1, raw, val, rest, rfl, hb⟩ := h
    exact ⟨_, .sequenceN hb hn rfl rfl rfl ha hz, body_good hw ha hb, .tok (well_delim hl) ⟨_, rfl, rfl, rfl, rfl⟩⟩
  · exact ⟨_, .sequenceN_fail (fun w1 raw val rest h1 h2 => h ⟨w1, raw, val, rest, h1, h2⟩) hn rfl rfl rfl ha hz, trivial, .fail⟩

/-! ### Callbacks -/

theorem Fit.same {i i' : Info} {ks : List Tr} (h : Fit i ks) (hn : i'.name = i.name) (hf : i'.flags = i.flags) : Fit i' ks := by
  intro q hq hq'
  have := h q hq (hn ▸ hq')
  simp only [shapeRules, List.mem_cons, List.not_mem_nil, or_false] at hq
  rcases hq with rfl | rfl | rfl | rfl | rfl | rfl | rfl | rfl | rfl | rfl | rfl | rfl | rfl
  · show i'.flags ≠ 0
    rw [hf]
    exact this
  all_goals exact this

/-- A callback that only gives the token a value and attributes. -/
def Marks (E : Setting) (sf : TokId → Ctx → SCtxId → Adx.M R) (t : Tr) : Prop :=
  ∃ (v : Option Str) (as : AMap Str), ∀ (c : Ctx) (sc : SCtxId) (s : State) (i : TokId) (k : Token), s.toks[i]? = some k → k.info = t.info →
    Plain E k → Reps E s.toks (i + 1) k.children t.kids → sf i c sc s = .ok (.ok (.token i)) (s.put i { k with value := v, attributes := as })

theorem Tot1.map {n : String} {sf : TokId → Ctx → SCtxId → Adx.M R} (h : Tot1 E K x w n M) (hn : n.toList ≠ errorName)
    (hsf : ∀ t, Well t → t.name = n.toList → M t.kids → Marks E sf t) : Tot1 E K (B.map x sf) w n M := by
  obtain ⟨g, h1, h2, h3⟩ := h
  cases h3 with
  | fail => exact ⟨_, .map_fail h1, trivial, .fail⟩
  | fatal => exact ⟨_, .map_fatal h1, trivial, .fatal⟩
  | @tok w' t hw hnm hf hM =>
    obtain ⟨v, as, hv⟩ := hsf t hw hnm hM
    refine ⟨_, .map (g := .tok w' _) h1 (Calls.retag (v := v) (as := as) h2.1 h2.2.1 (by rw [hnm]; exact hn)
      (fun c sc s i k _ hk hi hp hr => hv c sc s i k hk hi hp hr)) rfl, ⟨h2.1, h2.2.1, ?_⟩, .tok (.node ?_ hw.kids) hnm hf hM⟩
    · obtain ⟨-, -, h4⟩ := h2
      cases h4 with
      | node a1 a2 a3 a4 hk => exact .node a1 a2 a3 a4 hk
    · exact hw.fit.same rfl rfl

end

end Adx.Read
