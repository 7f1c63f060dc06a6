import Verif.Proofs.LaxDefs
import Verif.Props.Syntax
/-
  Reading any text: what the tokens of a script say, and import statements.
-/
namespace Adx.Read

open Syntax (Munch Gap Blanks Identifier Quoted Stmt As MayComma ImportId ImportIds)
open B

/-! ### What trees say -/

/-- In every heap with the trees, if their tokens say something then `P` holds of the
patterns, the statements and the name of the script. -/
def Told (E : Setting) (env : Env) (ts : List Tr) (P : List Gram → List Stmt → Option Str → Prop) : Prop :=
  ∀ toks lo is l gs ss, Reps E toks lo is ts → Pre toks is l → ScriptSays env toks l gs ss →
    ∃ nm, (∀ n, scriptName toks l n = nm.getD n) ∧ P gs ss nm

theorem _root_.Adx.ScriptSays.split {env : Env} {toks : List Token} {l' : List TokId} : ∀ {l : List TokId} {gs : List Gram} {ss : List Stmt},
    ScriptSays env toks (l ++ l') gs ss → ∃ g1 g2 s1 s2, gs = g1 ++ g2 ∧ ss = s1 ++ s2 ∧ ScriptSays env toks l g1 s1 ∧ ScriptSays env toks l' g2 s2
  | [], gs, ss, h => ⟨[], gs, [], ss, rfl, rfl, .nil, h⟩
  | x :: l, gs, ss, h => by
    cases h with
    | cons hi hs =>
      obtain ⟨g1, g2, s1, s2, rfl, rfl, h1, h2⟩ := ScriptSays.split hs
      exact ⟨_, g2, _, s2, (List.append_assoc ..).symm, (List.append_assoc ..).symm, .cons hi h1, h2⟩

section
variable {E : Setting} {env : Env} {ts ts' : List Tr} {t : Tr} {P P' Q : List Gram → List Stmt → Option Str → Prop}

theorem Told.mono (h : Told E env ts P) (hP : ∀ gs ss nm, P gs ss nm → Q gs ss nm) : Told E env ts Q := by
  intro toks lo is l gs ss hr hp hs
  obtain ⟨nm, h1, h2⟩ := h _ _ _ _ _ _ hr hp hs
  exact ⟨nm, h1, hP _ _ _ h2⟩

theorem Bears.told {gs : List Gram} {ss : List Stmt} {nm : Option Str} (h : Bears E env ts gs ss nm) :
    Told E env ts (fun gs' ss' nm' => gs' = gs ∧ ss' = ss ∧ nm' = nm) := by
  intro toks lo is l gs' ss' hr hp hs
  obtain ⟨h1, h2⟩ := h _ _ _ _ hr hp
  obtain ⟨rfl, rfl⟩ := hs.unique h1
  exact ⟨nm, h2, rfl, rfl, rfl⟩

theorem Told.quiet (h : ∀ t ∈ ts, Quiet t) : Told E env ts (fun gs ss nm => gs = [] ∧ ss = [] ∧ nm = none) := (Bears.quiet h).told

theorem Told.append (h : Told E env ts P) (h' : Told E env ts' P')
    (hQ : ∀ gs ss nm gs' ss' nm', P gs ss nm → P' gs' ss' nm' → Q (gs ++ gs') (ss ++ ss') (nm'.or nm)) : Told E env (ts ++ ts') Q := by
  intro toks lo is l gs ss hr hp hs
  obtain ⟨a, b, rfl, h1, h2⟩ := hr.split
  obtain ⟨l1, l2, rfl, h3, h4⟩ := Pre.split hp
  obtain ⟨g1, g2, s1, s2, rfl, rfl, h5, h6⟩ := hs.split
  obtain ⟨n1, a1, a2⟩ := h _ _ _ _ _ _ h1 h3 h5
  obtain ⟨n2, b1, b2⟩ := h' _ _ _ _ _ _ h2 h4 h6
  refine ⟨n2.or n1, fun n => ?_, hQ _ _ _ _ _ _ a2 b2⟩
  rw [scriptName_append, a1, b1]
  cases n2 <;> rfl

/-- A tree that says something, and the trees below. -/
theorem Told.root {R : List Gram → List Stmt → Prop} {nm0 : Option Str} (h : Desc E t fun toks i => ∀ gs ss, ItemSays env toks i gs ss → R gs ss)
    (hn : Desc E t fun toks i => ∃ k, toks[i]? = some k ∧ ((k.name = "AdextopaScope".toList ∧ k.getAttribute "name".toList = nm0) ∨
      (k.name ≠ "AdextopaScope".toList ∧ nm0 = none)))
    (h' : Told E env t.kids P) (hQ : ∀ gs ss gs' ss' nm, R gs ss → P gs' ss' nm → Q (gs ++ gs') (ss ++ ss') (nm.or nm0)) : Told E env [t] Q := by
  intro toks lo is l gs ss hr hp hs
  cases hr with
  | @cons _ i k is cs _ hl hk hpl hc hr =>
    cases hr
    cases hp with
    | @cons _ k' _ l1 l2 hk' hc' hs' =>
      cases hs'
      rw [hk] at hk'
      cases hk'
      rw [List.append_nil] at hs
      have hi : Reps E toks lo [i] [.node k.info cs] := .cons hl hk hpl hc .nil
      cases hs with
      | cons hs1 hs2 =>
        obtain ⟨nm, a1, a2⟩ := h' _ _ _ _ _ _ hc hc' hs2
        refine ⟨nm.or nm0, fun n => ?_, hQ _ _ _ _ _ (h _ _ _ hi _ _ hs1) a2⟩
        rw [List.append_nil]
        obtain ⟨k', hk', hn⟩ := hn _ _ _ hi
        rw [hk] at hk'
        cases hk'
        unfold scriptName
        rw [hk]
        dsimp only
        rcases hn with ⟨h1, h2⟩ | ⟨h1, rfl⟩
        · rw [if_pos h1, a1, h2]
          cases nm <;> rfl
        · rw [if_neg h1, a1]
          cases nm <;> rfl

theorem desc_name {n : Str} (hn : t.name = n) : Desc E t fun toks i => ∃ k, toks[i]? = some k ∧ k.name = n := by
  intro toks lo i hi
  obtain ⟨k, -, hk, -, hinf, -⟩ := hi.root
  exact ⟨k, hk, (congrArg Info.name hinf).trans hn⟩

/-- A tree that says something, with nothing below. -/
theorem Told.leaf {R : List Gram → List Stmt → Prop} (h : Desc E t fun toks i => ∀ gs ss, ItemSays env toks i gs ss → R gs ss)
    (hn : t.name ≠ "AdextopaScope".toList) (hq : ∀ k ∈ t.kids, Quiet k) : Told E env [t] (fun gs ss nm => R gs ss ∧ nm = none) := by
  refine Told.root (nm0 := none) h ?_ (Told.quiet hq) ?_
  · intro toks lo i hi
    obtain ⟨k, hk, hkn⟩ := desc_name rfl _ _ _ hi
    exact ⟨k, hk, Or.inr ⟨by rw [hkn]; exact hn, rfl⟩⟩
  · rintro gs ss _ _ _ hR ⟨rfl, rfl, rfl⟩
    rw [List.append_nil, List.append_nil]
    exact ⟨hR, rfl⟩

theorem _root_.Adx.ItemSays.none {toks : List Token} {i : TokId} {k : Token} {gs : List Gram} {ss : List Stmt} (h : ItemSays env toks i gs ss)
    (hk : toks[i]? = some k) (hq : ∀ n ∈ hotNames, k.name ≠ n.toList) : gs = [] ∧ ss = [] := by
  have := ItemSays.nothing (env := env) hk (hq "Error" (by decide)) (hq "PatternScope" (by decide)) (hq "AssignmentExpression" (by decide))
    (hq "ImportStatement" (by decide))
  exact h.unique this

/-- A tree that only has something below. -/
theorem Told.over {n : String} (hn : t.name = n.toList) (hc : Cold n) (h' : Told E env t.kids P) : Told E env [t] P := by
  refine Told.root (nm0 := none) (R := fun gs ss => gs = [] ∧ ss = []) ?_ ?_ h' ?_
  · intro toks lo i hi gs ss hs
    obtain ⟨k, hk, hkn⟩ := desc_name hn _ _ _ hi
    refine hs.none hk fun m hm => ?_
    rw [hkn]
    exact hc.names m hm
  · intro toks lo i hi
    obtain ⟨k, hk, hkn⟩ := desc_name hn _ _ _ hi
    exact ⟨k, hk, Or.inr ⟨by rw [hkn]; exact hc.names _ (by decide), rfl⟩⟩
  · rintro _ _ gs ss nm ⟨rfl, rfl⟩ hP
    rw [Option.or_none]
    exact hP

end

/-! ### Identifiers of imports -/

section
variable {E : Setting} {K : Option Nat} {w w' : Str} {uni : Uni} {env : Env} {a : Run}

theorem Kept.past (hw : E.Has w) (h : Kept E w a) (hs : w' <:+ a.rest) : Kept E w (a.take E (.past w')) := by
  have h1 := (hw.tail h.ok.sfx).mono hs
  have := h.ok.grow (w1 := w') (f := E.at_ w') (ks := []) (cs := []) (hs.trans h.ok.sfx) (by rw [h.sync]; exact h1) (Nat.le_refl _)
    ((hw.tail h.ok.sfx).tail hs).le (fun _ h => by cases h) (fun _ h => by cases h) (fun h => (h rfl).elim)
  rw [List.append_nil, List.append_nil] at this
  exact ⟨this, rfl, h.tight, h.caps⟩

theorem Kept.gives (h : Kept E w a) (hk : a.kids ≠ []) {name : Str} :
    Gives E w name a (.tok a.rest (blockT E name (span a.caps) w a.rest a.kids)) ∧
      (Got.tok a.rest (blockT E name (span a.caps) w a.rest a.kids)).Good E w := by
  have := Gives.tok (E := E) (name := name) hk (h.caps hk) h.tight h.ok.sfx h.sync
  have h4 := this.good h.ok
  have h5 : a.tree E name w = blockT E name (span a.caps) w a.rest a.kids := by
    unfold Run.tree blockT
    rw [h.sync]
  rw [h5] at this h4
  exact ⟨this, h4⟩

theorem mayComma_any (w : Str) : ∃ rest, MayComma w rest := by
  by_cases h : w.head? = some ','
  · cases w with
    | nil => cases h
    | cons d w =>
      cases h
      exact ⟨w, .comma⟩
  · exact ⟨w, .nothing h⟩

theorem _root_.Adx.Syntax.As.unique {a b : Str} (h : As w a) (h' : As w b) : a = b := by
  obtain ⟨u, v, w1, h1, hu, h2, hv⟩ := h
  obtain ⟨u', v', w1', h1', hu', h2', hv'⟩ := h'
  have e := (h1.unique h1').2
  have e := List.append_cancel_left e
  subst e
  exact (h2.unique h2').2

/-- One identifier of an import. -/
def ImportIdR (E : Setting) : Rel := fun w w' l => ∃ t, l = [t] ∧
  Sound E ["ImportIdentifier"] (fun toks i => ∀ n m, ImportNames toks i n m → ImportId w n m w') t

theorem importId_yields (hw : E.Has w) : Yields E K true importId w (ImportIdR E w) (∀ c, w.head? = some c → Syntax.idStart c = false) := by
  obtain ⟨g, h1, h2, h3⟩ := yields_identifier (K := K) (n := "ImportName") hw
  have hi := Neat.start hw
  cases h3 with
  | fail hX => exact ⟨_, .programN (.fail h1) .fails, trivial, .fail hX⟩
  | fatal => exact ⟨_, .programN (.fatal h1) .fatal, trivial, .fatal⟩
  | past h =>
    obtain ⟨h, -⟩ := h
    cases h
  | pin h => 
    obtain ⟨h, -⟩ := h
    cases h
  | @tok w1 t h =>
    obtain ⟨h, n, hid⟩ := h
    cases h
    have hw1 := hw.tail hid.suffix
    have hn1 := (hi.tok hw h2).1
    -- the part after `as`
    by_cases ha : ∃ w2 m w3, As w1 w2 ∧ Identifier w2 m w3
    · obtain ⟨w2, m, w3, ha, hm⟩ := ha
      have hw2 : E.Has w2 := hw1.tail ha.suffix
      have hsf : w3 <:+ w1 := hm.suffix.trans ha.suffix
      have hp : BReads E K K (program [discard (regex Script.rxAs), Script.identifier "ImportAsName"]) w1
          (.tok w3 (nodeT E "Program".toList w1 w3 [leafT E "ImportAsName".toList w2 w3])) := by
        refine .program (Parts.pass (ts := [leafT E "ImportAsName".toList w2 w3]) ?_) (Parts.gives (by simp) hsf)
        exact .past (reads_as ha) <| .tok (reads_identifier hm (by decide)) .nil
      have hclean : ∀ k ∈ (nodeT E "Program".toList w1 w3 [leafT E "ImportAsName".toList w2 w3]).kids, k.name ≠ errorName := clean_names rfl
      have hq : BReads E K K (optional (proxyChildren (program [discard (regex Script.rxAs), Script.identifier "ImportAsName"]))) w1
          (.splice w3 (nodeT E "Program".toList w1 w3 [leafT E "ImportAsName".toList w2 w3])) :=
        .optional (g := .splice _ _) (.proxyChildren hp (.tok (List.suffix_refl _) hsf rfl rfl hclean))
      have hgood : (Got.tok w3 (nodeT E "Program".toList w1 w3 [leafT E "ImportAsName".toList w2 w3])).Good E w1 := by
        have hn0 := (Neat.past hw1 (Neat.start hw1) ha.suffix)
        have hn2 := (hn0.tok hw1 (t := leafT E "ImportAsName".toList w2 w3) (w' := w3) (munch_good hw2 hm.munch hm.ne)).1
        rcases hn2.gives (name := "Program".toList) with ⟨h, -⟩ | ⟨-, -, h⟩
        · cases h
        · exact h
      have hsg := splice_good hw1 hgood (List.suffix_refl _) hsf (k := leafT E "ImportAsName".toList w2 w3) rfl rfl hclean
      obtain ⟨b1, b2, b3⟩ := hn1.splice hw (show (Got.splice w3 _).Good E (((Run.start E w).take E (.tok w1 (leafT E "ImportName".toList w w1))).rest) from hsg)
      obtain ⟨w4, hc⟩ := mayComma_any w3
      have hkept : Kept E w (((Run.start E w).take E (.tok w1 (leafT E "ImportName".toList w w1))).take E
          (.splice w3 (nodeT E "Program".toList w1 w3 [leafT E "ImportAsName".toList w2 w3]))) := ⟨b1, rfl, b2, fun _ => b3⟩
      have hkept2 := hkept.past hw (w' := w4) hc.suffix
      obtain ⟨c1, c2⟩ := hkept2.gives (name := "ImportIdentifier".toList) (by simp [Run.take, Run.start])
      refine ⟨_, .programN (.cons h1 <| .cons hq <| .cons (reads_mayComma hc) .nil) (.done c1), c2, .tok ⟨_, rfl, rfl, ?_, ⟨_, List.mem_singleton.mpr rfl, rfl⟩, ?_⟩⟩
      · unfold blockT
        rw [purge_node]
        have e : purges [leafT E "ImportName".toList w w1, leafT E "ImportAsName".toList w2 w3]
            = [leafT E "ImportName".toList w w1, leafT E "ImportAsName".toList w2 w3] := purges_bare (by
          intro t ht
          simp only [List.mem_cons, List.not_mem_nil, or_false] at ht
          rcases ht with rfl | rfl <;> exact bare_leaf)
        have e' : (((((Run.start E w).take E (.tok w1 (leafT E "ImportName".toList w w1))).take E
          (.splice w3 (nodeT E "Program".toList w1 w3 [leafT E "ImportAsName".toList w2 w3])))).take E (.past w4)).kids = 
            [leafT E "ImportName".toList w w1, leafT E "ImportAsName".toList w2 w3] := rfl
        rw [e', e]
        refine .node (Cold.names (n := "ImportIdentifier") (by decide)) ?_
        intro t ht
        simp only [List.mem_cons, List.not_mem_nil, or_false] at ht
        rcases ht with rfl | rfl <;> exact quiet_leaf
      · intro toks lo i hi n' m' hnm
        unfold blockT at hi
        rw [purge_node] at hi
        have e : purges [leafT E "ImportName".toList w w1, leafT E "ImportAsName".toList w2 w3]
            = [leafT E "ImportName".toList w w1, leafT E "ImportAsName".toList w2 w3] := purges_bare (by
          intro t ht
          simp only [List.mem_cons, List.not_mem_nil, or_false] at ht
          rcases ht with rfl | rfl <;> exact bare_leaf)
        have e' : (((((Run.start E w).take E (.tok w1 (leafT E "ImportName".toList w w1))).take E
          (.splice w3 (nodeT E "Program".toList w1 w3 [leafT E "ImportAsName".toList w2 w3])))).take E (.past w4)).kids = 
            [leafT E "ImportName".toList w w1, leafT E "ImportAsName".toList w2 w3] := rfl
        rw [e', e] at hi
        obtain ⟨k, -, hk, -, hinf, hc'⟩ := hi.root
        have hc' : Reps E toks (i + 1) k.children [leafT E "ImportName".toList w w1, leafT E "ImportAsName".toList w2 w3] := hc'
        obtain ⟨j, j1, j2⟩ := hc'.first (pre := []) (names := ["ImportName"]) (fun _ h => by cases h) ⟨_, List.mem_singleton.mpr rfl, rfl⟩
        obtain ⟨jk, j3, j4⟩ := leaf_value hw hid.munch.split _ _ _ j2
        obtain ⟨q, q1, q2⟩ := hc'.first (pre := [leafT E "ImportName".toList w w1]) (names := ["ImportAsName"])
          (InNames.apart (ns := ["ImportName"]) (.one (List.mem_singleton.mpr rfl) rfl)) ⟨_, List.mem_singleton.mpr rfl, rfl⟩
        obtain ⟨qk, q3, q4⟩ := leaf_value hw2 hm.munch.split _ _ _ q2
        have := ImportNames.renamed hk j1 j3 q1 q3
        rw [j4, q4] at this
        obtain ⟨rfl, rfl⟩ := this.unique hnm
        exact .renamed hid ha hm hc
    · have hno : ∀ w2, As w1 w2 → ∀ c, w2.head? = some c → Syntax.idStart c = false := by
        intro w2 h2 c hc
        obtain ⟨g, b1, b2, b3⟩ := yields_identifier (K := K) (n := "ImportAsName") (hw1.tail h2.suffix)
        cases b3 with
        | fail hX => exact hX c hc
        | tok h =>
          obtain ⟨-, m, hm⟩ := h
          exact (ha ⟨w2, m, _, h2, hm⟩).elim
        | past h =>
          obtain ⟨h, -⟩ := h
          cases h
        | pin h =>
          obtain ⟨h, -⟩ := h
          cases h
        | fatal =>
          cases hs : Syntax.idStart c with
          | false => rfl
          | true =>
            have hid2 : ∃ m w3, Identifier w2 m w3 := by
              obtain ⟨u, rest, hm⟩ := munch_any Syntax.idChar w2
              refine ⟨u, rest, hm, ?_⟩
              cases u with
              | nil =>
                have h1 := hm.split
                rw [List.nil_append] at h1
                subst h1
                have := hm.most c hc
                unfold Syntax.idChar at this
                rw [hs] at this
                cases this
              | cons d u =>
                have h1 := hm.split
                rw [h1] at hc
                cases hc
                exact ⟨_, u, rfl, hs⟩
            obtain ⟨m, w3, hm⟩ := hid2
            exact (ha ⟨w2, m, w3, h2, hm⟩).elim
      have hq : BReads E K K (optional (proxyChildren (program [discard (regex Script.rxAs), Script.identifier "ImportAsName"]))) w1 (.past w1) := by
        refine .optional (g := .fail) (.proxyChildren (g := .fail) ?_ .fail)
        rcases reads_as_or (E := E) (K := K) w1 with ⟨w2, h⟩ | h
        · exact .program (.cons (reads_as h) <| .fail (reads_identifier_fail (hno _ h) (by decide))) .fails
        · exact .program (.fail h) .fails
      obtain ⟨w4, hc⟩ := mayComma_any w1
      have hn2 := Neat.past hw (hn1.past hw (w' := w1) (List.suffix_refl _)) (w' := w4) hc.suffix
      rcases hn2.gives (name := "ImportIdentifier".toList) with ⟨h, -⟩ | ⟨-, c1, c2⟩
      · cases h
      · refine ⟨_, .programN (.cons h1 <| .cons hq <| .cons (reads_mayComma hc) .nil) (.done c1), c2, .tok ⟨_, rfl, rfl, ?_, ⟨_, List.mem_singleton.mpr rfl, rfl⟩, ?_⟩⟩
        · have hb : Bare (nodeT E "ImportIdentifier".toList w w4 [leafT E "ImportName".toList w w1]) := bare_node (by
            intro t ht
            rw [List.mem_singleton.mp ht]
            exact bare_leaf)
          show Quiet (nodeT E "ImportIdentifier".toList w w4 [leafT E "ImportName".toList w w1]).purge
          rw [hb.same]
          exact hb.quiet
        · have hb : Bare (nodeT E "ImportIdentifier".toList w w4 [leafT E "ImportName".toList w w1]) := bare_node (by
            intro t ht
            rw [List.mem_singleton.mp ht]
            exact bare_leaf)
          show Desc E (nodeT E "ImportIdentifier".toList w w4 [leafT E "ImportName".toList w w1]).purge _
          rw [hb.same]
          intro toks lo i hi n' m' hnm
          obtain ⟨k, hk, -, -, hc', -⟩ := hi.node
          obtain ⟨j, j1, j2⟩ := hc'.first (pre := []) (names := ["ImportName"]) (fun _ h => by cases h) ⟨_, List.mem_singleton.mpr rfl, rfl⟩
          obtain ⟨jk, j3, j4⟩ := leaf_value hw hid.munch.split _ _ _ j2
          have := ImportNames.plain hk j1 j3 (hc'.absent (InNames.apart (ns := ["ImportName"]) (.one (List.mem_singleton.mpr rfl) rfl)))
          rw [j4] at this
          obtain ⟨rfl, rfl⟩ := this.unique hnm
          exact .plain hid hno hc

/-! ### Lists of identifiers -/

/-- The identifiers behind a place: either the brace is there, or the text goes on with
something that is no identifier. -/
def IdsR (E : Setting) : Rel := fun w w' l => (∀ t ∈ l, t.info.flags = 0 ∧ Quiet t.purge ∧ t.name ≠ errorName) ∧
  ((∀ toks lo is ids, Reps E toks lo is (purges l) → List.Forall₂ (fun c (id : Str × Str) => ImportNames toks c id.1 id.2) is ids →
      (l = [] ∧ ids = [] ∧ Gap w ('}' :: w')) ∨ ImportIds w ids w') ∨
    ((∀ c, w'.head? = some c → Syntax.idStart c = false) ∧ Gap w' w'))

theorem closeN_yields {name b : String} {s : String} {c : Char} (hb : b.toList = name.toList) (hs : s.toList = [c] := by rfl) :
    YieldsB E K true name.toList (discard (program [equals s, brk b])) w Never (SkipR s w) True := by
  by_cases h : w.head? = some c
  · cases w with
    | nil => cases h
    | cons d w =>
      cases h
      have h1 : BReads E K K (program [equals s, brk b]) (c :: w) (Got.onward b.toList (.tok w (nodeT E "Program".toList (c :: w) w
          [leafT E "Equals".toList (c :: w) w]))) :=
        .program (.cons (.equals (l := [c]) hs) <| .brk .brk)
          (.breaks (.tok (by simp [Run.take, Run.start]) (by simp [Run.take, Run.start]) rfl (List.suffix_cons ..) rfl))
      exact ⟨_, .discard (g := .brk b.toList (.tok _ _)) h1, List.suffix_cons .., Or.inr (.past (Or.inl hb) ⟨rfl, by rw [hs]; rfl⟩)⟩
  · exact ⟨_, .discard (g := .fail) (.program (.fail (.equals_fail (head_prefix h) hs)) .fails), trivial, Or.inl (.fail trivial)⟩

theorem import_laps {b : Nat} : ∃ D F B, Lap E K b "IdentifiersLoop".toList true importRound D F B ∧ ∀ w w' l, Laps D F B w w' l → IdsR E w w' l := by
  have h1 : ∀ w, E.Has w → blen w < b → YieldsB E K true "IdentifiersLoop".toList (switch [discard (program [equals "}", brk "IdentifiersLoop"]), importId]) w
      (ImportIdR E w) (SkipR "}" w) (∀ c, w.head? = some c → Syntax.idStart c = false) := fun w hw hb =>
    (YieldsP.switchB (.cons ((closeN_yields rfl).mono (fun _ _ h => h.elim) (fun _ _ h => h) id) (.cons (importId_yields hw).turn .nil))).mono
        (fun _ _ h => h) (fun _ _ h => h) (fun h => h.2.1)
  have hl : Lap E K b "IdentifiersLoop".toList (false || (true || false)) importRound _ _ _ :=
    .cons (N := GapR) (L := fun _ => Never) (X := fun _ => False) (fun w _ _ => yields_wsn0.turn) <|
    .cons (N := ImportIdR E) (L := SkipR "}") (X := fun w => ∀ c, w.head? = some c → Syntax.idStart c = false) h1 .nil
  refine ⟨_, _, _, hl, fun w w' l h => Laps.fold (P := IdsR E) ?_ ?_ ?_ h⟩
  · rintro w w' l (⟨h, -⟩ | ⟨w1, l1, l2, rfl, ⟨rfl, h1⟩, ⟨h2, rfl, rfl⟩ | ⟨w2, l3, l4, rfl, h2, h⟩⟩)
    · exact h.elim
    · exact ⟨(fun _ h => by cases h), Or.inr ⟨h2, h1.again⟩⟩
    · exact h.elim
  · rintro w w' l (h | ⟨w1, l1, l2, rfl, ⟨rfl, h1⟩, ⟨rfl, rfl⟩ | ⟨w2, l3, l4, rfl, h2, h⟩⟩)
    · exact h.elim
    · refine ⟨(fun _ h => by cases h), Or.inl fun toks lo is ids hr hf => Or.inl ⟨rfl, ?_, h1⟩⟩
      rw [List.nil_append, purges_nil] at hr
      cases hr
      cases hf
      rfl
    · exact h.elim
  · rintro w w1 w' l l' ⟨w2, l1, l2, rfl, ⟨rfl, h1⟩, w3, l3, l4, rfl, ⟨t, rfl, h2⟩, rfl, rfl⟩ ⟨h3, h4⟩
    simp only [List.nil_append, List.append_nil, List.singleton_append]
    refine ⟨fun t' ht' => ?_, h4.imp_left fun h4 toks lo is ids hr hf => Or.inr ?_⟩
    · rcases List.mem_cons.mp ht' with rfl | ht'
      · refine ⟨h2.flags, h2.quiet, ?_⟩
        obtain ⟨n, hn, he⟩ := h2.name
        rw [he, List.mem_singleton.mp hn]
        exact toList_ne (b := "Error") (by decide)
      · exact h3 t' ht'
    · rw [purges_cons h2.flags] at hr
      obtain ⟨i, is', rfl, h5, h6⟩ := hr.uncons
      cases hf with
      | cons hf1 hf2 =>
        have hid := h2.means _ _ _ h5 _ _ hf1
        rcases h4 _ _ _ _ h6 hf2 with ⟨-, rfl, h7⟩ | h7
        · exact .last h1 hid h7
        · exact .more h1 hid h7

/-- The identifiers in braces. -/
def BracesR (E : Setting) : Rel := fun w w' l => ∃ t w1, l = [t] ∧ w = '{' :: w1 ∧ t.info.flags = 0 ∧ Quiet t.purge ∧ t.name = "ImportIdentifiers".toList ∧
  (Desc E t.purge (fun toks i => ∀ k ids, toks[i]? = some k → List.Forall₂ (fun c (id : Str × Str) => ImportNames toks c id.1 id.2) k.children ids →
      ImportIds w1 ids w') ∨
    ((∀ c, w'.head? = some c → Syntax.idStart c = false) ∧ Gap w' w'))

theorem importIds_yields (hw : E.Has w) :
    Yields E K true (programN "ImportIdentifiers" [discard (equals "{"), proxyChildren (loopN "IdentifiersLoop" importRound)]) w (BracesR E w) True := by
  obtain ⟨D, F, B, hlap, hfold⟩ := import_laps (E := E) (K := K) (b := blen w)
  obtain ⟨o, g, h1, h2, h3, h4⟩ := Yields.group (K := K) (n := "ImportIdentifiers".toList) (y := proxyChildren (loopN "IdentifiersLoop" importRound))
    (M := fun w w' l => IdsR E w w' l ∧ l ≠ []) hw (yields_skip (s := "{") hw)
    (fun w' hw' hlt => by
      obtain ⟨g, b1, b2, b3⟩ := hlap.loopN (lo := .unbounded) hw' hlt
      obtain ⟨g, c1, c2, c3⟩ := (b3.mono fun w'' l h => hfold w' w'' l h).splice hw' b1 b2 fun w'' l h k hk => (h.1 k hk).2.2
      exact ⟨g, c1, c2, c3.some⟩)
  refine ⟨g, .programN h1 h2, h3, h4.mono ?_ id⟩
  rintro w' l ⟨c, ks, rfl, w1, l1, l2, rfl, ⟨rfl, h7⟩, h8, h9⟩
  refine ⟨_, w1, rfl, h7, rfl, ?_, rfl, h8.2.imp_left fun h8' => ?_⟩
  · unfold blockT
    rw [purge_node]
    refine .node (Cold.names (n := "ImportIdentifiers") (by decide)) fun t ht => ?_
    obtain ⟨t', h1, -, rfl⟩ := mem_purges ht
    exact (h8.1 t' h1).2.1
  · intro toks lo i hi k ids hk hf
    unfold blockT at hi
    rw [purge_node] at hi
    obtain ⟨k', -, hk', -, -, hc⟩ := hi.root
    rw [hk] at hk'
    cases hk'
    rcases h8' _ _ _ _ hc hf with ⟨h, -⟩ | h
    · exact (h9 h).elim
    · exact h

/-! ### Import statements -/

theorem ItemSays.import_only {toks : List Token} {i : TokId} {k : Token} {gs : List Gram} {ss : List Stmt} (h : ItemSays env toks i gs ss)
    (hk : toks[i]? = some k) (hn : k.name = "ImportStatement".toList) : gs = [] ∧ ∃ ids idk p pk l, First toks ["ImportIdentifiers"] k.children ids ∧
      toks[ids]? = some idk ∧ First toks ["Path"] k.children p ∧ toks[p]? = some pk ∧
      List.Forall₂ (fun c id => ImportNames toks c id.1 id.2) idk.children l ∧ ss = [.imports pk.getValue l] := by
  have bad : ∀ {n : String} {k' : Token}, toks[i]? = some k' → k'.name = n.toList → n ≠ "ImportStatement" → False := by
    intro n k' h1 h2 h3
    rw [hk] at h1
    cases h1
    rw [hn] at h2
    exact h3 (String.toList_inj.mp h2).symm
  cases h with
  | own h =>
    cases h with
    | error h1 h2 => exact (bad h1 h2 (by decide)).elim
    | scope h1 h2 => exact (bad h1 h2 (by decide)).elim
    | «alias» h1 h2 => exact (bad h1 h2 (by decide)).elim
    | definition h1 h2 => exact (bad h1 h2 (by decide)).elim
    | otherValue h1 h2 => exact (bad h1 h2 (by decide)).elim
    | other h1 _ _ _ h5 =>
      rw [hk] at h1
      cases h1
      exact (h5 hn).elim
  | imports h1 h2 h3 h4 h5 h6 h7 =>
    rw [hk] at h1
    cases h1
    exact ⟨rfl, _, _, _, _, _, h3, h4, h5, h6, h7, rfl⟩

/-- A statement: what it says, together with the statements that follow. -/
def StmtR (E : Setting) (env : Env) : Rel := fun w w' l => ∃ t, l = [t] ∧ t.info.flags = 0 ∧ w.head? ≠ some '-' ∧
  Told E env [t.purge] (fun gs ss nm => gs = [] ∧ nm = none ∧
    ∀ w0 ss' rest, Gap w0 w → Lax.Statements env w' ss' rest → Lax.Statements env w0 (ss ++ ss') rest)

theorem blanks_same {w1 : Str} (h : Gap w w) (h' : Blanks w w1) : w1 = w := by
  obtain ⟨u, h'⟩ := h'
  obtain ⟨v, h⟩ := h
  cases u with
  | nil => exact h'.split.symm
  | cons c u =>
    have h1 := h'.all c (by simp)
    have h2 := h.most c (by rw [h'.split]; rfl)
    exfalso
    unfold Syntax.blank at h1
    rw [h2] at h1
    cases h1

theorem import_yields (hw : E.Has w) : Yields E K true Script.importStatement w (StmtR E env w) True := by
  have hl : Row E K (blen w + 1) _ _ :=
    .free (fun _ hw => yields_skip (s := "import") hw) <| .free (N := BlanksR) (fun _ _ => yields_ws0) <| .free (fun _ hw => importIds_yields hw) <|
    .free (N := BlanksR) (fun _ _ => yields_ws0) <|
    .free (fun _ hw => yields_skip (s := "from") hw) <| .free (N := BlanksR) (fun _ _ => yields_ws0) <| .free (fun _ hw => yields_string (n := "Path") hw) .nil
  rw [importStatement_eq]
  refine (Yields.programN (n := "ImportStatement") hl hw (by omega)).mono ?_
  rintro w' l ⟨ks, rfl, -, w1, l1, m1, rfl, ⟨rfl, h1⟩, w2, l2, m2, rfl, ⟨rfl, h2⟩, w3, l3, m3, rfl, ⟨t, w2', rfl, rfl, t1, t2, t3, t4⟩,
    w4, l4, m4, rfl, ⟨rfl, h4⟩, w5, l5, m5, rfl, ⟨rfl, rfl⟩, w6, l6, m6, rfl, ⟨rfl, h6⟩, w7, l7, m7, rfl, ⟨y, raw, path, rfl, y1, y2, h7⟩, rfl, rfl⟩
  have hclose : Desc E t.purge (fun toks i => ∀ k ids, toks[i]? = some k → List.Forall₂ (fun c (id : Str × Str) => ImportNames toks c id.1 id.2) k.children ids →
      ImportIds w2' ids w3) := by
    rcases t4 with t4 | ⟨t4, t5⟩
    · exact t4
    · have := blanks_same t5 h4
      rw [← this] at t4
      have := t4 'f' rfl
      exact absurd this (by decide)
  simp only [List.nil_append, List.append_nil, List.singleton_append]
  refine ⟨_, rfl, rfl, ?_, ?_⟩
  · rw [h1]
    intro h
    have : some 'i' = some '-' := h
    exact absurd this (by decide)
  · have hp : (nodeT E "ImportStatement".toList w w' [t, delimT E "Path".toList w6 y ('\'' :: w') w' path]).purge
        = .node (nodeT E "ImportStatement".toList w w' [t, delimT E "Path".toList w6 y ('\'' :: w') w' path]).info
            [t.purge, delimT E "Path".toList w6 y ('\'' :: w') w' path] := by
      unfold nodeT
      rw [purge_node, purges_cons t1, purges_cons rfl, purge_delim, purges_nil]
      rfl
    rw [hp]
    refine (Told.leaf (R := fun gs ss => gs = [] ∧ ∀ w0 ss' rest, Gap w0 w → Lax.Statements env w' ss' rest → Lax.Statements env w0 (ss ++ ss') rest)
      ?_ ?_ ?_).mono ?_
    · intro toks lo i hi gs ss hs
      obtain ⟨k, -, hk, -, hinf, hc⟩ := hi.root
      have hn : k.name = "ImportStatement".toList := congrArg Info.name hinf
      have hc : Reps E toks (i + 1) k.children [t.purge, delimT E "Path".toList w6 y ('\'' :: w') w' path] := hc
      obtain ⟨rfl, ids, idk, p, pk, l, b1, b2, b3, b4, b5, rfl⟩ := ItemSays.import_only hs hk hn
      refine ⟨rfl, ?_⟩
      have tn : t.purge.name = "ImportIdentifiers".toList := by rw [purge_name, t3]
      obtain ⟨j, j1, j2⟩ := hc.first (pre := []) (names := ["ImportIdentifiers"]) (fun _ h => by cases h) ⟨_, List.mem_singleton.mpr rfl, tn⟩
      obtain rfl := first_only b1 j1
      obtain ⟨q, q1, q2⟩ := hc.first (pre := [t.purge]) (names := ["Path"])
        (InNames.apart (ns := ["ImportIdentifiers"]) (.one (List.mem_singleton.mpr rfl) tn)) ⟨_, List.mem_singleton.mpr rfl, rfl⟩
      obtain rfl := first_only b3 q1
      obtain ⟨qk, q3, -, q4, -⟩ := q2.delim
      rw [b4] at q3
      cases q3
      have hids := hclose _ _ _ j2 _ _ b2 b5
      intro w0 ss' rest hg hst
      rw [h1] at hg
      rw [q4]
      exact .imports hg h2 hids h4 h6 h7 hst
    · show "ImportStatement".toList ≠ _
      exact toList_ne (by decide)
    · intro t' ht
      have ht : t' ∈ [t.purge, delimT E "Path".toList w6 y ('\'' :: w') w' path] := ht
      simp only [List.mem_cons, List.not_mem_nil, or_false] at ht
      rcases ht with rfl | rfl
      · exact t2
      · exact quiet_delim
    · rintro gs ss nm ⟨⟨rfl, h⟩, rfl⟩
      exact ⟨rfl, rfl, h⟩

end

end Adx.Read
