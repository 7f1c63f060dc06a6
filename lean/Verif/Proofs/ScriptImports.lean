import Verif.Proofs.ScriptPatterns
import Verif.Spec.Import
/-
  What the trees of a script say, and import statements.
-/
namespace Adx

open Syntax (Stmt)

/-- What one token of a script says: patterns and statements. -/
inductive ItemSays (env : Env) (toks : List Token) (x : TokId) : List Gram → List Stmt → Prop
  | own {gs bs} (h : ItemMeans env toks x gs bs) : ItemSays env toks x gs (bs.map fun b => .own b.1 b.2)
  | imports {k ids idk p pk l} (hk : toks[x]? = some k) (hn : k.name = "ImportStatement".toList)
      (hids : First toks ["ImportIdentifiers"] k.children ids) (hidk : toks[ids]? = some idk)
      (hp : First toks ["Path"] k.children p) (hpk : toks[p]? = some pk)
      (h : List.Forall₂ (fun c id => ImportNames toks c id.1 id.2) idk.children l) :
      ItemSays env toks x [] [.imports pk.getValue l]

/-- What a list of tokens says. -/
inductive ScriptSays (env : Env) (toks : List Token) : List TokId → List Gram → List Stmt → Prop
  | nil : ScriptSays env toks [] [] []
  | cons {x xs gs gs' ss ss'} (h : ItemSays env toks x gs ss) (hs : ScriptSays env toks xs gs' ss') :
      ScriptSays env toks (x :: xs) (gs ++ gs') (ss ++ ss')

theorem ScriptSays.append {env : Env} {toks : List Token} {l l' : List TokId} {gs gs' : List Gram} {ss ss' : List Stmt}
    (h : ScriptSays env toks l gs ss) (h' : ScriptSays env toks l' gs' ss') :
    ScriptSays env toks (l ++ l') (gs ++ gs') (ss ++ ss') := by
  induction h with
  | nil => exact h'
  | cons h _ ih =>
    rw [List.cons_append, List.append_assoc, List.append_assoc]
    exact .cons h ih

theorem ScriptSays.of_means {env : Env} {toks : List Token} {l : List TokId} {gs : List Gram} {bs : List (Str × Gram)}
    (h : ScriptMeans env toks l gs bs) : ScriptSays env toks l gs (bs.map fun b => .own b.1 b.2) := by
  induction h with
  | nil => exact .nil
  | cons h _ ih =>
    rw [List.map_append]
    exact .cons (.own h) ih

end Adx

namespace Adx.Read

open Syntax (Munch Gap Blanks Identifier Quoted Stmt As MayComma ImportId ImportIds)
open B

/-! ### What trees say -/

/-- In every heap with the trees, their tokens say `gs` and `ss`, and the script is called `nm`. -/
def Bears (E : Setting) (env : Env) (ts : List Tr) (gs : List Gram) (ss : List Stmt) (nm : Option Str) : Prop :=
  ∀ toks lo is l, Reps E toks lo is ts → Pre toks is l → ScriptSays env toks l gs ss ∧ ∀ n, scriptName toks l n = nm.getD n

section
variable {E : Setting} {env : Env} {ts ts' : List Tr} {t : Tr} {gs gs' : List Gram} {ss ss' : List Stmt} {nm nm' : Option Str}

theorem Bears.quiet (h : ∀ t ∈ ts, Quiet t) : Bears E env ts [] [] none := by
  intro toks lo is l hr hp
  obtain ⟨h1, h2⟩ := hr.quiet env h hp
  exact ⟨.of_means h1, h2⟩

theorem Pre.split {toks : List Token} {a b l : List TokId} (h : Pre toks (a ++ b) l) : ∃ l1 l2, l = l1 ++ l2 ∧ Pre toks a l1 ∧ Pre toks b l2 := by
  induction a generalizing l with
  | nil => exact ⟨[], l, rfl, .nil, h⟩
  | cons x a ih =>
    cases h with
    | @cons _ k _ l1 l2 hk hc hs =>
      obtain ⟨m1, m2, rfl, h1, h2⟩ := ih hs
      exact ⟨x :: (l1 ++ m1), m2, by simp, .cons hk hc h1, h2⟩

theorem Bears.append (h : Bears E env ts gs ss nm) (h' : Bears E env ts' gs' ss' nm') :
    Bears E env (ts ++ ts') (gs ++ gs') (ss ++ ss') (nm'.or nm) := by
  intro toks lo is l hr hp
  obtain ⟨a, b, rfl, h1, h2⟩ := hr.split
  obtain ⟨l1, l2, rfl, h3, h4⟩ := Pre.split hp
  obtain ⟨a1, a2⟩ := h _ _ _ _ h1 h3
  obtain ⟨b1, b2⟩ := h' _ _ _ _ h2 h4
  refine ⟨a1.append b1, fun n => ?_⟩
  rw [scriptName_append, a2, b2]
  cases nm' <;> rfl

theorem Bears.root (h : Desc E t fun toks i => ItemSays env toks i gs ss)
    (hn : Desc E t fun toks i => ∃ k, toks[i]? = some k ∧ ((k.name = "AdextopaScope".toList ∧ k.getAttribute "name".toList = nm) ∨
      (k.name ≠ "AdextopaScope".toList ∧ nm = none)))
    (h' : Bears E env t.kids gs' ss' nm') : Bears E env [t] (gs ++ gs') (ss ++ ss') (nm'.or nm) := by
  intro toks lo is l hr hp
  cases hr with
  | @cons _ i k is cs _ hl hk hpl hc hr =>
    cases hr
    cases hp with
    | @cons _ k' _ l1 l2 hk' hc' hs' =>
      cases hs'
      rw [hk] at hk'
      cases hk'
      have hi : Reps E toks lo [i] [.node k.info cs] := .cons hl hk hpl hc .nil
      obtain ⟨a1, a2⟩ := h' _ _ _ _ hc hc'
      rw [List.append_nil]
      refine ⟨.cons (h _ _ _ hi) a1, fun n => ?_⟩
      obtain ⟨k', hk', hn⟩ := hn _ _ _ hi
      rw [hk] at hk'
      cases hk'
      unfold scriptName
      rw [hk]
      dsimp only
      rcases hn with ⟨h1, h2⟩ | ⟨h1, rfl⟩
      · rw [if_pos h1, a2, h2]
        cases nm' <;> rfl
      · rw [if_neg h1, a2]
        cases nm' <;> rfl

/-- A tree that says something, with nothing below. -/
theorem Bears.leaf (h : Desc E t fun toks i => ItemSays env toks i gs ss) (hn : t.name ≠ "AdextopaScope".toList)
    (hq : ∀ k ∈ t.kids, Quiet k) : Bears E env [t] gs ss none := by
  have := Bears.root (nm := none) h (fun toks lo i hi => by
    obtain ⟨k, -, hk, -, hinf, -⟩ := hi.root
    refine ⟨k, hk, Or.inr ⟨?_, rfl⟩⟩
    have h1 : k.name = t.name := congrArg Info.name hinf
    rw [h1]
    exact hn) (.quiet hq)
  rwa [List.append_nil, List.append_nil] at this

theorem ItemSays.nothing {toks : List Token} {i : TokId} {k : Token} (hk : toks[i]? = some k) (h1 : k.name ≠ "Error".toList)
    (h2 : k.name ≠ "PatternScope".toList) (h3 : k.name ≠ "AssignmentExpression".toList) (h4 : k.name ≠ "ImportStatement".toList) :
    ItemSays env toks i [] [] :=
  .own (bs := []) (.other hk h1 h2 h3 h4)

/-- A tree that only has something below. -/
theorem Bears.over {n : String} (hn : t.name = n.toList) (h : Cold n) (h' : Bears E env t.kids gs ss nm) : Bears E env [t] gs ss nm := by
  have hne : ∀ {toks : List Token} {lo : Nat} {i : TokId}, Reps E toks lo [i] [t] → ∃ k, toks[i]? = some k ∧
      ∀ m ∈ hotNames, k.name ≠ m.toList := by
    intro toks lo i hi
    obtain ⟨k, -, hk, -, hinf, -⟩ := hi.root
    refine ⟨k, hk, fun m hm => ?_⟩
    have h1 : k.name = t.name := congrArg Info.name hinf
    rw [h1, hn]
    exact h.names m hm
  have := Bears.root (nm := none) (gs := []) (ss := []) (fun toks lo i hi => by
    obtain ⟨k, hk, hm⟩ := hne hi
    exact ItemSays.nothing hk (hm "Error" (by decide)) (hm "PatternScope" (by decide)) (hm "AssignmentExpression" (by decide))
      (hm "ImportStatement" (by decide))) (fun toks lo i hi => by
    obtain ⟨k, hk, hm⟩ := hne hi
    exact ⟨k, hk, Or.inr ⟨hm "AdextopaScope" (by decide), rfl⟩⟩) h'
  rw [List.nil_append, List.nil_append] at this
  cases nm <;> exact this

end

/-! ### `as` -/

section
variable {E : Setting} {K : Option Nat} {w rest : Str} {uni : Uni} {env : Env}

theorem munch_exists (p : Char → Bool) (w : Str) : ∃ u rest, Munch p w u rest := by
  refine ⟨w.takeWhile p, w.dropWhile p, List.takeWhile_append_dropWhile.symm, fun c hc => ?_, fun c hc => ?_⟩
  · exact List.all_eq_true.mp List.all_takeWhile c hc
  · have := List.head?_dropWhile_not p w
    rw [hc] at this
    simpa using this

theorem rxStar_none {p : Char → Bool} {k : Str → Option Nat} {u : Str} (h : Munch p w u rest) (hk : k rest = none)
    (hp : ∀ c v, p c = true → k (c :: v) = none) : rxStar p k w = none := by
  obtain ⟨rfl, h1, h2⟩ := h
  induction u with
  | nil =>
    rw [List.nil_append]
    cases rest with
    | nil => exact hk
    | cons c rest =>
      unfold rxStar
      rw [h2 c rfl, if_neg (by decide), hk]
  | cons c u ih =>
    rw [List.cons_append]
    unfold rxStar
    rw [h1 c (by simp), if_pos rfl, ih fun d hd => h1 d (by simp [hd])]
    exact hp c _ (h1 c (by simp))

/-- `\s+as\s+` behind the first white space. -/
theorem rxAs_seq {c : Char} {v : Str} (hc : Rx.isSpace c = true) :
    rxAlt [Rx.plus Rx.isSpace ++ Rx.lits "as" ++ Rx.plus Rx.isSpace] (c :: v) =
      (rxStar Rx.isSpace (rxSeq (Rx.lits "as" ++ Rx.plus Rx.isSpace)) v).map (c.utf8Size + ·) := by
  unfold rxAlt
  have : rxSeq (Rx.plus Rx.isSpace ++ Rx.lits "as" ++ Rx.plus Rx.isSpace) (c :: v) =
      (rxStar Rx.isSpace (rxSeq (Rx.lits "as" ++ Rx.plus Rx.isSpace)) v).map (c.utf8Size + ·) := by
    rw [List.append_assoc]
    show (if Rx.isSpace c = true then (rxSeq (.star Rx.isSpace :: (Rx.lits "as" ++ Rx.plus Rx.isSpace)) v).map (c.utf8Size + ·) else none) = _
    rw [if_pos hc]
    rfl
  rw [this]
  cases (rxStar Rx.isSpace (rxSeq (Rx.lits "as" ++ Rx.plus Rx.isSpace)) v).map (c.utf8Size + ·) <;> rfl

theorem rxPlus_seq {c : Char} {v : Str} (hc : Rx.isSpace c = true) :
    rxSeq (Rx.plus Rx.isSpace) (c :: v) = some (blen (c :: v.takeWhile Rx.isSpace)) := by
  show (if Rx.isSpace c = true then (rxSeq [.star Rx.isSpace] v).map (c.utf8Size + ·) else none) = _
  rw [if_pos hc]
  unfold rxSeq
  rw [rxStar_end]
  rfl

theorem reads_as (h : As w rest) : BReads E K K (discard (regex Script.rxAs)) w (.past rest) := by
  refine .of_has fun hw => ?_
  obtain ⟨u, v, w1, h1, hu, h2, hv⟩ := h
  have hw1 : E.Has w1 := hw.tail ((List.suffix_append ..).trans h1.suffix)
  have h1' := h1.same (q := Rx.isSpace) fun c hc => space_ascii (hw.ascii c hc)
  have h2' := h2.same (q := Rx.isSpace) fun c hc => space_ascii (hw1.ascii c hc)
  obtain ⟨c, u, rfl⟩ := List.exists_cons_of_ne_nil hu
  obtain ⟨d, v, rfl⟩ := List.exists_cons_of_ne_nil hv
  have hf : Script.rxAs.find ((c :: u ++ ("as".toList ++ (d :: v))) ++ rest) = some (0, blen (c :: u ++ ("as".toList ++ (d :: v)))) := by
    refine find_here ?_
    have e : (c :: u ++ ("as".toList ++ (d :: v))) ++ rest = c :: (u ++ ("as".toList ++ (d :: (v ++ rest)))) := by simp
    rw [e, rxAs_seq (h1'.all c (by simp))]
    have hm : Munch Rx.isSpace (u ++ ("as".toList ++ (d :: (v ++ rest)))) u ("as".toList ++ (d :: (v ++ rest))) := by
      refine ⟨rfl, fun x hx => h1'.all x (by simp [hx]), fun x hx => ?_⟩
      have : x = 'a' := by
        have : some 'a' = some x := hx
        cases this
        rfl
      rw [this]
      decide
    have hk : rxSeq (Rx.lits "as" ++ Rx.plus Rx.isSpace) ("as".toList ++ (d :: (v ++ rest))) = some (blen "as".toList + blen (d :: v)) := by
      refine rxSeq_lits ?_
      rw [rxPlus_seq (h2'.all d (by simp))]
      have : (v ++ rest).takeWhile Rx.isSpace = v :=
        Munch.take (p := Rx.isSpace) ⟨rfl, fun x hx => h2'.all x (by simp [hx]), h2'.most⟩ fun _ _ => rfl
      rw [this]
    rw [rxStar_munch hm hk]
    rw [blen_append, blen_append]
    simp only [blen, Option.map_some, Option.some.injEq]
    omega
  have hs : w = (c :: u ++ ("as".toList ++ (d :: v))) ++ rest := by
    rw [h1.split, h2.split]
    simp
  rw [hs]
  exact .discard (.regex (by simp) hf)

/-- There is `as`, or it is not read. -/
theorem reads_as_or (w : Str) : (∃ rest, As w rest) ∨ BReads E K K (discard (regex Script.rxAs)) w .fail := by
  obtain ⟨u, w1, h1⟩ := munch_exists Syntax.space w
  by_cases hu : u = []
  · subst hu
    refine Or.inr (.of_has fun hw => .discard (.regex_fail (find_one_none (p := Rx.isSpace) fun c hc => ?_)))
    have h1' := h1.same (q := Rx.isSpace) fun c hc => space_ascii (hw.ascii c hc)
    rw [h1'.split] at hc
    exact h1'.most c hc
  obtain ⟨c, u, rfl⟩ := List.exists_cons_of_ne_nil hu
  by_cases ha : "as".toList <+: w1
  · obtain ⟨w2, rfl⟩ := ha
    obtain ⟨v, rest, h2⟩ := munch_exists Syntax.space w2
    by_cases hv : v = []
    · subst hv
      refine Or.inr (.of_has fun hw => .discard (.regex_fail (find_none ?_)))
      have hw2 : E.Has w2 := hw.tail ((List.suffix_append ..).trans h1.suffix)
      have h1' := h1.same (q := Rx.isSpace) fun c hc => space_ascii (hw.ascii c hc)
      have h2' := h2.same (q := Rx.isSpace) fun c hc => space_ascii (hw2.ascii c hc)
      have hs : w = c :: (u ++ ("as".toList ++ w2)) := h1.split
      rw [hs, rxAs_seq (h1'.all c (by simp)), rxStar_none (u := u) (rest := "as".toList ++ w2)
        ⟨rfl, fun x hx => h1'.all x (by simp [hx]), h1'.most⟩]
      · rfl
      · have : rxSeq (Rx.plus Rx.isSpace) w2 = none := by
          cases w2 with
          | nil => rfl
          | cons d w2 =>
            show (if Rx.isSpace d = true then _ else none) = none
            rw [if_neg]
            have : Rx.isSpace d = false := h2'.most d (by rw [show rest = d :: w2 from h2.split.symm]; rfl)
            simp [this]
        show rxSeq (Rx.lit 'a' :: Rx.lit 's' :: Rx.plus Rx.isSpace) ('a' :: 's' :: w2) = none
        show (if ('a' == 'a') = true then ((if ('s' == 's') = true then (rxSeq (Rx.plus Rx.isSpace) w2).map _ else none)).map _ else none) = none
        rw [this]
        rfl
      · intro x v hx
        show (if (x == 'a') = true then _ else none) = none
        rw [if_neg]
        intro he
        rw [beq_iff_eq.mp he] at hx
        exact absurd hx (by decide)
    · exact Or.inl ⟨rest, c :: u, v, w2, h1, hu, h2, hv⟩
  · refine Or.inr (.of_has fun hw => .discard (.regex_fail (find_none ?_)))
    have h1' := h1.same (q := Rx.isSpace) fun c hc => space_ascii (hw.ascii c hc)
    have hs : w = c :: (u ++ w1) := h1.split
    rw [hs, rxAs_seq (h1'.all c (by simp)), rxStar_none (u := u) (rest := w1)
      ⟨rfl, fun x hx => h1'.all x (by simp [hx]), h1'.most⟩ (show rxSeq (Rx.lits "as" ++ Rx.plus Rx.isSpace) w1 = none from rxSeq_lits_none ha)]
    · rfl
    · intro x v hx
      show (if (x == 'a') = true then _ else none) = none
      rw [if_neg]
      intro he
      rw [beq_iff_eq.mp he] at hx
      exact absurd hx (by decide)

theorem _root_.Adx.Syntax.As.suffix (h : As w rest) : rest <:+ w := by
  obtain ⟨u, v, w1, h1, hu, h2, hv⟩ := h
  exact h2.suffix.trans ((List.suffix_append ..).trans h1.suffix)

theorem _root_.Adx.Syntax.MayComma.suffix (h : MayComma w rest) : rest <:+ w := by
  cases h with
  | comma => exact List.suffix_cons ..
  | nothing => exact List.suffix_refl _

theorem reads_mayComma (h : MayComma w rest) : BReads E K K (discard (optional (equals ","))) w (.past rest) := by
  cases h with
  | comma => exact .discard (g := .tok _ _) (.optional (g := .tok _ _) (.equals (l := [','])))
  | nothing h => exact .discard (g := .past _) (.optional (g := .fail) (.equals_fail (l := [',']) (head_prefix h)))

/-! ### Identifiers of imports -/

/-- The builder of one identifier. -/
def importId : B MatcherId :=
  programN "ImportIdentifier" [
    Script.identifier "ImportName",
    optional (proxyChildren (program [discard (regex Script.rxAs), Script.identifier "ImportAsName"])),
    discard (optional (equals ","))]

instance : Adds importId := by unfold importId; infer_instance

theorem _root_.Adx.Syntax.ImportId.suffix {n m : Str} (h : ImportId w n m rest) : rest <:+ w := by
  cases h with
  | plain h1 _ h3 => exact h3.suffix.trans h1.suffix
  | renamed h1 h2 h3 h4 => exact ((h4.suffix.trans h3.suffix).trans h2.suffix).trans h1.suffix

theorem _root_.Adx.Syntax.Identifier.lt {n : Str} (h : Identifier w n rest) : blen rest < blen w := by
  refine blen_lt h.suffix fun he => ?_
  have := h.munch.split
  rw [he] at this
  have := congrArg List.length this
  rw [List.length_append] at this
  exact h.ne (List.length_eq_zero_iff.mp (by omega))

theorem _root_.Adx.Syntax.ImportId.lt {n m : Str} (h : ImportId w n m rest) : blen rest < blen w := by
  cases h with
  | plain h1 _ h3 =>
    have := suffix_blen h3.suffix
    have := h1.lt
    omega
  | renamed h1 h2 h3 h4 =>
    have := suffix_blen ((h4.suffix.trans h3.suffix).trans h2.suffix)
    have := h1.lt
    omega

theorem leaf_value {name n : Str} (hw : E.Has w) (hs : w = n ++ rest) :
    Desc E (leafT E name w rest) fun toks i => ∃ k, toks[i]? = some k ∧ k.getValue = n := by
  intro toks lo i hi
  obtain ⟨k, hk, -, hv, -⟩ := hi.leaf
  refine ⟨k, hk, ?_⟩
  subst hs
  rw [hv, hw.range]

theorem reads_importId {n m : Str} (h : ImportId w n m rest) (hw : E.Has w) :
    ∃ t, BReads E K K importId w (.tok rest t) ∧ t.matched = ⟨E.at_ w, E.at_ rest⟩ ∧ Quiet t ∧
      Desc E t fun toks i => ImportNames toks i n m := by
  have hsf := h.suffix
  cases h with
  | plain h1 h2 h3 =>
    rename_i w1
    refine ⟨nodeT E "ImportIdentifier".toList w rest [leafT E "ImportName".toList w w1], ?_, rfl, quiet_node ?_, ?_⟩
    · refine Parts.programN ?_ (by simp) hsf
      refine .tok (reads_identifier h1 (by decide)) <| .past (.optional (g := .fail) (.proxyChildren (g := .fail) ?_ .fail)) <|
        .past (reads_mayComma h3) .nil
      rcases reads_as_or (E := E) (K := K) w1 with ⟨w2, ha⟩ | ha
      · exact .program (.cons (reads_as ha) <| .fail (reads_identifier_fail (h2 _ ha) (by decide))) .fails
      · exact .program (.fail ha) .fails
    · intro t ht
      rw [List.mem_singleton.mp ht]
      exact quiet_leaf
    · intro toks lo i hi
      obtain ⟨k, hk, -, -, hc, -⟩ := hi.node
      obtain ⟨j, j1, j2⟩ := hc.first (pre := []) (names := ["ImportName"]) (fun _ h => by cases h) ⟨_, List.mem_singleton.mpr rfl, rfl⟩
      obtain ⟨jk, j3, j4⟩ := leaf_value hw h1.munch.split _ _ _ j2
      have := ImportNames.plain hk j1 j3 (hc.absent (InNames.apart (ns := ["ImportName"]) (.one (List.mem_singleton.mpr rfl) rfl)))
      rwa [j4] at this
  | renamed h1 h2 h3 h4 =>
    rename_i w1 w2 w3
    have hw1 : E.Has w1 := hw.tail h1.suffix
    have hw2 : E.Has w2 := hw1.tail h2.suffix
    have hp : BReads E K K (program [discard (regex Script.rxAs), Script.identifier "ImportAsName"]) w1
        (.tok w3 (nodeT E "Program".toList w1 w3 [leafT E "ImportAsName".toList w2 w3])) := by
      refine .program (Parts.pass (ts := [leafT E "ImportAsName".toList w2 w3]) ?_) (Parts.gives (by simp) (h3.suffix.trans h2.suffix))
      exact .past (reads_as h2) <| .tok (reads_identifier h3 (by decide)) .nil
    have hq : BReads E K K (optional (proxyChildren (program [discard (regex Script.rxAs), Script.identifier "ImportAsName"]))) w1
        (.splice w3 (nodeT E "Program".toList w1 w3 [leafT E "ImportAsName".toList w2 w3])) :=
      .optional (g := .splice _ _) (.proxyChildren hp (.tok (List.suffix_refl _) (h3.suffix.trans h2.suffix) rfl rfl (clean_names rfl)))
    refine ⟨_, .programN (.cons (reads_identifier h1 (by decide)) <| .cons hq <| .cons (reads_mayComma h4) .nil)
      (.done (.tok (w' := rest) ?_ ?_ rfl hsf rfl)), rfl, ?_, ?_⟩
    · simp [Run.take, Run.start]
    · simp [Run.take, Run.start]
    · refine .node (Cold.names (n := "ImportIdentifier") (by decide)) ?_
      intro t ht
      have ht : t ∈ [leafT E "ImportName".toList w w1, leafT E "ImportAsName".toList w2 w3] := ht
      simp only [List.mem_cons, List.not_mem_nil, or_false] at ht
      rcases ht with rfl | rfl <;> exact quiet_leaf
    · intro toks lo i hi
      obtain ⟨k, -, hk, -, hinf, hc⟩ := hi.root
      have hc : Reps E toks (i + 1) k.children [leafT E "ImportName".toList w w1, leafT E "ImportAsName".toList w2 w3] := hc
      obtain ⟨j, j1, j2⟩ := hc.first (pre := []) (names := ["ImportName"]) (fun _ h => by cases h) ⟨_, List.mem_singleton.mpr rfl, rfl⟩
      obtain ⟨jk, j3, j4⟩ := leaf_value hw h1.munch.split _ _ _ j2
      obtain ⟨q, q1, q2⟩ := hc.first (pre := [leafT E "ImportName".toList w w1]) (names := ["ImportAsName"])
        (InNames.apart (ns := ["ImportName"]) (.one (List.mem_singleton.mpr rfl) rfl)) ⟨_, List.mem_singleton.mpr rfl, rfl⟩
      obtain ⟨qk, q3, q4⟩ := leaf_value hw2 h3.munch.split _ _ _ q2
      have := ImportNames.renamed hk j1 j3 q1 q3
      rwa [j4, q4] at this

/-- The loop over identifiers. -/
def importRound : List (B MatcherId) := [
  Script.wsn0,
  switch [
    discard (program [equals "}", brk "IdentifiersLoop"]),
    importId]]

instance : AddsAll importRound := by unfold importRound; infer_instance

theorem reads_end :
    BReads E K K (switch [discard (program [equals "}", brk "IdentifiersLoop"]), importId]) ('}' :: rest)
      (.brk "IdentifiersLoop".toList (.past rest)) := by
  have h1 : BReads E K K (program [equals "}", brk "IdentifiersLoop"]) ('}' :: rest)
      (Got.onward "IdentifiersLoop".toList (.tok rest (nodeT E "Program".toList ('}' :: rest) rest [leafT E "Equals".toList ('}' :: rest) rest]))) :=
    .program (.cons (.equals (l := ['}']) rfl) <| .brk (.brk (s := "IdentifiersLoop")))
      (.breaks (.tok (by simp [Run.take, Run.start]) (by simp [Run.take, Run.start]) rfl (List.suffix_cons ..) rfl))
  exact .switch (.here (.discard (g := .brk "IdentifiersLoop".toList (.tok _ _)) h1) trivial)

theorem _root_.Adx.Syntax.ImportId.head {n m : Str} (h : ImportId w n m rest) : ∃ c, w.head? = some c ∧ Syntax.idStart c = true := by
  cases h with
  | plain h1 => exact h1.head
  | renamed h1 => exact h1.head

theorem reads_one {n m : Str} {t : Tr} (h : ImportId w n m rest) (hr : BReads E K K importId w (.tok rest t)) :
    BReads E K K (switch [discard (program [equals "}", brk "IdentifiersLoop"]), importId]) w (.tok rest t) := by
  refine .switch (.next (.discard (g := .fail) (.program (.fail (.equals_fail (l := ['}']) (head_prefix ?_))) .fails)) (.here hr trivial))
  obtain ⟨c, h1, h2⟩ := h.head
  show w.head? ≠ _
  rw [h1]
  intro he
  cases he
  exact absurd h2 (by decide)

theorem _root_.Adx.Syntax.ImportIds.suffix {ids : List (Str × Str)} (h : ImportIds w ids rest) : rest <:+ w := by
  induction h with
  | last h1 h2 h3 => exact ((List.suffix_cons ..).trans h3.suffix).trans (h2.suffix.trans h1.suffix)
  | more h1 h2 _ ih => exact ih.trans (h2.suffix.trans h1.suffix)

theorem ids_rounds {ids : List (Str × Str)} (h : ImportIds w ids rest) (hw : E.Has w) :
    ∀ (k : List Tr) (c : List Range), ∃ ts caps r o a, Rounds E importRound K ⟨w, E.at_ w, k, c, false⟩ K r ∧
      Pass E K importRound r (.breaks K "IdentifiersLoop".toList o a) ∧ a.take E o = ⟨rest, E.at_ rest, k ++ ts, caps, false⟩ ∧
      caps ≠ [] ∧ (∃ l wl, ts.getLast? = some l ∧ l.matched.stop = E.at_ wl ∧ rest <:+ wl ∧ wl <:+ w) ∧ (∀ t ∈ ts, Quiet t) ∧
      ∀ toks lo is, Reps E toks lo is ts → List.Forall₂ (fun c (id : Str × Str) => ImportNames toks c id.1 id.2) is ids := by
  induction h with
  | @last w w1 n m w2 rest h1 h2 h3 =>
    intro k c
    have s2 : w2 <:+ w := h2.suffix.trans h1.suffix
    have s3 : rest <:+ w2 := (List.suffix_cons ..).trans h3.suffix
    obtain ⟨t, b1, b2, b3, b4⟩ := reads_importId (K := K) h2 (hw.tail h1.suffix)
    refine ⟨[t], c ++ [t.captured], ⟨w2, E.at_ w2, k ++ [t], c ++ [t.captured], false⟩, .past rest,
      ⟨'}' :: rest, E.at_ ('}' :: rest), k ++ [t], c ++ [t.captured], false⟩, ?_, ?_, rfl, by simp, ⟨t, w2, rfl, by rw [b2], s3, s2⟩, ?_, ?_⟩
    · refine .next (Pass.cons (reads_gap h1) <| Pass.cons (reads_one h2 b1) .nil) ?_ .zero
      show blen w2 < blen w
      have := h2.lt
      have := gap_length h1
      omega
    · exact Pass.cons (reads_gap h3) <| Pass.brk reads_end
    · intro t' ht
      rw [List.mem_singleton.mp ht]
      exact b3
    · intro toks lo is hr
      cases hr with
      | cons hl hk hp hc hr =>
        cases hr
        exact .cons (b4 _ _ _ (.cons hl hk hp hc .nil)) .nil
  | @more w w1 n m w2 rest ids h1 h2 h3 ih =>
    intro k c
    have s2 : w2 <:+ w := h2.suffix.trans h1.suffix
    obtain ⟨t, b1, b2, b3, b4⟩ := reads_importId (K := K) h2 (hw.tail h1.suffix)
    obtain ⟨ts, caps, r, o, a, c1, c2, c3, c4, ⟨l, wl, d1, d2, d3, d4⟩, c5, c6⟩ := ih (hw.tail s2) (k ++ [t]) (c ++ [t.captured])
    refine ⟨t :: ts, caps, r, o, a, .next (Pass.cons (reads_gap h1) <| Pass.cons (reads_one h2 b1) .nil) ?_ c1, c2, ?_, c4,
      ⟨l, wl, ?_, d2, d3, d4.trans s2⟩, ?_, ?_⟩
    · show blen w2 < blen w
      have := h2.lt
      have := gap_length h1
      omega
    · rw [c3, List.append_assoc]
      rfl
    · cases ts with
      | nil => cases d1
      | cons t' ts => rw [List.getLast?_cons_cons]; exact d1
    · intro t' ht
      rcases List.mem_cons.mp ht with rfl | ht
      · exact b3
      · exact c5 t' ht
    · intro toks lo is hr
      cases hr with
      | cons hl hk hp hc hr => exact .cons (b4 _ _ _ (.cons hl hk hp hc .nil)) (c6 _ _ _ hr)

/-- The identifiers of an import statement, in braces. -/
theorem reads_ids {ids : List (Str × Str)} (h : ImportIds w ids rest) (hw : E.Has ('{' :: w)) :
    ∃ t, BReads E K K (programN "ImportIdentifiers" [discard (equals "{"), proxyChildren (loopN "IdentifiersLoop" importRound)]) ('{' :: w)
      (.tok rest t) ∧ t.name = "ImportIdentifiers".toList ∧ Quiet t ∧
      Desc E t fun toks i => ∃ k, toks[i]? = some k ∧ List.Forall₂ (fun c (id : Str × Str) => ImportNames toks c id.1 id.2) k.children ids := by
  obtain ⟨ts, caps, r, o, a, c1, c2, c3, c4, ⟨l, wl, d1, d2, d3, d4⟩, c5, c6⟩ := ids_rounds (K := K) h (hw.tail (List.suffix_cons ..)) [] []
  have hts : ts ≠ [] := by
    rintro rfl
    cases d1
  have hloop : BReads E K K (proxyChildren (loopN "IdentifiersLoop" importRound)) w
      (.splice wl (Run.tree E "IdentifiersLoop".toList w ⟨rest, E.at_ rest, ts, caps, false⟩)) := by
    refine .proxyChildren (g := .tok rest (Run.tree E "IdentifiersLoop".toList w ⟨rest, E.at_ rest, ts, caps, false⟩))
      (.loopN c1 c2 (.breaks (Or.inl rfl) ?_)) (.tok d3 d4 d1 d2 fun k hk => (c5 k hk).name "Error" (by decide))
    rw [c3]
    exact .tok (by simpa using hts) c4 rfl h.suffix rfl
  refine ⟨_, .programN (.cons reads_char <| .cons hloop .nil) (.done (.tok (w' := rest) ?_ ?_ rfl (adv h.suffix _) rfl)), rfl, ?_, ?_⟩
  · simpa [Run.take, Run.start, Run.tree, Tr.kids] using hts
  · simp [Run.take, Run.start]
  · exact .node (Cold.names (n := "ImportIdentifiers") (by decide)) c5
  · intro toks lo i hi
    obtain ⟨k, -, hk, -, hinf, hc⟩ := hi.root
    exact ⟨k, hk, c6 _ _ _ hc⟩

/-! ### Import statements -/

theorem importStatement_eq : Script.importStatement = programN "ImportStatement" [
    discard (equals "import"),
    Script.ws0,
    programN "ImportIdentifiers" [discard (equals "{"), proxyChildren (loopN "IdentifiersLoop" importRound)],
    Script.ws0,
    discard (equals "from"),
    Script.ws0,
    Script.string "Path"] := rfl

theorem reads_word {s : String} {l : Str} (hs : s.toList = l := by rfl) (hl : l ≠ [] := by simp) :
    BReads E K K (discard (equals s)) (l ++ w) (.past w) :=
  .discard (g := .tok _ _) (.equals hs hl)

theorem reads_import {w1 w2 w3 w4 raw path w5 w6 : Str} {ids : List (Str × Str)} (hw : E.Has ("import".toList ++ w1))
    (h2 : Blanks w1 ('{' :: w2)) (h3 : ImportIds w2 ids w3) (h4 : Blanks w3 ("from".toList ++ w4)) (h5 : Blanks w4 w5)
    (h6 : Quoted w5 raw path w6) :
    ∃ t, BReads E K K Script.importStatement ("import".toList ++ w1) (.tok w6 t) ∧ Bears E env [t] [] [.imports path ids] none := by
  have s6 : w6 <:+ w4 := h6.suffix.trans h5.suffix
  have s3 : w6 <:+ w3 := s6.trans ((List.suffix_append ..).trans h4.suffix)
  have s1 : w6 <:+ w1 := (s3.trans h3.suffix).trans ((List.suffix_cons ..).trans h2.suffix)
  have hw2 : E.Has ('{' :: w2) := hw.tail (h2.suffix.trans (List.suffix_append ..))
  obtain ⟨t, a1, a2, a3, a4⟩ := reads_ids (K := K) h3 hw2
  obtain ⟨x, e1, e2, b1⟩ := reads_string (E := E) (K := K) (name := "Path") h6 (by decide)
  refine ⟨nodeT E "ImportStatement".toList ("import".toList ++ w1) w6 [t, delimT E "Path".toList w5 x ('\'' :: w6) w6 path], ?_, .leaf ?_
    (toList_ne (by decide)) ?_⟩
  · rw [importStatement_eq]
    refine Parts.programN ?_ (by simp) (s1.trans (List.suffix_append ..))
    exact .past reads_word <| .past (reads_blanks h2) <| .tok a1 <| .past (reads_blanks h4) <| .past reads_word <|
      .past (reads_blanks h5) <| .tok b1 .nil
  · intro toks lo i hi
    obtain ⟨k, hk, -, hn, hc, -⟩ := hi.node
    obtain ⟨j, j1, j2⟩ := hc.first (pre := []) (names := ["ImportIdentifiers"]) (fun _ h => by cases h) ⟨_, List.mem_singleton.mpr rfl, a2⟩
    obtain ⟨jk, j3, j4⟩ := a4 _ _ _ j2
    obtain ⟨q, q1, q2⟩ := hc.first (pre := [t]) (names := ["Path"])
      (InNames.apart (ns := ["ImportIdentifiers"]) (.one (List.mem_singleton.mpr rfl) a2)) ⟨_, List.mem_singleton.mpr rfl, rfl⟩
    obtain ⟨qk, q3, -, q4, -⟩ := q2.delim
    have := ItemSays.imports (env := env) hk hn j1 j3 q1 q3 j4
    rwa [q4] at this
  · intro t' ht
    have ht : t' ∈ [t, delimT E "Path".toList w5 x ('\'' :: w6) w6 path] := ht
    simp only [List.mem_cons, List.not_mem_nil, or_false] at ht
    rcases ht with rfl | rfl
    · exact a3
    · exact quiet_delim

/-- Other words are not read as an import. -/
theorem fails_import (h : ∀ w1 w2, w = "import".toList ++ w1 → ¬ Blanks w1 ('{' :: w2)) : BReads E K K Script.importStatement w .fail := by
  rw [importStatement_eq]
  by_cases hp : "import".toList <+: w
  · obtain ⟨w1, rfl⟩ := hp
    obtain ⟨u, w2, hu⟩ := munch_exists Syntax.blank w1
    refine .programN (.cons reads_word <| .cons (reads_blanks ⟨u, hu⟩) <| .fail (.programN (.fail (reads_char_fail ?_)) .fails)) .fails
    intro hh
    obtain ⟨w3, rfl⟩ : ∃ w3, w2 = '{' :: w3 := by
      cases w2 with
      | nil => cases hh
      | cons c w2 => cases hh; exact ⟨w2, rfl⟩
    exact h w1 w3 rfl ⟨u, hu⟩
  · exact .programN (.fail (.discard (g := .fail) (.equals_fail hp rfl))) .fails

end

end Adx.Read
