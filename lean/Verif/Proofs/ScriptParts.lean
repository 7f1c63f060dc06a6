import Verif.Proofs.ScriptWords
/-
  Programs that read one part after another, and what their tokens look like in the heap.
-/
namespace Adx.Read

/-! ### Programs -/

/-- A builder reads `w` up to `rest`, with at most one token. -/
inductive Part (E : Setting) (K K' : Option Nat) (x : B MatcherId) (w : Str) : Str → List Tr → Prop
  | past {rest : Str} (h : BReads E K K' x w (.past rest)) : Part E K K' x w rest []
  | tok {rest : Str} {t : Tr} (h : BReads E K K' x w (.tok rest t)) : Part E K K' x w rest [t]
  | pin (h : BReads E K K' x w .pin) : Part E K K' x w w []

/-- Builders read `w` up to `rest`, one after another. -/
inductive Parts (E : Setting) : Option Nat → List (B MatcherId) → Str → Str → List Tr → Option Nat → Prop
  | nil {K : Option Nat} {w : Str} : Parts E K [] w w [] K
  | cons {K K1 K2 : Option Nat} {x : B MatcherId} {xs : List (B MatcherId)} {w w1 rest : Str} {ts ts' : List Tr}
      (h : Part E K K1 x w w1 ts) (h' : Parts E K1 xs w1 rest ts' K2) : Parts E K (x :: xs) w rest (ts ++ ts') K2

section
variable {E : Setting} {K K' K1 : Option Nat} {w w1 rest name : Str} {ts : List Tr} {x : B MatcherId} {xs : List (B MatcherId)} {t : Tr}

theorem Parts.past {ts : List Tr} (h : BReads E K K1 x w (.past w1)) (h' : Parts E K1 xs w1 rest ts K') : Parts E K (x :: xs) w rest ts K' :=
  .cons (ts := []) (.past h) h'

theorem Parts.tok (h : BReads E K K1 x w (.tok w1 t)) (h' : Parts E K1 xs w1 rest ts K') : Parts E K (x :: xs) w rest (t :: ts) K' :=
  .cons (ts := [t]) (.tok h) h'

theorem Parts.pin (h : BReads E K K1 x w .pin) (h' : Parts E K1 xs w rest ts K') : Parts E K (x :: xs) w rest ts K' :=
  .cons (ts := []) (.pin h) h'

/-- What has been read after such parts. -/
theorem Parts.then {ys : List (B MatcherId)} {o : End} (h : Parts E K xs w rest ts K1) {a : Run} (hr : a.rest = w) (hf : a.far = E.at_ w)
    (hp : Pass E K1 ys ⟨rest, E.at_ rest, a.kids ++ ts, a.caps ++ ts.map Tr.captured, a.loose⟩ o) : Pass E K (xs ++ ys) a o := by
  induction h generalizing a with
  | nil =>
    obtain ⟨r, f, k, c, l⟩ := a
    subst hr
    obtain rfl : f = E.at_ r := hf
    simpa using hp
  | @cons K K1 K2 x xs w w1 rest ts ts' h _ ih =>
    obtain ⟨r, f, k, c, l⟩ := a
    subst hr
    obtain rfl : f = E.at_ r := hf
    cases h with
    | past h => exact Pass.cons h (ih rfl rfl hp)
    | tok h => exact Pass.cons h (ih rfl rfl (by simpa [Run.take] using hp))
    | pin h => exact Pass.cons h (ih rfl rfl hp)

/-- The token of such a program. -/
def nodeT (E : Setting) (name w rest : Str) (ts : List Tr) : Tr :=
  .node ⟨name, span (ts.map Tr.captured), ⟨E.at_ w, E.at_ rest⟩, none, [], 0⟩ ts

theorem Parts.pass (h : Parts E K xs w rest ts K') : Pass E K xs (.start E w) (.done K' ⟨rest, E.at_ rest, ts, ts.map Tr.captured, false⟩) := by
  have := h.then (ys := []) (a := .start E w) (o := .done K' ⟨rest, E.at_ rest, ts, ts.map Tr.captured, false⟩) rfl rfl .nil
  rwa [List.append_nil] at this

theorem Parts.gives (ht : ts ≠ []) (hs : rest <:+ w) :
    ProgramGives E w name (.done K ⟨rest, E.at_ rest, ts, ts.map Tr.captured, false⟩) K (.tok rest (nodeT E name w rest ts)) :=
  .done (.tok ht (by simpa using ht) rfl hs rfl)

/-- A program of such parts. -/
theorem Parts.programN {n : String} [AddsAll xs] (h : Parts E K xs w rest ts K') (ht : ts ≠ []) (hs : rest <:+ w)
    (hn : Free n := by decide) : BReads E K K' (B.programN n xs) w (.tok rest (nodeT E n.toList w rest ts)) :=
  .programN h.pass (Parts.gives ht hs) hn

/-- It fails when one of its parts does. -/
theorem Parts.fails {ys : List (B MatcherId)} (h : Parts E K xs w rest ts K1) (hx : BReads E K1 K' x rest .fail) :
    ∃ a, Pass E K (xs ++ x :: ys) (.start E w) (.fails K' a) :=
  ⟨_, h.then rfl rfl (.fail hx)⟩

theorem Parts.suffix (h : Parts E K xs w rest ts K') (hg : ∀ x w w1 K K' ts, Part E K K' x w w1 ts → w1 <:+ w) : rest <:+ w := by
  induction h with
  | nil => exact List.suffix_refl _
  | cons h _ ih => exact ih.trans (hg _ _ _ _ _ _ h)

end

/-! ### Trees in the heap -/

section
variable {E : Setting} {toks : List Token} {lo : Nat} {ts : List TokId} {trees : List Tr} {i : TokId} {t : Tr}

theorem Reps.get {j : Nat} (h : Reps E toks lo ts trees) (hj : trees[j]? = some t) : ∃ i, ts[j]? = some i ∧ Reps E toks lo [i] [t] := by
  induction h generalizing j with
  | nil => cases hj
  | cons hl hk hp hc hr ih1 ih2 =>
    cases j with
    | zero =>
      cases hj
      exact ⟨_, rfl, .cons hl hk hp hc .nil⟩
    | succ j =>
      obtain ⟨i, h1, h2⟩ := ih2 hj
      exact ⟨i, h1, h2⟩

theorem Reps.name_at (h : Reps E toks lo [i] [t]) : nameAt toks i = some t.name := by
  obtain ⟨k, -, hk, -, hi, -⟩ := h.root
  unfold nameAt
  rw [hk]
  exact congrArg some (congrArg Info.name hi)

theorem Reps.absent (h : Reps E toks lo ts trees) {names : List String} (hn : ∀ t ∈ trees, ∀ n ∈ names, t.name ≠ n.toList) :
    Absent toks names ts := by
  intro b hb n hm
  induction h with
  | nil => cases hb
  | cons hl hk hp hc hr _ ih =>
    rcases List.mem_cons.mp hb with rfl | hb
    · unfold nameAt
      rw [hk]
      intro he
      exact hn _ (List.mem_cons_self ..) n hm (Option.some.inj he)
    · exact ih (fun t ht => hn t (List.mem_cons_of_mem _ ht)) hb

theorem Reps.split {pre post : List Tr} (h : Reps E toks lo ts (pre ++ post)) :
    ∃ a b, ts = a ++ b ∧ Reps E toks lo a pre ∧ Reps E toks lo b post := by
  induction pre generalizing ts with
  | nil => exact ⟨[], ts, rfl, .nil, h⟩
  | cons t pre ih =>
    cases h with
    | cons hl hk hp hc hr =>
      obtain ⟨a, b, rfl, h1, h2⟩ := ih hr
      exact ⟨_ :: a, b, rfl, .cons hl hk hp hc h1, h2⟩

theorem Reps.first {pre post : List Tr} (h : Reps E toks lo ts (pre ++ t :: post)) {names : List String}
    (hp : ∀ t ∈ pre, ∀ n ∈ names, t.name ≠ n.toList) (ht : ∃ n ∈ names, t.name = n.toList) :
    ∃ i, First toks names ts i ∧ Reps E toks lo [i] [t] := by
  obtain ⟨a, b, rfl, h1, h2⟩ := h.split
  obtain ⟨c, d, rfl, h3, h4⟩ := Reps.split (pre := [t]) h2
  obtain ⟨x, rfl⟩ : ∃ x, c = [x] := by
    cases h3 with
    | cons _ _ _ _ h => cases h; exact ⟨_, rfl⟩
  refine ⟨x, ⟨a, d, rfl, ?_, h1.absent hp⟩, h3⟩
  obtain ⟨n, hn, he⟩ := ht
  exact ⟨n, hn, by rw [h3.name_at, he]⟩

theorem First.present {names : List String} (h : First toks names ts i) : ¬ Absent toks names ts := by
  obtain ⟨a, b, rfl, ⟨n, hn, he⟩, -⟩ := h
  exact fun hab => hab i (by simp) n hn he

theorem Plain.captured {k : Token} (h : Plain E k) : k.getCapturedValue = k.captured.text E.p := by
  unfold Token.getCapturedValue
  rw [h.kind]
  exact h.cap

theorem info_value {k : Token} (h : Plain E k) : k.getValue = (match k.info.attributes.get "__value".toList with
    | some v => v
    | none => match k.info.value with
      | some v => v
      | none => k.info.captured.text E.p) := by
  unfold Token.getValue
  rw [h.captured]
  rfl

/-- The value of a leaf. -/
theorem Reps.leaf {E : Setting} {name w w' : Str} (h : Reps E toks lo [i] [leafT E name w w']) :
    ∃ k, toks[i]? = some k ∧ k.name = name ∧ k.getValue = (⟨E.at_ w, E.at_ w'⟩ : Range).text E.p ∧
      k.getCapturedValue = (⟨E.at_ w, E.at_ w'⟩ : Range).text E.p := by
  obtain ⟨k, -, hk, hp, hi, -⟩ := h.root
  refine ⟨k, hk, congrArg Info.name hi, ?_, ?_⟩
  · rw [info_value hp, hi]
    rfl
  · rw [hp.captured]
    show k.info.captured.text E.p = _
    rw [hi]
    rfl

/-- The value of a delimited text. -/
theorem Reps.delim {E : Setting} {name w w1 w2 w' val : Str} (h : Reps E toks lo [i] [delimT E name w w1 w2 w' val]) :
    ∃ k, toks[i]? = some k ∧ k.name = name ∧ k.getValue = val ∧
      k.getCapturedValue = (⟨E.at_ w1, E.at_ w2⟩ : Range).text E.p := by
  obtain ⟨k, -, hk, hp, hi, -⟩ := h.root
  refine ⟨k, hk, congrArg Info.name hi, ?_, ?_⟩
  · rw [info_value hp, hi]
    rfl
  · rw [hp.captured]
    show k.info.captured.text E.p = _
    rw [hi]
    rfl

/-- The token of a program. -/
theorem Reps.node {E : Setting} {name w w' : Str} {kids : List Tr} (h : Reps E toks lo [i] [nodeT E name w w' kids]) :
    ∃ k, toks[i]? = some k ∧ Plain E k ∧ k.name = name ∧ Reps E toks (i + 1) k.children kids ∧
      k.getValue = (span (kids.map Tr.captured)).text E.p := by
  obtain ⟨k, -, hk, hp, hi, hc⟩ := h.root
  refine ⟨k, hk, hp, congrArg Info.name hi, hc, ?_⟩
  rw [info_value hp, hi]
  rfl

end

/-! ### Trees without statements -/

/-- The names of tokens at which something happens. -/
def hotNames : List String := ["Error", "PatternScope", "AssignmentExpression", "ImportStatement", "AdextopaScope"]

/-- Nothing happens at a tree and below it. -/
inductive Quiet : Tr → Prop
  | node {i : Info} {ks : List Tr} (hn : ∀ n ∈ hotNames, i.name ≠ n.toList) (hk : ∀ k ∈ ks, Quiet k) : Quiet (.node i ks)

/-- A name that is not one of these. -/
def Cold (n : String) : Prop := ∀ m ∈ hotNames, n ≠ m

instance (n : String) : Decidable (Cold n) := by unfold Cold; infer_instance

theorem Cold.names {n : String} (h : Cold n) : ∀ m ∈ hotNames, n.toList ≠ m.toList :=
  fun m hm => toList_ne (h m hm)

theorem quiet_leaf {E : Setting} {n : String} {w w' : Str} (h : Cold n := by decide) : Quiet (leafT E n.toList w w') :=
  .node h.names (fun _ h => by cases h)

theorem quiet_delim {E : Setting} {n : String} {w w1 w2 w' val : Str} (h : Cold n := by decide) :
    Quiet (delimT E n.toList w w1 w2 w' val) :=
  .node h.names (fun _ h => by cases h)

theorem quiet_node {E : Setting} {n : String} {w w' : Str} {ts : List Tr} (hk : ∀ k ∈ ts, Quiet k) (h : Cold n := by decide) :
    Quiet (nodeT E n.toList w w' ts) :=
  .node h.names hk

theorem Quiet.name {t : Tr} (h : Quiet t) : ∀ n ∈ hotNames, t.name ≠ n.toList := by
  cases h with
  | node h _ => exact h

theorem Quiet.kids {t : Tr} (h : Quiet t) : ∀ k ∈ t.kids, Quiet k := by
  cases h with
  | node _ h => exact h

theorem ScriptMeans.append {env : Env} {toks : List Token} {l l' : List TokId} {gs gs' : List Gram} {bs bs' : List (Str × Gram)}
    (h : ScriptMeans env toks l gs bs) (h' : ScriptMeans env toks l' gs' bs') :
    ScriptMeans env toks (l ++ l') (gs ++ gs') (bs ++ bs') := by
  induction h with
  | nil => exact h'
  | cons h _ ih =>
    rw [List.cons_append, List.append_assoc, List.append_assoc]
    exact .cons h ih

theorem scriptName_append {toks : List Token} (xs ys : List TokId) (n : Str) :
    scriptName toks (xs ++ ys) n = scriptName toks ys (scriptName toks xs n) := by
  induction xs generalizing n with
  | nil => rfl
  | cons x xs ih =>
    rw [List.cons_append]
    conv => lhs; unfold scriptName
    conv => rhs; rw [scriptName.eq_def toks (x :: xs)]
    dsimp only
    cases toks[x]? with
    | none => exact ih n
    | some k =>
      dsimp only
      split
      · exact ih _
      · exact ih _

theorem Reps.quiet {E : Setting} {toks : List Token} {lo : Nat} {ts : List TokId} {trees : List Tr} {l : List TokId} (env : Env)
    (h : Reps E toks lo ts trees) (hq : ∀ t ∈ trees, Quiet t) (hl : Pre toks ts l) :
    ScriptMeans env toks l [] [] ∧ ∀ n, scriptName toks l n = n := by
  induction h generalizing l with
  | nil =>
    cases hl
    exact ⟨.nil, fun _ => rfl⟩
  | @cons lo t k ts cs trees h1 hk hp hc hr ih1 ih2 =>
    cases hl with
    | @cons _ k' _ l1 l2 hk' hc' hs' =>
      rw [hk] at hk'
      cases hk'
      have hq0 := hq _ (List.mem_cons_self ..)
      obtain ⟨a1, a2⟩ := ih1 hq0.kids hc'
      obtain ⟨b1, b2⟩ := ih2 (fun t ht => hq t (List.mem_cons_of_mem _ ht)) hs'
      have hn := hq0.name
      have e1 := hn "Error" (by decide)
      have e2 := hn "PatternScope" (by decide)
      have e3 := hn "AssignmentExpression" (by decide)
      have e4 := hn "ImportStatement" (by decide)
      have e5 := hn "AdextopaScope" (by decide)
      refine ⟨ScriptMeans.cons (gs := []) (bs := []) (.other hk e1 e2 e3 e4) (ScriptMeans.append a1 b1), fun n => ?_⟩
      unfold scriptName
      rw [hk]
      dsimp only
      rw [if_neg (show k.name ≠ _ from e5), scriptName_append, a2, b2]

end Adx.Read
