import Verif.Proofs.InterpTable
import Verif.Spec.Execute
import Verif.Proofs.Import
import Verif.Props.Scopes
/-
  The reference interpreter on the matchers of a script and on its terms.
-/
namespace Adx.Interp

open Peg (body Cuts Cut Ready Sim Keeps)

/-- The immediate parts of a term. -/
def Gram.parts : Gram → List Gram
  | .group _ _ _ gs => gs
  | .loop _ _ g => [g]
  | .opt g => [g]
  | .not g => [g]
  | .discard g => [g]
  | .attrs _ g => [g]
  | _ => []

theorem Sane.part {d : Quotes} {g g' : Gram} (h : Sane d g) (hg : g' ∈ Gram.parts g) : Sane d g' := by
  have one : ∀ {a : Gram}, Sane d a → g' ∈ [a] → Sane d g' := by
    intro a ha h
    rw [List.mem_singleton] at h
    rw [h]
    exact ha
  cases h with
  | group h => exact h g' hg
  | loop h => exact one h hg
  | opt h => exact one h hg
  | not h => exact one h hg
  | discard h => exact one h hg
  | attrs h => exact one h hg
  | _ => cases hg

theorem QuietAll.mem {R : Str → Prop} {gs : List Gram} (h : QuietAll R gs) {g : Gram} (hg : g ∈ gs) : Quiet R g := by
  induction gs with
  | nil => cases hg
  | cons a gs ih =>
    cases h with
    | cons h hs =>
      rcases List.mem_cons.mp hg with rfl | hg
      · exact h
      · exact ih hs hg

theorem QuietParts.part {R : Str → Prop} {g g' : Gram} (h : QuietParts R g) (hg : g' ∈ Gram.parts g) : Quiet R g' := by
  have one : ∀ {a : Gram}, Quiet R a → g' ∈ [a] → Quiet R g' := by
    intro a ha h
    rw [List.mem_singleton] at h
    rw [h]
    exact ha
  cases h with
  | group h => exact h.mem hg
  | loop h => exact one h hg
  | opt h => exact one h hg
  | not h => exact one h hg
  | discard h => exact one h hg
  | attrs h => exact one h hg
  | _ => cases hg

variable {ns : List Node} {lo : Nat} {m : MatcherId} {g : Gram} {d : Quotes}

theorem table_at {nd : Node} (h : ns[m]? = some nd) : tableOf ns m = nd := by
  unfold tableOf
  rw [h]
  rfl

theorem built_shape (hb : Built ns lo m g) (hs : Sane d g) : ∃ e, Shape (tableOf ns m) e := by
  cases hb with
  | equals _ h => rw [table_at h]; exact ⟨_, .lit⟩
  | regex _ h => rw [table_at h]; exact ⟨_, .re⟩
  | sequence _ h => rw [table_at h]; cases hs with | sequence _ ha hb => exact ⟨_, .delim ha hb⟩
  | ref _ h => rw [table_at h]; exact ⟨_, .call⟩
  | null _ h => rw [table_at h]; exact ⟨_, .empty⟩
  | @group _ _ _ _ f _ _ _ h =>
    rw [table_at h]
    cases f
    · exact ⟨_, .seq⟩
    · exact ⟨_, .choice⟩
  | loop _ h => rw [table_at h]; exact ⟨_, .loop⟩
  | opt _ h => rw [table_at h]; exact ⟨_, .opt⟩
  | not _ h => rw [table_at h]; exact ⟨_, .neg⟩
  | discard _ h => rw [table_at h]; exact ⟨_, .drop⟩
  | attrs _ h => rw [table_at h]; exact ⟨_, .give⟩

theorem built_label (hb : Built ns lo m g) : (tableGrammar (tableOf ns)).label m = gramLabel g := by
  show (if (tableOf ns m).hasCustomName then some (tableOf ns m).name else none) = _
  cases hb with
  | equals _ h => rw [table_at h]; rfl
  | regex _ h => rw [table_at h]; rfl
  | sequence _ h => rw [table_at h]; rfl
  | ref _ h => rw [table_at h]; rfl
  | null _ h => rw [table_at h]; rfl
  | group _ h => rw [table_at h]; rfl
  | loop _ h => rw [table_at h]; rfl
  | opt _ h => rw [table_at h]; rfl
  | not _ h => rw [table_at h]; rfl
  | discard _ h => rw [table_at h]; rfl
  | attrs _ h => rw [table_at h]; rfl

theorem shape_at {nd : Node} {e : Expr MatcherId} (h : ns[m]? = some nd) (hs : Shape nd e) :
    Shape nd ((tableGrammar (tableOf ns)).expr m) := by
  have := tableGrammar_shape (T := tableOf ns) (m := m) (e := e) (by rw [table_at h]; exact hs)
  rwa [table_at h] at this

theorem built_ref {n : Str} {c : Bool} {x : Str} (hb : Built ns lo m (.ref n c x)) :
    (tableGrammar (tableOf ns)).expr m = .call x := by
  cases hb with
  | ref _ h =>
    have := shape_at h .call
    generalize (tableGrammar (tableOf ns)).expr m = e at this
    cases this
    rfl

section
variable {N σ : Type} {nm' : Names σ N} {Rel : MatcherId → Nat → N → Nat → Prop} {Inv : Vars → σ → Prop} {k k' : Nat}

theorem builtAll_rel {f : Gram → N} {lo' : Nat} (hlo : lo ≤ lo') {ms : List MatcherId} {gs : List Gram} (h : BuiltAll ns lo' ms gs)
    (hsub : ∀ i g', Built ns lo i g' → g' ∈ gs → Rel i k (f g') k') :
    List.Forall₂ (fun m m' => Rel m k m' k') ms (gs.map f) := by
  induction gs generalizing ms with
  | nil => cases h; exact .nil
  | cons g gs ih =>
    cases h with
    | cons h hs =>
      exact .cons (hsub _ _ (h.lower hlo) (List.mem_cons_self ..)) (ih hs fun i g' hb hg => hsub i g' hb (List.mem_cons_of_mem _ hg))

theorem built_like {f : Gram → N} (hb : Built ns lo m g) (hs : Sane d g) (hnr : ∀ n c x, g ≠ .ref n c x)
    (hsub : ∀ i g', Built ns lo i g' → g' ∈ Gram.parts g → Rel i k (f g') k') :
    Like heapNames nm' Rel Inv k k' ((tableGrammar (tableOf ns)).expr m) (gramExpr f g) := by
  cases hb with
  | equals _ h =>
    have := shape_at h .lit
    generalize (tableGrammar (tableOf ns)).expr m = e at this
    cases this
    exact .lit
  | regex _ h =>
    have := shape_at h .re
    generalize (tableGrammar (tableOf ns)).expr m = e at this
    cases this
    exact .re
  | sequence _ h =>
    cases hs with
    | sequence _ ha hb =>
      have := shape_at h (.delim ha hb)
      generalize (tableGrammar (tableOf ns)).expr m = e at this
      cases this
      exact .delim
  | ref _ h => exact (hnr _ _ _ rfl).elim
  | null _ h =>
    have := shape_at h .empty
    generalize (tableGrammar (tableOf ns)).expr m = e at this
    cases this
    exact .empty
  | @group _ _ _ _ fi _ _ hl h hgs =>
    have hr := builtAll_rel (Nat.le_succ_of_le hl) hgs hsub
    cases fi with
    | false =>
      have := shape_at h .seq
      generalize (tableGrammar (tableOf ns)).expr m = e at this
      cases this
      exact .seq hr
    | true =>
      have := shape_at h .choice
      generalize (tableGrammar (tableOf ns)).expr m = e at this
      cases this
      exact .choice hr
  | loop _ h hg =>
    have := shape_at h .loop
    generalize (tableGrammar (tableOf ns)).expr m = e at this
    cases this
    exact .loop (.cons (hsub _ _ hg (List.mem_singleton.mpr rfl)) .nil)
  | opt _ h hg =>
    have := shape_at h .opt
    generalize (tableGrammar (tableOf ns)).expr m = e at this
    cases this
    exact .opt (hsub _ _ hg (List.mem_singleton.mpr rfl))
  | not _ h hg =>
    have := shape_at h .neg
    generalize (tableGrammar (tableOf ns)).expr m = e at this
    cases this
    exact .neg (hsub _ _ hg (List.mem_singleton.mpr rfl))
  | discard _ h hg =>
    have := shape_at h .drop
    generalize (tableGrammar (tableOf ns)).expr m = e at this
    cases this
    exact .drop (hsub _ _ hg (List.mem_singleton.mpr rfl))
  | attrs _ h hg =>
    have := shape_at h .give
    generalize (tableGrammar (tableOf ns)).expr m = e at this
    obtain ⟨a', rfl, ha⟩ := this.give_inv
    exact .give ha (hsub _ _ hg (List.mem_singleton.mpr rfl))

/-- The layers around the patterns of a script. -/
theorem layer_within {a b : MatcherId} {sc : SCtxId} (h : ns[a]? = some (.setScope (some sc) b)) :
    (tableGrammar (tableOf ns)).expr a = .within sc b ∧ (tableGrammar (tableOf ns)).label a = none := by
  have := shape_at h .within
  refine ⟨?_, ?_⟩
  · generalize (tableGrammar (tableOf ns)).expr a = e at this
    cases this
    rfl
  · show (if (tableOf ns a).hasCustomName then some (tableOf ns a).name else none) = _
    rw [table_at h]
    rfl

@[inherit_doc layer_within]
theorem layer_flat {b i : MatcherId} (h : ns[b]? = some (.proxyChildren i "Flatten".toList false)) :
    (tableGrammar (tableOf ns)).expr b = .flat i ∧ (tableGrammar (tableOf ns)).label b = none := by
  have := shape_at h .flat
  refine ⟨?_, ?_⟩
  · generalize (tableGrammar (tableOf ns)).expr b = e at this
    cases this
    rfl
  · show (if (tableOf ns b).hasCustomName then some (tableOf ns b).name else none) = _
    rw [table_at h]
    rfl

@[inherit_doc layer_within]
theorem layer_seq {ps : List MatcherId} {n : Str} {cu : Bool} (h : ns[m]? = some (.program ps n cu none false)) :
    (tableGrammar (tableOf ns)).expr m = .seq n ps ∧
      (tableGrammar (tableOf ns)).label m = if cu then some n else none := by
  have := shape_at h .seq
  refine ⟨?_, ?_⟩
  · generalize (tableGrammar (tableOf ns)).expr m = e at this
    cases this
    rfl
  · show (if (tableOf ns m).hasCustomName then some (tableOf ns m).name else none) = _
    rw [table_at h]
    rfl

@[inherit_doc layer_within]
theorem layer_rename {x : MatcherId} {l : Str} (h : ns[m]? = some (.map x (renameToken l) passFailure)) :
    (tableGrammar (tableOf ns)).expr m = .rename l x ∧ (tableGrammar (tableOf ns)).label m = none := by
  have := shape_at h .rename
  refine ⟨?_, ?_⟩
  · exact this.rename_inv
  · show (if (tableOf ns m).hasCustomName then some (tableOf ns m).name else none) = _
    rw [table_at h]
    rfl

end

/-! ### Definitions that change -/

theorem lastDef_append {β : Type} {bs : List (Str × β)} {l x : Str} {g : β} :
    lastDef (bs ++ [(l, g)]) x = if x = l then some g else lastDef bs x := by
  unfold lastDef
  rw [List.reverse_append, List.reverse_singleton, List.singleton_append, List.find?_cons]
  by_cases h : x = l
  · subst h
    simp
  · rw [if_neg h]
    have : (l == x) = false := by
      rw [beq_eq_false_iff_ne]
      exact fun hh => h hh.symm
    dsimp only
    rw [this]

theorem lastDef_map {β γ : Type} {bs : List (Str × β)} {x : Str} {f : β → γ} :
    lastDef (bs.map fun b => (b.1, f b.2)) x = (lastDef bs x).map f := by
  unfold lastDef
  rw [← List.map_reverse, List.find?_map]
  cases h : bs.reverse.find? ((fun b => b.1 == x) ∘ fun b => (b.1, f b.2)) with
  | none =>
    have : bs.reverse.find? (fun b => b.1 == x) = none := h
    rw [this]
    rfl
  | some b =>
    have : bs.reverse.find? (fun b => b.1 == x) = some b := h
    rw [this]
    rfl

/-- The heap that variables are kept in. -/
def heapOf (v : Vars) : State := ⟨[], v.1, v.2⟩

theorem heapOf_ok {s : State} : ScopesOK (heapOf (vars s)) ↔ ScopesOK s :=
  ⟨fun ⟨h1, h2, h3⟩ => ⟨h1, h2, h3⟩, fun ⟨h1, h2, h3⟩ => ⟨h1, h2, h3⟩⟩

theorem heapOf_set {v : Vars} {k : SCtxId} {l : Str} {x : MatcherId} :
    heapOf (heapNames.set v k l x) = (heapOf v).bindVar k l (.matcher x) := by
  show (⟨[], ((heapOf v).bindVar k l (.matcher x)).scopes, ((heapOf v).bindVar k l (.matcher x)).sctxs⟩ : State) = _
  unfold State.bindVar heapOf
  dsimp only
  cases v.2[k]?.getD [] <;> rfl

theorem heap_get {v : Vars} {k : SCtxId} {x : Str} {y : MatcherId} :
    heapNames.get v k x = some y ↔ (heapOf v).lookup k x = some (.matcher y) :=
  get_vars_iff (s := heapOf v)

/-- The matchers of a script and its parts. -/
inductive Matched (ns : List Node) (d : Quotes) (lo : Nat) (usr sc : SCtxId) (root a b i : MatcherId) (n : Str)
    (gs : List Gram) : MatcherId → Nat → Part → Nat → Prop
  | gram {x g} (hb : Built ns lo x g) (hs : Sane d g) : Matched ns d lo usr sc root a b i n gs x sc (.gram g) 1
  | whole : Matched ns d lo usr sc root a b i n gs root usr (.whole n gs) 0
  | inside : Matched ns d lo usr sc root a b i n gs a usr (.inside gs) 0
  | flat : Matched ns d lo usr sc root a b i n gs b sc (.flat gs) 1
  | all : Matched ns d lo usr sc root a b i n gs i sc (.all gs) 1

/-- The definitions of a script. -/
structure Defined (ns : List Node) (d : Quotes) (lo : Nat) (usr sc : SCtxId) (v : Vars) (bs : List (Str × Gram)) : Prop where
  defs : InScope ⟨ns, heapOf v⟩ lo sc (bs.map fun b => (b.1, .own b.2))
  ok : ScopesOK (heapOf v)
  user : usr < (heapOf v).sctxs.length
  sane : ∀ x g, lastDef bs x = some g → Sane d g

theorem Defined.get {usr sc : SCtxId} {v : Vars} {bs : List (Str × Gram)} (h : Defined ns d lo usr sc v bs) (x : Str) :
    (lastDef bs x = none ∧ (heapOf v).lookup sc x = none) ∨
    ∃ g y, lastDef bs x = some g ∧ (heapOf v).lookup sc x = some (.matcher y) ∧ Built ns lo y g := by
  cases h.defs with
  | mk hsc f hd ht hu =>
    cases hl : lastDef bs x with
    | none => exact Or.inl ⟨rfl, hu x (by rw [lastDef_map, hl]; rfl)⟩
    | some g =>
      have hl' : lastDef (bs.map fun b => (b.1, Thing.own b.2)) x = some (.own g) := by rw [lastDef_map, hl]; rfl
      have := ht x _ hl'
      cases this with
      | own hb => exact Or.inr ⟨g, f x, rfl, hd x _ hl', hb⟩

theorem Defined.lt {usr sc : SCtxId} {v : Vars} {bs : List (Str × Gram)} (h : Defined ns d lo usr sc v bs) :
    sc < (heapOf v).sctxs.length := by
  cases h.defs with
  | mk hsc => exact hsc

/-- A new definition. -/
theorem Defined.add {usr sc : SCtxId} {v : Vars} {bs : List (Str × Gram)} (h : Defined ns d lo usr sc v bs) {l : Str}
    {y : MatcherId} {g : Gram} (hb : Built ns lo y g) (hs : Sane d g) :
    Defined ns d lo usr sc (heapNames.set v sc l y) (bs ++ [(l, g)]) := by
  have hlt := h.lt
  obtain ⟨h1, h2, -⟩ := C09_set_get (heapOf v) h.ok sc hlt l (.matcher y)
  have hlen := bindVar_length h.ok hlt (k := l) (v := .matcher y)
  refine ⟨?_, ?_, ?_, ?_⟩
  · rw [heapOf_set]
    cases h.defs with
    | mk hsc f hd ht hu =>
      refine .mk (f := fun x => if x = l then y else f x) ?_ ?_ ?_ ?_
      · show sc < ((heapOf v).bindVar sc l _).sctxs.length
        rw [hlen]
        exact hlt
      · intro x th hx
        rw [lastDef_map, lastDef_append] at hx
        show ((heapOf v).bindVar sc l _).lookup sc x = _
        by_cases hxl : x = l
        · rw [if_pos hxl, hxl]
          exact h1
        · rw [if_neg hxl] at hx ⊢
          rw [h2 x hxl]
          exact hd x th (by rw [lastDef_map]; exact hx)
      · intro x th hx
        rw [lastDef_map, lastDef_append] at hx
        by_cases hxl : x = l
        · rw [if_pos hxl] at hx ⊢
          cases hx
          exact .own hb
        · rw [if_neg hxl] at hx ⊢
          have := ht x th (by rw [lastDef_map]; exact hx)
          obtain ⟨g', -, rfl⟩ := Option.map_eq_some_iff.mp hx
          cases this with
          | own hb => exact .own hb
      · intro x hx
        rw [lastDef_map, lastDef_append] at hx
        show ((heapOf v).bindVar sc l _).lookup sc x = _
        by_cases hxl : x = l
        · rw [if_pos hxl] at hx
          cases hx
        · rw [if_neg hxl] at hx
          rw [h2 x hxl]
          exact hu x (by rw [lastDef_map]; exact hx)
  · rw [heapOf_set]
    exact h.ok.bindVar hlt _ _
  · rw [heapOf_set, hlen]
    exact h.user
  · intro x g' hx
    rw [lastDef_append] at hx
    split at hx
    · cases hx
      exact hs
    · exact h.sane x g' hx

/-- A name in the scope of the user. -/
theorem Defined.other {usr sc : SCtxId} {v : Vars} {bs : List (Str × Gram)} (h : Defined ns d lo usr sc v bs) {l : Str}
    {y : MatcherId} (hne : sc ≠ usr) : Defined ns d lo usr sc (heapNames.set v usr l y) bs := by
  obtain ⟨-, -, h3⟩ := C09_set_get (heapOf v) h.ok usr h.user l (.matcher y)
  have hlen := bindVar_length h.ok h.user (k := l) (v := .matcher y)
  refine ⟨?_, ?_, ?_, h.sane⟩
  · rw [heapOf_set]
    cases h.defs with
    | mk hsc f hd ht hu =>
      refine .mk (f := f) ?_ ?_ ?_ ?_
      · show sc < ((heapOf v).bindVar usr l _).sctxs.length
        rw [hlen]
        exact hsc
      · intro x th hx
        show ((heapOf v).bindVar usr l _).lookup sc x = _
        rw [h3 sc x hne]
        exact hd x th hx
      · intro x th hx
        have := ht x th hx
        rw [lastDef_map] at hx
        obtain ⟨g', -, rfl⟩ := Option.map_eq_some_iff.mp hx
        cases this with
        | own hb => exact .own hb
      · intro x hx
        show ((heapOf v).bindVar usr l _).lookup sc x = _
        rw [h3 sc x hne]
        exact hu x hx
  · rw [heapOf_set]
    exact h.ok.bindVar h.user _ _
  · rw [heapOf_set, hlen]
    exact h.user

theorem alike_script {usr sc : SCtxId} {root a b i : MatcherId} {n : Str} {ps : List MatcherId} {gs : List Gram}
    (hne : sc ≠ usr) (hm : ns[root]? = some (.program [a] n true none false)) (ha : ns[a]? = some (.setScope (some sc) b))
    (hb : ns[b]? = some (.proxyChildren i "Flatten".toList false))
    (hi : ns[i]? = some (.program ps "Program".toList false none false)) (hps : BuiltAll ns lo ps gs)
    (hgs : ∀ g ∈ gs, Sane d g) :
    Alike (tableGrammar (tableOf ns)) heapNames scriptGrammar scriptNames (Matched ns d lo usr sc root a b i n gs)
      (Defined ns d lo usr sc) := by
  refine ⟨?_, ?_⟩
  · intro x k t k' h
    cases h with
    | @gram x g hbg hs =>
      by_cases hr : ∃ n c y, g = .ref n c y
      · obtain ⟨n, c, y, rfl⟩ := hr
        rw [built_ref hbg]
        refine .call fun st st' hinv => ?_
        show Option.Rel _ _ ((lastDef st' y).map Part.gram)
        rcases hinv.get y with ⟨h1, h2⟩ | ⟨g, z, h1, h2, h3⟩
        · have : heapNames.get st sc y = none := by
            cases hg : heapNames.get st sc y with
            | none => rfl
            | some z =>
              rw [heap_get.mp hg] at h2
              cases h2
          rw [this, h1]
          exact .none
        · rw [heap_get.mpr h2, h1]
          exact .some (.gram h3 (hinv.sane _ _ h1))
      · refine built_like (f := Part.gram) hbg hs (fun n c y he => hr ⟨n, c, y, he⟩) ?_
        intro j g' hj hg'
        exact .gram hj (hs.part hg')
    | whole =>
      rw [(layer_seq hm).1]
      exact .seq (.cons .inside .nil)
    | inside =>
      rw [(layer_within ha).1]
      exact .within .flat
    | flat =>
      rw [(layer_flat hb).1]
      exact .flat .all
    | all =>
      rw [(layer_seq hi).1]
      exact .seq (builtAll_rel (Nat.le_refl _) hps fun j g' hj hg' => .gram hj (hgs g' hg'))
  · intro x k t k' st st' h hinv
    unfold Interp.enter
    cases h with
    | @gram x g hbg hs =>
      rw [built_label hbg, show scriptGrammar.label (Part.gram g) = gramLabel g from rfl]
      cases gramLabel g with
      | none => exact hinv
      | some l => exact hinv.add hbg hs
    | whole =>
      rw [(layer_seq hm).2]
      exact hinv.other hne
    | inside =>
      rw [(layer_within ha).2]
      exact hinv
    | flat =>
      rw [(layer_flat hb).2]
      exact hinv
    | all =>
      rw [(layer_seq hi).2]
      exact hinv

theorem gramExpr_re {N : Type} {f : Gram → N} {l : Str} {find : Str → Option (Nat × Nat)} (hs : Sane d g)
    (h : gramExpr f g = .re l find) : Cuts find := by
  cases hs with
  | regex hc => cases h; exact hc
  | @group n c fi gs _ => cases fi <;> cases h
  | _ => cases h

theorem gramExpr_delim {N : Type} {f : Gram → N} {l a b e : Str} (hs : Sane d g) (h : gramExpr f g = .delim l a b e) : d a b e := by
  cases hs with
  | sequence hd => cases h; exact hd
  | @group n c fi gs _ => cases fi <;> cases h
  | _ => cases h

theorem inScope_own {w w' : World} {sc : SCtxId} {bs : List (Str × Gram)}
    (h : InScope w lo sc (bs.map fun b => (b.1, .own b.2))) (hn : w'.nodes = w.nodes)
    (hl : ∀ x, w'.st.lookup sc x = w.st.lookup sc x) (hlt : sc < w'.st.sctxs.length) :
    InScope w' lo sc (bs.map fun b => (b.1, .own b.2)) := by
  cases h with
  | mk hsc f hd ht hu =>
    refine .mk hlt f ?_ ?_ ?_
    · intro x th hx
      rw [hl]
      exact hd x th hx
    · intro x th hx
      have := ht x th hx
      rw [lastDef_map] at hx
      obtain ⟨g', -, rfl⟩ := Option.map_eq_some_iff.mp hx
      cases this with
      | own hb => exact .own (by rw [hn]; exact hb)
    · intro x hx
      rw [hl]
      exact hu x hx

/-- The engine on a script without imports. -/
theorem script_run {w : World} {slo : Nat} {sc : SCtxId} {n : Str} {gs : List Gram} {bs : List (Str × Gram)}
    {c : Ctx} {p : Parser} {stop : Nat} {cfg : Cfg} {fuel : Nat}
    (hf : IsFile w lo slo m sc n gs (bs.map fun b => (b.1, .own b.2))) (hok : ScopesOK w.st)
    (hc : Ready p stop c) (hcut : Cut p.src stop c.offset.start) (hb : blen p.src ≤ isizeMax)
    (hu : c.scope < w.st.sctxs.length) (hne : sc ≠ c.scope)
    (hfree : ∀ x y, w.st.lookup c.scope x = some (.matcher y) → y = m)
    (hgs : ∀ g ∈ gs, Sane (AsciiBetween p.src) g) (hbs : ∀ x g, lastDef bs x = some g → Sane (AsciiBetween p.src) g) :
    Sim (tokenize (tableOf w.nodes) cfg fuel c m w.st) (runScript p stop n gs fuel c.offset.start bs)
      (fun r s' x => SeesRoot s'.toks r x.1 ∧ Keeps w.st.toks.length w.st s' ∧
        s'.toks.length = w.st.toks.length + work scriptGrammar scriptNames p stop fuel (.whole n gs) 0 c.offset.start bs ∧
        IsFile ⟨w.nodes, s'⟩ lo slo m sc n gs (x.2.map fun b => (b.1, .own b.2)) ∧ ScopesOK s' ∧
        ∀ y g, lastDef x.2 y = some g → Sane (AsciiBetween p.src) g) := by
  cases hf with
  | @mk _ _ _ a b i _ _ ps _ _ hl hs hm hla ha hlb hb' hli hi hps hsc =>
    have hA := alike_script (d := AsciiBetween p.src) hne hm ha hb' hi hps hgs
    have hlt : sc < w.st.sctxs.length := hsc.lt
    have hD : Defined w.nodes (AsciiBetween p.src) (m + 1) c.scope sc (vars w.st) bs :=
      ⟨inScope_own hsc rfl (fun _ => rfl) hlt, heapOf_ok.mpr hok, hu, hbs⟩
    have hS := run_like (cfg := cfg) (n := fuel) (c := c) (p := p) (stop := stop) (s := w.st) (C := fun _ => True) hA ?_ ?_ ?_ hb
      .whole hD hc hcut (fun _ _ => trivial) ?_
    · refine hS.mono ?_
      rintro r s' ⟨x, bs'⟩ ⟨h1, h2, h3, h4⟩
      refine ⟨h1, h2, h4, ?_, heapOf_ok.mp h3.ok, h3.sane⟩
      exact .mk hl hs hm hla ha hlb hb' hli hi hps (inScope_own h3.defs rfl (fun _ => rfl) h3.lt)
    · intro x k y k' h
      cases h with
      | gram hb hs => exact built_shape hb hs
      | whole => rw [table_at hm]; exact ⟨_, .seq⟩
      | inside => rw [table_at ha]; exact ⟨_, .within⟩
      | flat => rw [table_at hb']; exact ⟨_, .flat⟩
      | all => rw [table_at hi]; exact ⟨_, .seq⟩
    · intro x k y k' l f h he
      cases h with
      | gram hb hs => exact gramExpr_re hs he
      | _ => cases he
    · intro x k y k' h l a b e he
      cases h with
      | gram hb hs => exact gramExpr_delim hs he
      | _ => cases he
    · rintro k ⟨x, y, k', h⟩ z - t hz
      have inner : ∀ t, w.st.lookup sc z = some (.matcher t) →
          ∃ k y k', Matched w.nodes (AsciiBetween p.src) (m + 1) c.scope sc m a b i n gs t k y k' := by
        intro t hz
        rcases hD.get z with ⟨-, h2⟩ | ⟨g, t', h1, h2, h3⟩
        · rw [show (heapOf (vars w.st)).lookup sc z = w.st.lookup sc z from rfl, hz] at h2
          cases h2
        · rw [show (heapOf (vars w.st)).lookup sc z = w.st.lookup sc z from rfl, hz] at h2
          cases h2
          exact ⟨_, _, _, .gram h3 (hbs _ _ h1)⟩
      have outer : w.st.lookup c.scope z = some (.matcher t) →
          ∃ k y k', Matched w.nodes (AsciiBetween p.src) (m + 1) c.scope sc m a b i n gs t k y k' := by
        intro hz
        cases hfree _ _ hz
        exact ⟨_, _, _, .whole⟩
      cases h with
      | gram => exact inner _ hz
      | flat => exact inner _ hz
      | all => exact inner _ hz
      | whole => exact outer hz
      | inside => exact outer hz

end Adx.Interp
