import Verif.Proofs.ScriptRank
import Verif.Spec.Thrift
/-
  What the reference interpreter costs at most.
-/
namespace Adx.Interp

open Peg (Cuts Cut)

section
variable {N σ : Type} {G : Grammar N} {nm : Names σ N} {S : N → Nat → Prop} {I : σ → Prop} {Z : N → Nat → Prop}
  {p : Parser} {stop start B K L : Nat} {ev : Ev N σ} {wk : N → Nat → Nat → σ → Nat}

theorem partsWork_le (hev : EvOk p stop S I Z ev) {k : Nat} {ms : List N} (hms : ∀ m ∈ ms, S m k)
    (hwk : ∀ m ∈ ms, ∀ q st, Cut p.src stop q → start ≤ q → I st → wk m k q st ≤ B) :
    ∀ {r : Run} {st : σ}, RunOk p.src stop start r → I st → partsWork ev wk k ms r st ≤ ms.length * B := by
  induction ms with
  | nil => intro r st _ _; exact Nat.zero_le _
  | cons m ms ih =>
    intro r st h hi
    have h1 := hwk m (by simp) r.pos st h.pos h.le hi
    have hrest : ∀ x st', ev m k r.pos st = some (x, st') → partsWork ev wk k ms (r.take x) st' ≤ ms.length * B := by
      intro x st' hx
      obtain ⟨hg, hi', -⟩ := hev m k (hms m (by simp)) _ _ h.pos hi _ hx
      exact ih (fun y hy => hms y (by simp [hy])) (fun y hy => hwk y (by simp [hy])) (h.take hg) hi'
    have : partsWork ev wk k (m :: ms) r st ≤ B + ms.length * B := by
      unfold partsWork
      split
      · omega
      · omega
      · omega
      · rename_i x st' _ _ hx
        have := hrest x st' hx
        omega
    rw [List.length_cons, Nat.succ_mul]
    omega

theorem chooseWork_le (hev : EvOk p stop S I Z ev) {k pos : Nat} (hpos : Cut p.src stop pos) {ms : List N}
    (hms : ∀ m ∈ ms, S m k) (hwk : ∀ m ∈ ms, ∀ st, I st → wk m k pos st ≤ B) :
    ∀ {st : σ}, I st → chooseWork ev wk k pos ms st ≤ ms.length * B := by
  induction ms with
  | nil => intro st _; exact Nat.zero_le _
  | cons m ms ih =>
    intro st hi
    have h1 := hwk m (by simp) st hi
    have h2 : ∀ x, ev m k pos st = some x → chooseWork ev wk k pos ms x.2 ≤ ms.length * B := fun x hx =>
      ih (fun y hy => hms y (by simp [hy])) (fun y hy => hwk y (by simp [hy])) (hev m k (hms m (by simp)) _ _ hpos hi _ hx).2.1
    rw [List.length_cons, Nat.succ_mul]
    unfold chooseWork
    split
    · rename_i st' hx
      have := h2 _ hx
      dsimp only at this
      omega
    · rename_i st' hx
      have := h2 _ hx
      dsimp only at this
      omega
    · omega

/-- Parts that all match move forward, or none of them does. -/
theorem parts_move (hev : EvOk p stop S I Z ev) {k : Nat} {ms : List N} (hms : ∀ m ∈ ms, S m k) :
    ∀ {r r' : Run} {st st' : σ}, RunOk p.src stop start r → I st → parts ev k ms r st = some (.all r', st') →
      r.pos < r'.pos ∨ (r'.pos = r.pos ∧ ∀ m ∈ ms, Z m k) := by
  induction ms with
  | nil => intro r r' st st' _ _ hp; cases hp; exact Or.inr ⟨rfl, fun _ h => by cases h⟩
  | cons m ms ih =>
    intro r r' st st' h hi hp
    obtain ⟨⟨x, st1⟩, hx, hp⟩ := Option.bind_eq_some_iff.mp hp
    obtain ⟨hg, hi', hz⟩ := hev m k (hms m (by simp)) _ _ h.pos hi _ hx
    dsimp only at hg hi' hz hp
    have key : x ≠ .fail → (∀ e, x ≠ .error e) → parts ev k ms (r.take x) st1 = some (.all r', st') →
        r.pos < r'.pos ∨ (r'.pos = r.pos ∧ ∀ y ∈ m :: ms, Z y k) := by
      intro h1 h2 h3
      have h4 := ih (fun y hy => hms y (by simp [hy])) (h.take hg) hi' h3
      rcases take_pos hg h1 h2 with ⟨rfl, h5⟩ | h5
      · rcases h4 with h4 | ⟨h4, h6⟩
        · exact Or.inl (by omega)
        · refine Or.inr ⟨by omega, fun y hy => ?_⟩
          rcases List.mem_cons.mp hy with rfl | hy
          · exact hz rfl
          · exact h6 y hy
      · exact Or.inl (by rcases h4 with h4 | ⟨h4, -⟩ <;> omega)
    cases x with
    | fail => cases hp
    | error e => cases hp
    | _ => exact key nofun nofun hp

/-- Every round but the last moves forward. -/
theorem roundsWork_le (hev : EvOk p stop S I Z ev) {k : Nat} {ms : List N} (hms : ∀ m ∈ ms, S m k) {m : N} (hm : m ∈ ms)
    (hz : ¬ Z m k) (hwk : ∀ m ∈ ms, ∀ q st, Cut p.src stop q → start ≤ q → I st → wk m k q st ≤ B) {j : Nat} :
    ∀ {r : Run} {st : σ}, RunOk p.src stop start r → I st →
      roundsWork ev wk k ms j r st ≤ (stop - r.pos + 1) * (ms.length * B) := by
  induction j with
  | zero => intro r st _ _; exact Nat.zero_le _
  | succ j ih =>
    intro r st h hi
    have h1 := partsWork_le hev hms hwk h hi
    rw [Nat.succ_mul]
    unfold roundsWork
    split
    · rename_i r1 st1 hp
      obtain ⟨h2, hi1⟩ := parts_ok hev hms h hi hp
      rcases parts_move hev hms h hi hp with h3 | ⟨-, h3⟩
      · have h4 : roundsWork ev wk k ms j r1 st1 ≤ _ := ih h2 hi1
        have h5 := h2.pos.le.1
        have h6 : (stop - r1.pos + 1) * (ms.length * B) ≤ (stop - r.pos) * (ms.length * B) :=
          Nat.mul_le_mul_right _ (by omega)
        omega
      · exact (hz (h3 m hm)).elim
    · omega

theorem made_le (x : Result) : made x ≤ 1 := by
  unfold made
  split <;> omega

theorem madeBy_le (x : Option (Result × σ)) : madeBy x ≤ 1 := by
  cases x with
  | none => exact Nat.zero_le _
  | some x => exact made_le _

/-- The work at a level that goes down with every step. -/
theorem work_le (hC : Closed G nm S I) (hM : Modest G nm S I Z K) {lev : Nat → N → Nat → Nat}
    (hpos : ∀ n m k, 0 < lev (n + 1) m k)
    (hlev : ∀ n m k, S m k → ∀ x j, (G.expr m).Reaches nm I k x j → lev n x j < lev (n + 1) m k) :
    ∀ {n : Nat} {m : N} {k : Nat}, S m k → ∀ {pos : Nat} {st : σ}, Cut p.src stop pos → I st → stop - pos ≤ L →
      work G nm p stop n m k pos st ≤ ((L + 1) * K + 1) ^ lev n m k := by
  intro n
  induction n with
  | zero => intro m k _ pos st _ _ _; exact Nat.zero_le _
  | succ n ih =>
    intro m k hm pos st hcut hi hL
    have hev := eval_ok (p := p) (stop := stop) hC hM.idle n
    replace hi := hC.enter m k st hm hi
    have huse := hC.reaches m k hm
    have hnar := hM.narrow m k hm
    have hmov := hM.moves m k hm
    obtain ⟨l, hl⟩ : ∃ l, lev (n + 1) m k = l + 1 := ⟨lev (n + 1) m k - 1, by have := hpos n m k; omega⟩
    rw [hl]
    have hone : 1 ≤ ((L + 1) * K + 1) ^ l := Nat.pow_pos (Nat.succ_pos _)
    generalize hB : ((L + 1) * K + 1) ^ l = B at hone
    have hsub : ∀ x j, (G.expr m).Reaches nm I k x j → ∀ q st, Cut p.src stop q → pos ≤ q → I st →
        work G nm p stop n x j q st ≤ B := by
      intro x j hx q st hq hle hi
      refine Nat.le_trans (ih (huse x j hx) hq hi (by omega)) ?_
      rw [← hB]
      have := hlev n m k hm x j hx
      exact Nat.pow_le_pow_right (Nat.succ_pos _) (by omega)
    rw [Nat.pow_succ, hB, Nat.mul_succ, Nat.mul_comm B]
    have hleaf : ∀ x : Option (Result × σ), madeBy x ≤ (L + 1) * K * B + B := fun x => by have := madeBy_le x; omega
    have hgroup : ∀ a, a ≤ (L + 1) * ((G.expr m).uses.length * B) → 1 + a ≤ (L + 1) * K * B + B := by
      intro a ha
      have h1 : (L + 1) * ((G.expr m).uses.length * B) ≤ (L + 1) * (K * B) :=
        Nat.mul_le_mul_left _ (Nat.mul_le_mul_right _ hnar)
      rw [← Nat.mul_assoc] at h1
      rw [← Nat.mul_assoc (L + 1) K] at h1
      rw [← Nat.mul_assoc] at ha
      omega
    have hwide : ∀ a, a ≤ (G.expr m).uses.length * B → a ≤ (L + 1) * ((G.expr m).uses.length * B) := by
      intro a ha
      rw [Nat.succ_mul]
      exact Nat.le_trans ha (Nat.le_add_left _ _)
    show workExpr (eval G nm p stop n) (work G nm p stop n) nm p stop k pos (enter G nm m k st) (G.expr m) ≤ _
    generalize enter G nm m k st = st at hi
    cases hg : G.expr m with
    | lit name s => exact hleaf _
    | re name find => exact hleaf _
    | delim name a b e => exact hleaf _
    | empty => exact Nat.zero_le _
    | seq name ms =>
      rw [hg] at huse hsub hgroup hwide
      exact hgroup _ (hwide _ (partsWork_le hev (fun x hx => huse x k ⟨rfl, hx⟩) (fun x hx => hsub x k ⟨rfl, hx⟩)
        (RunOk.start' hcut) hi))
    | choice ms =>
      rw [hg] at huse hsub hgroup hwide
      exact hgroup _ (hwide _ (chooseWork_le hev hcut (fun x hx => huse x k ⟨rfl, hx⟩)
        (fun x hx st hi => hsub x k ⟨rfl, hx⟩ pos st hcut (Nat.le_refl _) hi) hi))
    | loop name ms lo hi' =>
      obtain ⟨x, hx, hn⟩ := hmov _ _ _ _ hg
      rw [hg] at huse hsub hgroup hwide
      refine hgroup _ (Nat.le_trans (roundsWork_le hev (fun x hx => huse x k ⟨rfl, hx⟩) hx hn
        (fun x hx => hsub x k ⟨rfl, hx⟩) (RunOk.start' hcut) hi) ?_)
      exact Nat.mul_le_mul_right _ (by show stop - pos + 1 ≤ _; omega)
    | opt x | neg x | flat x | jump x | rename _ x | give _ x =>
      rw [hg] at hsub
      have := hsub x k ⟨rfl, by simp [Expr.uses]⟩ pos st hcut (Nat.le_refl _) hi
      dsimp only [workExpr]
      omega
    | within j x =>
      rw [hg] at hsub
      have := hsub x j ⟨rfl, rfl⟩ pos st hcut (Nat.le_refl _) hi
      dsimp only [workExpr]
      omega
    | call x =>
      rw [hg] at hsub
      dsimp only [workExpr]
      split
      · rename_i m' hm'
        have := hsub m' k ⟨rfl, st, hi, hm'⟩ pos st hcut (Nat.le_refl _) hi
        omega
      · exact Nat.zero_le _
    | drop x =>
      rw [hg] at hsub hgroup hwide
      have h1 := hsub x k ⟨rfl, by simp [Expr.uses]⟩ pos st hcut (Nat.le_refl _) hi
      have h2 := madeBy_le (eval G nm p stop n x k pos st)
      have h3 := hgroup _ (hwide _ (show work G nm p stop n x k pos st ≤ 1 * B by omega))
      dsimp only [workExpr]
      omega

end

/-! ### Scripts -/

section
variable {P : Plan} {D K : Nat} {d : Quotes} {g g' : Gram} {gs : List Gram} {bs : List (Str × Gram)} {x l : Str}
  {Q : Gram → Prop} {F : Str → Gram → Prop}

theorem Expr.Reaches.imp {N σ : Type} {nm : Names σ N} {I J : σ → Prop} (hI : ∀ st, I st → J st) {e : Expr N} {k j : Nat} {x : N}
    (h : e.Reaches nm I k x j) : e.Reaches nm J k x j := by
  cases e with
  | call y => obtain ⟨h1, st, h2, h3⟩ := h; exact ⟨h1, st, hI st h2, h3⟩
  | _ => exact h

/-- What holds for the parts of a term as well, and for what a name stands for if the name is
given to a term. -/
structure Kept (Q : Gram → Prop) (F : Str → Gram → Prop) : Prop where
  part : ∀ {g g'}, Q g → g' ∈ Gram.parts g → Q g'
  label : ∀ {g l}, Q g → gramLabel g = some l → F l g

/-- The nonterminals of a script. -/
def KeptPart (Q : Gram → Prop) : Part → Prop
  | .gram g => Q g
  | .whole _ gs => ∀ g ∈ gs, Q g
  | .inside gs => ∀ g ∈ gs, Q g
  | .flat gs => ∀ g ∈ gs, Q g
  | .all gs => ∀ g ∈ gs, Q g

@[inherit_doc KeptPart]
def KeptDefs (Q : Gram → Prop) (F : Str → Gram → Prop) (bs : List (Str × Gram)) : Prop :=
  ∀ x g, lastDef bs x = some g → F x g ∧ Q g

theorem kept_closed (hQ : Kept Q F) : Closed scriptGrammar scriptNames (fun m k => FinePart P D d m k ∧ KeptPart Q m)
    (fun bs => FineDefs P D d bs ∧ KeptDefs Q F bs) where
  reaches m k hm x j h := by
    refine ⟨script_closed.reaches m k hm.1 x j (h.imp fun _ h => h.1), ?_⟩
    obtain ⟨hm, hq⟩ := hm
    cases m with
    | gram g =>
      obtain ⟨rfl, -⟩ := hm
      by_cases hr : ∃ n c y, g = .ref n c y
      · obtain ⟨n, c, y, rfl⟩ := hr
        obtain ⟨rfl, st, hi, h⟩ := h
        obtain ⟨g', h1, rfl⟩ := Option.map_eq_some_iff.mp (show (lastDef st y).map Part.gram = some x from h)
        exact (hi.2 y g' h1).2
      · have h' : x ∈ (gramExpr Part.gram g).uses := by
          cases g with
          | ref n c y => exact (hr ⟨n, c, y, rfl⟩).elim
          | group n c first gs => cases first <;> exact h.2
          | _ => exact h.2
        obtain ⟨g', h1, rfl⟩ := gramExpr_uses h'
        exact hQ.part (show Q g from hq) h1
    | whole n gs =>
      obtain ⟨rfl, h⟩ := h
      cases List.mem_singleton.mp h
      exact hq
    | inside gs =>
      obtain ⟨rfl, rfl⟩ := h
      exact hq
    | flat gs =>
      obtain ⟨rfl, h⟩ := h
      cases List.mem_singleton.mp h
      exact hq
    | all gs =>
      obtain ⟨rfl, h⟩ := h
      obtain ⟨g, h1, rfl⟩ := List.mem_map.mp h
      exact hq g h1
  enter m k st hm hi := by
    refine ⟨script_closed.enter m k st hm.1 hi.1, ?_⟩
    obtain ⟨hm, hq⟩ := hm
    replace hi := hi.2
    unfold Interp.enter
    cases m with
    | gram g =>
      obtain ⟨rfl, -⟩ := hm
      show KeptDefs Q F (match gramLabel g with | some l => _ | none => st)
      cases hl : gramLabel g with
      | none => exact hi
      | some l =>
        show KeptDefs Q F (st ++ [(l, g)])
        intro x g' hx
        rw [lastDef_append] at hx
        split at hx
        · rename_i he
          cases hx
          subst he
          exact ⟨hQ.label hq hl, hq⟩
        · exact hi x g' hx
    | _ => exact hi
  regex m k hm := script_closed.regex m k hm.1
  delim m k hm := script_closed.delim m k hm.1

/-! ### Terms -/

theorem spareAll_mem (h : P.spareAll K gs = true) (hg : g ∈ gs) : P.spare K g = true := by
  induction gs with
  | nil => cases hg
  | cons a gs ih =>
    unfold Plan.spareAll at h
    rw [Bool.and_eq_true] at h
    rcases List.mem_cons.mp hg with rfl | hg
    · exact h.1
    · exact ih h.2 hg

theorem part_spare (hg : P.spare K g = true) (h : g' ∈ Gram.parts g) : P.spare K g' = true := by
  cases g <;> simp only [Gram.parts, List.mem_singleton, List.not_mem_nil] at h
  case group =>
    unfold Plan.spare at hg
    rw [Bool.and_eq_true] at hg
    exact spareAll_mem hg.2 h
  case loop =>
    subst h
    unfold Plan.spare at hg
    rw [Bool.and_eq_true] at hg
    exact hg.2
  all_goals subst h; exact hg

theorem namedAll_mem (hg : g ∈ gs) {b : Str × Gram} (h : b ∈ named g) : b ∈ namedAll gs := by
  induction gs with
  | nil => cases hg
  | cons a gs ih =>
    unfold namedAll
    rw [List.mem_append]
    rcases List.mem_cons.mp hg with rfl | hg
    · exact Or.inl h
    · exact Or.inr (ih hg)

theorem named_part (hg : g' ∈ Gram.parts g) {b : Str × Gram} (h : b ∈ named g') : b ∈ named g := by
  cases g <;> simp only [Gram.parts, List.mem_singleton, List.not_mem_nil] at hg
  case group =>
    unfold named
    rw [List.mem_append]
    exact Or.inr (namedAll_mem hg h)
  all_goals subst hg; exact h

theorem named_label (h : gramLabel g = some l) : (l, g) ∈ named g := by
  cases g <;> simp only [gramLabel] at h <;> (try split at h) <;> (try cases h)
  all_goals
    unfold named
    simp [*]

theorem part_depth (h : g' ∈ Gram.parts g) : P.depth g' ≤ P.depth g := by
  cases g <;> simp only [Gram.parts, List.mem_singleton, List.not_mem_nil] at h
  case group n c first gs =>
    show P.depth g' ≤ P.depths gs
    induction gs with
    | nil => cases h
    | cons a gs ih =>
      unfold Plan.depths
      rcases List.mem_cons.mp h with rfl | h
      · exact Nat.le_max_left _ _
      · exact Nat.le_trans (ih h) (Nat.le_max_right _ _)
  all_goals subst h; exact Nat.le_refl _

mutual

theorem depth_le : ∀ g : Gram, P.depth g ≤ P.top + 1
  | .equals _ _ _ => Nat.zero_le _
  | .regex _ _ _ => Nat.zero_le _
  | .sequence _ _ _ _ _ => Nat.zero_le _
  | .ref _ _ _ => Nat.succ_le_succ level_le_top
  | .null => Nat.zero_le _
  | .group _ _ _ gs => depths_le gs
  | .loop _ _ g => depth_le g
  | .opt g => depth_le g
  | .not g => depth_le g
  | .discard g => depth_le g
  | .attrs _ g => depth_le g

theorem depths_le : ∀ gs : List Gram, P.depths gs ≤ P.top + 1
  | [] => Nat.zero_le _
  | g :: gs => by
    unfold Plan.depths
    exact Nat.max_le.mpr ⟨depth_le g, depths_le gs⟩

end

theorem spare_kept : Kept (fun g => P.spare K g = true) fun _ _ => True where
  part := part_spare
  label _ _ := trivial

/-- The names given in a term stand for terms of no greater depth than their level. -/
def Tiered (P : Plan) (g : Gram) : Prop := ∀ b ∈ named g, P.depth b.2 ≤ P.level b.1

theorem tiered_kept : Kept (fun g => P.spare K g = true ∧ Tiered P g) fun x g => P.depth g ≤ P.level x where
  part h hg := ⟨part_spare h.1 hg, fun b hb => h.2 b (named_part hg hb)⟩
  label h hl := h.2 _ (named_label hl)

/-! ### Costs -/

/-- A nonterminal for a list of patterns has no more than `K` of them. -/
def Slim (K : Nat) : Part → Prop
  | .gram _ => True
  | .whole _ gs => gs.length ≤ K
  | .inside gs => gs.length ≤ K
  | .flat gs => gs.length ≤ K
  | .all gs => gs.length ≤ K

theorem script_modest (hb : Blank P.blank) (hK : 0 < K) (hQ : ∀ g, Q g → P.spare K g = true) :
    Modest scriptGrammar scriptNames (fun m k => (FinePart P D d m k ∧ KeptPart Q m) ∧ Slim K m)
      (fun bs => FineDefs P D d bs ∧ KeptDefs Q F bs) (idlePart P) K where
  narrow m k hm := by
    cases m with
    | gram g =>
      have hs := hQ g hm.1.2
      show (gramExpr Part.gram g).uses.length ≤ K
      cases g with
      | group n c first gs =>
        unfold Plan.spare at hs
        rw [Bool.and_eq_true, decide_eq_true_iff] at hs
        cases first <;>
        · show (gs.map _).length ≤ K
          rw [List.length_map]
          exact hs.1
      | loop => exact hK
      | opt => exact hK
      | not => exact hK
      | discard => exact hK
      | attrs => exact hK
      | _ => exact Nat.zero_le _
    | whole n gs => exact hK
    | inside gs => exact hK
    | flat gs => exact hK
    | all gs =>
      show (gs.map _).length ≤ K
      rw [List.length_map]
      exact hm.2
  idle m k hm h := (script_ranked hb).idle m k hm.1.1 (by
    revert h
    cases scriptGrammar.expr m with
    | call y =>
      rintro ⟨st, m, hi, h⟩
      exact ⟨st, m, hi.1, h⟩
    | _ => exact fun h => h)
  moves m k hm name ms lo hi he := by
    cases m with
    | gram g =>
      have hs := hQ g hm.1.2
      cases g with
      | loop lo hi g =>
        cases he
        unfold Plan.spare at hs
        rw [Bool.and_eq_true, Bool.not_eq_true'] at hs
        refine ⟨_, List.mem_singleton.mpr rfl, ?_⟩
        show ¬ P.idle g = true
        rw [hs.1]
        exact Bool.false_ne_true
      | group n c first gs => cases first <;> cases he
      | _ => cases he
    | _ => cases he

theorem slim_closed (hQ : Kept Q F) : Closed scriptGrammar scriptNames (fun m k => (FinePart P D d m k ∧ KeptPart Q m) ∧ Slim K m)
    (fun bs => FineDefs P D d bs ∧ KeptDefs Q F bs) where
  reaches m k hm x j h := by
    refine ⟨(kept_closed hQ).reaches m k hm.1 x j h, ?_⟩
    obtain ⟨⟨hk, -⟩, hm⟩ := hm
    cases m with
    | gram g =>
      obtain ⟨rfl, -⟩ := hk
      by_cases hr : ∃ n c y, g = .ref n c y
      · obtain ⟨n, c, y, rfl⟩ := hr
        obtain ⟨rfl, st, hi, h⟩ := h
        obtain ⟨g', h1, rfl⟩ := Option.map_eq_some_iff.mp (show (lastDef st y).map Part.gram = some x from h)
        trivial
      · have h' : x ∈ (gramExpr Part.gram g).uses := by
          cases g with
          | ref n c y => exact (hr ⟨n, c, y, rfl⟩).elim
          | group n c first gs => cases first <;> exact h.2
          | _ => exact h.2
        obtain ⟨g', h1, rfl⟩ := gramExpr_uses h'
        trivial
    | whole n gs =>
      obtain ⟨rfl, h⟩ := h
      cases List.mem_singleton.mp h
      exact hm
    | inside gs =>
      obtain ⟨rfl, rfl⟩ := h
      exact hm
    | flat gs =>
      obtain ⟨rfl, h⟩ := h
      cases List.mem_singleton.mp h
      exact hm
    | all gs =>
      obtain ⟨rfl, h⟩ := h
      obtain ⟨g, h1, rfl⟩ := List.mem_map.mp h
      trivial
  enter m k st hm := (kept_closed hQ).enter m k st hm.1
  regex m k hm := (kept_closed hQ).regex m k hm.1
  delim m k hm := (kept_closed hQ).delim m k hm.1

variable {p : Parser} {stop pos fuel L : Nat} {n : Str}

/-- The cost of a script, by the depth of recursion. -/
theorem script_work_le (hb : Blank P.blank) (hK : 0 < K) (hgs : ∀ g ∈ gs, Fine P D d g) (hq : P.spareAll K gs = true)
    (hl : gs.length ≤ K) (hbs : FineDefs P D d bs) (hk : KeptDefs (fun g => P.spare K g = true) (fun _ _ => True) bs)
    (hpos : Cut p.src stop pos) :
    work scriptGrammar scriptNames p stop fuel (.whole n gs) 0 pos bs ≤ ((stop - pos + 1) * K + 1) ^ fuel :=
  work_le (lev := fun n _ _ => n) (slim_closed spare_kept) (script_modest hb hK fun _ h => h) (fun n _ _ => Nat.succ_pos n)
    (fun n _ _ _ _ _ _ => Nat.lt_succ_self n)
    (m := .whole n gs) (k := 0) ⟨⟨⟨rfl, hgs⟩, fun _ hg => spareAll_mem hq hg⟩, hl⟩ hpos ⟨hbs, hk⟩ (Nat.le_refl _)

/-- Levels of nonterminals. -/
def tierPart (P : Plan) (D : Nat) : Part → Nat
  | .gram g => P.depth g * (D + 1) + size g
  | .all _ => (P.top + 1) * (D + 1) + D + 1
  | .flat _ => (P.top + 1) * (D + 1) + D + 2
  | .inside _ => (P.top + 1) * (D + 1) + D + 3
  | .whole _ _ => (P.top + 1) * (D + 1) + D + 4

theorem tier_less {m x : Part} {k j : Nat}
    (hm : (FinePart P D d m k ∧ KeptPart (fun g => P.spare K g = true ∧ Tiered P g) m) ∧ Slim K m)
    (h : (scriptGrammar.expr m).Reaches scriptNames (fun bs => FineDefs P D d bs ∧
      KeptDefs (fun g => P.spare K g = true ∧ Tiered P g) (fun x g => P.depth g ≤ P.level x) bs) k x j) :
    tierPart P D x < tierPart P D m := by
  have hfine := script_closed.reaches m k hm.1.1 x j (h.imp fun _ h => h.1)
  cases m with
  | gram g =>
    obtain ⟨rfl, -⟩ := hm.1.1
    by_cases hr : ∃ n c y, g = .ref n c y
    · obtain ⟨n, c, y, rfl⟩ := hr
      obtain ⟨rfl, st, hi, h⟩ := h
      obtain ⟨g', h1, rfl⟩ := Option.map_eq_some_iff.mp (show (lastDef st y).map Part.gram = some x from h)
      have h4 := Nat.mul_le_mul_right (D + 1) (hi.2 y g' h1).1
      have h5 := hfine.2.size
      show P.depth g' * (D + 1) + size g' < (P.level y + 1) * (D + 1) + 0
      rw [Nat.succ_mul]
      omega
    · have h' : x ∈ (gramExpr Part.gram g).uses := by
        cases g with
        | ref n c y => exact (hr ⟨n, c, y, rfl⟩).elim
        | group n c first gs => cases first <;> exact h.2
        | _ => exact h.2
      obtain ⟨g', h1, rfl⟩ := gramExpr_uses h'
      have h3 := Nat.mul_le_mul_right (D + 1) (part_depth (P := P) h1)
      have h4 := part_size h1
      show P.depth g' * (D + 1) + size g' < P.depth g * (D + 1) + size g
      omega
  | whole n gs =>
    obtain ⟨rfl, h⟩ := h
    cases List.mem_singleton.mp h
    exact Nat.lt_succ_self _
  | inside gs =>
    obtain ⟨rfl, rfl⟩ := h
    exact Nat.lt_succ_self _
  | flat gs =>
    obtain ⟨rfl, h⟩ := h
    cases List.mem_singleton.mp h
    exact Nat.lt_succ_self _
  | all gs =>
    obtain ⟨rfl, h⟩ := h
    obtain ⟨g, h1, rfl⟩ := List.mem_map.mp h
    have h3 := Nat.mul_le_mul_right (D + 1) (depth_le (P := P) g)
    have h4 := hfine.2.size
    show P.depth g * (D + 1) + size g < (P.top + 1) * (D + 1) + D + 1
    omega

/-- The cost of a script, by the levels of names. -/
theorem script_work_tiers (hb : Blank P.blank) (hK : 0 < K) (hgs : ∀ g ∈ gs, Fine P D d g) (hq : P.spareAll K gs = true)
    (hl : gs.length ≤ K) (ht : ∀ g ∈ gs, Tiered P g) (hbs : FineDefs P D d bs)
    (hk : KeptDefs (fun g => P.spare K g = true ∧ Tiered P g) (fun x g => P.depth g ≤ P.level x) bs)
    (hpos : Cut p.src stop pos) :
    work scriptGrammar scriptNames p stop fuel (.whole n gs) 0 pos bs ≤
      ((stop - pos + 1) * K + 1) ^ ((P.top + 2) * (D + 1) + 4) := by
  have h1 : (P.top + 1) * (D + 1) + D + 4 + 1 = (P.top + 2) * (D + 1) + 4 := by
    rw [Nat.succ_mul (P.top + 1)]; omega
  rw [← h1]
  exact work_le (lev := fun _ m _ => tierPart P D m + 1) (slim_closed tiered_kept) (script_modest hb hK fun _ h => h.1)
    (fun _ m _ => Nat.succ_pos _) (fun _ m _ hm x j h => Nat.succ_lt_succ (tier_less hm h))
    (m := .whole n gs) (k := 0) ⟨⟨⟨rfl, hgs⟩, fun g hg => ⟨spareAll_mem hq hg, ht g hg⟩⟩, hl⟩ hpos ⟨hbs, hk⟩ (Nat.le_refl _)

end

end Adx.Interp
