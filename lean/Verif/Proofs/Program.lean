import Verif.Proofs.Step
import Verif.Spec.Program
/-
  The engine's programs satisfy, and are determined by, the big-step semantics of
  `Spec/Program.lean`.
-/
namespace Adx

theorem lowest_append (l : List Range) (r : Range) : lowest (l ++ [r]) = min (lowest l) (min r.start usizeMax) := by
  induction l with
  | nil => simp only [List.nil_append, lowest]; omega
  | cons x l ih => simp only [List.cons_append, lowest, ih]; omega

theorem highest_append (l : List Range) (r : Range) : highest (l ++ [r]) = max (highest l) r.stop := by
  induction l with
  | nil => simp only [List.nil_append, highest]; omega
  | cons x l ih => simp only [List.cons_append, highest, ih]; omega

theorem lowest_le (l : List Range) : lowest l ≤ usizeMax := by
  induction l with
  | nil => exact Nat.le_refl _
  | cons x l ih => simp only [lowest]; omega

theorem span_contain (l : List Range) (r : Range) : (span l).contain r = span (l ++ [r]) := by
  have := lowest_le l
  unfold span Range.contain
  rw [lowest_append, highest_append]
  congr 1
  · dsimp only; split <;> omega
  · dsimp only; split <;> omega

/-- The local variables of the engine that an accumulator stands for. -/
def Acc.ps (c : Ctx) (a : Acc) : PS := ⟨c.setStart a.pos, a.kids, span a.caps, span a.mats⟩

/-- What the engine's inner loop reports for the end of a pass. -/
inductive FlowOf (c : Ctx) (prog : TokId) (iter : Option (Nat × Nat)) : Out → State → Flow → State → Prop
  | done {a s} : FlowOf c prog iter (.done a) s (.next (a.ps c)) s
  | failsProgram {a s} (hi : iter = none) : FlowOf c prog iter (.fails a) s (.ret (.err .fail)) s
  | failsLoop {a s r s'} (hi : iter ≠ none) (h : Completes prog a s r s') :
      FlowOf c prog iter (.fails a) s (.ret r) s'
  | raises {e s} : FlowOf c prog iter (.raises e) s (.ret (.err (.error e))) s
  | acts {x a s} : FlowOf c prog iter (.acts x a) s (.action x (a.ps c)) s
  | picks {x s} : FlowOf c prog iter (.picks x) s (.ret (.ok x)) s

variable {T : Table} {cfg : Cfg} {c : Ctx} {sc : SCtxId} {s s' : State} {prog : TokId} {a : Acc}

theorem cover_ps (k : Token) : (a.ps c).cover k = (a.cover k).ps c := by
  simp only [Acc.ps, PS.cover, Acc.cover, span_contain]
  rfl

theorem isErr_iff {k : Token} : k.flagsEnabled IS_ERROR = true ↔ k.flags &&& IS_ERROR ≠ 0 := by
  unfold Token.flagsEnabled
  simp

theorem put_get {t : TokId} {k k' : Token} (h : s.toks[t]? = some k) : (s.put t k').toks[t]? = some k' := by
  have : t < s.toks.length := (List.getElem?_eq_some_iff.mp h).1
  simp [State.put, this]

theorem put_put {t : TokId} {k k' : Token} : (s.put t k).put t k' = s.put t k' := by
  simp [State.put]

theorem setCaptured_parent (k : Token) (r : Range) (p : Option TokId) :
    ({ k with parent := p } : Token).setCaptured r = { k.setCaptured r with parent := p } := by
  unfold Token.setCaptured
  cases k.kind <;> rfl

theorem prepToken_ok {t : TokId} {fwd upd : Bool} {u : Unit} :
    prepToken (a.ps c) t fwd upd s = .ok u s' ↔
      ∃ k, s.toks[t]? = some k ∧
        ((fwd = true ∧ upd = true) → k.flags &&& IS_ERROR = 0 → k.matched.stop ≠ a.pos) ∧
        ((k.flags &&& IS_ERROR ≠ 0 ∧ k.matched.start = k.matched.stop ∧
            s' = s.put t ((k.setCaptured ⟨lowest a.mats, k.matched.stop⟩).setMatched
              ⟨lowest a.mats, k.matched.stop⟩)) ∨
          (¬ (k.flags &&& IS_ERROR ≠ 0 ∧ k.matched.start = k.matched.stop) ∧ s' = s)) := by
  unfold prepToken
  rw [bind_ok]
  constructor
  · rintro ⟨k, s1, h, h1⟩
    obtain ⟨hk, rfl⟩ := getTok_ok.mp h
    refine ⟨k, hk, ?_⟩
    by_cases he : k.flagsEnabled IS_ERROR = true
    · have he' := isErr_iff.mp he
      rw [if_pos he] at h1
      refine ⟨fun _ h0 => (he' h0).elim, ?_⟩
      by_cases hz : k.matched.start = k.matched.stop
      · rw [if_pos hz] at h1
        obtain ⟨k', hk', rfl⟩ := modTok_ok.mp h1
        rw [hk] at hk'
        cases hk'
        exact Or.inl ⟨he', hz, rfl⟩
      · rw [if_neg hz] at h1
        obtain ⟨-, rfl⟩ := pure_ok'.mp h1
        exact Or.inr ⟨fun h => hz h.2, rfl⟩
    · have he' : ¬ k.flags &&& IS_ERROR ≠ 0 := fun h => he (isErr_iff.mpr h)
      rw [if_neg he] at h1
      by_cases hf : (fwd && upd && k.matched.stop == (a.ps c).ctx.offset.start) = true
      · rw [if_pos hf] at h1
        cases h1
      · rw [if_neg hf] at h1
        obtain ⟨-, rfl⟩ := pure_ok'.mp h1
        refine ⟨?_, Or.inr ⟨fun h => he' h.1, rfl⟩⟩
        rintro ⟨rfl, rfl⟩ _ hs
        apply hf
        simp [Acc.ps, Ctx.setStart, hs]
  · rintro ⟨k, hk, hf, h⟩
    refine ⟨k, s, getTok_ok.mpr ⟨hk, rfl⟩, ?_⟩
    rcases h with ⟨he, hz, rfl⟩ | ⟨hn, rfl⟩
    · rw [if_pos (isErr_iff.mpr he), if_pos hz]
      exact modTok_ok.mpr ⟨k, hk, rfl⟩
    · by_cases he : k.flagsEnabled IS_ERROR = true
      · have hz : ¬ k.matched.start = k.matched.stop := fun hz => hn ⟨isErr_iff.mp he, hz⟩
        rw [if_pos he, if_neg hz]
        rfl
      · have he' : k.flags &&& IS_ERROR = 0 := Classical.byContradiction fun h => he (isErr_iff.mpr h)
        rw [if_neg he, if_neg]
        · rfl
        · intro hx
          simp only [Bool.and_eq_true, beq_iff_eq] at hx
          exact hf hx.1 he' hx.2

theorem addToken_ok {t : TokId} {fwd upd : Bool} {ps' : PS} :
    addToken prog (a.ps c) t fwd upd s = .ok ps' s' ↔
      ∃ k, s.toks[t]? = some k ∧
        ((fwd = true ∧ upd = true) → k.flags &&& IS_ERROR = 0 → k.matched.stop ≠ a.pos) ∧
        ps' = (a.add upd t (k.adopted prog (lowest a.mats))).ps c ∧
        s' = s.put t (k.adopted prog (lowest a.mats)) := by
  have hps : ∀ (k' : Token) (p : Option TokId),
      (let ps := if upd then (a.ps c).cover k' else a.ps c
       ({ ps with children := ps.children ++ [t] } : PS)) =
        (a.add upd t { k' with parent := p }).ps c := by
    intro k' p
    cases upd
    · rfl
    · simp only [if_true, cover_ps, Acc.add]
      rfl
  unfold addToken
  rw [bind_ok]
  constructor
  · rintro ⟨_, s1, h1, h⟩
    obtain ⟨k, hk, hf, hs⟩ := prepToken_ok.mp h1
    refine ⟨k, hk, hf, ?_⟩
    replace h := bind_ok.mp h
    obtain ⟨k', s2, h2, h⟩ := h
    obtain ⟨hk', rfl⟩ := getTok_ok.mp h2
    replace h := bind_ok.mp h
    obtain ⟨_, s3, h3, h⟩ := h
    obtain ⟨k'', hk'', rfl⟩ := modTok_ok.mp h3
    rw [hk'] at hk''
    cases hk''
    obtain ⟨rfl, rfl⟩ := pure_ok'.mp h
    rcases hs with ⟨he, hz, rfl⟩ | ⟨hn, rfl⟩
    · rw [put_get hk] at hk'
      cases hk'
      have : k.adopted prog (lowest a.mats) = { (k.setCaptured ⟨lowest a.mats, k.matched.stop⟩).setMatched
          ⟨lowest a.mats, k.matched.stop⟩ with parent := some prog } := by
        unfold Token.adopted
        rw [if_pos ⟨he, hz⟩]
      rw [this]
      exact ⟨hps _ _, put_put⟩
    · rw [hk] at hk'
      cases hk'
      have : k.adopted prog (lowest a.mats) = { k with parent := some prog } := by
        unfold Token.adopted
        rw [if_neg hn]
      rw [this]
      exact ⟨hps _ _, rfl⟩
  · rintro ⟨k, hk, hf, rfl, rfl⟩
    by_cases hn : k.flags &&& IS_ERROR ≠ 0 ∧ k.matched.start = k.matched.stop
    · refine ⟨(), _, prepToken_ok.mpr ⟨k, hk, hf, Or.inl ⟨hn.1, hn.2, rfl⟩⟩, ?_⟩
      refine bind_ok.mpr ⟨_, _, getTok_ok.mpr ⟨put_get hk, rfl⟩, ?_⟩
      refine bind_ok.mpr ⟨(), _, modTok_ok.mpr ⟨_, put_get hk, rfl⟩, ?_⟩
      have : k.adopted prog (lowest a.mats) = { (k.setCaptured ⟨lowest a.mats, k.matched.stop⟩).setMatched
          ⟨lowest a.mats, k.matched.stop⟩ with parent := some prog } := by
        unfold Token.adopted
        rw [if_pos hn]
      rw [this]
      exact pure_ok'.mpr ⟨(hps _ _).symm, put_put.symm⟩
    · refine ⟨(), _, prepToken_ok.mpr ⟨k, hk, hf, Or.inr ⟨hn, rfl⟩⟩, ?_⟩
      refine bind_ok.mpr ⟨_, _, getTok_ok.mpr ⟨hk, rfl⟩, ?_⟩
      refine bind_ok.mpr ⟨(), _, modTok_ok.mpr ⟨_, hk, rfl⟩, ?_⟩
      have : k.adopted prog (lowest a.mats) = { k with parent := some prog } := by
        unfold Token.adopted
        rw [if_neg hn]
      rw [this]
      exact pure_ok'.mpr ⟨(hps _ _).symm, rfl⟩

theorem shouldDiscard_iff {k : Token} : k.shouldDiscard = true ↔ k.kind = .pin := by
  unfold Token.shouldDiscard
  cases k.kind <;> simp

theorem not_shouldDiscard_iff {k : Token} : k.shouldDiscard = false ↔ k.kind = .standard := by
  unfold Token.shouldDiscard
  cases k.kind <;> simp

theorem not_shouldDiscard_eq {k : Token} : (!k.shouldDiscard) = (k.kind == .standard) := by
  unfold Token.shouldDiscard
  cases k.kind <;> rfl

theorem extractLoop_ok {upd : Bool} {l : List TokId} {ps' : PS} :
    extractLoop prog upd l (a.ps c) s = .ok ps' s' ↔
      ∃ a', ps' = a'.ps c ∧ Splices prog upd l a s a' s' := by
  induction l generalizing a s with
  | nil =>
    constructor
    · intro h
      obtain ⟨rfl, rfl⟩ := pure_ok'.mp h
      exact ⟨a, rfl, .nil⟩
    · rintro ⟨a', rfl, h⟩
      cases h
      rfl
  | cons t l ih =>
    unfold extractLoop
    rw [bind_ok]
    constructor
    · rintro ⟨k, s1, h1, h⟩
      obtain ⟨hk, rfl⟩ := getTok_ok.mp h1
      split at h
      · rename_i hd
        obtain ⟨a', ha, hs⟩ := ih.mp h
        exact ⟨a', ha, .pin hk (shouldDiscard_iff.mp hd) hs⟩
      · rename_i hd
        replace h := bind_ok.mp h
        obtain ⟨ps1, s2, h2, h⟩ := h
        obtain ⟨k', hk', -, rfl, rfl⟩ := addToken_ok.mp h2
        rw [hk] at hk'
        cases hk'
        obtain ⟨a', ha, hs⟩ := ih.mp h
        exact ⟨a', ha, .kid hk (not_shouldDiscard_iff.mp (by simpa using hd)) hs⟩
    · rintro ⟨a', rfl, h⟩
      cases h with
      | pin hk hp h =>
        refine ⟨_, _, getTok_ok.mpr ⟨hk, rfl⟩, ?_⟩
        rw [if_pos (shouldDiscard_iff.mpr hp)]
        exact ih.mpr ⟨a', rfl, h⟩
      | kid hk hp h =>
        refine ⟨_, _, getTok_ok.mpr ⟨hk, rfl⟩, ?_⟩
        rw [if_neg (by rw [not_shouldDiscard_iff.mpr hp]; simp)]
        refine bind_ok.mpr ⟨_, _, addToken_ok.mpr ⟨_, hk, by simp, rfl, rfl⟩, ?_⟩
        exact ih.mpr ⟨a', rfl, h⟩

theorem addOffset_ok {pos p : Nat} {n : Int} :
    addOffset cfg pos n s = .ok p s' ↔ Moves cfg pos n p ∧ s' = s := by
  unfold addOffset Moves
  have hw : (usizeMax : Int) + 1 = 2 ^ 64 := by decide
  have hw' : usizeMax + 1 = 2 ^ 64 := by decide
  rw [hw]
  have h0 : 0 ≤ n % 2 ^ 64 := Int.emod_nonneg _ (by decide)
  have h1 : n % 2 ^ 64 < 2 ^ 64 := Int.emod_lt_of_pos _ (by decide)
  generalize hu : (n % 2 ^ 64).toNat = u
  have hun : (u : Int) = n % 2 ^ 64 := by omega
  rw [← hun]
  have hmod : (pos + n) % 2 ^ 64 = ((pos : Int) + u) % 2 ^ 64 := by
    rw [hun, Int.add_emod_emod]
  rw [hmod]
  split
  · rename_i hle
    rw [pure_ok']
    have : ((pos : Int) + u) % 2 ^ 64 = pos + u := Int.emod_eq_of_lt (by omega) (by omega)
    rw [this]
    constructor
    · rintro ⟨rfl, rfl⟩
      exact ⟨⟨by omega, fun _ => by omega⟩, rfl⟩
    · rintro ⟨⟨h, -⟩, rfl⟩
      exact ⟨by omega, rfl⟩
  · rename_i hle
    split
    · rename_i ho
      constructor
      · intro h; cases h
      · rintro ⟨⟨-, h⟩, -⟩
        have := h ho
        omega
    · rename_i ho
      rw [pure_ok', hw']
      constructor
      · rintro ⟨rfl, rfl⟩
        exact ⟨⟨by omega, fun h => (ho h).elim⟩, rfl⟩
      · rintro ⟨⟨h, -⟩, rfl⟩
        exact ⟨by omega, rfl⟩

theorem handleSkip_ok {start : Nat} {n : Int} {ps' : PS} :
    handleSkip cfg (a.ps c) start n s = .ok ps' s' ↔
      ∃ p, Moves cfg a.pos n p ∧ ps' = (a.jump start p).ps c ∧ s' = s := by
  have hps : ∀ p, ({ a.ps c with ctx := (a.ps c).ctx.setStart p, matched := (a.ps c).matched.contain ⟨start, p⟩ } : PS) =
      (a.jump start p).ps c := by
    intro p
    simp only [Acc.ps, Acc.jump, span_contain]
    rfl
  unfold handleSkip
  rw [bind_ok]
  constructor
  · rintro ⟨p, s1, h1, h⟩
    obtain ⟨hm, rfl⟩ := addOffset_ok.mp h1
    obtain ⟨rfl, rfl⟩ := pure_ok'.mp h
    exact ⟨p, hm, hps p, rfl⟩
  · rintro ⟨p, hm, rfl, rfl⟩
    exact ⟨p, s', addOffset_ok.mpr ⟨hm, rfl⟩, pure_ok'.mpr ⟨(hps p).symm, rfl⟩⟩

theorem handleToken_ok {t : TokId} {fwd upd : Bool} {ps' : PS} :
    handleToken prog (a.ps c) t fwd upd s = .ok ps' s' ↔
      ∃ k, s.toks[t]? = some k ∧
        ((fwd = true ∧ (upd && k.kind == .standard) = true) → k.flags &&& IS_ERROR = 0 →
          k.matched.stop ≠ a.pos) ∧
        ps' = (a.add (upd && k.kind == .standard) t (k.adopted prog (lowest a.mats))).ps c ∧
        s' = s.put t (k.adopted prog (lowest a.mats)) := by
  unfold handleToken
  rw [bind_ok]
  constructor
  · rintro ⟨k, s1, h1, h⟩
    obtain ⟨hk, rfl⟩ := getTok_ok.mp h1
    rw [not_shouldDiscard_eq] at h
    obtain ⟨k', hk', hf, hp, hs⟩ := addToken_ok.mp h
    rw [hk] at hk'
    cases hk'
    exact ⟨k, hk, hf, hp, hs⟩
  · rintro ⟨k, hk, hf, hp, hs⟩
    refine ⟨k, s, getTok_ok.mpr ⟨hk, rfl⟩, ?_⟩
    rw [not_shouldDiscard_eq]
    exact addToken_ok.mpr ⟨k, hk, hf, hp, hs⟩

theorem handleExtract_ok {t : TokId} {upd : Bool} {ps' : PS} :
    handleExtract prog (a.ps c) t upd s = .ok ps' s' ↔
      ∃ k a', s.toks[t]? = some k ∧ ps' = a'.ps c ∧
        Splices prog (upd && k.kind == .standard) k.children
          (if (upd && k.kind == .standard) then a.cover k else a) s a' s' := by
  have hif : ∀ (k : Token) (b : Bool), (if b then (a.ps c).cover k else a.ps c) = (if b then a.cover k else a).ps c := by
    intro k b
    cases b
    · rfl
    · simp only [if_true, cover_ps]
  unfold handleExtract
  rw [bind_ok]
  constructor
  · rintro ⟨k, s1, h1, h⟩
    obtain ⟨hk, rfl⟩ := getTok_ok.mp h1
    rw [not_shouldDiscard_eq, hif] at h
    obtain ⟨a', hp, hs⟩ := extractLoop_ok.mp h
    exact ⟨k, a', hk, hp, hs⟩
  · rintro ⟨k, a', hk, hp, hs⟩
    refine ⟨k, s, getTok_ok.mpr ⟨hk, rfl⟩, ?_⟩
    rw [not_shouldDiscard_eq, hif]
    exact extractLoop_ok.mpr ⟨a', hp, hs⟩

theorem finalize_false {r : R} {iter : Option (Nat × Nat)} {n : Nat} :
    finalizeProgram prog (a.ps c) iter n false s = .ok r s' ↔ Completes prog a s r s' := by
  unfold finalizeProgram
  rw [if_neg (by simp)]
  constructor
  · intro h
    split at h
    · rename_i hm
      obtain ⟨rfl, rfl⟩ := pure_ok'.mp h
      exact .nothing (Or.inr hm)
    · rename_i hm
      split at h
      · rename_i hc
        obtain ⟨rfl, rfl⟩ := pure_ok'.mp h
        exact .nothing (Or.inl hc)
      · rename_i hc
        replace h := bind_ok.mp h
        obtain ⟨_, s1, h1, h⟩ := h
        obtain ⟨k, hk, rfl⟩ := modTok_ok.mp h1
        obtain ⟨rfl, rfl⟩ := pure_ok'.mp h
        exact .token hc (fun h => hm (Or.inl h)) (fun h => hm (Or.inr h)) hk
  · intro h
    cases h with
    | nothing h =>
      by_cases hm : (a.ps c).captured.start = usizeMax ∨ (a.ps c).matched.start = usizeMax
      · rw [if_pos hm]; rfl
      · have : (a.ps c).children = [] := by
          rcases h with h | h
          · exact h
          · exact (hm h).elim
        rw [if_neg hm, if_pos this]
        rfl
    | token h1 h2 h3 hk =>
      have hm : ¬ ((a.ps c).captured.start = usizeMax ∨ (a.ps c).matched.start = usizeMax) := by
        rintro (h | h)
        · exact h2 h
        · exact h3 h
      have hc : ¬ (a.ps c).children = [] := h1
      rw [if_neg hm, if_neg hc]
      exact bind_ok.mpr ⟨(), _, modTok_ok.mpr ⟨_, hk, rfl⟩, rfl⟩

theorem finalize_true {r : R} {iter : Option (Nat × Nat)} {n : Nat} :
    finalizeProgram prog (a.ps c) iter n true s = .ok r s' ↔ Ends prog iter n a s r s' := by
  have hfin := finalize_false (s := s) (s' := s') (prog := prog) (a := a) (c := c) (r := r) (iter := iter) (n := n)
  unfold finalizeProgram at hfin ⊢
  rw [if_neg (by simp)] at hfin
  rw [if_pos rfl]
  cases iter with
  | none =>
    dsimp only
    rw [hfin]
    constructor
    · intro h
      exact .completes (by simp) h
    · intro h
      cases h with
      | skips hi => cases hi
      | short hi => cases hi
      | completes _ h => exact h
  | some lh =>
    obtain ⟨lo, hi⟩ := lh
    dsimp only
    constructor
    · intro h
      split at h
      · rename_i hc
        obtain ⟨rfl, rfl⟩ := pure_ok'.mp h
        obtain ⟨rfl, h2, h3⟩ := hc
        exact .skips rfl h2 h3
      · rename_i hc
        split at h
        · rename_i hl
          obtain ⟨rfl, rfl⟩ := pure_ok'.mp h
          exact .short rfl hl
        · rename_i hl
          refine .completes ?_ (hfin.mp h)
          intro lo' hi' heq
          cases heq
          exact ⟨by omega, hc⟩
    · intro h
      cases h with
      | skips hi hc hk =>
        cases hi
        rw [if_pos ⟨rfl, hc, hk⟩]
        rfl
      | short hi hc =>
        cases hi
        rw [if_neg (by omega), if_pos hc]
        rfl
      | completes h hr =>
        obtain ⟨h1, h2⟩ := h _ _ rfl
        have h2' : ¬ (lo = 0 ∧ n = 0 ∧ (a.ps c).children = []) := h2
        rw [if_neg h2', if_neg (by omega)]
        exact hfin.mpr hr

theorem handlePayload_ok {start : Nat} {x : Success} {ps' : PS} :
    handlePayload cfg prog (a.ps c) start x s = .ok ps' s' ↔
      ∃ a', ps' = a'.ps c ∧ TakesPayload cfg prog start x a s a' s' := by
  have hother : ∀ x : Success, (∀ t, x ≠ .token t) → (∀ t, x ≠ .proxyChildren t) → (∀ n, x ≠ .skip n) →
      (∃ a', ps' = a'.ps c ∧ TakesPayload cfg prog start x a s a' s') → ps' = a.ps c ∧ s' = s := by
    rintro x h1 h2 h3 ⟨a', rfl, h⟩
    cases h with
    | token _ => exact (h1 _ rfl).elim
    | proxy _ _ => exact (h2 _ rfl).elim
    | skip _ => exact (h3 _ rfl).elim
    | other _ => exact ⟨rfl, rfl⟩
  unfold handlePayload
  cases x with
  | token t =>
    dsimp only
    rw [handleToken_ok]
    constructor
    · rintro ⟨k, hk, -, rfl, rfl⟩
      exact ⟨_, rfl, by simpa using TakesPayload.token hk⟩
    · rintro ⟨a', rfl, h⟩
      cases h with
      | token hk => exact ⟨_, hk, by simp, by simp, rfl⟩
      | other h => exact (h.1 t rfl).elim
  | proxyChildren t =>
    dsimp only
    rw [handleExtract_ok]
    constructor
    · rintro ⟨k, a', hk, rfl, h⟩
      exact ⟨a', rfl, .proxy hk (by simpa using h)⟩
    · rintro ⟨a', rfl, h⟩
      cases h with
      | proxy hk h => exact ⟨_, a', hk, rfl, by simpa using h⟩
      | other h => exact (h.2.1 t rfl).elim
  | skip n =>
    dsimp only
    rw [handleSkip_ok]
    constructor
    · rintro ⟨p, hm, rfl, rfl⟩
      exact ⟨_, rfl, .skip hm⟩
    · rintro ⟨a', rfl, h⟩
      cases h with
      | skip hm => exact ⟨_, hm, rfl, rfl⟩
      | other h => exact (h.2.2 n rfl).elim
  | brk n d =>
    dsimp only
    rw [pure_ok']
    refine ⟨?_, hother _ (by simp) (by simp) (by simp)⟩
    rintro ⟨rfl, rfl⟩
    exact ⟨a, rfl, .other (by simp)⟩
  | cont n d =>
    dsimp only
    rw [pure_ok']
    refine ⟨?_, hother _ (by simp) (by simp) (by simp)⟩
    rintro ⟨rfl, rfl⟩
    exact ⟨a, rfl, .other (by simp)⟩
  | none =>
    dsimp only
    rw [pure_ok']
    refine ⟨?_, hother _ (by simp) (by simp) (by simp)⟩
    rintro ⟨rfl, rfl⟩
    exact ⟨a, rfl, .other (by simp)⟩
  | stop =>
    dsimp only
    rw [pure_ok']
    refine ⟨?_, hother _ (by simp) (by simp) (by simp)⟩
    rintro ⟨rfl, rfl⟩
    exact ⟨a, rfl, .other (by simp)⟩

/-- The behaviour of the parts of a program under the engine's recursion `f`. -/
def behavOf (f : ExecFn) (c : Ctx) (sc : SCtxId) (prog : TokId) : Behav := fun p pos s r s' =>
  f p { c.setStart pos with stack := prog :: c.stack } sc s = .ok r s'

variable {f : ExecFn} {start : Nat} {iter : Option (Nat × Nat)} {first : Bool}

theorem runPatterns_eq {n : Nat} {p : MatcherId} {rest : List MatcherId} {ps : PS} :
    runPatterns T cfg f prog sc start iter first n (p :: rest) ps = (do
      match ← f p { ps.ctx with stack := prog :: ps.ctx.stack } sc with
      | .ok (.token t) => do
        let tk ← getTok t
        if tk.shouldDiscard then runPatterns T cfg f prog sc start iter first n rest ps
        else if first then pure (.ret (.ok (.token t)))
        else do
          let ps ← handleToken prog ps t (T p).isConsuming (T p).isConsuming
          runPatterns T cfg f prog sc start iter first n rest ps
      | .ok (.proxyChildren t) => do
        let tk ← getTok t
        if tk.shouldDiscard then runPatterns T cfg f prog sc start iter first n rest ps
        else if first then pure (.ret (.ok (.proxyChildren t)))
        else do
          let ps ← handleExtract prog ps t (T p).isConsuming
          runPatterns T cfg f prog sc start iter first n rest ps
      | .ok (.skip k) =>
        if k > 0 ∧ first then pure (.ret (.ok (.skip k)))
        else if (T p).isConsuming then do
          let ps ← handleSkip cfg ps start k
          runPatterns T cfg f prog sc start iter first n rest ps
        else runPatterns T cfg f prog sc start iter first n rest ps
      | .ok x => pure (.action x ps)
      | .err e => do
        dbg ps.ctx 10
        match e with
        | .fail =>
          if first then runPatterns T cfg f prog sc start iter first n rest ps
          else if iter.isSome then do
            let r ← finalizeProgram prog ps iter n false
            pure (.ret r)
          else pure (.ret (.err .fail))
        | .error e => pure (.ret (.err (.error e)))) := rfl

/-- What the inner loop does with one result and the rest of the parts. -/
theorem runPatterns_cons {n : Nat} {p : MatcherId} {ps : List MatcherId} {fl : Flow}
    (hd : c.debug = 0) :
    runPatterns T cfg f prog sc start iter first n (p :: ps) (a.ps c) s = .ok fl s' ↔
      ∃ r s1, behavOf f c sc prog p a.pos s r s1 ∧
        ((∃ x, r = .ok x ∧ first = true ∧ Chosen x s1 ∧ fl = .ret (.ok x) ∧ s' = s1) ∨
         (∃ x a1 s2, r = .ok x ∧ (first = true → ¬ Chosen x s1) ∧
            Takes cfg prog start (T p).isConsuming x a s1 a1 s2 ∧
            runPatterns T cfg f prog sc start iter first n ps (a1.ps c) s2 = .ok fl s') ∨
         (∃ x, r = .ok x ∧ Control x ∧ fl = .action x (a.ps c) ∧ s' = s1) ∨
         (r = .err .fail ∧ first = true ∧
            runPatterns T cfg f prog sc start iter first n ps (a.ps c) s1 = .ok fl s') ∨
         (r = .err .fail ∧ first = false ∧ iter = none ∧ fl = .ret (.err .fail) ∧ s' = s1) ∨
         (∃ r', r = .err .fail ∧ first = false ∧ iter ≠ none ∧ Completes prog a s1 r' s' ∧ fl = .ret r') ∨
         (∃ e, r = .err (.error e) ∧ fl = .ret (.err (.error e)) ∧ s' = s1)) := by
  have hd' : (a.ps c).ctx.debug = 0 := hd
  rw [runPatterns_eq]
  rw [bind_ok]
  constructor
  · rintro ⟨r, s1, hb, h⟩
    refine ⟨r, s1, hb, ?_⟩
    cases r with
    | ok x =>
      cases x with
      | token t =>
        replace h := bind_ok.mp h
        obtain ⟨k, s2, h2, h⟩ := h
        obtain ⟨hk, rfl⟩ := getTok_ok.mp h2
        split at h
        · rename_i hp
          have hp := shouldDiscard_iff.mp hp
          refine Or.inr (Or.inl ⟨_, a, s2, rfl, ?_, .pin (Or.inl rfl) hk hp, h⟩)
          intro _ hc
          cases hc with
          | token hk' hp' =>
            rw [hk] at hk'
            cases hk'
            rw [hp] at hp'
            cases hp'
        · rename_i hp
          have hp := not_shouldDiscard_iff.mp (by simpa using hp)
          split at h
          · rename_i hf
            obtain ⟨rfl, rfl⟩ := pure_ok'.mp h
            exact Or.inl ⟨_, rfl, hf, .token hk hp, rfl, rfl⟩
          · rename_i hf
            replace h := bind_ok.mp h
            obtain ⟨ps1, s3, h3, h⟩ := h
            obtain ⟨k', hk', hfw, rfl, rfl⟩ := handleToken_ok.mp h3
            rw [hk] at hk'
            cases hk'
            simp only [hp, beq_self_eq_true, Bool.and_true] at hfw h
            refine Or.inr (Or.inl ⟨_, _, _, rfl, fun h => (hf h).elim, .token hk hp ?_, h⟩)
            intro hc h0
            exact hfw ⟨hc, hc⟩ h0
      | proxyChildren t =>
        replace h := bind_ok.mp h
        obtain ⟨k, s2, h2, h⟩ := h
        obtain ⟨hk, rfl⟩ := getTok_ok.mp h2
        split at h
        · rename_i hp
          have hp := shouldDiscard_iff.mp hp
          refine Or.inr (Or.inl ⟨_, a, s2, rfl, ?_, .pin (Or.inr rfl) hk hp, h⟩)
          intro _ hc
          cases hc with
          | proxy hk' hp' =>
            rw [hk] at hk'
            cases hk'
            rw [hp] at hp'
            cases hp'
        · rename_i hp
          have hp := not_shouldDiscard_iff.mp (by simpa using hp)
          split at h
          · rename_i hf
            obtain ⟨rfl, rfl⟩ := pure_ok'.mp h
            exact Or.inl ⟨_, rfl, hf, .proxy hk hp, rfl, rfl⟩
          · rename_i hf
            replace h := bind_ok.mp h
            obtain ⟨ps1, s3, h3, h⟩ := h
            obtain ⟨k', a', hk', rfl, hsp⟩ := handleExtract_ok.mp h3
            rw [hk] at hk'
            cases hk'
            simp only [hp, beq_self_eq_true, Bool.and_true] at hsp
            exact Or.inr (Or.inl ⟨_, _, _, rfl, fun h => (hf h).elim, .proxy hk hp hsp, h⟩)
      | skip k =>
        dsimp only at h
        split at h
        · rename_i hk
          obtain ⟨rfl, rfl⟩ := pure_ok'.mp h
          exact Or.inl ⟨_, rfl, hk.2, .skip hk.1, rfl, rfl⟩
        · rename_i hk
          have hnc : first = true → ¬ Chosen (.skip k) s1 := by
            intro hf hc
            cases hc with
            | skip hc => exact hk ⟨hc, hf⟩
          split at h
          · rename_i hcon
            replace h := bind_ok.mp h
            obtain ⟨ps1, s3, h3, h⟩ := h
            obtain ⟨p', hm, rfl, rfl⟩ := handleSkip_ok.mp h3
            exact Or.inr (Or.inl ⟨_, _, _, rfl, hnc, .skip hcon hm, h⟩)
          · rename_i hcon
            exact Or.inr (Or.inl ⟨_, _, _, rfl, hnc, .idle (by simpa using hcon), h⟩)
      | brk m d =>
        obtain ⟨rfl, rfl⟩ := pure_ok'.mp h
        exact Or.inr (Or.inr (Or.inl ⟨_, rfl, .brk, rfl, rfl⟩))
      | cont m d =>
        obtain ⟨rfl, rfl⟩ := pure_ok'.mp h
        exact Or.inr (Or.inr (Or.inl ⟨_, rfl, .cont, rfl, rfl⟩))
      | none =>
        obtain ⟨rfl, rfl⟩ := pure_ok'.mp h
        exact Or.inr (Or.inr (Or.inl ⟨_, rfl, .none, rfl, rfl⟩))
      | stop =>
        obtain ⟨rfl, rfl⟩ := pure_ok'.mp h
        exact Or.inr (Or.inr (Or.inl ⟨_, rfl, .stop, rfl, rfl⟩))
    | err e =>
      replace h := bind_ok.mp h
      obtain ⟨_, s2, h2, h⟩ := h
      obtain rfl := dbg_ok h2
      cases e with
      | fail =>
        dsimp only at h
        split at h
        · rename_i hf
          exact Or.inr (Or.inr (Or.inr (Or.inl ⟨rfl, hf, h⟩)))
        · rename_i hf
          have hf : first = false := by simpa using hf
          split at h
          · rename_i hi
            replace h := bind_ok.mp h
            obtain ⟨r', s3, h3, h⟩ := h
            obtain ⟨rfl, rfl⟩ := pure_ok'.mp h
            refine Or.inr (Or.inr (Or.inr (Or.inr (Or.inr (Or.inl ⟨r', rfl, hf, ?_, finalize_false.mp h3, rfl⟩)))))
            rintro rfl
            cases hi
          · rename_i hi
            obtain ⟨rfl, rfl⟩ := pure_ok'.mp h
            refine Or.inr (Or.inr (Or.inr (Or.inr (Or.inl ⟨rfl, hf, by simpa using hi, rfl, rfl⟩))))
      | error e =>
        obtain ⟨rfl, rfl⟩ := pure_ok'.mp h
        exact Or.inr (Or.inr (Or.inr (Or.inr (Or.inr (Or.inr ⟨e, rfl, rfl, rfl⟩)))))
  · rintro ⟨r, s1, hb, h⟩
    refine ⟨r, s1, hb, ?_⟩
    rcases h with ⟨x, rfl, hf, hc, rfl, rfl⟩ | ⟨x, a1, s2, rfl, hn, ht, h⟩ | ⟨x, rfl, hc, rfl, rfl⟩ |
      ⟨rfl, hf, h⟩ | ⟨rfl, hf, hi, rfl, rfl⟩ | ⟨r', rfl, hf, hi, hc, rfl⟩ | ⟨e, rfl, rfl, rfl⟩
    · cases hc with
      | token hk hp =>
        refine bind_ok.mpr ⟨_, _, getTok_ok.mpr ⟨hk, rfl⟩, ?_⟩
        rw [if_neg (by rw [not_shouldDiscard_iff.mpr hp]; simp), if_pos hf]
        rfl
      | proxy hk hp =>
        refine bind_ok.mpr ⟨_, _, getTok_ok.mpr ⟨hk, rfl⟩, ?_⟩
        rw [if_neg (by rw [not_shouldDiscard_iff.mpr hp]; simp), if_pos hf]
        rfl
      | skip hk =>
        dsimp only
        rw [if_pos ⟨hk, hf⟩]
        rfl
    · have hfirst : ∀ x, Chosen x s1 → (first = true → ¬ Chosen x s1) → ¬ first = true :=
        fun x hc h hf => h hf hc
      cases ht with
      | token hk hp hfw =>
        refine bind_ok.mpr ⟨_, _, getTok_ok.mpr ⟨hk, rfl⟩, ?_⟩
        rw [if_neg (by rw [not_shouldDiscard_iff.mpr hp]; simp), if_neg (hfirst _ (.token hk hp) hn)]
        refine bind_ok.mpr ⟨_, _, handleToken_ok.mpr ⟨_, hk, ?_, rfl, rfl⟩, ?_⟩
        · simp only [hp, beq_self_eq_true, Bool.and_true]
          exact fun h => hfw h.1
        · simp only [hp, beq_self_eq_true, Bool.and_true]
          exact h
      | pin hx hk hp =>
        rcases hx with rfl | rfl
        all_goals
          refine bind_ok.mpr ⟨_, _, getTok_ok.mpr ⟨hk, rfl⟩, ?_⟩
          rw [if_pos (shouldDiscard_iff.mpr hp)]
          exact h
      | proxy hk hp hsp =>
        refine bind_ok.mpr ⟨_, _, getTok_ok.mpr ⟨hk, rfl⟩, ?_⟩
        rw [if_neg (by rw [not_shouldDiscard_iff.mpr hp]; simp), if_neg (hfirst _ (.proxy hk hp) hn)]
        refine bind_ok.mpr ⟨_, _, handleExtract_ok.mpr ⟨_, _, hk, rfl, ?_⟩, h⟩
        simp only [hp, beq_self_eq_true, Bool.and_true]
        exact hsp
      | skip hcon hm =>
        dsimp only
        rw [if_neg (fun hk => hn hk.2 (.skip hk.1)), if_pos hcon]
        exact bind_ok.mpr ⟨_, _, handleSkip_ok.mpr ⟨_, hm, rfl, rfl⟩, h⟩
      | idle hcon =>
        dsimp only
        rw [if_neg (fun hk => hn hk.2 (.skip hk.1)), if_neg (by rw [hcon]; simp)]
        exact h
    · cases hc <;> rfl
    · refine bind_ok.mpr ⟨(), _, dbg_off hd', ?_⟩
      dsimp only
      rw [if_pos hf]
      exact h
    · refine bind_ok.mpr ⟨(), _, dbg_off hd', ?_⟩
      dsimp only
      rw [if_neg (by rw [hf]; simp), if_neg (by rw [hi]; simp)]
      rfl
    · refine bind_ok.mpr ⟨(), _, dbg_off hd', ?_⟩
      dsimp only
      rw [if_neg (by rw [hf]; simp), if_pos (Option.isSome_iff_ne_none.mpr hi)]
      exact bind_ok.mpr ⟨_, _, finalize_false.mpr hc, rfl⟩
    · exact bind_ok.mpr ⟨(), _, dbg_off hd', rfl⟩

theorem runPatterns_ok {n : Nat} {ps : List MatcherId} {fl : Flow} (hd : c.debug = 0) :
    runPatterns T cfg f prog sc start iter first n ps (a.ps c) s = .ok fl s' ↔
      ∃ o s1, Pass T cfg (behavOf f c sc prog) prog start first ps a s o s1 ∧
        FlowOf c prog iter o s1 fl s' := by
  induction ps generalizing a s with
  | nil =>
    constructor
    · intro h
      obtain ⟨rfl, rfl⟩ := pure_ok'.mp h
      exact ⟨_, _, .nil, .done⟩
    · rintro ⟨o, s1, hp, hf⟩
      cases hp
      cases hf
      rfl
  | cons p ps ih =>
    rw [runPatterns_cons hd]
    constructor
    · rintro ⟨r, s1, hb, h⟩
      rcases h with ⟨x, rfl, hf, hc, rfl, rfl⟩ | ⟨x, a1, s2, rfl, hn, ht, h⟩ | ⟨x, rfl, hc, rfl, rfl⟩ |
        ⟨rfl, hf, h⟩ | ⟨rfl, hf, hi, rfl, rfl⟩ | ⟨r', rfl, hf, hi, hc, rfl⟩ | ⟨e, rfl, rfl, rfl⟩
      · exact ⟨_, _, .picks hf hb hc, .picks⟩
      · obtain ⟨o, s3, hp, hfl⟩ := ih.mp h
        exact ⟨_, _, .takes hb hn ht hp, hfl⟩
      · exact ⟨_, _, .acts hb hc, .acts⟩
      · obtain ⟨o, s3, hp, hfl⟩ := ih.mp h
        exact ⟨_, _, .misses hf hb hp, hfl⟩
      · exact ⟨_, _, .fails hf hb, .failsProgram hi⟩
      · exact ⟨_, _, .fails hf hb, .failsLoop hi hc⟩
      · exact ⟨_, _, .raises hb, .raises⟩
    · rintro ⟨o, s1, hp, hfl⟩
      cases hp with
      | takes hb hn ht hp =>
        exact ⟨_, _, hb, Or.inr (Or.inl ⟨_, _, _, rfl, hn, ht, ih.mpr ⟨_, _, hp, hfl⟩⟩)⟩
      | picks hf hb hc =>
        cases hfl
        exact ⟨_, _, hb, Or.inl ⟨_, rfl, hf, hc, rfl, rfl⟩⟩
      | misses hf hb hp =>
        exact ⟨_, _, hb, Or.inr (Or.inr (Or.inr (Or.inl ⟨rfl, hf, ih.mpr ⟨_, _, hp, hfl⟩⟩)))⟩
      | fails hf hb =>
        cases hfl with
        | failsProgram hi =>
          exact ⟨_, _, hb, Or.inr (Or.inr (Or.inr (Or.inr (Or.inl ⟨rfl, hf, hi, rfl, rfl⟩))))⟩
        | failsLoop hi hc =>
          exact ⟨_, _, hb, Or.inr (Or.inr (Or.inr (Or.inr (Or.inr (Or.inl ⟨_, rfl, hf, hi, hc, rfl⟩)))))⟩
      | raises hb =>
        cases hfl
        exact ⟨_, _, hb, Or.inr (Or.inr (Or.inr (Or.inr (Or.inr (Or.inr ⟨_, rfl, rfl, rfl⟩)))))⟩
      | acts hb hc =>
        cases hfl
        exact ⟨_, _, hb, Or.inr (Or.inr (Or.inl ⟨_, rfl, hc, rfl, rfl⟩))⟩

theorem isTargetLoop_iff {self called : Str} :
    isTargetLoop iter self called = true ↔ Answers iter self called := by
  unfold isTargetLoop Answers
  cases iter <;> simp

/-- Every control action of a pass is a control action. -/
theorem Pass.acts_control {B : Behav} {ps : List MatcherId} {x : Success} {a1 : Acc} {s1 : State}
    (h : Pass T cfg B prog start first ps a s (.acts x a1) s1) : Control x := by
  generalize ho : Out.acts x a1 = o at h
  induction h with
  | nil => cases ho
  | takes _ _ _ _ ih => exact ih ho
  | picks => cases ho
  | misses _ _ _ ih => exact ih ho
  | fails => cases ho
  | raises => cases ho
  | acts _ hc => cases ho; exact hc

/-- Only a switch picks. -/
theorem Pass.not_picks {B : Behav} {ps : List MatcherId} {x : Success} {s1 : State}
    (h : Pass T cfg B prog start false ps a s (.picks x) s1) : False := by
  generalize ho : Out.picks x = o at h
  induction h with
  | nil => cases ho
  | takes _ _ _ _ ih => exact ih ho
  | picks hf => cases hf
  | misses hf => cases hf
  | fails => cases ho
  | raises => cases ho
  | acts => cases ho

/-- A switch does not fail because of one alternative. -/
theorem Pass.not_fails {B : Behav} {ps : List MatcherId} {a1 : Acc} {s1 : State}
    (h : Pass T cfg B prog start true ps a s (.fails a1) s1) : False := by
  generalize ho : Out.fails a1 = o at h
  induction h with
  | nil => cases ho
  | takes _ _ _ _ ih => exact ih ho
  | picks => cases ho
  | misses _ _ _ ih => exact ih ho
  | fails hf => cases hf
  | raises => cases ho
  | acts => cases ho

theorem runIterations_ok {self : Str} {ps : List MatcherId} {k n : Nat} {r : R} (hd : c.debug = 0) :
    runIterations T cfg f prog sc start self ps iter first k n (a.ps c) s = .ok r s' ↔
      Loops T cfg (behavOf f c sc prog) prog start self ps iter first k n a s r s' := by
  induction k generalizing a s n with
  | zero =>
    unfold runIterations
    rw [finalize_true]
    constructor
    · exact .over
    · intro h
      cases h
      assumption
  | succ k ih =>
    unfold runIterations
    rw [bind_ok]
    constructor
    · rintro ⟨fl, s1, h1, h⟩
      obtain ⟨o, s2, hp, hfl⟩ := (runPatterns_ok hd).mp h1
      cases hfl with
      | done => exact .next hp (ih.mp h)
      | failsProgram hi =>
        obtain ⟨rfl, rfl⟩ := pure_ok'.mp h
        exact .failsProgram hi hp
      | failsLoop hi hc =>
        obtain ⟨rfl, rfl⟩ := pure_ok'.mp h
        exact .failsLoop hi hp hc
      | raises =>
        obtain ⟨rfl, rfl⟩ := pure_ok'.mp h
        exact .raises hp
      | picks =>
        obtain ⟨rfl, rfl⟩ := pure_ok'.mp h
        exact .picks hp
      | @acts x a1 =>
        cases hp.acts_control with
        | @brk m d =>
          dsimp only at h
          split at h
          · rename_i hf
            obtain ⟨rfl, rfl⟩ := pure_ok'.mp h
            exact .switchBreak hf hp
          · rename_i hf
            have hf : first = false := by simpa using hf
            replace h := bind_ok.mp h
            obtain ⟨ps1, s3, h3, h⟩ := h
            obtain ⟨a2, rfl, ht⟩ := handlePayload_ok.mp h3
            replace h := bind_ok.mp h
            obtain ⟨r1, s4, h4, h⟩ := h
            have hc := finalize_false.mp h4
            split at h
            · rename_i hm
              obtain ⟨rfl, rfl⟩ := pure_ok'.mp h
              exact .breakHere hf hp ht (isTargetLoop_iff.mp hm) hc
            · rename_i hm
              have hm := fun h => hm (isTargetLoop_iff.mpr h)
              cases r1 with
              | ok x =>
                obtain ⟨rfl, rfl⟩ := pure_ok'.mp h
                exact .breakOut hf hp ht hm hc
              | err e =>
                obtain ⟨rfl, rfl⟩ := pure_ok'.mp h
                exact .breakNothing hf hp ht hm hc
        | @cont m d =>
          dsimp only at h
          split at h
          · rename_i hf
            obtain ⟨rfl, rfl⟩ := pure_ok'.mp h
            exact .switchContinue hf hp
          · rename_i hf
            have hf : first = false := by simpa using hf
            replace h := bind_ok.mp h
            obtain ⟨ps1, s3, h3, h⟩ := h
            obtain ⟨a2, rfl, ht⟩ := handlePayload_ok.mp h3
            split at h
            · rename_i hm
              exact .continueHere hf hp ht (isTargetLoop_iff.mp hm) (ih.mp h)
            · rename_i hm
              exact .continueElse hf hp ht (fun h => hm (isTargetLoop_iff.mpr h)) (finalize_false.mp h)
        | none => cases h
        | stop => exact .stops hp (finalize_true.mp h)
    · intro h
      cases h with
      | next hp hr => exact ⟨_, _, (runPatterns_ok hd).mpr ⟨_, _, hp, .done⟩, ih.mpr hr⟩
      | failsProgram hi hp => exact ⟨_, _, (runPatterns_ok hd).mpr ⟨_, _, hp, .failsProgram hi⟩, rfl⟩
      | failsLoop hi hp hc => exact ⟨_, _, (runPatterns_ok hd).mpr ⟨_, _, hp, .failsLoop hi hc⟩, rfl⟩
      | raises hp => exact ⟨_, _, (runPatterns_ok hd).mpr ⟨_, _, hp, .raises⟩, rfl⟩
      | picks hp => exact ⟨_, _, (runPatterns_ok hd).mpr ⟨_, _, hp, .picks⟩, rfl⟩
      | stops hp hc => exact ⟨_, _, (runPatterns_ok hd).mpr ⟨_, _, hp, .acts⟩, finalize_true.mpr hc⟩
      | switchBreak hf hp =>
        refine ⟨_, _, (runPatterns_ok hd).mpr ⟨_, _, hp, .acts⟩, ?_⟩
        dsimp only
        rw [if_pos hf]
        rfl
      | switchContinue hf hp =>
        refine ⟨_, _, (runPatterns_ok hd).mpr ⟨_, _, hp, .acts⟩, ?_⟩
        dsimp only
        rw [if_pos hf]
        rfl
      | breakHere hf hp ht hm hc =>
        refine ⟨_, _, (runPatterns_ok hd).mpr ⟨_, _, hp, .acts⟩, ?_⟩
        dsimp only
        rw [if_neg (by rw [hf]; simp)]
        refine bind_ok.mpr ⟨_, _, handlePayload_ok.mpr ⟨_, rfl, ht⟩, ?_⟩
        refine bind_ok.mpr ⟨_, _, finalize_false.mpr hc, ?_⟩
        rw [if_pos (isTargetLoop_iff.mpr hm)]
        rfl
      | breakOut hf hp ht hm hc =>
        refine ⟨_, _, (runPatterns_ok hd).mpr ⟨_, _, hp, .acts⟩, ?_⟩
        dsimp only
        rw [if_neg (by rw [hf]; simp)]
        refine bind_ok.mpr ⟨_, _, handlePayload_ok.mpr ⟨_, rfl, ht⟩, ?_⟩
        refine bind_ok.mpr ⟨_, _, finalize_false.mpr hc, ?_⟩
        rw [if_neg (fun h => hm (isTargetLoop_iff.mp h))]
        rfl
      | breakNothing hf hp ht hm hc =>
        refine ⟨_, _, (runPatterns_ok hd).mpr ⟨_, _, hp, .acts⟩, ?_⟩
        dsimp only
        rw [if_neg (by rw [hf]; simp)]
        refine bind_ok.mpr ⟨_, _, handlePayload_ok.mpr ⟨_, rfl, ht⟩, ?_⟩
        refine bind_ok.mpr ⟨_, _, finalize_false.mpr hc, ?_⟩
        rw [if_neg (fun h => hm (isTargetLoop_iff.mp h))]
        rfl
      | continueHere hf hp ht hm hr =>
        refine ⟨_, _, (runPatterns_ok hd).mpr ⟨_, _, hp, .acts⟩, ?_⟩
        dsimp only
        rw [if_neg (by rw [hf]; simp)]
        refine bind_ok.mpr ⟨_, _, handlePayload_ok.mpr ⟨_, rfl, ht⟩, ?_⟩
        rw [if_pos (isTargetLoop_iff.mpr hm)]
        exact ih.mpr hr
      | continueElse hf hp ht hm hc =>
        refine ⟨_, _, (runPatterns_ok hd).mpr ⟨_, _, hp, .acts⟩, ?_⟩
        dsimp only
        rw [if_neg (by rw [hf]; simp)]
        refine bind_ok.mpr ⟨_, _, handlePayload_ok.mpr ⟨_, rfl, ht⟩, ?_⟩
        rw [if_neg (fun h => hm (isTargetLoop_iff.mp h))]
        exact finalize_false.mpr hc

/-! Monotonicity in the behaviour of the parts, and its finite character. -/

theorem Pass.mono {B B' : Behav} (hB : ∀ p pos s r s', B p pos s r s' → B' p pos s r s')
    {ps : List MatcherId} {o : Out} (h : Pass T cfg B prog start first ps a s o s') :
    Pass T cfg B' prog start first ps a s o s' := by
  induction h with
  | nil => exact .nil
  | takes h hn ht _ ih => exact .takes (hB _ _ _ _ _ h) hn ht ih
  | picks hf h hc => exact .picks hf (hB _ _ _ _ _ h) hc
  | misses hf h _ ih => exact .misses hf (hB _ _ _ _ _ h) ih
  | fails hf h => exact .fails hf (hB _ _ _ _ _ h)
  | raises h => exact .raises (hB _ _ _ _ _ h)
  | acts h hc => exact .acts (hB _ _ _ _ _ h) hc

theorem Loops.mono {B B' : Behav} (hB : ∀ p pos s r s', B p pos s r s' → B' p pos s r s')
    {self : Str} {ps : List MatcherId} {k n : Nat} {r : R}
    (h : Loops T cfg B prog start self ps iter first k n a s r s') :
    Loops T cfg B' prog start self ps iter first k n a s r s' := by
  induction h with
  | over h => exact .over h
  | next hp _ ih => exact .next (hp.mono hB) ih
  | failsProgram hi hp => exact .failsProgram hi (hp.mono hB)
  | failsLoop hi hp hc => exact .failsLoop hi (hp.mono hB) hc
  | raises hp => exact .raises (hp.mono hB)
  | picks hp => exact .picks (hp.mono hB)
  | stops hp hc => exact .stops (hp.mono hB) hc
  | switchBreak hf hp => exact .switchBreak hf (hp.mono hB)
  | switchContinue hf hp => exact .switchContinue hf (hp.mono hB)
  | breakHere hf hp ht hm hc => exact .breakHere hf (hp.mono hB) ht hm hc
  | breakOut hf hp ht hm hc => exact .breakOut hf (hp.mono hB) ht hm hc
  | breakNothing hf hp ht hm hc => exact .breakNothing hf (hp.mono hB) ht hm hc
  | continueHere hf hp ht hm _ ih => exact .continueHere hf (hp.mono hB) ht hm ih
  | continueElse hf hp ht hm hc => exact .continueElse hf (hp.mono hB) ht hm hc

section Limit
variable {B : Nat → Behav} (hB : ∀ i j, i ≤ j → ∀ p pos s r s', B i p pos s r s' → B j p pos s r s')
include hB

theorem Pass.limit {ps : List MatcherId} {o : Out}
    (h : Pass T cfg (fun p pos s r s' => ∃ i, B i p pos s r s') prog start first ps a s o s') :
    ∃ i, Pass T cfg (B i) prog start first ps a s o s' := by
  induction h with
  | nil => exact ⟨0, .nil⟩
  | takes h hn ht _ ih =>
    obtain ⟨i, h⟩ := h
    obtain ⟨j, ih⟩ := ih
    exact ⟨max i j, .takes (hB i _ (Nat.le_max_left ..) _ _ _ _ _ h) hn ht
      (ih.mono (hB j _ (Nat.le_max_right ..)))⟩
  | picks hf h hc => obtain ⟨i, h⟩ := h; exact ⟨i, .picks hf h hc⟩
  | misses hf h _ ih =>
    obtain ⟨i, h⟩ := h
    obtain ⟨j, ih⟩ := ih
    exact ⟨max i j, .misses hf (hB i _ (Nat.le_max_left ..) _ _ _ _ _ h)
      (ih.mono (hB j _ (Nat.le_max_right ..)))⟩
  | fails hf h => obtain ⟨i, h⟩ := h; exact ⟨i, .fails hf h⟩
  | raises h => obtain ⟨i, h⟩ := h; exact ⟨i, .raises h⟩
  | acts h hc => obtain ⟨i, h⟩ := h; exact ⟨i, .acts h hc⟩

theorem Loops.limit {self : Str} {ps : List MatcherId} {k n : Nat} {r : R}
    (h : Loops T cfg (fun p pos s r s' => ∃ i, B i p pos s r s') prog start self ps iter first k n a s r s') :
    ∃ i, Loops T cfg (B i) prog start self ps iter first k n a s r s' := by
  induction h with
  | over h => exact ⟨0, .over h⟩
  | next hp _ ih =>
    obtain ⟨i, hp⟩ := hp.limit hB
    obtain ⟨j, ih⟩ := ih
    exact ⟨max i j, .next (hp.mono (hB i _ (Nat.le_max_left ..))) (ih.mono (hB j _ (Nat.le_max_right ..)))⟩
  | failsProgram hi hp => obtain ⟨i, hp⟩ := hp.limit hB; exact ⟨i, .failsProgram hi hp⟩
  | failsLoop hi hp hc => obtain ⟨i, hp⟩ := hp.limit hB; exact ⟨i, .failsLoop hi hp hc⟩
  | raises hp => obtain ⟨i, hp⟩ := hp.limit hB; exact ⟨i, .raises hp⟩
  | picks hp => obtain ⟨i, hp⟩ := hp.limit hB; exact ⟨i, .picks hp⟩
  | stops hp hc => obtain ⟨i, hp⟩ := hp.limit hB; exact ⟨i, .stops hp hc⟩
  | switchBreak hf hp => obtain ⟨i, hp⟩ := hp.limit hB; exact ⟨i, .switchBreak hf hp⟩
  | switchContinue hf hp => obtain ⟨i, hp⟩ := hp.limit hB; exact ⟨i, .switchContinue hf hp⟩
  | breakHere hf hp ht hm hc => obtain ⟨i, hp⟩ := hp.limit hB; exact ⟨i, .breakHere hf hp ht hm hc⟩
  | breakOut hf hp ht hm hc => obtain ⟨i, hp⟩ := hp.limit hB; exact ⟨i, .breakOut hf hp ht hm hc⟩
  | breakNothing hf hp ht hm hc => obtain ⟨i, hp⟩ := hp.limit hB; exact ⟨i, .breakNothing hf hp ht hm hc⟩
  | continueHere hf hp ht hm _ ih =>
    obtain ⟨i, hp⟩ := hp.limit hB
    obtain ⟨j, ih⟩ := ih
    exact ⟨max i j, .continueHere hf (hp.mono (hB i _ (Nat.le_max_left ..))) ht hm
      (ih.mono (hB j _ (Nat.le_max_right ..)))⟩
  | continueElse hf hp ht hm hc => obtain ⟨i, hp⟩ := hp.limit hB; exact ⟨i, .continueElse hf hp ht hm hc⟩

end Limit

/-- The behaviour of the parts of a program that started in context `c`: they are run
at the given position of the same window. -/
def partsOf (T : Table) (cfg : Cfg) (c : Ctx) (sc : SCtxId) (prog : TokId) : Behav :=
  fun p pos s r s' => Runs T cfg p { c.setStart pos with stack := prog :: c.stack } sc s r s'

theorem iterCount_eq : iterCount iter = maxPasses iter := by
  cases iter <;> rfl

/-- The engine's `Program`, `Switch` and `Loop` are the big-step semantics. -/
theorem program_iff {m : MatcherId} {ps : List MatcherId} {name : Str} {cu : Bool} {r : R}
    (hm : T m = .program ps name cu iter first) (hd : c.debug = 0) :
    Runs T cfg m c sc s r s' ↔
      ProgramRuns T cfg (partsOf T cfg c sc) c.parser c.offset.start name ps iter first
        (entered T m sc s) r s' := by
  generalize hs1 : entered T m sc s = s1
  have hstep : ∀ n, exec T cfg (n + 1) m c sc s = .ok r s' ↔
      ProgramRuns T cfg (behavOf (exec T cfg n) (c.withName name) sc) c.parser c.offset.start name ps
        iter first s1 r s' := by
    intro n
    rw [exec_succ, hm, hs1]
    show execProgram T cfg (exec T cfg n) ps name iter first c sc s1 = _ ↔ _
    unfold execProgram
    rw [bind_ok]
    have hps : (⟨c.withName name, [], ⟨usizeMax, 0⟩, ⟨usizeMax, 0⟩⟩ : PS) =
        Acc.ps (c.withName name) (.start c.offset.start) := rfl
    constructor
    · rintro ⟨prog, s2, h2, h⟩
      obtain ⟨rfl, rfl⟩ := newTok_ok.mp h2
      rw [hps, runIterations_ok (by exact hd), iterCount_eq] at h
      exact h
    · intro h
      refine ⟨_, _, newTok_ok.mpr ⟨rfl, rfl⟩, ?_⟩
      rw [hps, runIterations_ok (by exact hd), iterCount_eq]
      exact h
  have hpart : ∀ n p pos s r s', behavOf (exec T cfg n) (c.withName name) sc s1.toks.length p pos s r s' ↔
      exec T cfg n p { c.setStart pos with stack := s1.toks.length :: c.stack } sc s = .ok r s' := by
    intro n p pos s r s'
    unfold behavOf
    rw [← exec_name (c := { c.setStart pos with stack := s1.toks.length :: c.stack }) n name]
    rfl
  constructor
  · rintro ⟨n, hn⟩
    cases n with
    | zero => cases hn
    | succ n =>
      have := (hstep n).mp hn
      exact this.mono (fun p pos s r s' h => ⟨n, (hpart n p pos s r s').mp h⟩)
  · intro h
    have h' : Loops T cfg (fun p pos s r s' =>
        ∃ n, behavOf (exec T cfg n) (c.withName name) sc s1.toks.length p pos s r s') _ _ _ _ _ _ _ _ _ _ _ _ :=
      h.mono (fun p pos s r s' ⟨n, h⟩ => ⟨n, (hpart n p pos s r s').mpr h⟩)
    obtain ⟨n, hn⟩ := h'.limit (fun i j hij p pos s r s' h => by
      rw [hpart] at h ⊢
      rw [C06_depth_independent hij (by rw [h]; simp), h])
    exact ⟨n + 1, (hstep n).mpr hn⟩

end Adx
