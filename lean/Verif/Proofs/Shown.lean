import Verif.Proofs.Kin
/-
  All calls inside a run start in heaps whose parents are older than their children: an engine
  that does the same in such heaps is the same.
-/
namespace Adx

variable {T : Table} {cfg : Cfg} {κ : Prop}

/-- Two ways to run matchers that do the same in heaps whose parents are older. -/
def SameOlder (f g : ExecFn) : Prop := ∀ m c sc s, Older s.toks → f m c sc s = g m c sc s

theorem bind_same {α β : Type} {x y : M α} {f g : α → M β} {s : State} (h : x s = y s)
    (hf : ∀ a s1, x s = .ok a s1 → f a s1 = g a s1) : (x >>= f) s = (y >>= g) s := by
  rw [bind_eq, bind_eq]
  unfold M.bind
  rw [← h]
  cases hx : x s with
  | ok a s1 => exact hf a s1 hx
  | panic e => rfl
  | diverge => rfl

section program

variable {f g : ExecFn} {n a : Nat} {prog : TokId} {sc : SCtxId} {iter : Option (Nat × Nat)} {first : Bool}

theorem runPatterns_older (hf : RecNest κ f) (hs : SameOlder f g) {lc : Nat} : ∀ (ms : List MatcherId) {s : State} {ps : PS},
    PSNest κ n prog s ps [] → Older s.toks →
      runPatterns T cfg f prog sc a iter first lc ms ps s = runPatterns T cfg g prog sc a iter first lc ms ps s := by
  intro ms
  induction ms with
  | nil => intro s ps _ _; rfl
  | cons m ms ih =>
    intro s ps h ho
    have hlen : n ≤ s.toks.length := Nat.le_trans h.n_le (Nat.le_of_lt h.lt)
    unfold runPatterns
    dsimp only
    refine bind_same (hs m _ sc s ho) fun r s1 hr => ?_
    obtain ⟨g1, ht⟩ := Post.of_ok (hf m _ sc s) hr
    have h' := h.keep g1
    have ho1 := g1.older ho
    cases r with
    | err e =>
      dsimp only
      refine bind_same rfl fun _ s2 hd => ?_
      obtain rfl : s2 = s1 := Post.of_ok (Post.dbgT (Q := fun _ s' => s' = s1) rfl) hd
      cases e with
      | error e => rfl
      | fail =>
        dsimp only
        split
        · exact ih h' ho1
        · rfl
    | ok x =>
      cases x with
      | token t =>
        dsimp only
        refine bind_same rfl fun k s2 hk => ?_
        obtain rfl : s2 = s1 := Post.of_ok (Post.getTok (Q := fun _ s' => s' = s1) (fun _ _ => rfl) (fun _ => trivial)) hk
        split
        · exact ih h' ho1
        · split
          · rfl
          · refine bind_same rfl fun ps2 s3 h3 => ?_
            obtain ⟨g2, h2⟩ := Post.of_ok (handleToken_nest (h.takes g1 (ht t rfl).choose_spec.1)) h3
            exact ih h2 (g2.older ho1)
      | proxyChildren t =>
        dsimp only
        refine bind_same rfl fun k s2 hk => ?_
        obtain rfl : s2 = s1 := Post.of_ok (Post.getTok (Q := fun _ s' => s' = s1) (fun _ _ => rfl) (fun _ => trivial)) hk
        split
        · exact ih h' ho1
        · split
          · rfl
          · refine bind_same rfl fun ps2 s3 h3 => ?_
            obtain ⟨g2, h2⟩ := Post.of_ok (handleExtract_nest (h.takes g1 (ht t rfl).choose_spec.1)) h3
            exact ih h2 (g2.older ho1)
      | skip k =>
        dsimp only
        split
        · rfl
        · split
          · refine bind_same rfl fun ps2 s3 h3 => ?_
            obtain ⟨g2, h2⟩ := Post.of_ok (handleSkip_nest h') h3
            exact ih h2 (g2.older ho1)
          · exact ih h' ho1
      | _ => rfl

theorem runIterations_older (hf : RecNest κ f) (hs : SameOlder f g) {self : Str} {ms : List MatcherId} :
    ∀ (k lc : Nat) {s : State} {ps : PS}, PSNest κ n prog s ps [] → Older s.toks →
      runIterations T cfg f prog sc a self ms iter first k lc ps s = runIterations T cfg g prog sc a self ms iter first k lc ps s := by
  intro k
  induction k with
  | zero => intro lc s ps _ _; rfl
  | succ k ih =>
    intro lc s ps h ho
    unfold runIterations
    dsimp only
    refine bind_same (runPatterns_older hf hs ms h ho) fun fl s1 hr => ?_
    obtain ⟨g1, hfl⟩ := Post.of_ok (runPatterns_nest hf ms h) hr
    have ho1 := g1.older ho
    cases fl with
    | ret r => rfl
    | next ps1 => exact ih (lc + 1) hfl ho1
    | action x ps1 =>
      obtain ⟨h1, hx⟩ := hfl
      cases x with
      | cont nm d =>
        dsimp only
        split
        · rfl
        · refine bind_same rfl fun ps2 s2 h2 => ?_
          obtain ⟨g2, h2⟩ := Post.of_ok (handlePayload_nest (d := d) h1 fun t ht => (hx t ht).1) h2
          split
          · exact ih (lc + 1) h2 (g2.older ho1)
          · rfl
      | _ => rfl

theorem execProgram_older (hf : RecNest κ f) (hs : SameOlder f g) {ms : List MatcherId} {name : Str} {c : Ctx} {s : State}
    (ho : Older s.toks) :
    execProgram T cfg f ms name iter first c sc s = execProgram T cfg g ms name iter first c sc s := by
  unfold execProgram
  refine bind_same rfl fun prog s1 h1 => ?_
  cases h1
  have hfl : (Token.mk' (c.withName name).parser name Range.blank).flags &&& IS_ERROR = 0 :=
    (by decide : (0 : Flags) &&& IS_ERROR = 0)
  have hp : (Token.mk' (c.withName name).parser name Range.blank).parent = none := rfl
  generalize Token.mk' (c.withName name).parser name Range.blank = k at hfl hp ⊢
  exact runIterations_older (n := s.toks.length) hf hs (iterCount iter) 0
    (ps := ⟨c.withName name, [], ⟨usizeMax, 0⟩, ⟨usizeMax, 0⟩⟩)
    ⟨Nat.le_refl _, ⟨k, List.getElem?_concat_length, hfl, hp⟩, ⟨[], Nest.nil⟩, fun _ u hu => by simp at hu⟩ (ho.newTok hp)

end program

/-- One step. -/
theorem execNode_older {f g : ExecFn} (hf : RecNest κ f) (hs : SameOlder f g) (nd : Node) (c : Ctx) (sc : SCtxId) (s : State)
    (ho : Older s.toks) : execNode T cfg f nd c sc s = execNode T cfg g nd c sc s := by
  have one : ∀ {m : MatcherId} {c : Ctx} {k : R → M R}, (f m c sc >>= k) s = (g m c sc >>= k) s :=
    fun {m c k} => bind_same (hs m c sc s ho) fun _ _ _ => rfl
  cases nd with
  | program ps name cu iter fs => exact execProgram_older hf hs ho
  | optional m => exact one
  | not m => exact one
  | discard m => exact one
  | proxyChildren m name cu => exact one
  | expandRange m => exact one
  | catch_ m h => exact one
  | map m sf ff => exact one
  | store m name cu => exact one
  | ref target name cu =>
    unfold execNode execRef
    dsimp only
    refine bind_same rfl fun v s1 hv => ?_
    obtain rfl : s1 = s := Post.of_ok (Post.fetchValue (Q := fun _ s' => s' = s) fun _ => rfl) hv
    cases v with
    | inr m => exact hs m _ sc _ ho
    | inl w =>
      dsimp only
      refine bind_same rfl fun v s2 hv => ?_
      obtain rfl : s2 = s1 := Post.of_ok (Post.lookupVar (p := True) (Q := fun _ s' => s' = s1) rfl) hv
      cases v with
      | none => rfl
      | some v => cases v with
        | matcher m => exact hs m _ sc _ ho
        | _ => rfl
  | setScope scope m =>
    unfold execNode execSetScope
    dsimp only
    cases scope with
    | some k => exact hs m _ k s ho
    | none =>
      dsimp only
      refine bind_same rfl fun _ s1 h1 => ?_
      cases h1
      exact bind_same (hs m _ _ _ ho) fun _ _ _ => rfl
  | pin m offset name cu =>
    unfold execNode execPin
    dsimp only
    refine bind_same rfl fun v s1 hv => ?_
    obtain rfl : s1 = s := Post.of_ok (Post.fetchValue (Q := fun _ s' => s' = s) fun _ => rfl) hv
    cases v with
    | inr m => rfl
    | inl w =>
      dsimp only
      have po : ∀ a b w s, Post True (parseOffset cfg a b w) s (fun _ s' => s' = s) := by
        intro a b w s
        unfold parseOffset
        split
        · exact Post.pure rfl
        · split
          · trivial
          · dsimp only
            split
            · trivial
            · repeat' split
              all_goals first | exact Post.pure rfl | trivial
      have pe : ∀ a b ps s, Post True (pinEnd cfg a b ps) s (fun _ s' => s' = s) := by
        intro a b ps s
        unfold pinEnd
        split
        · exact po _ _ _ _
        · exact Post.pure rfl
      refine bind_same rfl fun a s2 h2 => ?_
      obtain rfl : s2 = s1 := Post.of_ok (po _ _ _ _) h2
      refine bind_same rfl fun b s3 h3 => ?_
      obtain rfl : s3 = s2 := Post.of_ok (pe _ _ _ _) h3
      cases m with
      | none => rfl
      | some m => exact hs m _ sc _ ho
  | debug m mode =>
    unfold execNode execDebug
    dsimp only
    refine bind_same rfl fun v s1 hv => ?_
    obtain ⟨-, rfl⟩ := ofOpt_ok.mp hv
    cases m with
    | none => rfl
    | some m => exact hs m _ sc _ ho
  | _ => rfl

end Adx
