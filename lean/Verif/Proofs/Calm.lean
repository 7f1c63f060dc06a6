import Verif.Spec.Total
import Verif.Proofs.Import
/-
  When the builder of grammar scripts panics.
-/
namespace Adx

/-- Every normal outcome satisfies `Q`, the message of a panic satisfies `P`, and no outcome
implies `D`. -/
def Calm {α : Type} (P : String → Prop) (D : Prop) (x : C α) (toks : List Token) (ns : List Node)
    (Q : α → List Node → Prop) : Prop :=
  match x toks ns with
  | .ok a ns => Q a ns
  | .err _ => True
  | .panic m => P m
  | .diverge => D

namespace Calm
variable {α β : Type} {P : String → Prop} {D : Prop} {toks : List Token} {ns : List Node}

theorem bind {x : C α} {f : α → C β} {Q : β → List Node → Prop}
    (h : Calm P D x toks ns (fun a ns => Calm P D (f a) toks ns Q)) : Calm P D (x >>= f) toks ns Q := by
  unfold Calm at *
  have he : (x >>= f) toks ns = C.bind' x f toks ns := rfl
  rw [he]
  unfold C.bind'
  cases hx : x toks ns with
  | ok a ns' => rw [hx] at h; exact h
  | err _ => trivial
  | panic _ => rw [hx] at h; exact h
  | diverge => rw [hx] at h; exact h

theorem pure {a : α} {Q : α → List Node → Prop} (h : Q a ns) : Calm P D (Pure.pure a : C α) toks ns Q := h

theorem err {e : Str} {Q : α → List Node → Prop} : Calm P D (C.err e : C α) toks ns Q := trivial

theorem panic {m : String} {Q : α → List Node → Prop} (h : P m) : Calm P D (C.panic m : C α) toks ns Q := h

theorem tok {t : TokId} {k : Token} {Q : Token → List Node → Prop} (hk : toks[t]? = some k) (h : Q k ns) :
    Calm P D (C.tok t) toks ns Q := by
  unfold Calm C.tok
  rw [hk]
  exact h

theorem ofOpt {m : String} {o : Option α} {Q : α → List Node → Prop} (h : ∀ a, o = some a → Q a ns)
    (he : o = none → P m) : Calm P D (C.ofOpt m o) toks ns Q := by
  cases o with
  | none => exact he rfl
  | some a => exact h a rfl

theorem child {k : Token} {i : Nat} {Q : TokId → List Node → Prop} (hi : i < k.children.length)
    (h : ∀ c, k.children[i]? = some c → c ∈ k.children → Q c ns) : Calm P D (C.child k i) toks ns Q :=
  ofOpt (fun c hc => h c hc (List.mem_of_getElem? hc)) fun hn => by
    rw [List.getElem?_eq_getElem hi] at hn; cases hn

theorem mk {n : Node} {Q : MatcherId → List Node → Prop} (h : Q ns.length (ns ++ [n])) : Calm P D (C.mk n) toks ns Q := h

theorem mono {x : C α} {Q Q' : α → List Node → Prop} (h : Calm P D x toks ns Q) (hq : ∀ a ns, Q a ns → Q' a ns) :
    Calm P D x toks ns Q' := by
  unfold Calm at *
  cases hx : x toks ns with
  | ok a ns' => rw [hx] at h; exact hq _ _ h
  | err _ => trivial
  | panic _ => rw [hx] at h; exact h
  | diverge => rw [hx] at h; exact h

theorem weaken {x : C α} {Q : α → List Node → Prop} {P' : String → Prop} (h : Calm P D x toks ns Q) (hp : ∀ m, P m → P' m) :
    Calm P' D x toks ns Q := by
  unfold Calm at *
  cases hx : x toks ns with
  | ok a ns' => rw [hx] at h; exact h
  | err _ => trivial
  | panic _ => rw [hx] at h; exact hp _ h
  | diverge => rw [hx] at h; exact h

theorem of_post {x : C α} {Q : α → List Node → Prop} (h : CPost x toks ns Q False D) : Calm P D x toks ns Q := by
  unfold Calm CPost at *
  cases hx : x toks ns with
  | ok a ns' => rw [hx] at h; exact h
  | err _ => trivial
  | panic _ => rw [hx] at h; exact h.elim
  | diverge => rw [hx] at h; exact h

theorem and_post {x : C α} {Q Q' : α → List Node → Prop} {E D' : Prop} (h : Calm P D x toks ns Q) (h' : CPost x toks ns Q' E D') :
    Calm P D x toks ns (fun a ns => Q a ns ∧ Q' a ns) := by
  unfold Calm CPost at *
  cases hx : x toks ns with
  | ok a ns' => rw [hx] at h h'; exact ⟨h, h'⟩
  | err _ => trivial
  | panic _ => rw [hx] at h; exact h
  | diverge => rw [hx] at h; exact h

theorem findChild {k : Token} {n : String} {Q : Option TokId → List Node → Prop}
    (h : ∀ c, First toks [n] k.children c → Q (some c) ns)
    (hn : Absent toks [n] k.children → Q none ns) : Calm P D (C.findChild k n) toks ns Q :=
  of_post (CPost.findChild h hn)

theorem findChildOf {k : Token} {names : List String} {Q : Option TokId → List Node → Prop}
    (h : ∀ c, First toks names k.children c → Q (some c) ns)
    (hn : Absent toks names k.children → Q none ns) : Calm P D (C.findChildOf k names) toks ns Q :=
  of_post (CPost.findChildOf h hn)

theorem hasChild {k : Token} {n : String} {Q : Bool → List Node → Prop} (h : ∀ b : Bool, Q b ns) :
    Calm P D (C.hasChild k n) toks ns Q := h _

theorem parseUsize {s : Str} {Q : Nat → List Node → Prop} (h : ∀ n, Q n ns) : Calm P D (C.parseUsize s) toks ns Q := by
  unfold C.parseUsize
  cases Adx.parseUsize s with
  | none => trivial
  | some n => exact h n

end Calm

/-- The tokens `l`, and with them their children, are all there and as the builder expects
them. -/
def Fed (src : Str) (toks : List Token) (l : List TokId) : Prop :=
  ∀ u ∈ l, ∃ k, toks[u]? = some k ∧ Sound src toks k ∧ ∀ c ∈ k.children, c ∈ l

theorem HasNamed.not_absent {toks : List Token} {k : Token} {n : String} (h : HasNamed toks k n) :
    ¬ Absent toks [n] k.children := by
  obtain ⟨c, hc, hn⟩ := h
  exact fun ha => ha c hc n (by simp) hn

theorem First.hasNamed {toks : List Token} {k : Token} {n : String} {c : TokId} (h : First toks [n] k.children c) :
    HasNamed toks k n := by
  obtain ⟨j, hj, m, hm, hn⟩ := h.exists_
  refine ⟨c, h.mem, ?_⟩
  rw [List.mem_singleton] at hm
  subst hm
  rw [nameAt_of hj, hn]

theorem First.name {toks : List Token} {n : String} {cs : List TokId} {c : TokId} (h : First toks [n] cs c) :
    ∃ k, toks[c]? = some k ∧ k.name = n.toList := by
  obtain ⟨j, hj, m, hm, hn⟩ := h.exists_
  rw [List.mem_singleton] at hm
  subst hm
  exact ⟨j, hj, hn⟩

section
variable {env : Env} {src : Str} {toks : List Token} {l : List TokId} {P : String → Prop} {D : Prop}

theorem Fed.sound (h : Fed src toks l) {u : TokId} (hu : u ∈ l) {k : Token} (hk : toks[u]? = some k) : Sound src toks k := by
  obtain ⟨k', hk', hs, -⟩ := h u hu
  cases hk.symm.trans hk'
  exact hs

theorem Fed.children (h : Fed src toks l) {u : TokId} (hu : u ∈ l) {k : Token} (hk : toks[u]? = some k) :
    ∀ c ∈ k.children, c ∈ l := by
  obtain ⟨k', hk', -, hc⟩ := h u hu
  cases hk.symm.trans hk'
  exact hc

theorem calm_children {pat : TokId → C (MatcherId × MatcherId)} {D : TokId → Prop} (hp : PatOk env toks pat D)
    (hc : ∀ t ∈ l, ∀ ns, Calm P True (pat t) toks ns fun _ _ => True) {into : MatcherId} (cs : List TokId) :
    ∀ {ns : List Node}, (∀ c ∈ cs, c ∈ l) → IsProgram ns into →
      Calm P True (constructChildren pat into cs) toks ns fun _ _ => True := by
  induction cs with
  | nil => intro ns _ _; exact Calm.pure trivial
  | cons c cs ih =>
    intro ns hl hi
    unfold constructChildren
    apply Calm.bind
    refine ((hc c (hl c (by simp)) ns).and_post (hp c ns)).mono ?_
    rintro p ns1 ⟨-, hpre, -⟩
    apply Calm.bind
    obtain ⟨ps, n, c', i, f, hn⟩ := hi.prefix hpre
    unfold Calm C.addPattern
    dsimp only
    rw [hn]
    exact ih (fun c hc => hl c (List.mem_cons_of_mem _ hc)) (hi.prefix hpre).set

theorem calm_inner (hf : Fed src toks l) {pat : TokId → C (MatcherId × MatcherId)} {D : TokId → Prop} (hp : PatOk env toks pat D)
    (hc : ∀ t ∈ l, ∀ ns, Calm (Cause env toks l) True (pat t) toks ns fun _ _ => True) {t : TokId} (ht : t ∈ l) (ns : List Node) :
    Calm (Cause env toks l) True (constructInner env pat t) toks ns fun _ _ => True := by
  obtain ⟨k, hk, hs, hch⟩ := hf t ht
  have getc : ∀ {c}, c ∈ k.children → ∃ ck, toks[c]? = some ck := fun hc => by
    obtain ⟨ck, h, -⟩ := hf _ (hch _ hc)
    exact ⟨ck, h⟩
  have hat : ∀ nd : Node, (ns ++ [nd])[ns.length]? = some nd := fun nd => by simp
  unfold constructInner
  apply Calm.bind
  refine Calm.tok hk ?_
  split
  · rename_i hn
    apply Calm.bind
    refine Calm.child (hs.literal hn) fun c hc hm => ?_
    obtain ⟨ck, hck⟩ := getc hm
    apply Calm.bind
    refine Calm.tok hck ?_
    dsimp only
    split
    · exact Calm.err
    · exact Calm.mk trivial
  split
  · rename_i hn
    dsimp only
    split
    · exact Calm.err
    rename_i hv
    have hrest : ∀ v, RegexText toks k v →
        Calm (Cause env toks l) True (do
            let re ← C.ofOpt "called `Result::unwrap()` on an `Err` value" (env.regex v)
            C.mk (.regex "Matches".toList false re)) toks ns fun _ _ => True := by
      intro v hv'
      apply Calm.bind
      exact Calm.ofOpt (fun _ _ => Calm.mk trivial) fun he => .regex ht hk hn hv hv' he
    apply Calm.bind
    refine Calm.findChild ?_ ?_
    · intro f hf
      obtain ⟨fk, hfk, -⟩ := hf.exists_
      dsimp only
      apply Calm.bind
      refine Calm.tok hfk ?_
      apply Calm.bind
      exact Calm.pure (hrest _ (.flags hf hfk))
    · intro hf
      apply Calm.bind
      exact Calm.pure (hrest _ (.plain hf))
  split
  · rename_i hn
    have hlen := hs.sequence hn
    apply Calm.bind
    refine Calm.child (Nat.lt_of_lt_of_le (by decide) hlen) fun a ha hma => ?_
    obtain ⟨ak, hak⟩ := getc hma
    apply Calm.bind
    refine Calm.tok hak ?_
    apply Calm.bind
    refine Calm.child (Nat.lt_of_lt_of_le (by decide) hlen) fun b hb hmb => ?_
    obtain ⟨bk, hbk⟩ := getc hmb
    apply Calm.bind
    refine Calm.tok hbk ?_
    apply Calm.bind
    refine Calm.child (Nat.lt_of_lt_of_le (by decide) hlen) fun e he hme => ?_
    obtain ⟨ek, hek⟩ := getc hme
    apply Calm.bind
    refine Calm.tok hek ?_
    split
    · rename_i hv
      exact Calm.panic (.start ht hk hn ha hak hv)
    split
    · rename_i hv
      exact Calm.panic (.stop ht hk hn hb hbk hv)
    · exact Calm.mk trivial
  split
  · rename_i hn
    apply Calm.bind
    refine Calm.child (hs.custom hn) fun c hc hm => ?_
    obtain ⟨ck, hck⟩ := getc hm
    apply Calm.bind
    refine Calm.tok hck ?_
    dsimp only
    split
    · exact Calm.err
    · exact Calm.mk trivial
  split
  · split
    · exact Calm.mk trivial
    · apply Calm.bind
      apply Calm.mk
      apply Calm.bind
      exact (calm_children hp hc _ hch ⟨_, _, _, _, _, hat _⟩).mono fun _ _ _ => Calm.pure trivial
  split
  · split
    · exact Calm.mk trivial
    · apply Calm.bind
      apply Calm.mk
      apply Calm.bind
      exact (calm_children hp hc _ hch ⟨_, _, _, _, _, hat _⟩).mono fun _ _ _ => Calm.pure trivial
  · exact Calm.err

theorem calm_attributes (hf : Fed src toks l) (cs : List TokId) (hcs : ∀ c ∈ cs, c ∈ l)
    (hn : ∀ c ∈ cs, nameAt toks c = some "Attribute".toList) :
    ∀ (m : AMap Str) (ns : List Node), Calm P D (collectAttributes cs m) toks ns fun _ _ => True := by
  induction cs with
  | nil => intro m ns; exact Calm.pure trivial
  | cons c cs ih =>
    intro m ns
    obtain ⟨k, hk, hs, hch⟩ := hf c (hcs c (by simp))
    have hname : k.name = "Attribute".toList := by
      have := hn c (by simp)
      rw [nameAt_of hk] at this
      exact Option.some.inj this
    have hlen := hs.attr hname
    unfold collectAttributes
    apply Calm.bind
    refine Calm.tok hk ?_
    apply Calm.bind
    refine Calm.child (Nat.lt_of_lt_of_le (by decide) hlen) fun a ha hma => ?_
    obtain ⟨ak, hak, -⟩ := hf a (hch _ hma)
    apply Calm.bind
    refine Calm.tok hak ?_
    apply Calm.bind
    refine Calm.child (Nat.lt_of_lt_of_le (by decide) hlen) fun b hb hmb => ?_
    obtain ⟨bk, hbk, -⟩ := hf b (hch _ hmb)
    apply Calm.bind
    refine Calm.tok hbk ?_
    exact ih (fun c hc => hcs c (List.mem_cons_of_mem _ hc)) (fun c hc => hn c (List.mem_cons_of_mem _ hc)) _ _

theorem calm_withAttributes (hf : Fed src toks l) {k : Token} (hch : ∀ c ∈ k.children, c ∈ l) (m : MatcherId) (ns : List Node) :
    Calm P D (withAttributes k m) toks ns fun _ _ => True := by
  unfold withAttributes
  apply Calm.bind
  refine Calm.findChild ?_ fun _ => Calm.pure trivial
  intro a ha
  obtain ⟨ak, hak, hn⟩ := ha.name
  have hal := hch _ ha.mem
  apply Calm.bind
  refine Calm.tok hak ?_
  split
  · apply Calm.bind
    exact (calm_attributes hf _ (hf.children hal hak) ((hf.sound hal hak).attrs hn) _ _).mono fun _ _ _ => Calm.mk trivial
  · exact Calm.pure trivial

theorem calm_repeat (hf : Fed src toks l) {t : TokId} (ht : t ∈ l) (ns : List Node) :
    Calm P D (getRepeatSpecifierRange t) toks ns fun _ _ => True := by
  obtain ⟨k, hk, hs, hch⟩ := hf t ht
  unfold getRepeatSpecifierRange
  apply Calm.bind
  refine Calm.tok hk ?_
  split
  · exact Calm.pure trivial
  split
  · exact Calm.pure trivial
  split
  · rename_i hn
    apply Calm.bind
    refine Calm.findChild ?_ fun h => ((hs.repeats hn).not_absent h).elim
    intro a ha
    obtain ⟨ak, hak, -⟩ := ha.exists_
    apply Calm.bind
    refine Calm.pure ?_
    apply Calm.bind
    refine Calm.hasChild fun sep => ?_
    apply Calm.bind
    refine Calm.tok hak ?_
    apply Calm.bind
    refine Calm.parseUsize fun n => ?_
    split
    · apply Calm.bind
      refine Calm.findChild ?_ fun _ => Calm.pure trivial
      intro b hb
      obtain ⟨bk, hbk, -⟩ := hb.exists_
      apply Calm.bind
      refine Calm.tok hbk ?_
      apply Calm.bind
      refine Calm.parseUsize fun n => ?_
      split
      · exact Calm.err
      · exact Calm.pure trivial
    · exact Calm.pure trivial
  · exact Calm.err

theorem calm_withRepeat (hf : Fed src toks l) {k : Token} (hch : ∀ c ∈ k.children, c ∈ l) (m : MatcherId) (ns : List Node) :
    Calm P D (withRepeat k m) toks ns fun _ _ => True := by
  unfold withRepeat
  apply Calm.bind
  refine Calm.findChildOf ?_ fun _ => Calm.pure trivial
  intro r hr
  apply Calm.bind
  exact (calm_repeat hf (hch _ hr.mem) _).mono fun _ _ _ => Calm.mk trivial

theorem calm_withModifiers (o n : Bool) (m : MatcherId) (ns : List Node) :
    Calm P D (withModifiers o n m) toks ns fun _ _ => True := by
  unfold withModifiers
  split
  · exact Calm.mk trivial
  · split
    · exact Calm.mk trivial
    · exact Calm.pure trivial

theorem calm_withDiscard (b : Bool) (m : MatcherId) (ns : List Node) :
    Calm P D (withDiscard b m) toks ns fun _ _ => True := by
  unfold withDiscard
  split
  · exact Calm.pure trivial
  · exact Calm.mk trivial

theorem calm_definition (hf : Fed src toks l) {pat : TokId → C (MatcherId × MatcherId)} {D : TokId → Prop} (hp : PatOk env toks pat D)
    (hc : ∀ t ∈ l, ∀ ns, Calm (Cause env toks l) True (pat t) toks ns fun _ _ => True) {t : TokId} (ht : t ∈ l) (name : Str)
    (captured : Bool) (ns : List Node) :
    Calm (Cause env toks l) True (constructDefinition env pat t name captured) toks ns fun _ _ => True := by
  obtain ⟨k, hk, hs, hch⟩ := hf t ht
  unfold constructDefinition
  apply Calm.bind
  refine Calm.tok hk ?_
  split
  · exact Calm.err
  apply Calm.bind
  refine Calm.hasChild fun _ => ?_
  apply Calm.bind
  refine Calm.hasChild fun _ => ?_
  apply Calm.bind
  refine Calm.hasChild fun _ => ?_
  apply Calm.bind
  refine Calm.hasChild fun _ => ?_
  apply Calm.bind
  refine Calm.findChildOf ?_ fun _ => Calm.err
  intro mt hm
  apply Calm.bind
  refine ((calm_inner hf hp hc (hch _ hm.mem) ns).and_post (constructInner_spec hp mt ns)).mono ?_
  rintro inner ns1 ⟨-, hp1, hi, g, hg, hb⟩
  apply Calm.bind
  refine (Calm.of_post (setName_spec (D := True) hb hg.named hp1 hi)).mono fun _ ns2 _ => ?_
  apply Calm.bind
  refine (calm_withAttributes hf hch _ _).mono fun _ _ _ => ?_
  apply Calm.bind
  refine (calm_withModifiers _ _ _ _).mono fun _ _ _ => ?_
  apply Calm.bind
  refine (calm_withRepeat hf hch _ _).mono fun _ _ _ => ?_
  apply Calm.bind
  refine (calm_withModifiers _ _ _ _).mono fun _ _ _ => ?_
  apply Calm.bind
  exact (calm_withDiscard _ _ _).mono fun _ _ _ => Calm.pure trivial

theorem calm_pattern (hf : Fed src toks l) (d : Nat) : ∀ t ∈ l, ∀ ns,
    Calm (Cause env toks l) True (constructPattern env d t) toks ns fun _ _ => True := by
  induction d with
  | zero => intro t _ ns; trivial
  | succ d ih =>
    intro t ht ns
    obtain ⟨k, hk, hs, hch⟩ := hf t ht
    have hp := constructPattern_spec env toks d
    unfold constructPattern
    apply Calm.bind
    refine Calm.tok hk ?_
    split
    · rename_i hn
      obtain ⟨h1, h2⟩ := hs.captured hn
      apply Calm.bind
      refine Calm.findChild ?_ ?_
      · intro n hm
        obtain ⟨nk, hnk, hnn⟩ := hm.name
        have hnl := hch _ hm.mem
        apply Calm.bind
        refine Calm.tok hnk ?_
        apply Calm.bind
        refine Calm.child ((hf.sound hnl hnk).named hnn) fun c hc hcm => ?_
        obtain ⟨ck, hck, -⟩ := hf c (hf.children hnl hnk c hcm)
        apply Calm.bind
        refine Calm.tok hck ?_
        apply Calm.bind
        refine Calm.child (h2 hm.hasNamed) fun c hc hcm => ?_
        exact calm_definition hf hp ih (hch _ hcm) _ _ _
      · intro _
        apply Calm.bind
        refine Calm.child h1 fun c hc hcm => ?_
        exact calm_definition hf hp ih (hch _ hcm) _ _ _
    split
    · exact calm_definition hf hp ih ht _ _ _
    · exact Calm.err

theorem calm_scope (hf : Fed src toks l) {depth : Nat} {i : MatcherId} (cs : List TokId) : ∀ {ns : List Node}, (∀ c ∈ cs, c ∈ l) →
    IsProgram ns i → Calm (Cause env toks l) True (constructScope env depth i cs) toks ns fun _ _ => True := by
  induction cs with
  | nil => intro ns _ _; exact Calm.pure trivial
  | cons c cs ih =>
    intro ns hl hi
    obtain ⟨k, hk, -⟩ := hf c (hl c (by simp))
    have hl' := fun c hc => hl c (List.mem_cons_of_mem _ hc)
    unfold constructScope
    apply Calm.bind
    refine Calm.tok hk ?_
    dsimp only
    split
    · apply Calm.bind
      refine ((calm_pattern hf depth c (hl c (by simp)) ns).and_post (constructPattern_spec env toks depth c ns)).mono ?_
      rintro p ns1 ⟨-, hpre, -⟩
      apply Calm.bind
      obtain ⟨ps, n, c', j, f, hn⟩ := hi.prefix hpre
      unfold Calm C.addPattern
      dsimp only
      rw [hn]
      exact ih hl' (hi.prefix hpre).set
    · exact ih hl' hi

end

end Adx
