import Verif.Spec.RegexText
import Verif.Proofs.Text
/-
  The small matcher of `Model/Regex` finds what the text of a regular expression says.
-/
namespace Adx

/-- The predicate decides the set. -/
def Decides (u : Uni) (p : Char → Bool) (x : Cls) : Prop := ∀ c, p c = true ↔ InCls u c x

/-- The items of a sequence are those of the text. -/
inductive SameSeq (u : Uni) : List RxItem → List (Cls × Often) → Prop
  | nil : SameSeq u [] []
  | once {p x is js} (h : Decides u p x) (hs : SameSeq u is js) : SameSeq u (.one p :: is) ((x, .once) :: js)
  | star {p x is js} (h : Decides u p x) (hs : SameSeq u is js) : SameSeq u (.star p :: is) ((x, .star) :: js)
  | plus {p x is js} (h : Decides u p x) (hs : SameSeq u is js) :
      SameSeq u (.one p :: .star p :: is) ((x, .plus) :: js)

/-- A function that says how many bytes are matched, against what can and what does match. -/
structure RxAgrees (f : Str → Option Nat) (can does : Str → Str → Prop) : Prop where
  miss : ∀ s, f s = none → ∀ r, ¬ can s r
  hit : ∀ s n, f s = some n → ∃ t r, s = t ++ r ∧ blen t = n ∧ can s r ∧ does s r
  only : ∀ s r, does s r → can s r
  uniq : ∀ s r r', does s r → does s r' → r = r'

/-- What a starred set does. -/
def StarCan (u : Uni) (x : Cls) (can : Str → Str → Prop) (s r : Str) : Prop :=
  ∃ t s', s = t ++ s' ∧ (∀ c ∈ t, InCls u c x) ∧ can s' r

def StarDoes (u : Uni) (x : Cls) (can does : Str → Str → Prop) (s r : Str) : Prop :=
  ∃ t s', s = t ++ s' ∧ (∀ c ∈ t, InCls u c x) ∧ does s' r ∧
    ∀ t' s'', s = t' ++ s'' → t.length < t'.length → (∀ c ∈ t', InCls u c x) → ∀ r', ¬ can s'' r'

theorem split_append {a b c d : Str} (h : a ++ b = c ++ d) (hl : a.length = c.length) : a = c ∧ b = d :=
  List.append_inj h hl

theorem RxAgrees.star_miss {u : Uni} {p : Char → Bool} {x : Cls} {f : Str → Option Nat} {can does : Str → Str → Prop}
    (hp : Decides u p x) (h : RxAgrees f can does) : ∀ s, rxStar p f s = none → ∀ r, ¬ StarCan u x can s r := by
  intro s
  induction s with
  | nil =>
    rintro hs r ⟨t, s', he, ht, hc⟩
    obtain ⟨rfl, rfl⟩ := List.append_eq_nil_iff.mp he.symm
    exact h.miss _ hs _ hc
  | cons c cs ih =>
    intro hs r ⟨t, s', he, ht, hc⟩
    unfold rxStar at hs
    cases t with
    | nil =>
      cases he
      split at hs
      · split at hs
        · cases hs
        · exact h.miss _ hs _ hc
      · exact h.miss _ hs _ hc
    | cons d t =>
      obtain ⟨rfl, he'⟩ := List.cons.inj he
      have hpc : p c = true := (hp c).mpr (ht c (by simp))
      rw [if_pos hpc] at hs
      cases hx : rxStar p f cs with
      | some n => rw [hx] at hs; cases hs
      | none => exact ih hx r ⟨t, s', he', fun d hd => ht d (List.mem_cons_of_mem _ hd), hc⟩

theorem RxAgrees.star {u : Uni} {p : Char → Bool} {x : Cls} {f : Str → Option Nat} {can does : Str → Str → Prop}
    (hp : Decides u p x) (h : RxAgrees f can does) : RxAgrees (rxStar p f) (StarCan u x can) (StarDoes u x can does) where
  miss := RxAgrees.star_miss hp h
  hit := by
    intro s
    induction s with
    | nil =>
      intro n hs
      obtain ⟨t, r, he, hn, h1, h2⟩ := h.hit _ _ hs
      refine ⟨t, r, he, hn, ⟨[], [], rfl, by simp, h1⟩, [], [], rfl, by simp, h2, ?_⟩
      intro t' s'' he' hl
      obtain ⟨rfl, -⟩ := List.append_eq_nil_iff.mp he'.symm
      exact absurd hl (Nat.lt_irrefl _)
    | cons c cs ih =>
      intro n hs
      -- nothing is taken
      have stop : f (c :: cs) = some n →
          (∀ t' s'', c :: cs = t' ++ s'' → 0 < t'.length → (∀ c ∈ t', InCls u c x) → ∀ r', ¬ can s'' r') →
          ∃ t r, c :: cs = t ++ r ∧ blen t = n ∧ StarCan u x can (c :: cs) r ∧ StarDoes u x can does (c :: cs) r := by
        intro hf hno
        obtain ⟨t, r, he, hn, h1, h2⟩ := h.hit _ _ hf
        exact ⟨t, r, he, hn, ⟨[], c :: cs, rfl, by simp, h1⟩, [], c :: cs, rfl, by simp, h2, hno⟩
      unfold rxStar at hs
      by_cases hpc : p c = true
      · rw [if_pos hpc] at hs
        cases hx : rxStar p f cs with
        | none =>
          rw [hx] at hs
          refine stop hs ?_
          intro t' s'' he hl ht r' hc
          cases t' with
          | nil => exact absurd hl (Nat.lt_irrefl _)
          | cons d t' =>
            cases he
            exact RxAgrees.star_miss hp h _ hx _ ⟨t', s'', rfl, fun d hd => ht d (List.mem_cons_of_mem _ hd), hc⟩
        | some m =>
          rw [hx] at hs
          cases hs
          obtain ⟨t, r, rfl, hn, ⟨t1, s1, h1, h2, h3⟩, t2, s2, h4, h5, h6, h7⟩ := ih m hx
          refine ⟨c :: t, r, rfl, by rw [← hn]; simp [blen], ⟨c :: t1, s1, by rw [h1]; rfl, ?_, h3⟩,
            c :: t2, s2, by rw [h4]; rfl, ?_, h6, ?_⟩
          · intro d hd
            rcases List.mem_cons.mp hd with rfl | hd
            · exact (hp _).mp hpc
            · exact h2 d hd
          · intro d hd
            rcases List.mem_cons.mp hd with rfl | hd
            · exact (hp _).mp hpc
            · exact h5 d hd
          · intro t' s'' he hl ht r' hc
            cases t' with
            | nil => simp at hl
            | cons d t' =>
              obtain ⟨-, he⟩ := List.cons.inj he
              exact h7 t' s'' he (by simpa using hl) (fun d hd => ht d (List.mem_cons_of_mem _ hd)) r' hc
      · rw [if_neg hpc] at hs
        refine stop hs ?_
        intro t' s'' he hl ht r' hc
        cases t' with
        | nil => exact absurd hl (Nat.lt_irrefl _)
        | cons d t' =>
          cases he
          exact hpc ((hp _).mpr (ht _ (by simp)))
  only := by
    rintro s r ⟨t, s', h1, h2, h3, -⟩
    exact ⟨t, s', h1, h2, h.only _ _ h3⟩
  uniq := by
    rintro s r r' ⟨t, s1, h1, h2, h3, h4⟩ ⟨t', s1', h1', h2', h3', h4'⟩
    have hl : t.length = t'.length := by
      rcases Nat.lt_trichotomy t.length t'.length with hl | hl | hl
      · exact absurd (h.only _ _ h3') (h4 t' s1' h1' hl h2' _)
      · exact hl
      · exact absurd (h.only _ _ h3) (h4' t s1 h1 hl h2 _)
    obtain ⟨rfl, rfl⟩ := split_append (h1.symm.trans h1') hl
    exact h.uniq _ _ _ h3 h3'

/-- The items of a sequence agree with the text. -/
theorem SameSeq.agrees {u : Uni} {is : List RxItem} {js : List (Cls × Often)} (h : SameSeq u is js) :
    RxAgrees (rxSeq is) (RxBegins u js) (RxPrefers u js) := by
  induction h with
  | nil =>
    refine ⟨fun s h => (nomatch h), fun s n h => ?_, fun s r h => ?_, fun s r r' h h' => ?_⟩
    · cases h
      exact ⟨[], s, rfl, rfl, .nil, .nil⟩
    · cases h; exact .nil
    · cases h; cases h'; rfl
  | @once p x is js hp _ ih =>
    refine ⟨fun s hs r hr => ?_, fun s n hs => ?_, fun s r h => ?_, fun s r r' h h' => ?_⟩
    · cases hr with
      | @once _ _ c s _ hc hb =>
        simp only [rxSeq, if_pos ((hp c).mpr hc), Option.map_eq_none_iff] at hs
        exact ih.miss _ hs _ hb
    · cases s with
      | nil => cases hs
      | cons c cs =>
        by_cases hc : p c = true
        · simp only [rxSeq, if_pos hc, Option.map_eq_some_iff] at hs
          obtain ⟨m, hm, rfl⟩ := hs
          obtain ⟨t, r, rfl, rfl, h1, h2⟩ := ih.hit _ _ hm
          exact ⟨c :: t, r, rfl, by simp [blen], .once ((hp c).mp hc) h1, .once ((hp c).mp hc) h2⟩
        · simp [rxSeq, hc] at hs
    · cases h with
      | once hc h => exact .once hc (ih.only _ _ h)
    · cases h with
      | once hc h =>
        cases h' with
        | once _ h' => exact ih.uniq _ _ _ h h'
  | @star p x is js hp _ ih =>
    have hs := RxAgrees.star hp ih
    have h1 : ∀ s r, RxBegins u ((x, .star) :: js) s r ↔ StarCan u x (RxBegins u js) s r := by
      intro s r
      constructor
      · intro h
        generalize hj : (x, Often.star) :: js = j at h
        cases h with
        | nil => cases hj
        | once => cases hj
        | star ht h => cases hj; exact ⟨_, _, rfl, ht, h⟩
        | plus => cases hj
      · rintro ⟨t, s', rfl, ht, h⟩
        exact .star ht h
    have h2 : ∀ s r, RxPrefers u ((x, .star) :: js) s r ↔ StarDoes u x (RxBegins u js) (RxPrefers u js) s r := by
      intro s r
      constructor
      · intro h
        generalize hj : (x, Often.star) :: js = j at h
        cases h with
        | nil => cases hj
        | once => cases hj
        | star ht h hm => cases hj; exact ⟨_, _, rfl, ht, h, hm⟩
        | plus => cases hj
      · rintro ⟨t, s', rfl, ht, h, hm⟩
        exact .star ht h hm
    refine ⟨fun s hn r hr => hs.miss s hn r ((h1 s r).mp hr), fun s n hn => ?_, fun s r h => ?_, fun s r r' h h' => ?_⟩
    · obtain ⟨t, r, g1, g2, g3, g4⟩ := hs.hit s n hn
      exact ⟨t, r, g1, g2, (h1 s r).mpr g3, (h2 s r).mpr g4⟩
    · exact (h1 s r).mpr (hs.only s r ((h2 s r).mp h))
    · exact hs.uniq s r r' ((h2 s r).mp h) ((h2 s r').mp h')
  | @plus p x is js hp _ ih =>
    have hs := RxAgrees.star hp ih
    have h1 : ∀ s r, RxBegins u ((x, .plus) :: js) s r ↔
        ∃ c cs, s = c :: cs ∧ InCls u c x ∧ StarCan u x (RxBegins u js) cs r := by
      intro s r
      constructor
      · intro h
        generalize hj : (x, Often.plus) :: js = j at h
        cases h with
        | nil => cases hj
        | once => cases hj
        | star => cases hj
        | @plus _ _ t _ _ h0 ht h =>
          cases hj
          cases t with
          | nil => exact absurd rfl h0
          | cons c t => exact ⟨c, _, rfl, ht c (by simp), t, _, rfl, fun d hd => ht d (List.mem_cons_of_mem _ hd), h⟩
      · rintro ⟨c, _, rfl, hc, t, s', rfl, ht, h⟩
        refine .plus (t := c :: t) (by simp) ?_ h
        intro d hd
        rcases List.mem_cons.mp hd with rfl | hd
        · exact hc
        · exact ht d hd
    have h2 : ∀ s r, RxPrefers u ((x, .plus) :: js) s r ↔
        ∃ c cs, s = c :: cs ∧ InCls u c x ∧ StarDoes u x (RxBegins u js) (RxPrefers u js) cs r := by
      intro s r
      constructor
      · intro h
        generalize hj : (x, Often.plus) :: js = j at h
        cases h with
        | nil => cases hj
        | once => cases hj
        | star => cases hj
        | @plus _ _ t _ _ h0 ht h hm =>
          cases hj
          cases t with
          | nil => exact absurd rfl h0
          | cons c t =>
            refine ⟨c, _, rfl, ht c (by simp), t, _, rfl, fun d hd => ht d (List.mem_cons_of_mem _ hd), h, ?_⟩
            intro t' s'' he hl ht' r' hb
            refine hm (c :: t') s'' (congrArg (c :: ·) he) (by simpa using hl) ?_ r' hb
            intro d hd
            rcases List.mem_cons.mp hd with rfl | hd
            · exact ht _ (by simp)
            · exact ht' d hd
      · rintro ⟨c, _, rfl, hc, t, s', rfl, ht, h, hm⟩
        refine .plus (t := c :: t) (by simp) ?_ h ?_
        · intro d hd
          rcases List.mem_cons.mp hd with rfl | hd
          · exact hc
          · exact ht d hd
        · intro t' s'' he hl ht' r' hb
          cases t' with
          | nil => simp at hl
          | cons d t' =>
            obtain ⟨-, he⟩ := List.cons.inj he
            exact hm t' s'' he (by simpa using hl) (fun d hd => ht' d (List.mem_cons_of_mem _ hd)) r' hb
    refine ⟨fun s hn r hr => ?_, fun s n hn => ?_, fun s r h => ?_, fun s r r' h h' => ?_⟩
    · obtain ⟨c, cs, rfl, hc, hr⟩ := (h1 s r).mp hr
      simp only [rxSeq, if_pos ((hp c).mpr hc), Option.map_eq_none_iff] at hn
      exact hs.miss _ hn _ hr
    · cases s with
      | nil => cases hn
      | cons c cs =>
        by_cases hc : p c = true
        · simp only [rxSeq, if_pos hc, Option.map_eq_some_iff] at hn
          obtain ⟨m, hm, rfl⟩ := hn
          obtain ⟨t, r, g1, g2, g3, g4⟩ := hs.hit _ _ hm
          exact ⟨c :: t, r, by rw [g1]; rfl, by simp [blen, ← g2], (h1 _ _).mpr ⟨c, cs, rfl, (hp c).mp hc, g3⟩,
            (h2 _ _).mpr ⟨c, cs, rfl, (hp c).mp hc, g4⟩⟩
        · simp [rxSeq, hc] at hn
    · obtain ⟨c, cs, e, hc, h⟩ := (h2 s r).mp h
      exact (h1 s r).mpr ⟨c, cs, e, hc, hs.only _ _ h⟩
    · obtain ⟨c, cs, rfl, hc, h⟩ := (h2 s r).mp h
      obtain ⟨c', cs', e, hc', h'⟩ := (h2 _ r').mp h'
      cases e
      exact hs.uniq _ _ _ h h'

/-- The alternatives are those of the text. -/
inductive SameAlts (u : Uni) : List (List RxItem) → RxText → Prop
  | nil : SameAlts u [] []
  | cons {is js as x} (h : SameSeq u is js) (hs : SameAlts u as x) : SameAlts u (is :: as) (js :: x)

theorem SameAlts.agrees {u : Uni} {as : List (List RxItem)} {x : RxText} (h : SameAlts u as x) :
    RxAgrees (rxAlt as) (fun s r => ∃ is ∈ x, RxBegins u is s r) (RxMatched u x) := by
  induction h with
  | nil =>
    refine ⟨?_, fun s n h => (nomatch h), ?_, ?_⟩
    · rintro s - r ⟨is, h, -⟩; cases h
    · rintro s r ⟨before, is, after, h, -⟩; simp at h
    · rintro s r r' ⟨before, is, after, h, -⟩; simp at h
  | @cons is js as x hq _ ih =>
    have hs := hq.agrees
    have hm : ∀ s r, RxMatched u (js :: x) s r ↔ RxPrefers u js s r ∨ (∀ r', ¬ RxBegins u js s r') ∧ RxMatched u x s r := by
      intro s r
      constructor
      · rintro ⟨before, is, after, h, hb, hp⟩
        cases before with
        | nil => cases h; exact .inl hp
        | cons b before =>
          cases h
          exact .inr ⟨hb _ (by simp), before, is, after, rfl, fun b h => hb b (List.mem_cons_of_mem _ h), hp⟩
      · rintro (h | ⟨h, before, is, after, rfl, hb, hp⟩)
        · exact ⟨[], js, x, rfl, by simp, h⟩
        · refine ⟨js :: before, is, after, rfl, ?_, hp⟩
          intro b hb'
          rcases List.mem_cons.mp hb' with rfl | hb'
          · exact h
          · exact hb b hb'
    refine ⟨?_, ?_, ?_, ?_⟩
    · rintro s h r ⟨i, hi, hb⟩
      unfold rxAlt at h
      cases hx : rxSeq is s with
      | some n => rw [hx] at h; cases h
      | none =>
        rw [hx] at h
        rcases List.mem_cons.mp hi with rfl | hi
        · exact hs.miss _ hx _ hb
        · exact ih.miss _ h _ ⟨i, hi, hb⟩
    · intro s n h
      unfold rxAlt at h
      cases hx : rxSeq is s with
      | some m =>
        rw [hx] at h
        cases h
        obtain ⟨t, r, g1, g2, g3, g4⟩ := hs.hit _ _ hx
        exact ⟨t, r, g1, g2, ⟨js, by simp, g3⟩, (hm s r).mpr (.inl g4)⟩
      | none =>
        rw [hx] at h
        obtain ⟨t, r, g1, g2, ⟨i, hi, g3⟩, g4⟩ := ih.hit _ _ h
        exact ⟨t, r, g1, g2, ⟨i, List.mem_cons_of_mem _ hi, g3⟩, (hm s r).mpr (.inr ⟨hs.miss _ hx, g4⟩)⟩
    · intro s r h
      rcases (hm s r).mp h with h | ⟨-, h⟩
      · exact ⟨js, by simp, hs.only _ _ h⟩
      · obtain ⟨i, hi, h⟩ := ih.only _ _ h
        exact ⟨i, List.mem_cons_of_mem _ hi, h⟩
    · intro s r r' h h'
      rcases (hm s r).mp h with h | ⟨h0, h⟩ <;> rcases (hm s r').mp h' with h' | ⟨h0', h'⟩
      · exact hs.uniq _ _ _ h h'
      · exact absurd (hs.only _ _ h) (h0' _)
      · exact absurd (hs.only _ _ h') (h0 _)
      · exact ih.uniq _ _ _ h h'

/-- The leftmost match. -/
theorem find_pos (as : List (List RxItem)) (s : Str) : ∀ pos, rxFind as pos s =
    (rxFind as 0 s).map fun r => (pos + r.1, pos + r.2) := by
  induction s with
  | nil =>
    intro pos
    unfold rxFind
    cases rxAlt as [] <;> simp
  | cons c cs ih =>
    intro pos
    unfold rxFind
    cases rxAlt as (c :: cs) with
    | some n => simp
    | none =>
      dsimp only
      rw [ih (pos + c.utf8Size), ih (0 + c.utf8Size)]
      cases rxFind as 0 cs <;> simp [Nat.add_assoc]

theorem find_text {u : Uni} {as : List (List RxItem)} {x : RxText} (h : SameAlts u as x) (s : Str) :
    ∀ a b, rxFind as 0 s = some (a, b) ↔ RxFound u x s a b := by
  have ha := h.agrees
  -- the match is at the beginning
  have here : ∀ {s n}, rxAlt as s = some n → ∀ a b, (a = 0 ∧ b = n) ↔ RxFound u x s a b := by
    intro s n hn a b
    obtain ⟨t, r, rfl, rfl, h1, h2⟩ := ha.hit _ _ hn
    constructor
    · rintro ⟨rfl, rfl⟩
      exact ⟨[], t, r, rfl, rfl, by simp [blen], h2, fun _ _ _ h => nomatch h⟩
    · rintro ⟨pre, mid, rest, he, rfl, rfl, hm, hno⟩
      cases pre with
      | cons c pre =>
        obtain ⟨i, hi, hb⟩ := h1
        exact absurd ⟨i, hi, r, hb⟩ (hno [] _ rfl (by simp))
      | nil =>
        rw [List.nil_append] at he
        have hr := ha.uniq _ _ _ h2 (he ▸ hm)
        subst hr
        rw [List.append_cancel_right he]
        exact ⟨rfl, by simp [blen]⟩
  induction s with
  | nil =>
    intro a b
    unfold rxFind
    cases hx : rxAlt as [] with
    | some n =>
      rw [← here hx]
      simp [eq_comm]
    | none =>
      simp only [Option.map_none, reduceCtorEq, false_iff]
      rintro ⟨pre, mid, rest, he, rfl, rfl, hm, hno⟩
      have hmr : mid ++ rest = [] := by
        rw [List.append_assoc] at he
        exact (List.append_eq_nil_iff.mp he.symm).2
      rw [hmr] at hm
      exact ha.miss _ hx _ (ha.only _ _ hm)
  | cons c cs ih =>
    intro a b
    unfold rxFind
    cases hx : rxAlt as (c :: cs) with
    | some n =>
      rw [← here hx]
      simp [eq_comm]
    | none =>
      dsimp only
      rw [find_pos]
      simp only [Nat.zero_add, Option.map_eq_some_iff, Prod.mk.injEq, Prod.exists]
      constructor
      · rintro ⟨a', b', hf, rfl, rfl⟩
        obtain ⟨pre, mid, rest, rfl, rfl, rfl, hm, hno⟩ := (ih a' b').mp hf
        refine ⟨c :: pre, mid, rest, rfl, by simp [blen], by simp [blen, Nat.add_assoc], hm, ?_⟩
        intro p q he hl
        cases p with
        | nil =>
          rintro ⟨i, hi, r, hb⟩
          have : q = c :: (pre ++ mid ++ rest) := he.symm
          subst this
          exact ha.miss _ hx _ ⟨i, hi, hb⟩
        | cons d p =>
          obtain ⟨-, he⟩ := List.cons.inj he
          exact hno p q he (by simpa using hl)
      · rintro ⟨pre, mid, rest, he, rfl, rfl, hm, hno⟩
        cases pre with
        | nil =>
          rw [List.nil_append] at he
          rw [← he] at hm
          exact absurd (ha.only _ _ hm) (ha.miss _ hx _)
        | cons d pre =>
          obtain ⟨rfl, he2⟩ := List.cons.inj he
          refine ⟨blen pre, blen pre + blen mid, (ih _ _).mpr ⟨pre, mid, rest, he2, rfl, rfl, hm, ?_⟩, by simp [blen],
            by simp [blen, Nat.add_assoc]⟩
          intro p q he' hl
          exact hno (c :: p) q (by rw [he']; rfl) (by simpa using hl)

end Adx
