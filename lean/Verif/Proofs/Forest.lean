import Verif.Spec.Forest
import Mathlib.Data.Fintype.Card
/-
  Finite token trees: every path is shorter than the number of tokens, so the depth
  bounds the model gives to its tree walks are never reached on finite trees.
-/
namespace Adx

variable {toks toks' : List Token} {ts l l' : List TokId} {t : TokId}

theorem Pre.unique (h : Pre toks ts l) (h' : Pre toks ts l') : l = l' := by
  induction h generalizing l' with
  | nil => cases h'; rfl
  | cons hk _ _ ih1 ih2 =>
    cases h' with
    | cons hk' h1 h2 =>
      rw [hk] at hk'
      cases hk'
      rw [ih1 h1, ih2 h2]

theorem Pre.valid (h : Pre toks ts l) : ∀ u ∈ l, u < toks.length := by
  induction h with
  | nil => intro u hu; cases hu
  | @cons t k ts l1 l2 hk _ _ ih1 ih2 =>
    intro u hu
    rcases List.mem_cons.mp hu with rfl | hu
    · exact (List.getElem?_eq_some_iff.mp hk).1
    · rcases List.mem_append.mp hu with hu | hu
      · exact ih1 u hu
      · exact ih2 u hu

theorem Pre.roots (h : Pre toks ts l) : ∀ u ∈ ts, u ∈ l := by
  induction h with
  | nil => intro u hu; cases hu
  | cons hk _ _ ih1 ih2 =>
    intro u hu
    rcases List.mem_cons.mp hu with rfl | hu
    · simp
    · simp [ih2 u hu]

/-- Only the children of the tokens in the forest matter. -/
theorem Pre.congr (h : Pre toks ts l)
    (he : ∀ u ∈ l, ∀ k, toks[u]? = some k → ∃ k', toks'[u]? = some k' ∧ k'.children = k.children) :
    Pre toks' ts l := by
  induction h with
  | nil => exact .nil
  | @cons t k ts l1 l2 hk _ _ ih1 ih2 =>
    obtain ⟨k', hk', hc'⟩ := he t (by simp) k hk
    refine .cons hk' ?_ (ih2 fun u hu => he u (by simp [hu]))
    rw [hc']
    exact ih1 fun u hu => he u (by simp [hu])

theorem Pre.append {ts ts' l l' : List TokId} (h : Pre toks ts l) (h' : Pre toks ts' l') :
    Pre toks (ts ++ ts') (l ++ l') := by
  induction h with
  | nil => exact h'
  | cons hk hc _ _ ih2 =>
    rw [List.cons_append, List.cons_append, List.append_assoc]
    exact .cons hk hc ih2

theorem Pre.split {ts ts' l : List TokId} (h : Pre toks (ts ++ ts') l) :
    ∃ l1 l2, l = l1 ++ l2 ∧ Pre toks ts l1 ∧ Pre toks ts' l2 := by
  induction ts generalizing l with
  | nil => exact ⟨[], l, rfl, .nil, h⟩
  | cons t ts ih =>
    cases h with
    | cons hk hc hs =>
      obtain ⟨l1, l2, rfl, h1, h2⟩ := ih hs
      exact ⟨_, l2, by simp, .cons hk hc h1, h2⟩

/-- `Ht toks ts h`: the forest has height at most... exactly `h`. -/
inductive Ht (toks : List Token) : List TokId → Nat → Prop
  | nil : Ht toks [] 0
  | cons {t : TokId} {k : Token} {ts : List TokId} {h h' : Nat} (hk : toks[t]? = some k)
      (hc : Ht toks k.children h) (hs : Ht toks ts h') : Ht toks (t :: ts) (max (h + 1) h')

theorem Pre.height (h : Pre toks ts l) : ∃ n, Ht toks ts n := by
  induction h with
  | nil => exact ⟨0, .nil⟩
  | cons hk _ _ ih1 ih2 =>
    obtain ⟨n1, h1⟩ := ih1
    obtain ⟨n2, h2⟩ := ih2
    exact ⟨_, .cons hk h1 h2⟩

theorem Ht.unique {n n' : Nat} (h : Ht toks ts n) (h' : Ht toks ts n') : n = n' := by
  induction h generalizing n' with
  | nil => cases h'; rfl
  | cons hk _ _ ih1 ih2 =>
    cases h' with
    | cons hk' h1 h2 =>
      rw [hk] at hk'
      cases hk'
      rw [ih1 h1, ih2 h2]

/-- Below a forest of height `n` there are trees of every smaller height. -/
theorem Ht.all {n : Nat} (h : Ht toks ts n) : ∀ j, 0 < j → j ≤ n →
    ∃ u, u < toks.length ∧ Ht toks [u] j := by
  induction h with
  | nil => intro j h1 h2; omega
  | @cons t k ts h h' hk hc _ ih1 ih2 =>
    intro j h1 h2
    by_cases hj : j ≤ h
    · exact ih1 j h1 hj
    · by_cases hj' : j ≤ h'
      · exact ih2 j h1 hj'
      · have : j = h + 1 := by omega
        subst this
        refine ⟨t, (List.getElem?_eq_some_iff.mp hk).1, ?_⟩
        have := Ht.cons hk hc .nil
        simpa using this

theorem Ht.le_length {n : Nat} (h : Ht toks ts n) : n ≤ toks.length := by
  have hall := h.all
  have : ∀ j : Fin n, ∃ u : Fin toks.length, Ht toks [u.val] (j.val + 1) := by
    intro j
    obtain ⟨u, hu, hh⟩ := hall (j.val + 1) (Nat.succ_pos _) j.isLt
    exact ⟨⟨u, hu⟩, hh⟩
  choose f hf using this
  have hinj : Function.Injective f := by
    intro i j hij
    have h1 := hf i
    rw [hij] at h1
    have := h1.unique (hf j)
    exact Fin.ext (by omega)
  have := Fintype.card_le_of_injective f hinj
  simpa using this

/-- A forest as seen by a walk of bounded depth: `Walk toks n ts l` is `Pre` with
every path shorter than `n`. -/
inductive Walk (toks : List Token) : Nat → List TokId → List TokId → Prop
  | nil (n) : Walk toks n [] []
  | cons {n : Nat} {t : TokId} {k : Token} {ts l l' : List TokId} (hk : toks[t]? = some k)
      (hc : Walk toks n k.children l) (hs : Walk toks (n + 1) ts l') :
      Walk toks (n + 1) (t :: ts) (t :: (l ++ l'))

theorem Pre.walk' (h : Pre toks ts l) {n : Nat} (hh : Ht toks ts n) {m : Nat} (hm : n ≤ m) :
    Walk toks m ts l := by
  induction h generalizing n m with
  | nil => exact .nil m
  | cons hk _ _ ih1 ih2 =>
    cases hh with
    | cons hk' h1 h2 =>
      rw [hk] at hk'
      cases hk'
      obtain ⟨m, rfl⟩ : ∃ k, m = k + 1 := ⟨m - 1, by omega⟩
      exact .cons hk (ih1 h1 (by omega)) (ih2 h2 (by omega))

theorem Pre.walk (h : Pre toks ts l) {m : Nat} (hm : toks.length ≤ m) : Walk toks m ts l := by
  obtain ⟨n, hn⟩ := h.height
  exact h.walk' hn (Nat.le_trans hn.le_length hm)

theorem Walk.pre {n : Nat} (h : Walk toks n ts l) : Pre toks ts l := by
  induction h with
  | nil => exact .nil
  | cons hk _ _ ih1 ih2 => exact .cons hk ih1 ih2

end Adx
