import Verif.Model.Regex
import Verif.Proofs.Text
import Verif.Spec.Peg
/-
  The regular expressions of the model: where they match.
-/
namespace Adx

theorem rxStar_prefix {p : Char → Bool} {k : Str → Option Nat}
    (hk : ∀ w n, k w = some n → ∃ x y, w = x ++ y ∧ n = blen x) :
    ∀ w n, rxStar p k w = some n → ∃ x y, w = x ++ y ∧ n = blen x := by
  intro w
  induction w with
  | nil => intro n h; exact hk _ _ h
  | cons c w ih =>
    intro n h
    unfold rxStar at h
    split at h
    · split at h
      · rename_i m hm
        cases h
        obtain ⟨x, y, rfl, rfl⟩ := ih _ hm
        exact ⟨c :: x, y, rfl, rfl⟩
      · exact hk _ _ h
    · exact hk _ _ h

theorem rxSeq_prefix : ∀ (is : List RxItem) (w : Str) (n : Nat), rxSeq is w = some n →
    ∃ x y, w = x ++ y ∧ n = blen x := by
  intro is
  induction is with
  | nil => intro w n h; cases h; exact ⟨[], w, rfl, rfl⟩
  | cons i is ih =>
    intro w n h
    cases i with
    | one p =>
      unfold rxSeq at h
      cases w with
      | nil => cases h
      | cons c w =>
        dsimp only at h
        split at h
        · obtain ⟨m, hm, rfl⟩ := Option.map_eq_some_iff.mp h
          obtain ⟨x, y, rfl, rfl⟩ := ih _ _ hm
          exact ⟨c :: x, y, rfl, rfl⟩
        · cases h
    | star p =>
      unfold rxSeq at h
      exact rxStar_prefix ih _ _ h

theorem rxAlt_prefix : ∀ (as : List (List RxItem)) (w : Str) (n : Nat), rxAlt as w = some n →
    ∃ x y, w = x ++ y ∧ n = blen x := by
  intro as
  induction as with
  | nil => intro w n h; cases h
  | cons a as ih =>
    intro w n h
    unfold rxAlt at h
    split at h
    · rename_i hm
      cases h
      exact rxSeq_prefix _ _ _ hm
    · exact ih _ _ h

theorem rxFind_cut (as : List (List RxItem)) : ∀ (w : Str) (pos a b : Nat), rxFind as pos w = some (a, b) →
    ∃ pre x post, w = pre ++ x ++ post ∧ a = pos + blen pre ∧ b = a + blen x := by
  intro w
  induction w with
  | nil =>
    intro pos a b h
    obtain ⟨n, hn, he⟩ := Option.map_eq_some_iff.mp h
    cases he
    obtain ⟨x, y, hxy, rfl⟩ := rxAlt_prefix _ _ _ hn
    exact ⟨[], x, y, hxy, rfl, rfl⟩
  | cons c w ih =>
    intro pos a b h
    unfold rxFind at h
    split at h
    · rename_i n hn
      cases h
      obtain ⟨x, y, hxy, rfl⟩ := rxAlt_prefix _ _ _ hn
      exact ⟨[], x, y, hxy, rfl, rfl⟩
    · obtain ⟨pre, x, post, rfl, rfl, rfl⟩ := ih _ _ _ h
      exact ⟨c :: pre, x, post, rfl, by simp [blen]; omega, rfl⟩

/-- The model's regular expressions fulfil the contract. -/
theorem rx_cuts (pattern : String) (as : List (List RxItem)) : Peg.Cuts (mkRx pattern as).find := by
  intro w a b h
  obtain ⟨pre, x, post, h1, h2, h3⟩ := rxFind_cut as w 0 a b h
  exact ⟨x, pre, post, h1, by omega, by omega⟩

theorem rxStar_end (p : Char → Bool) : ∀ w, rxStar p (rxSeq []) w = some (blen (w.takeWhile p)) := by
  intro w
  induction w with
  | nil => rfl
  | cons c w ih =>
    unfold rxStar
    rw [ih, List.takeWhile_cons]
    split
    · rfl
    · rfl

/-- `[p]*` matches the longest run. -/
theorem find_star (p : Char → Bool) (pattern : String) (w : Str) :
    (mkRx pattern [[.star p]]).find w = some (0, blen (w.takeWhile p)) := by
  have h : rxAlt [[.star p]] w = some (blen (w.takeWhile p)) := by
    unfold rxAlt rxSeq
    rw [rxStar_end]
  show rxFind _ 0 w = _
  cases w with
  | nil => unfold rxFind; rw [h]; simp
  | cons c w => unfold rxFind; rw [h]; simp

/-- `[p]+` matches the longest run, if it is not empty. -/
theorem find_plus {p : Char → Bool} {pattern : String} {w : Str} (hw : w.takeWhile p ≠ []) :
    (mkRx pattern [Rx.plus p]).find w = some (0, blen (w.takeWhile p)) := by
  cases w with
  | nil => exact (hw rfl).elim
  | cons c w =>
    have hc : p c = true := by
      cases h : p c with
      | true => rfl
      | false => exact (hw (by rw [List.takeWhile_cons, h]; rfl)).elim
    have h : rxAlt [Rx.plus p] (c :: w) = some (blen ((c :: w).takeWhile p)) := by
      unfold rxAlt Rx.plus rxSeq
      dsimp only
      rw [if_pos hc]
      unfold rxSeq
      rw [rxStar_end, List.takeWhile_cons, if_pos hc]
      rfl
    show rxFind _ 0 (c :: w) = _
    unfold rxFind
    rw [h]
    simp

/-- Otherwise it does not match at the beginning. -/
theorem find_plus_none {p : Char → Bool} {pattern : String} {w : Str} (hw : w.takeWhile p = []) (b : Nat) :
    (mkRx pattern [Rx.plus p]).find w ≠ some (0, b) := by
  intro h
  change rxFind _ 0 w = _ at h
  cases w with
  | nil => cases h
  | cons c w =>
    have hc : p c = false := by
      cases h : p c with
      | true => rw [List.takeWhile_cons, h] at hw; cases hw
      | false => rfl
    have h' : rxAlt [Rx.plus p] (c :: w) = none := by
      unfold rxAlt Rx.plus rxSeq
      dsimp only
      rw [if_neg (by rw [hc]; decide)]
      rfl
    unfold rxFind at h
    rw [h'] at h
    obtain ⟨pre, x, post, -, h2, -⟩ := rxFind_cut _ _ _ _ _ h
    have := Char.utf8Size_pos c
    omega

end Adx
