import Verif.Spec.Sequence
/-
  What is passed over while looking for a terminator.
-/
namespace Adx

theorem Skims.mem {stop esc w val rest : Str} (h : Skims stop esc w val rest) : ∀ ch ∈ val, ch ∈ w := by
  induction h with
  | here _ => intro ch h; cases h
  | escaped _ _ _ ih =>
    intro c hc
    rcases List.mem_cons.mp hc with rfl | hc
    · simp
    · simp [ih c hc]
  | plain _ _ _ ih =>
    intro c hc
    rcases List.mem_cons.mp hc with rfl | hc
    · simp
    · simp [ih c hc]

/-- Where `stop` is, nothing is passed over. -/
theorem Skims.inv_stop {stop esc w val rest : Str} (h : Skims stop esc w val rest) (hp : stop <+: w) : val = [] := by
  cases h with
  | here => rfl
  | escaped h1 _ _ => exact (h1 hp).elim
  | plain h1 _ _ => exact (h1 hp).elim

theorem Skims.inv_nil {stop esc w val rest : Str} (h : Skims stop esc w val rest) (hw : w = []) : val = [] := by
  cases h with
  | here => rfl
  | escaped _ _ _ => simp at hw
  | plain _ _ _ => cases hw

theorem Skims.inv_escape {stop esc w val rest : Str} (he : esc ≠ []) (h : Skims stop esc w val rest) (hw : w = esc) :
    val = [] := by
  cases h with
  | here => rfl
  | escaped _ _ _ =>
    have := congrArg List.length hw
    simp at this
  | plain _ h2 _ =>
    rcases h2 with h2 | h2
    · exact (he h2).elim
    · exact (h2 (hw ▸ List.prefix_rfl)).elim

theorem Skims.inv_escaped {stop esc w val rest : Str} {ch : Char} (he : esc ≠ [])
    (h : Skims stop esc (esc ++ ch :: w) val rest) : val = [] ∨ ∃ val', val = ch :: val' ∧ Skims stop esc w val' rest := by
  generalize hw : esc ++ ch :: w = w0 at h
  cases h with
  | here => exact Or.inl rfl
  | escaped _ _ h =>
    obtain ⟨rfl, rfl⟩ := List.cons.inj (List.append_cancel_left hw)
    exact Or.inr ⟨_, rfl, h⟩
  | plain _ h2 _ =>
    rcases h2 with rfl | h2
    · exact (he rfl).elim
    · exact (h2 ⟨_, hw⟩).elim

theorem Skims.inv_plain {stop esc w val rest : Str} {ch : Char} (he : esc = [] ∨ ¬ esc <+: ch :: w)
    (h : Skims stop esc (ch :: w) val rest) : val = [] ∨ ∃ val', val = ch :: val' ∧ Skims stop esc w val' rest := by
  generalize hw : ch :: w = w0 at h
  cases h with
  | here => exact Or.inl rfl
  | escaped _ h2 _ =>
    rcases he with rfl | he
    · exact (h2 rfl).elim
    · exact (he ⟨_, hw.symm⟩).elim
  | plain _ _ h =>
    obtain ⟨rfl, rfl⟩ := List.cons.inj hw
    exact Or.inr ⟨_, rfl, h⟩

theorem asciiBetween_of_ascii {src start stop esc : Str} (h : Ascii src) : AsciiBetween src start stop esc := by
  rintro before w after val rest rfl hw ch hch
  exact h ch (by simp [hw.mem ch hch])

theorem suits_of_ascii {d : Quotes} {src : Str} (h : Ascii src) : Suits d src :=
  fun _ _ _ _ => asciiBetween_of_ascii h

/-- Everything that is passed over. -/
def skimmed (stop esc : Str) : Nat → Str → Str
  | 0, _ => []
  | k + 1, w =>
    if stop.isPrefixOf w then [] else
    if esc ≠ [] ∧ esc.isPrefixOf w then
      match w.drop esc.length with
      | [] => []
      | ch :: w' => ch :: skimmed stop esc k w'
    else match w with
      | [] => []
      | ch :: w' => ch :: skimmed stop esc k w'

theorem Skims.skimmed {stop esc w val rest : Str} (h : Skims stop esc w val rest) {k : Nat} (hk : w.length ≤ k) :
    val <+: skimmed stop esc k w := by
  induction h generalizing k with
  | here _ => exact List.nil_prefix
  | @escaped ch w val rest h1 h2 _ ih =>
    cases k with
    | zero => simp at hk
    | succ k =>
      unfold Adx.skimmed
      rw [if_neg (fun h => h1 (List.isPrefixOf_iff_prefix.mp h)), if_pos ⟨h2, List.isPrefixOf_iff_prefix.mpr ⟨_, rfl⟩⟩,
        List.drop_left]
      simp only [List.length_append, List.length_cons] at hk
      exact List.cons_prefix_cons.mpr ⟨rfl, ih (by omega)⟩
  | @plain ch w val rest h1 h2 _ ih =>
    cases k with
    | zero => simp at hk
    | succ k =>
      unfold Adx.skimmed
      rw [if_neg (fun h => h1 (List.isPrefixOf_iff_prefix.mp h)), if_neg (fun h => h2.elim h.1 fun h2 => h2 (List.isPrefixOf_iff_prefix.mp h.2))]
      simp only [List.length_cons] at hk
      exact List.cons_prefix_cons.mpr ⟨rfl, ih (by omega)⟩

/-- A check of `AsciiBetween`. -/
def betweenCheck (src start stop esc : Str) : Bool :=
  (List.range (src.length + 1)).all fun i =>
    !start.isPrefixOf (src.drop i) ||
      (List.range (src.length + 1)).all fun j =>
        (skimmed stop esc src.length (((src.drop i).drop start.length).take j)).all fun ch => ch.toNat < 128

theorem asciiBetween_of_check {src start stop esc : Str} (h : betweenCheck src start stop esc = true) :
    AsciiBetween src start stop esc := by
  rintro before w after val rest rfl hw ch hch
  unfold betweenCheck at h
  rw [List.all_eq_true] at h
  have h1 := h before.length (by simp; omega)
  have hd : (before ++ start ++ w ++ after).drop before.length = start ++ (w ++ after) := by
    rw [List.append_assoc, List.append_assoc, List.drop_left]
  rw [hd, List.drop_left, Bool.or_eq_true] at h1
  rcases h1 with h1 | h1
  · rw [List.isPrefixOf_iff_prefix.mpr ⟨_, rfl⟩] at h1
    cases h1
  · rw [List.all_eq_true] at h1
    have h2 := h1 w.length (by simp; omega)
    rw [List.take_left, List.all_eq_true] at h2
    obtain ⟨x, hx⟩ := hw.skimmed (k := (before ++ start ++ w ++ after).length) (by simp; omega)
    have := h2 ch (by rw [← hx]; simp [hch])
    simpa using this

end Adx
