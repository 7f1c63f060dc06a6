import Verif.Spec.Text
/-
  Slicing agrees with the specification of windows (`Spec/Text.lean`).
-/
namespace Adx

theorem utf8Size_pos (c : Char) : 0 < c.utf8Size := Char.utf8Size_pos c

theorem blen_append (a b : Str) : blen (a ++ b) = blen a + blen b := by
  induction a with
  | nil => simp [blen]
  | cons c cs ih => simp [blen, ih, Nat.add_assoc]

theorem blen_eq_zero {s : Str} : blen s = 0 ↔ s = [] := by
  cases s with
  | nil => simp [blen]
  | cons c cs =>
    have := utf8Size_pos c
    simp [blen]
    omega

theorem bdrop_zero (s : Str) : bdrop 0 s = some s := by
  cases s <;> rfl

theorem btake_zero (s : Str) : btake 0 s = some [] := by
  cases s <;> rfl

theorem bdrop_iff {n : Nat} {s w : Str} : bdrop n s = some w ↔ ∃ pre, s = pre ++ w ∧ n = blen pre := by
  induction s generalizing n with
  | nil =>
    cases n with
    | zero =>
      constructor
      · intro h; rw [bdrop_zero] at h; cases h; exact ⟨[], rfl, rfl⟩
      · rintro ⟨pre, h, h'⟩
        have := List.append_eq_nil_iff.mp h.symm
        rw [this.2]; rfl
    | succ n =>
      constructor
      · intro h; cases h
      · rintro ⟨pre, h, h'⟩
        have := List.append_eq_nil_iff.mp h.symm
        rw [this.1] at h'
        cases h'
  | cons c cs ih =>
    have hc := utf8Size_pos c
    cases n with
    | zero =>
      rw [bdrop_zero]
      constructor
      · intro h; cases h; exact ⟨[], rfl, rfl⟩
      · rintro ⟨pre, h, h'⟩
        rw [blen_eq_zero.mp h'.symm] at h
        rw [h]; rfl
    | succ n =>
      show (if c.utf8Size ≤ n + 1 then bdrop (n + 1 - c.utf8Size) cs else none) = some w ↔ _
      split
      · rename_i hle
        rw [ih]
        constructor
        · rintro ⟨pre, rfl, h⟩
          exact ⟨c :: pre, rfl, by simp only [blen]; omega⟩
        · rintro ⟨pre, h, h'⟩
          cases pre with
          | nil => cases h'
          | cons d pre =>
            obtain ⟨rfl, rfl⟩ := List.cons.inj h
            exact ⟨pre, rfl, by simp only [blen] at h'; omega⟩
      · rename_i hle
        constructor
        · intro h; cases h
        · rintro ⟨pre, h, h'⟩
          cases pre with
          | nil => cases h'
          | cons d pre =>
            obtain ⟨rfl, rfl⟩ := List.cons.inj h
            simp only [blen] at h'
            omega

theorem btake_iff {n : Nat} {s w : Str} :
    btake n s = some w ↔ ∃ post, s = w ++ post ∧ n = blen w := by
  induction s generalizing n w with
  | nil =>
    cases n with
    | zero =>
      rw [btake_zero]
      constructor
      · intro h; cases h; exact ⟨[], rfl, rfl⟩
      · rintro ⟨post, h, h'⟩
        rw [blen_eq_zero.mp h'.symm]
    | succ n =>
      constructor
      · intro h; cases h
      · rintro ⟨post, h, h'⟩
        have := List.append_eq_nil_iff.mp h.symm
        rw [this.1] at h'
        cases h'
  | cons c cs ih =>
    have hc := utf8Size_pos c
    cases n with
    | zero =>
      rw [btake_zero]
      constructor
      · intro h; cases h; exact ⟨c :: cs, rfl, rfl⟩
      · rintro ⟨post, h, h'⟩
        rw [blen_eq_zero.mp h'.symm]
    | succ n =>
      show (if c.utf8Size ≤ n + 1 then (btake (n + 1 - c.utf8Size) cs).map (c :: ·) else none)
        = some w ↔ _
      split
      · rename_i hle
        constructor
        · intro h
          obtain ⟨w', h1, rfl⟩ := Option.map_eq_some_iff.mp h
          obtain ⟨post, rfl, h2⟩ := ih.mp h1
          exact ⟨post, rfl, by simp only [blen]; omega⟩
        · rintro ⟨post, h, h'⟩
          cases w with
          | nil => cases h'
          | cons d w =>
            obtain ⟨rfl, rfl⟩ := List.cons.inj h
            rw [ih.mpr ⟨post, rfl, by simp only [blen] at h'; omega⟩]
            rfl
      · rename_i hle
        constructor
        · intro h; cases h
        · rintro ⟨post, h, h'⟩
          cases w with
          | nil => cases h'
          | cons d w =>
            obtain ⟨rfl, rfl⟩ := List.cons.inj h
            simp only [blen] at h'
            omega

/-- `&s[a..e]` is the text at the byte offsets `a..e`. -/
theorem bslice_iff {s w : Str} {a e : Nat} : bslice s a e = some w ↔ TextAt s a e w := by
  unfold bslice TextAt
  split
  · rename_i hle
    constructor
    · intro h
      obtain ⟨t, h1, h2⟩ := Option.bind_eq_some_iff.mp h
      obtain ⟨pre, rfl, rfl⟩ := bdrop_iff.mp h1
      obtain ⟨post, rfl, h3⟩ := btake_iff.mp h2
      exact ⟨pre, post, by simp, rfl, by omega⟩
    · rintro ⟨pre, post, rfl, rfl, rfl⟩
      rw [bdrop_iff.mpr ⟨pre, List.append_assoc _ _ _, rfl⟩]
      exact btake_iff.mpr ⟨post, rfl, by omega⟩
  · rename_i hle
    constructor
    · intro h; cases h
    · rintro ⟨pre, post, rfl, rfl, rfl⟩
      omega

theorem TextAt.le {s w : Str} {a e : Nat} (h : TextAt s a e w) : e = a + blen w ∧ e ≤ blen s := by
  obtain ⟨pre, post, rfl, rfl, rfl⟩ := h
  rw [blen_append, blen_append]
  exact ⟨rfl, Nat.le_add_right _ _⟩

theorem TextAt.unique {s w w' : Str} {a e : Nat} (h : TextAt s a e w) (h' : TextAt s a e w') :
    w = w' := by
  have h1 := bslice_iff.mpr h
  rw [bslice_iff.mpr h'] at h1
  exact (Option.some.inj h1).symm

/-- A prefix of the text at a window is the text at the smaller window. -/
theorem TextAt.prefix {s x y : Str} {a e : Nat} (h : TextAt s a e (x ++ y)) :
    TextAt s a (a + blen x) x := by
  obtain ⟨pre, post, rfl, rfl, rfl⟩ := h
  exact ⟨pre, y ++ post, by simp, rfl, rfl⟩

theorem TextAt.suffix {s x y : Str} {a e : Nat} (h : TextAt s a e (x ++ y)) :
    TextAt s (a + blen x) e y := by
  obtain ⟨pre, post, rfl, rfl, rfl⟩ := h
  exact ⟨pre ++ x, post, by simp, by simp [blen_append], by simp [blen_append]; omega⟩

theorem TextAt.mid {s x y z : Str} {a e : Nat} (h : TextAt s a e (x ++ y ++ z)) :
    TextAt s (a + blen x) (a + blen x + blen y) y := by
  have := (h.prefix).suffix
  rwa [blen_append, ← Nat.add_assoc] at this

theorem utf8Size_ascii {c : Char} (h : c.toNat < 128) : c.utf8Size = 1 := by
  rw [Char.utf8Size_eq_one_iff]
  show c.val.toNat ≤ (127 : UInt32).toNat
  exact Nat.le_of_lt_succ h

theorem ascii_of_utf8Size {c : Char} (h : c.utf8Size = 1) : c.toNat < 128 :=
  Nat.lt_succ_of_le (Char.utf8Size_eq_one_iff.mp h)

theorem blen_ascii {s : Str} (h : Ascii s) : blen s = s.length := by
  induction s with
  | nil => rfl
  | cons c cs ih =>
    have h1 := utf8Size_ascii (h c (by simp))
    have h2 := ih (fun d hd => h d (by simp [hd]))
    simp only [blen, List.length_cons]
    omega

theorem Ascii.append {a b : Str} : Ascii (a ++ b) ↔ Ascii a ∧ Ascii b := by
  unfold Ascii
  simp only [List.mem_append]
  constructor
  · intro h; exact ⟨fun c hc => h c (Or.inl hc), fun c hc => h c (Or.inr hc)⟩
  · rintro ⟨h1, h2⟩ c (hc | hc)
    · exact h1 c hc
    · exact h2 c hc

/-- Where everything before the end of the window is ASCII, character offsets are byte
offsets. -/
theorem substring_textAt {s w : Str} {a e : Nat} (h : TextAt s a e w) (ha : Ascii s) :
    substring s a e = w := by
  obtain ⟨pre, post, rfl, rfl, rfl⟩ := h
  have h1 := (Ascii.append.mp (Ascii.append.mp ha).1)
  rw [blen_ascii h1.1, blen_ascii h1.2]
  unfold substring
  split
  · have : w.length = 0 := by omega
    rw [List.length_eq_zero_iff.mp this]
  · rw [List.append_assoc, List.drop_left, Nat.add_sub_cancel_left, List.take_left]

/-- In an ASCII text every window inside the text has a text. -/
theorem textAt_of_ascii {s : Str} (ha : Ascii s) {a e : Nat} (h1 : a ≤ e) (h2 : e ≤ blen s) :
    TextAt s a e ((s.drop a).take (e - a)) := by
  have hl := blen_ascii ha
  refine ⟨s.take a, s.drop e, ?_, ?_, ?_⟩
  · have : s.drop e = (s.drop a).drop (e - a) := by rw [List.drop_drop]; congr 1; omega
    rw [this, List.append_assoc, List.take_append_drop, List.take_append_drop]
  · rw [blen_ascii (fun c hc => ha c (List.mem_of_mem_take hc)), List.length_take]; omega
  · rw [blen_ascii (fun c hc => ha c (List.mem_of_mem_take hc)),
      blen_ascii (fun c hc => ha c (List.mem_of_mem_drop (List.mem_of_mem_take hc)))]
    simp only [List.length_take, List.length_drop]
    omega

theorem OnChar.zero (s : Str) : OnChar s 0 := ⟨[], s, rfl, rfl⟩

theorem OnChar.all (s : Str) : OnChar s (blen s) := ⟨s, [], by simp, rfl⟩

theorem OnChar.le {s : Str} {n : Nat} (h : OnChar s n) : n ≤ blen s := by
  obtain ⟨u, v, rfl, rfl⟩ := h
  rw [blen_append]
  omega

theorem OnChar.head {s : Str} {n : Nat} (h : OnChar s n) : ∃ w, TextAt s 0 n w := by
  obtain ⟨u, v, rfl, rfl⟩ := h
  exact ⟨u, [], v, rfl, rfl, by simp [blen]⟩

theorem TextAt.onChar {s w : Str} {a e : Nat} (h : TextAt s a e w) : OnChar s a ∧ OnChar s e := by
  obtain ⟨pre, post, rfl, rfl, rfl⟩ := h
  exact ⟨⟨pre, w ++ post, by simp, rfl⟩, ⟨pre ++ w, post, rfl, by rw [blen_append]⟩⟩

theorem TextAt.onChar_in {s w : Str} {a e n : Nat} (h : TextAt s a e w) (hn : OnChar w n) : OnChar s (a + n) := by
  obtain ⟨pre, post, rfl, rfl, rfl⟩ := h
  obtain ⟨u, v, rfl, rfl⟩ := hn
  exact ⟨pre ++ u, v ++ post, by simp, by rw [blen_append]⟩

theorem OnChar.of_ascii {s : Str} (ha : Ascii s) {n : Nat} (h : n ≤ blen s) : OnChar s n :=
  (textAt_of_ascii ha (Nat.zero_le _) h).onChar.2

/-- Between two characters there is a text. -/
theorem OnChar.text {s : Str} {a e : Nat} (ha : OnChar s a) (he : OnChar s e) (h : a ≤ e) : ∃ w, TextAt s a e w := by
  obtain ⟨u, v, h1, rfl⟩ := ha
  obtain ⟨u', v', h2, rfl⟩ := he
  rw [h1] at h2
  rcases List.append_eq_append_iff.mp h2 with ⟨x, h3, h4⟩ | ⟨x, h3, h4⟩
  · refine ⟨x, u, v', ?_, rfl, ?_⟩
    · rw [h1, h4]; simp
    · rw [h3, blen_append]
  · have h5 : blen x = 0 := by
      rw [h3, blen_append] at h
      omega
    have h6 := blen_eq_zero.mp h5
    subst h6
    refine ⟨[], u, v, ?_, rfl, ?_⟩
    · rw [h1]; simp
    · rw [h3]; simp [blen]

/-- Inside a character. -/
theorem not_onChar_inside {s w : Str} {ch : Char} {a e : Nat} (h : TextAt s a e (ch :: w)) (hc : 1 < ch.utf8Size) :
    ¬ OnChar s (a + 1) := by
  obtain ⟨pre, post, rfl, rfl, rfl⟩ := h
  rintro ⟨u, v, h1, h2⟩
  rw [List.append_assoc] at h1
  rcases List.append_eq_append_iff.mp h1 with ⟨x, h3, h4⟩ | ⟨x, h3, h4⟩
  · rw [h3, blen_append] at h2
    cases x with
    | nil => simp [blen] at h2
    | cons d x =>
      have : d = ch := by
        have := congrArg List.head? h4
        simpa using this.symm
      subst this
      simp only [blen] at h2
      omega
  · rw [h3, blen_append] at h2
    omega

end Adx
