import Verif.Spec.Repeat
import Verif.Proofs.Offset
import Verif.Model.ScriptGrammar
/-
  The texts of repeat specifiers, cut into pieces.
-/
namespace Adx
open Script

/-- The pieces of a text that starts with a brace, as the grammar finds them. -/
structure Pieces (u : Uni) (w b1 ds b2 sep b3 es b4 rest : Str) : Prop where
  text : w = '{' :: (b1 ++ (ds ++ (b2 ++ (sep ++ (b3 ++ (es ++ (b4 ++ rest)))))))
  t1 : (b1 ++ (ds ++ (b2 ++ (sep ++ (b3 ++ (es ++ (b4 ++ rest))))))).takeWhile isBlank = b1
  t2 : (ds ++ (b2 ++ (sep ++ (b3 ++ (es ++ (b4 ++ rest)))))).takeWhile u.digit = ds
  t3 : (b2 ++ (sep ++ (b3 ++ (es ++ (b4 ++ rest))))).takeWhile isBlank = b2
  t4 : sep = [','] ∨ (sep = [] ∧ ¬ [','] <+: b3 ++ (es ++ (b4 ++ rest)))
  t5 : (b3 ++ (es ++ (b4 ++ rest))).takeWhile isBlank = b3
  t6 : (es ++ (b4 ++ rest)).takeWhile u.digit = es
  t7 : (b4 ++ rest).takeWhile isBlank = b4

/-- The range that the pieces stand for. -/
def PieceRange (ds sep es : Str) (lo hi : Nat) : Prop :=
  (sep = [] ∧ lo = 0 ∧ Numeral ds hi ∧ hi ≤ usizeMax) ∨
  (sep = [','] ∧ es = [] ∧ Numeral ds lo ∧ lo ≤ usizeMax ∧ hi = usizeMax) ∨
  (sep = [','] ∧ Numeral ds lo ∧ Numeral es hi ∧ hi ≤ usizeMax ∧ lo ≤ hi)

theorem takeWhile_all {q : Char → Bool} {w x : Str} (h : w.takeWhile q = x) : ∀ c ∈ x, q c = true := by
  subst h
  induction w with
  | nil => intro c hc; cases hc
  | cons a w ih =>
    intro c hc
    rw [List.takeWhile_cons] at hc
    split at hc
    · rename_i ha
      rcases List.mem_cons.mp hc with rfl | hc
      · exact ha
      · exact ih c hc
    · cases hc

theorem cut_unique {q : Char → Bool} {a r a' r' : Str} (h : (a ++ r).takeWhile q = a) (ha : ∀ c ∈ a', q c = true)
    (hr : ∀ c t, r' = c :: t → q c = false) (e : a ++ r = a' ++ r') : a = a' ∧ r = r' := by
  have h1 : (a' ++ r').takeWhile q = a' := by
    rw [List.takeWhile_append_of_pos ha]
    cases r' with
    | nil => simp
    | cons c t =>
      rw [List.takeWhile_cons, hr c t rfl]
      simp
  rw [e, h1] at h
  subst h
  exact ⟨rfl, List.append_cancel_left e⟩

theorem cut_next {q : Char → Bool} {a r : Str} (h : (a ++ r).takeWhile q = a) : ∀ c t, r = c :: t → q c = false := by
  rintro c t rfl
  have ha := takeWhile_all h
  rw [List.takeWhile_append_of_pos ha, List.takeWhile_cons] at h
  cases hc : q c with
  | false => rfl
  | true =>
    rw [hc, if_pos rfl] at h
    have := congrArg List.length h
    simp at this

section
variable {u : Uni}

theorem isBlank_iff {c : Char} (h : c.toNat < 128) :
    isBlank c = true ↔ c.toNat = 32 ∨ c.toNat = 9 ∨ c.toNat = 11 ∨ c.toNat = 12 := by
  have h1 : ∀ d : Char, (c != d) = true ↔ c.toNat ≠ d.toNat := by
    intro d
    rw [bne_iff_ne]
    constructor
    · intro h h'
      exact h (Char.ext (UInt32.toNat_inj.mp h'))
    · rintro h rfl
      exact h rfl
  have h13 : '\r'.toNat = 13 := rfl
  have h10 : '\n'.toNat = 10 := rfl
  unfold isBlank Rx.isSpace
  rw [Bool.and_eq_true, Bool.and_eq_true, h1, h1, h13, h10]
  simp only [Bool.or_eq_true, Bool.and_eq_true, decide_eq_true_eq, beq_iff_eq]
  omega

theorem blanks_iff {w : Str} (h : Ascii w) : (∀ c ∈ w, isBlank c = true) ↔ Blanks w :=
  ⟨fun hb c hc => (isBlank_iff (h c hc)).mp (hb c hc), fun hb c hc => (isBlank_iff (h c hc)).mpr (hb c hc)⟩

theorem digits_iff {w : Str} (h : Ascii w) : (∀ c ∈ w, u.digit c = true) ↔ w.all Char.isDigit = true := by
  rw [List.all_eq_true]
  exact ⟨fun hb c hc => u.digit_ascii c (h c hc) ▸ hb c hc, fun hb c hc => (u.digit_ascii c (h c hc)).symm ▸ hb c hc⟩

theorem numeral_ascii {ds : Str} {n : Nat} (h : Numeral ds n) : Ascii ds := by
  intro c hc
  have := Char.isDigit_iff_toNat.mp (List.all_eq_true.mp h.digits.2.1 c hc)
  have h9 : '9'.toNat = 57 := rfl
  omega

theorem blanks_ascii {w : Str} (h : Blanks w) : Ascii w := by
  intro c hc
  have := h c hc
  omega

theorem digit_not_blank {c : Char} (h : c.isDigit = true) : isBlank c = false := by
  have h1 := Char.isDigit_iff_toNat.mp h
  have h9 : '9'.toNat = 57 := rfl
  have h0 : '0'.toNat = 48 := rfl
  rw [Bool.eq_false_iff]
  intro hb
  have := (isBlank_iff (by omega)).mp hb
  omega

theorem blank_not_digit {c : Char} (h : c.toNat = 32 ∨ c.toNat = 9 ∨ c.toNat = 11 ∨ c.toNat = 12) :
    u.digit c = false := by
  rw [u.digit_ascii c (by omega), Bool.eq_false_iff]
  intro hd
  have h1 := Char.isDigit_iff_toNat.mp hd
  have h0 : '0'.toNat = 48 := rfl
  omega

/-- The first character behind some blanks and digits. -/
theorem head_or {P : Char → Prop} {a r : Str} (ha : ∀ c ∈ a, P c) (hr : ∀ c t, r = c :: t → P c) :
    ∀ c t, a ++ r = c :: t → P c := by
  cases a with
  | nil => exact hr
  | cons x a =>
    intro c t h
    cases h
    exact ha _ (by simp)

theorem head_num {P : Char → Prop} {ds r : Str} {n : Nat} (hd : Numeral ds n) (hP : ∀ c, c.isDigit = true → P c) :
    ∀ c t, ds ++ r = c :: t → P c := by
  obtain ⟨ch, rest, rfl, h⟩ := hd.head
  intro c t e
  cases e
  exact hP _ h

/-- A repeat specifier is cut into its pieces, and they stand for its range. -/
theorem RepeatText.pieces {x y w b1 ds b2 sep b3 es b4 rest : Str} {lo hi : Nat} (h : RepeatText x lo hi)
    (hw : w = x ++ y) (hP : Pieces u w b1 ds b2 sep b3 es b4 rest) :
    rest = '}' :: y ∧ PieceRange ds sep es lo hi := by
  obtain ⟨rfl, t1, t2, t3, t4, t5, t6, t7⟩ := hP
  have bl : ∀ {w : Str}, Blanks w → ∀ c ∈ w, isBlank c = true := fun h => (blanks_iff (blanks_ascii h)).mpr h
  have dg : ∀ {w : Str} {n : Nat}, Numeral w n → ∀ c ∈ w, u.digit c = true := fun h =>
    (digits_iff (numeral_ascii h)).mpr h.digits.2.1
  have nd : ∀ {w : Str}, Blanks w → ∀ c ∈ w, u.digit c = false := fun h c hc => blank_not_digit (h c hc)
  have hb : ∀ {ch : Char}, isBlank ch = false → ∀ {r : Str} c t, ch :: r = c :: t → isBlank c = false := by
    intro ch h r c t e; cases e; exact h
  have hd : ∀ {ch : Char}, u.digit ch = false → ∀ {r : Str} c t, ch :: r = c :: t → u.digit c = false := by
    intro ch h r c t e; cases e; exact h
  have d1 : u.digit ',' = false := by rw [u.digit_ascii _ (by decide)]; rfl
  have d2 : u.digit '}' = false := by rw [u.digit_ascii _ (by decide)]; rfl
  have c1 : isBlank ',' = false := by decide
  have c2 : isBlank '}' = false := by decide
  have commaless : ∀ {s r r' : Str}, (s = [','] ∨ (s = [] ∧ ¬ [','] <+: r)) → s ++ r = ',' :: r' → s = [','] ∧ r = r' := by
    intro s r r' h e
    rcases h with rfl | ⟨rfl, h⟩
    · exact ⟨rfl, (List.cons.inj e).2⟩
    · exact (h ⟨r', e.symm⟩).elim
  have nocomma : ∀ {s r r' : Str}, (s = [','] ∨ (s = [] ∧ ¬ [','] <+: r)) → s ++ r = r' → (∀ t, r' ≠ ',' :: t) →
      s = [] ∧ r = r' := by
    intro s r r' h e hn
    rcases h with rfl | ⟨rfl, h⟩
    · exact (hn r e.symm).elim
    · exact ⟨rfl, e⟩
  cases h with
  | any => cases hw
  | some => cases hw
  | @atLeast c1' cs c2' c3' n h1 hn hbn h2 h3 =>
    rw [List.cons_append] at hw
    have w1 := (List.cons.inj hw).2
    simp only [List.append_assoc, List.cons_append, List.nil_append] at w1
    obtain ⟨rfl, w2⟩ := cut_unique t1 (bl h1) (head_num hn fun _ => digit_not_blank) w1
    obtain ⟨rfl, w3⟩ := cut_unique t2 (dg hn) (head_or (nd h2) (hd d1)) w2
    obtain ⟨rfl, w4⟩ := cut_unique t3 (bl h2) (hb c1) w3
    obtain ⟨rfl, w5⟩ := commaless t4 w4
    obtain ⟨rfl, w6⟩ := cut_unique t5 (bl h3) (hb c2) w5
    obtain ⟨rfl, w7⟩ := cut_unique (a' := []) t6 (fun _ h => nomatch h) (hd d2) w6
    obtain ⟨rfl, w8⟩ := cut_unique (a' := []) t7 (fun _ h => nomatch h) (hb c2) w7
    exact ⟨w8, Or.inr (Or.inl ⟨rfl, rfl, hn, hbn, rfl⟩)⟩
  | @between c1' cs c2' c3' fs c4' n m h1 hn h2 h3 hm hbm h4 hle =>
    rw [List.cons_append] at hw
    have w1 := (List.cons.inj hw).2
    simp only [List.append_assoc, List.cons_append, List.nil_append] at w1
    obtain ⟨rfl, w2⟩ := cut_unique t1 (bl h1) (head_num hn fun _ => digit_not_blank) w1
    obtain ⟨rfl, w3⟩ := cut_unique t2 (dg hn) (head_or (nd h2) (hd d1)) w2
    obtain ⟨rfl, w4⟩ := cut_unique t3 (bl h2) (hb c1) w3
    obtain ⟨rfl, w5⟩ := commaless t4 w4
    obtain ⟨rfl, w6⟩ := cut_unique t5 (bl h3) (head_num hm fun _ => digit_not_blank) w5
    obtain ⟨rfl, w7⟩ := cut_unique t6 (dg hm) (head_or (nd h4) (hd d2)) w6
    obtain ⟨rfl, w8⟩ := cut_unique t7 (bl h4) (hb c2) w7
    exact ⟨w8, Or.inr (Or.inr ⟨rfl, hn, hm, hbm, hle⟩)⟩
  | @upTo c1' cs c2' n h1 hn hbn h2 =>
    rw [List.cons_append] at hw
    have w1 := (List.cons.inj hw).2
    simp only [List.append_assoc, List.cons_append, List.nil_append] at w1
    obtain ⟨rfl, w2⟩ := cut_unique t1 (bl h1) (head_num hn fun _ => digit_not_blank) w1
    obtain ⟨rfl, w3⟩ := cut_unique t2 (dg hn) (head_or (nd h2) (hd d2)) w2
    obtain ⟨rfl, w4⟩ := cut_unique t3 (bl h2) (hb c2) w3
    obtain ⟨rfl, w5⟩ := nocomma t4 w4 (fun t h => by cases h)
    obtain ⟨rfl, w6⟩ := cut_unique (a' := []) t5 (fun _ h => nomatch h) (hb c2) w5
    obtain ⟨rfl, w7⟩ := cut_unique (a' := []) t6 (fun _ h => nomatch h) (hd d2) w6
    obtain ⟨rfl, w8⟩ := cut_unique (a' := []) t7 (fun _ h => nomatch h) (hb c2) w7
    exact ⟨w8, Or.inl ⟨rfl, rfl, hn, hbn⟩⟩
  | @sloppy c1' cs c2' fs c3' n m h1 hn hbn h2 hne hm h3 =>
    rw [List.cons_append] at hw
    have w1 := (List.cons.inj hw).2
    simp only [List.append_assoc, List.cons_append, List.nil_append] at w1
    obtain ⟨rfl, w2⟩ := cut_unique t1 (bl h1) (head_num hn fun _ => digit_not_blank) w1
    obtain ⟨rfl, w3⟩ := cut_unique t2 (dg hn) (by
      cases c2' with
      | nil => exact (hne rfl).elim
      | cons ch r => intro c t e; cases e; exact nd h2 _ (by simp)) w2
    obtain ⟨rfl, w4⟩ := cut_unique t3 (bl h2) (head_num hm fun _ => digit_not_blank) w3
    obtain ⟨rfl, w5⟩ := nocomma t4 w4 (fun t h => by
      have := head_num (P := fun c => c ≠ ',') hm (fun c hc e => by subst e; revert hc; decide) _ _ h
      exact this rfl)
    obtain ⟨rfl, w6⟩ := cut_unique (a' := []) t5 (fun _ h => nomatch h) (head_num hm fun _ => digit_not_blank) w5
    obtain ⟨rfl, w7⟩ := cut_unique t6 (dg hm) (head_or (nd h3) (hd d2)) w6
    obtain ⟨rfl, w8⟩ := cut_unique t7 (bl h3) (hb c2) w7
    exact ⟨w8, Or.inl ⟨rfl, rfl, hn, hbn⟩⟩

/-- Pieces that stand for a range are a repeat specifier with that range. -/
theorem Pieces.text_of {w b1 ds b2 sep b3 es b4 rest y : Str} {lo hi : Nat} (ha : Ascii w)
    (hP : Pieces u w b1 ds b2 sep b3 es b4 rest) (hr : rest = '}' :: y) (hv : PieceRange ds sep es lo hi) :
    RepeatText ('{' :: (b1 ++ (ds ++ (b2 ++ (sep ++ (b3 ++ (es ++ (b4 ++ ['}'])))))))) lo hi := by
  obtain ⟨rfl, t1, t2, t3, t4, t5, t6, t7⟩ := hP
  subst hr
  have ha' : Ascii (b1 ++ (ds ++ (b2 ++ (sep ++ (b3 ++ (es ++ (b4 ++ '}' :: y))))))) := 
    fun c hc => ha c (List.mem_cons_of_mem _ hc)
  simp only [Ascii.append] at ha'
  obtain ⟨a1, a2, a3, a4, a5, a6, a7, a8⟩ := ha'
  have k1 := (blanks_iff a1).mp (takeWhile_all t1)
  have k3 := (blanks_iff a3).mp (takeWhile_all t3)
  have k5 := (blanks_iff a5).mp (takeWhile_all t5)
  have k7 := (blanks_iff a7).mp (takeWhile_all t7)
  have k6 : es ≠ [] → Numeral es (digitsVal es) := fun h0 =>
    Numeral.of_digits h0 ((digits_iff a6).mp (takeWhile_all t6))
  rcases hv with ⟨rfl, rfl, hn, hb⟩ | ⟨rfl, rfl, hn, hb, rfl⟩ | ⟨rfl, hn, hm, hb, hle⟩
  · have hb3 : b3 = [] := by
      cases b3 with
      | nil => rfl
      | cons c r => 
        have h1 := takeWhile_all t5 c (by simp)
        rw [cut_next t3 c _ rfl] at h1
        cases h1
    subst hb3
    by_cases he : es = []
    · subst he
      have hb4 : b4 = [] := by
        cases b4 with
        | nil => rfl
        | cons c r =>
          have h1 := takeWhile_all t7 c (by simp)
          rw [cut_next t3 c _ rfl] at h1
          cases h1
      subst hb4
      have := RepeatText.upTo k1 hn hb k3
      simpa only [List.append_assoc, List.cons_append, List.nil_append, List.append_nil] using this
    · have hne : b2 ≠ [] := by
        rintro rfl
        obtain ⟨c, r, rfl⟩ := List.exists_cons_of_ne_nil he
        have h1 := takeWhile_all t6 c (by simp)
        rw [cut_next t2 c _ rfl] at h1
        cases h1
      have := RepeatText.sloppy k1 hn hb k3 hne (k6 he) k7
      simpa only [List.append_assoc, List.cons_append, List.nil_append, List.append_nil] using this
  · have hb4 : b4 = [] := by
      cases b4 with
      | nil => rfl
      | cons c r =>
        have h1 := takeWhile_all t7 c (by simp)
        rw [cut_next t5 c _ rfl] at h1
        cases h1
    subst hb4
    have := RepeatText.atLeast k1 hn hb k3 k5
    simpa only [List.append_assoc, List.cons_append, List.nil_append, List.append_nil] using this
  · have := RepeatText.between k1 hn k3 k5 hm hb k7 hle
    simpa only [List.append_assoc, List.cons_append, List.nil_append, List.append_nil] using this

end

end Adx
