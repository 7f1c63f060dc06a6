import Verif.Proofs.Step
import Verif.Proofs.Text
import Verif.Spec.Offset
/-
  Numerals and offset texts.
-/
namespace Adx

theorem Numeral.digits {ds : Str} {n : Nat} (h : Numeral ds n) :
    ds ≠ [] ∧ ds.all Char.isDigit = true ∧ digitsVal ds = n := by
  induction h with
  | digit hc =>
    refine ⟨by simp, by simp [hc], ?_⟩
    simp [digitsVal, digitOf]
  | more _ hc ih =>
    obtain ⟨_, h2, h3⟩ := ih
    refine ⟨by simp, by simp [h2, hc], ?_⟩
    unfold digitsVal at h3 ⊢
    rw [List.foldl_append, h3]
    rfl

theorem Numeral.of_digits {ds : Str} (h0 : ds ≠ []) (h : ds.all Char.isDigit = true) :
    Numeral ds (digitsVal ds) := by
  suffices h : ∀ n ds, ds.length = n → ds ≠ [] → ds.all Char.isDigit = true → Numeral ds (digitsVal ds) from
    h _ ds rfl h0 ‹_›
  intro n
  induction n with
  | zero =>
    intro ds hl h0
    exact (h0 (List.length_eq_zero_iff.mp hl)).elim
  | succ n ih =>
    intro ds hl h0 ha
    obtain ⟨ini, c, rfl⟩ : ∃ ini c, ds = ini ++ [c] :=
      ⟨ds.dropLast, ds.getLast h0, (List.dropLast_concat_getLast h0).symm⟩
    rw [List.all_append, Bool.and_eq_true] at ha
    have hc : c.isDigit = true := by simpa using ha.2
    have hv : digitsVal (ini ++ [c]) = 10 * digitsVal ini + digitOf c := by
      unfold digitsVal
      rw [List.foldl_append]
      rfl
    rw [hv]
    by_cases hi : ini = []
    · subst hi
      have : Numeral [c] (digitOf c) := .digit hc
      simpa [digitsVal] using this
    · exact .more (ih ini (by simpa using hl) hi ha.1) hc

theorem Numeral.unique {ds : Str} {n n' : Nat} (h : Numeral ds n) (h' : Numeral ds n') : n = n' :=
  h.digits.2.2.symm.trans h'.digits.2.2

theorem Numeral.head {ds : Str} {n : Nat} (h : Numeral ds n) :
    ∃ ch rest, ds = ch :: rest ∧ ch.isDigit = true := by
  obtain ⟨h0, ha, _⟩ := h.digits
  cases ds with
  | nil => exact (h0 rfl).elim
  | cons ch rest =>
    simp at ha
    exact ⟨ch, rest, rfl, ha.1⟩

theorem isDigit_ne {ch : Char} (h : ch.isDigit = true) : ch ≠ '+' ∧ ch ≠ '-' ∧ ch ≠ '.' := by
  refine ⟨?_, ?_, ?_⟩ <;> (rintro rfl; revert h; decide)

theorem Numeral.nodot {ds : Str} {n : Nat} (h : Numeral ds n) : '.' ∉ ds := by
  intro hm
  have := List.all_eq_true.mp h.digits.2.1 _ hm
  revert this
  decide

theorem Numeral.noplus {ds : Str} {n : Nat} (h : Numeral ds n) : ∀ t, ds ≠ '+' :: t := by
  obtain ⟨ch, rest, rfl, hd⟩ := h.head
  intro t ht
  exact (isDigit_ne hd).1 (List.cons.inj ht).1

theorem parseUsize_iff {s : Str} {n : Nat} :
    parseUsize s = some n ↔ n ≤ usizeMax ∧ (Numeral s n ∨ ∃ ds, s = '+' :: ds ∧ Numeral ds n) := by
  have core : ∀ ds : Str, (if ds = [] then none else if ds.all Char.isDigit = true then
      (if digitsVal ds ≤ usizeMax then some (digitsVal ds) else none) else none) = some n ↔
      n ≤ usizeMax ∧ Numeral ds n := by
    intro ds
    by_cases h0 : ds = []
    · rw [if_pos h0]
      refine ⟨fun h => by simp at h, fun h => (h.2.digits.1 h0).elim⟩
    rw [if_neg h0]
    by_cases ha : ds.all Char.isDigit = true
    · rw [if_pos ha]
      by_cases hm : digitsVal ds ≤ usizeMax
      · rw [if_pos hm]
        constructor
        · intro h
          cases h
          exact ⟨hm, .of_digits h0 ha⟩
        · rintro ⟨_, h⟩
          rw [h.digits.2.2]
      · rw [if_neg hm]
        refine ⟨fun h => by simp at h, fun h => ?_⟩
        rw [h.2.digits.2.2] at hm
        exact (hm h.1).elim
    · rw [if_neg ha]
      exact ⟨fun h => by simp at h, fun h => (ha h.2.digits.2.1).elim⟩
  by_cases hp : ∃ t, s = '+' :: t
  · obtain ⟨t, rfl⟩ := hp
    refine (core t).trans ?_
    constructor
    · rintro ⟨h1, h2⟩
      exact ⟨h1, Or.inr ⟨t, rfl, h2⟩⟩
    · rintro ⟨h1, h2 | ⟨ds, hd, h2⟩⟩
      · exact (h2.noplus t rfl).elim
      · cases hd
        exact ⟨h1, h2⟩
  · have he : parseUsize s = (if s = [] then none else if s.all Char.isDigit = true then
      (if digitsVal s ≤ usizeMax then some (digitsVal s) else none) else none) := by
      have hp' : ∀ t, s = '+' :: t → False := fun t ht => hp ⟨t, ht⟩
      simp only [parseUsize]
    rw [he]
    refine (core s).trans ?_
    constructor
    · rintro ⟨h1, h2⟩
      exact ⟨h1, Or.inl h2⟩
    · rintro ⟨h1, h2 | ⟨ds, hd, _⟩⟩
      · exact ⟨h1, h2⟩
      · exact (hp ⟨ds, hd⟩).elim

theorem numeral_natStr (n : Nat) : Numeral (natStr n) n := by
  have hd : ∀ m, m < 10 → Numeral [m.digitChar] m ∧ m.digitChar.isDigit = true ∧ digitOf m.digitChar = m := by
    intro m hm
    have h2 : m.digitChar.isDigit = true ∧ digitOf m.digitChar = m := by
      have : ∀ m : Fin 10, m.val.digitChar.isDigit = true ∧ digitOf m.val.digitChar = m.val := by decide
      exact this ⟨m, hm⟩
    refine ⟨?_, h2⟩
    have := Numeral.digit h2.1
    rw [h2.2] at this
    exact this
  unfold natStr
  induction n using Nat.strongRecOn with
  | _ n ih =>
    by_cases h : n < 10
    · rw [Nat.toDigits_of_lt_base h]
      exact (hd n h).1
    · rw [Nat.toDigits_of_base_le (by omega) (by omega)]
      have h1 := ih (n / 10) (by omega)
      obtain ⟨_, h2, h3⟩ := hd (n % 10) (by omega)
      have := Numeral.more h1 h2
      rw [h3] at this
      have e : 10 * (n / 10) + n % 10 = n := by omega
      rw [e] at this
      exact this

/-- The first byte of a text. -/
theorem bslice_first {s pre : Str} : bslice s 0 1 = some pre ↔
    ∃ ch rest, s = ch :: rest ∧ pre = [ch] ∧ ch.utf8Size = 1 := by
  rw [bslice_iff]
  constructor
  · rintro ⟨x, y, rfl, h0, h1⟩
    have hx : x = [] := blen_eq_zero.mp h0.symm
    subst hx
    cases pre with
    | nil => simp [blen] at h1
    | cons ch rest =>
      have hp := Char.utf8Size_pos ch
      simp only [blen] at h1
      have hr : rest = [] := blen_eq_zero.mp (by omega)
      subst hr
      exact ⟨ch, y, rfl, rfl, by simp only [blen] at h1; omega⟩
  · rintro ⟨ch, rest, rfl, rfl, h⟩
    exact ⟨[], rest, rfl, rfl, by simp [blen, h]⟩

theorem digit_size {ch : Char} (h : ch.isDigit = true) : ch.utf8Size = 1 := by
  refine utf8Size_ascii ?_
  have h9 := (Char.isDigit_iff_toNat.mp h).2
  have : '9'.toNat = 57 := rfl
  omega

theorem parseUsize_numeral {ds : Str} {n : Nat} (h : Numeral ds n) :
    parseUsize ds = (if n < 2 ^ 64 then some n else none) ∧
    parseUsize ('+' :: ds) = (if n < 2 ^ 64 then some n else none) := by
  have hm : n < 2 ^ 64 ↔ n ≤ usizeMax := by unfold usizeMax; omega
  constructor
  · by_cases hn : n < 2 ^ 64
    · rw [if_pos hn]
      exact parseUsize_iff.mpr ⟨hm.mp hn, Or.inl h⟩
    · rw [if_neg hn]
      cases hp : parseUsize ds with
      | none => rfl
      | some n' =>
        obtain ⟨h1, h2 | ⟨t, rfl, _⟩⟩ := parseUsize_iff.mp hp
        · rw [h2.unique h] at h1
          exact (hn (hm.mpr h1)).elim
        · exact (h.noplus t rfl).elim
  · by_cases hn : n < 2 ^ 64
    · rw [if_pos hn]
      exact parseUsize_iff.mpr ⟨hm.mp hn, Or.inr ⟨ds, rfl, h⟩⟩
    · rw [if_neg hn]
      cases hp : parseUsize ('+' :: ds) with
      | none => rfl
      | some n' =>
        obtain ⟨h1, h2 | ⟨t, ht, h2⟩⟩ := parseUsize_iff.mp hp
        · exact (h2.noplus _ rfl).elim
        · cases ht
          rw [h2.unique h] at h1
          exact (hn (hm.mpr h1)).elim

variable {cfg : Cfg} {s s' : State} {base old v : Nat}

theorem Numeral.not_empty {ds : Str} {n : Nat} (h : Numeral ds n) : isEmptyOffset ds = false := by
  obtain ⟨ch, rest, rfl, hd⟩ := h.head
  have := isDigit_ne hd
  simp [isEmptyOffset, this.1, this.2.1]

theorem parseOffset_abs {ch : Char} {rest : Str} (h1 : ch ≠ '+') (h2 : ch ≠ '-') (h3 : ch.utf8Size = 1) :
    parseOffset cfg base old (ch :: rest) = (match parseUsize (ch :: rest) with
      | none => M.panic "Error while attempting to parse `Pin` start offset"
      | some n => pure n) := by
  have he : isEmptyOffset (ch :: rest) = false := by simp [isEmptyOffset, h1, h2]
  have hb : bslice (ch :: rest) 0 1 = some [ch] := bslice_first.mpr ⟨ch, rest, rfl, rfl, h3⟩
  unfold parseOffset
  rw [he, hb]
  simp only [Bool.false_eq_true, if_false, List.cons.injEq, and_true, h1, h2, or_self]
  cases parseUsize (ch :: rest) <;> rfl

theorem parseOffset_sign {sg : Char} {part : Str} (h1 : sg = '+' ∨ sg = '-')
    (he : isEmptyOffset (sg :: part) = false) :
    parseOffset cfg base old (sg :: part) = (match parseUsize part with
      | none => M.panic "Error while attempting to parse `Pin` start offset"
      | some n =>
        if sg = '-' then
          if n ≤ base then pure (base - n)
          else if cfg.overflowChecks then M.panic "attempt to subtract with overflow"
          else pure (base + (usizeMax + 1) - n)
        else if base + n ≤ usizeMax then pure (base + n)
        else if cfg.overflowChecks then M.panic "attempt to add with overflow"
        else pure ((base + n) % (usizeMax + 1))) := by
  have h3 : sg.utf8Size = 1 := by rcases h1 with rfl | rfl <;> rfl
  have hb : bslice (sg :: part) 0 1 = some [sg] := bslice_first.mpr ⟨sg, part, rfl, rfl, h3⟩
  unfold parseOffset
  rw [he, hb]
  rcases h1 with rfl | rfl <;> simp <;> cases parseUsize part <;> rfl

/-- The value that an offset text gives, if it is spelled correctly. -/
theorem parseOffset_spelled {txt : Str} {o : Off} (hb : base < 2 ^ 64) (h : Spells txt o) :
    parseOffset cfg base old txt s = .ok v s' ↔ s' = s ∧ o.Denotes cfg base old v := by
  have hmax : usizeMax + 1 = 2 ^ 64 := rfl
  have same : ∀ {t : Str}, isEmptyOffset t = true →
      (parseOffset cfg base old t s = .ok v s' ↔ s' = s ∧ Off.Denotes cfg base old .same v) := by
    intro t ht
    unfold parseOffset
    rw [if_pos ht, pure_ok']
    constructor
    · rintro ⟨rfl, rfl⟩
      exact ⟨rfl, .same⟩
    · rintro ⟨rfl, h⟩
      cases h
      exact ⟨rfl, rfl⟩
  have plus : ∀ {part : Str} {n : Nat}, isEmptyOffset ('+' :: part) = false →
      parseUsize part = (if n < 2 ^ 64 then some n else none) →
      (parseOffset cfg base old ('+' :: part) s = .ok v s' ↔ s' = s ∧ Off.Denotes cfg base old (.plus n) v) := by
    intro part n he hp
    rw [parseOffset_sign (Or.inl rfl) he, hp]
    by_cases hn : n < 2 ^ 64
    · rw [if_pos hn]
      dsimp only
      rw [if_neg (by decide)]
      by_cases hle : base + n ≤ usizeMax
      · rw [if_pos hle, pure_ok']
        constructor
        · rintro ⟨rfl, rfl⟩
          exact ⟨rfl, .plus hn (by omega) rfl⟩
        · rintro ⟨rfl, h⟩
          cases h with
          | plus _ _ h => exact ⟨h, rfl⟩
          | plusWraps _ _ h => omega
      · rw [if_neg hle]
        by_cases ho : cfg.overflowChecks = true
        · rw [if_pos ho]
          constructor
          · intro h
            cases h
          · rintro ⟨_, h⟩
            cases h with
            | plus _ h1 h => omega
            | plusWraps h => rw [h] at ho; cases ho
        · rw [if_neg ho, pure_ok']
          have ho' : cfg.overflowChecks = false := by simpa using ho
          have hmod : (base + n) % (usizeMax + 1) + 2 ^ 64 = base + n := by
            rw [hmax, Nat.mod_eq_sub_mod (by omega), Nat.mod_eq_of_lt (by omega)]
            omega
          constructor
          · rintro ⟨rfl, rfl⟩
            exact ⟨rfl, .plusWraps ho' hn (by omega) hmod⟩
          · rintro ⟨rfl, h⟩
            cases h with
            | plus _ h1 h => omega
            | plusWraps _ _ _ h => exact ⟨by omega, rfl⟩
    · rw [if_neg hn]
      constructor
      · intro h
        cases h
      · rintro ⟨_, h⟩
        cases h <;> contradiction
  have minus : ∀ {part : Str} {n : Nat}, isEmptyOffset ('-' :: part) = false →
      parseUsize part = (if n < 2 ^ 64 then some n else none) →
      (parseOffset cfg base old ('-' :: part) s = .ok v s' ↔ s' = s ∧ Off.Denotes cfg base old (.minus n) v) := by
    intro part n he hp
    rw [parseOffset_sign (Or.inr rfl) he, hp]
    by_cases hn : n < 2 ^ 64
    · rw [if_pos hn]
      dsimp only
      rw [if_pos rfl]
      by_cases hle : n ≤ base
      · rw [if_pos hle, pure_ok']
        constructor
        · rintro ⟨rfl, rfl⟩
          exact ⟨rfl, .minus hn (by omega)⟩
        · rintro ⟨rfl, h⟩
          cases h with
          | minus _ h => exact ⟨by omega, rfl⟩
          | minusWraps _ _ h => omega
      · rw [if_neg hle]
        by_cases ho : cfg.overflowChecks = true
        · rw [if_pos ho]
          constructor
          · intro h
            cases h
          · rintro ⟨_, h⟩
            cases h with
            | minus _ h => omega
            | minusWraps h => rw [h] at ho; cases ho
        · rw [if_neg ho, pure_ok']
          have ho' : cfg.overflowChecks = false := by simpa using ho
          constructor
          · rintro ⟨rfl, rfl⟩
            exact ⟨rfl, .minusWraps ho' hn (by omega) (by omega)⟩
          · rintro ⟨rfl, h⟩
            cases h with
            | minus _ h => omega
            | minusWraps _ _ _ h => exact ⟨by omega, rfl⟩
    · rw [if_neg hn]
      constructor
      · intro h
        cases h
      · rintro ⟨_, h⟩
        cases h <;> contradiction
  cases h with
  | empty => exact same rfl
  | plusOnly => exact same rfl
  | minusOnly => exact same rfl
  | plusZero => exact same rfl
  | minusZero => exact same rfl
  | abs hd =>
    obtain ⟨ch, rest, rfl, hc⟩ := hd.head
    have hne := isDigit_ne hc
    rw [parseOffset_abs hne.1 hne.2.1 (digit_size hc), (parseUsize_numeral hd).1]
    split
    · rename_i hn
      split at hn
      · cases hn
      · rename_i hn
        constructor
        · intro h
          cases h
        · rintro ⟨_, h⟩
          cases h
          contradiction
    · rename_i n' hn
      split at hn
      · rename_i hlt
        cases hn
        rw [pure_ok']
        constructor
        · rintro ⟨rfl, rfl⟩
          exact ⟨rfl, .abs hlt⟩
        · rintro ⟨rfl, h⟩
          cases h
          exact ⟨rfl, rfl⟩
      · cases hn
  | @plus ds n hd h0 =>
    obtain ⟨ch, rest, rfl, hc⟩ := hd.head
    exact plus (by
      simp only [isEmptyOffset]
      simpa using h0) (parseUsize_numeral hd).1
  | @minus ds n hd h0 =>
    obtain ⟨ch, rest, rfl, hc⟩ := hd.head
    exact minus (by
      simp only [isEmptyOffset]
      simpa using h0) (parseUsize_numeral hd).1
  | plusPlus hd =>
    exact plus (by simp [isEmptyOffset]) (parseUsize_numeral hd).2
  | minusPlus hd =>
    exact minus (by simp [isEmptyOffset]) (parseUsize_numeral hd).2

/-- Only correctly spelled offsets give a value. -/
theorem parseOffset_spells {txt : Str} (h : parseOffset cfg base old txt s = .ok v s') :
    ∃ o, Spells txt o := by
  by_cases he : isEmptyOffset txt = true
  · simp only [isEmptyOffset, Bool.or_eq_true, beq_iff_eq] at he
    rcases he with (((rfl | rfl) | rfl) | rfl) | rfl
    · exact ⟨_, .empty⟩
    · exact ⟨_, .plusOnly⟩
    · exact ⟨_, .minusOnly⟩
    · exact ⟨_, .plusZero⟩
    · exact ⟨_, .minusZero⟩
  · have he' : isEmptyOffset txt = false := by simpa using he
    cases hb : bslice txt 0 1 with
    | none =>
      unfold parseOffset at h
      rw [if_neg he, hb] at h
      cases h
    | some pre =>
      obtain ⟨ch, rest, rfl, rfl, hs⟩ := bslice_first.mp hb
      by_cases hsg : ch = '+' ∨ ch = '-'
      · rw [parseOffset_sign hsg he'] at h
        cases hp : parseUsize rest with
        | none => rw [hp] at h; cases h
        | some n =>
          have h0 : rest ≠ ['0'] := by
            rintro rfl
            rcases hsg with rfl | rfl <;> simp [isEmptyOffset] at he'
          obtain ⟨_, hd | ⟨ds, rfl, hd⟩⟩ := parseUsize_iff.mp hp
          · rcases hsg with rfl | rfl
            · exact ⟨_, .plus hd h0⟩
            · exact ⟨_, .minus hd h0⟩
          · rcases hsg with rfl | rfl
            · exact ⟨_, .plusPlus hd⟩
            · exact ⟨_, .minusPlus hd⟩
      · have h1 : ch ≠ '+' := fun e => hsg (Or.inl e)
        have h2 : ch ≠ '-' := fun e => hsg (Or.inr e)
        rw [parseOffset_abs h1 h2 hs] at h
        cases hp : parseUsize (ch :: rest) with
        | none => rw [hp] at h; cases h
        | some n =>
          obtain ⟨_, hd | ⟨ds, hc, _⟩⟩ := parseUsize_iff.mp hp
          · exact ⟨_, .abs hd⟩
          · exact (h1 (List.cons.inj hc).1).elim

/-- An offset text gives a value exactly when it is correctly spelled, and then the
value it denotes. -/
theorem parseOffset_iff {txt : Str} (hb : base < 2 ^ 64) :
    parseOffset cfg base old txt s = .ok v s' ↔
      s' = s ∧ ∃ o, Spells txt o ∧ o.Denotes cfg base old v := by
  constructor
  · intro h
    obtain ⟨o, ho⟩ := parseOffset_spells h
    obtain ⟨h1, h2⟩ := (parseOffset_spelled hb ho).mp h
    exact ⟨h1, o, ho, h2⟩
  · rintro ⟨h1, o, ho, h2⟩
    exact (parseOffset_spelled hb ho).mpr ⟨h1, h2⟩

/-- Reading an offset never runs out of depth. -/
theorem parseOffset_total {txt : Str} : parseOffset cfg base old txt s ≠ .diverge := by
  unfold parseOffset
  by_cases he : isEmptyOffset txt = true
  · rw [if_pos he]
    exact fun h => by cases h
  rw [if_neg he]
  cases bslice txt 0 1 with
  | none => exact fun h => by cases h
  | some pre =>
    dsimp only
    generalize parseUsize _ = o
    cases o with
    | none => exact fun h => by cases h
    | some n =>
      dsimp only
      repeat' split
      all_goals exact fun h => by cases h

theorem splitDotDot_nodot {a : Str} (h : '.' ∉ a) : splitDotDot a = [a] := by
  induction a with
  | nil => rfl
  | cons c cs ih =>
    have hc : c ≠ '.' := fun e => h (by simp [e])
    have := ih (fun hm => h (by simp [hm]))
    unfold splitDotDot
    split
    · rename_i heq; cases heq
    · rename_i heq
      exact (hc (List.cons.inj heq).1).elim
    · rename_i heq
      obtain ⟨rfl, rfl⟩ := List.cons.inj heq
      rw [this]

theorem splitDotDot_two {a b : Str} (h : '.' ∉ a) (h' : '.' ∉ b) :
    splitDotDot (a ++ '.' :: '.' :: b) = [a, b] := by
  induction a with
  | nil =>
    show [] :: splitDotDot b = _
    rw [splitDotDot_nodot h']
  | cons c cs ih =>
    have hc : c ≠ '.' := fun e => h (by simp [e])
    have := ih (fun hm => h (by simp [hm]))
    rw [List.cons_append]
    unfold splitDotDot
    split
    · rename_i heq; cases heq
    · rename_i heq
      exact (hc (List.cons.inj heq).1).elim
    · rename_i heq
      obtain ⟨rfl, rfl⟩ := List.cons.inj heq
      rw [this]

theorem Spells.nodot {txt : Str} {o : Off} (h : Spells txt o) : '.' ∉ txt := by
  cases h with
  | abs hd => exact hd.nodot
  | plus hd => have := hd.nodot; simp [this]
  | minus hd => have := hd.nodot; simp [this]
  | plusPlus hd => have := hd.nodot; simp [this]
  | minusPlus hd => have := hd.nodot; simp [this]
  | _ => decide

end Adx
