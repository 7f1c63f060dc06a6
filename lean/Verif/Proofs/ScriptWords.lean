import Verif.Proofs.Builders
import Verif.Proofs.Rx
import Verif.Spec.Syntax
/-
  The words of grammar scripts: what the matchers for them read.
-/
namespace Adx.Read

open Syntax (Munch Gap Blanks Identifier Number Quoted Comment Comma)

/-! ### Classes of characters -/

theorem char_eq {c d : Char} : c = d ↔ c.toNat = d.toNat :=
  ⟨fun h => by rw [h], fun h => Char.ext (UInt32.toNat_inj.mp h)⟩

theorem space_ascii {c : Char} (h : c.toNat < 128) : Rx.isSpace c = Syntax.space c := by
  unfold Rx.isSpace Syntax.space
  rw [Bool.eq_iff_iff]
  simp only [Bool.or_eq_true, Bool.and_eq_true, decide_eq_true_eq, beq_iff_eq, char_eq]
  have : (' ' : Char).toNat = 32 := rfl
  rw [this]
  omega

theorem blank_ascii {c : Char} (h : c.toNat < 128) : Script.isBlank c = Syntax.blank c := by
  unfold Script.isBlank Syntax.blank
  rw [space_ascii h]

theorem attr_ascii {u : Uni} {c : Char} (h : c.toNat < 128) : Script.isAttr u c = Syntax.attrChar c := by
  unfold Script.isAttr Syntax.attrChar
  rw [u.word_ascii c h]
  cases c.isAlphanum <;> cases (c == '_') <;> cases (c == '+') <;> rfl

theorem id_ascii (c : Char) : (c.isAlpha || c.isDigit || c == '$' || c == '_') = Syntax.idChar c := by
  unfold Syntax.idChar Syntax.idStart
  cases c.isAlpha <;> cases c.isDigit <;> cases (c == '$') <;> cases (c == '_') <;> rfl

section
variable {p q : Char → Bool} {w u rest : Str}

theorem _root_.Adx.Syntax.Munch.take (h : Munch p w u rest) (hq : ∀ c ∈ w, q c = p c) : w.takeWhile q = u := by
  obtain ⟨rfl, h1, h2⟩ := h
  induction u with
  | nil =>
    cases rest with
    | nil => rfl
    | cons c rest =>
      show (c :: rest).takeWhile q = []
      rw [List.takeWhile_cons, hq c (by simp), h2 c rfl]
      rfl
  | cons c u ih =>
    rw [List.cons_append, List.takeWhile_cons, hq c (by simp), h1 c (by simp), if_pos rfl,
      ih (fun d hd => h1 d (by simp [hd])) (fun d hd => hq d (by simp at hd ⊢; right; exact hd))]

theorem _root_.Adx.Syntax.Munch.same (h : Munch p w u rest) (hq : ∀ c ∈ w, q c = p c) : Munch q w u rest := by
  refine ⟨h.split, fun c hc => ?_, fun c hc => ?_⟩
  · rw [hq c (by rw [h.split]; exact List.mem_append_left _ hc), h.all c hc]
  · refine (hq c ?_).trans (h.most c hc)
    rw [h.split]
    cases rest with
    | nil => cases hc
    | cons d rest =>
      cases hc
      simp

theorem _root_.Adx.Syntax.Munch.unique {u' rest' : Str} (h : Munch p w u rest) (h' : Munch p w u' rest') : u = u' ∧ rest = rest' := by
  have h1 := h.take (q := p) (fun _ _ => rfl)
  have h2 := h'.take (q := p) (fun _ _ => rfl)
  have h3 := h.split
  rw [h1.symm.trans h2, h'.split] at h3
  exact ⟨h1.symm.trans h2, (List.append_cancel_left h3).symm⟩

theorem _root_.Adx.Syntax.Munch.stop (h : ∀ c, w.head? = some c → p c = false) : Munch p w [] w :=
  ⟨rfl, fun _ h => (by cases h), h⟩

theorem _root_.Adx.Syntax.Munch.suffix (h : Munch p w u rest) : rest <:+ w := by
  rw [h.split]
  exact List.suffix_append ..

end

theorem _root_.Adx.Syntax.Gap.suffix {w rest : Str} (h : Gap w rest) : rest <:+ w := by
  obtain ⟨u, h⟩ := h
  exact h.suffix

theorem _root_.Adx.Syntax.Blanks.suffix {w rest : Str} (h : Blanks w rest) : rest <:+ w := by
  obtain ⟨u, h⟩ := h
  exact h.suffix

theorem _root_.Adx.Syntax.Gap.unique {w rest rest' : Str} (h : Gap w rest) (h' : Gap w rest') : rest = rest' := by
  obtain ⟨u, h⟩ := h
  obtain ⟨u', h'⟩ := h'
  exact (h.unique h').2

theorem _root_.Adx.Syntax.Gap.head {w rest : Str} {c : Char} (h : Gap w rest) (hc : rest.head? = some c) : Syntax.space c = false := by
  obtain ⟨u, h⟩ := h
  exact h.most c hc

/-- White space has been skipped already. -/
theorem _root_.Adx.Syntax.Gap.again {w rest : Str} (h : Gap w rest) : Gap rest rest := by
  obtain ⟨u, h⟩ := h
  exact ⟨[], .stop h.most⟩

theorem _root_.Adx.Syntax.Blanks.again {w rest : Str} (h : Blanks w rest) : Blanks rest rest := by
  obtain ⟨u, h⟩ := h
  exact ⟨[], .stop h.most⟩

section
variable {E : Setting} {K : Option Nat} {w w' u rest : Str}

/-! ### Runs of characters -/

/-- `[q]*`, thrown away. -/
theorem reads_run {p q : Char → Bool} {n pattern : String} (h : Munch p w u rest)
    (hq : ∀ c : Char, c.toNat < 128 → q c = p c) (hn : Free n) :
    BReads E K K (B.discard (B.regexN n (mkRx pattern [[.star q]]))) w (.past rest) := by
  refine .of_has fun hw => ?_
  have ht := h.take (q := q) fun c hc => hq c (hw.ascii c hc)
  have hf := find_star q pattern w
  rw [ht] at hf
  by_cases hu : u = []
  · subst hu
    obtain rfl : w = rest := h.split
    exact .discard (.regexN_empty hf hn)
  · have hs := h.split
    subst hs
    exact .discard (.regexN hu hf hn) (leafT_clean hn.clean)

theorem reads_gap (h : Gap w rest) : BReads E K K Script.wsn0 w (.past rest) := by
  obtain ⟨u, h⟩ := h
  exact reads_run h (fun _ => space_ascii) (by decide)

theorem reads_blanks (h : Blanks w rest) : BReads E K K Script.ws0 w (.past rest) := by
  obtain ⟨u, h⟩ := h
  exact reads_run h (fun _ => blank_ascii) (by decide)

/-- `[q]+` -/
theorem reads_plus {p q : Char → Bool} {n pattern : String} (h : Munch p w u rest) (hu : u ≠ [])
    (hq : ∀ c : Char, c.toNat < 128 → q c = p c) (hn : Free n) :
    BReads E K K (B.regexN n (mkRx pattern [Rx.plus q])) w (.tok rest (leafT E n.toList w rest)) := by
  refine .of_has fun hw => ?_
  have ht := h.take (q := q) fun c hc => hq c (hw.ascii c hc)
  have hf := find_plus (p := q) (pattern := pattern) (w := w) (by rw [ht]; exact hu)
  rw [ht] at hf
  have hs := h.split
  subst hs
  exact .regexN hu hf hn

theorem reads_plus_fail {p q : Char → Bool} {n pattern : String} (h : ∀ c, w.head? = some c → p c = false)
    (hq : ∀ c : Char, c.toNat < 128 → q c = p c) (hn : Free n) :
    BReads E K K (B.regexN n (mkRx pattern [Rx.plus q])) w .fail := by
  refine .of_has fun hw => ?_
  have ht := (Munch.stop h).take (q := q) fun c hc => hq c (hw.ascii c hc)
  exact .regexN_fail (find_plus_none ht) hn

/-- A regular expression that does not match at the beginning does not match there. -/
theorem find_none {pattern : String} {as : List (List RxItem)} (h : rxAlt as w = none) (n : Nat) :
    (mkRx pattern as).find w ≠ some (0, n) := by
  intro hf
  change rxFind as 0 w = _ at hf
  cases w with
  | nil =>
    unfold rxFind at hf
    rw [h] at hf
    cases hf
  | cons c w =>
    unfold rxFind at hf
    rw [h] at hf
    obtain ⟨pre, x, post, -, h2, -⟩ := rxFind_cut _ _ _ _ _ hf
    have := Char.utf8Size_pos c
    omega

theorem find_here {pattern : String} {as : List (List RxItem)} {n : Nat} (h : rxAlt as w = some n) :
    (mkRx pattern as).find w = some (0, n) := by
  show rxFind as 0 w = _
  cases w with
  | nil => unfold rxFind; rw [h]; simp
  | cons c w => unfold rxFind; rw [h]; simp

/-- A single character, then `[q]*`. -/
theorem find_one_star {p q : Char → Bool} {pattern : String} {c : Char} (hc : p c = true) :
    (mkRx pattern [[.one p, .star q]]).find (c :: w) = some (0, blen (c :: w.takeWhile q)) := by
  refine find_here ?_
  show (match rxSeq [.one p, .star q] (c :: w) with | some n => some n | none => rxAlt [] (c :: w)) = _
  have : rxSeq [.one p, .star q] (c :: w) = some (blen (c :: w.takeWhile q)) := by
    unfold rxSeq
    dsimp only
    rw [if_pos hc]
    unfold rxSeq
    rw [rxStar_end]
    rfl
  rw [this]

theorem find_one_none {p : Char → Bool} {is : List RxItem} {pattern : String} (hc : ∀ c, w.head? = some c → p c = false) (n : Nat) :
    (mkRx pattern [.one p :: is]).find w ≠ some (0, n) := by
  refine find_none ?_ n
  have : rxSeq (.one p :: is) w = none := by
    unfold rxSeq
    cases w with
    | nil => rfl
    | cons c w =>
      dsimp only
      rw [hc c rfl]
      rfl
  unfold rxAlt
  rw [this]
  rfl

/-! ### Identifiers, texts, comments -/

theorem _root_.Adx.Syntax.Identifier.ne {n : Str} (h : Identifier w n rest) : n ≠ [] := by
  obtain ⟨_, c, cs, rfl, -⟩ := h
  simp

theorem _root_.Adx.Syntax.Identifier.head {n : Str} (h : Identifier w n rest) : ∃ c, w.head? = some c ∧ Syntax.idStart c = true := by
  obtain ⟨h, c, cs, rfl, hc⟩ := h
  exact ⟨c, by rw [h.split]; rfl, hc⟩

theorem reads_identifier {n : Str} {name : String} (h : Identifier w n rest) (hn : Free name) :
    BReads E K K (Script.identifier name) w (.tok rest (leafT E name.toList w rest)) := by
  obtain ⟨h, c, cs, rfl, hc⟩ := h
  obtain ⟨rfl, h1, h2⟩ := h
  refine .regexN (by simp) ?_ hn
  have ht : (cs ++ rest).takeWhile (fun c => c.isAlpha || c.isDigit || c == '$' || c == '_') = cs :=
    Munch.take (p := Syntax.idChar) ⟨rfl, fun d hd => h1 d (by simp [hd]), h2⟩ fun d _ => id_ascii d
  have := find_one_star (w := cs ++ rest) (q := fun c => c.isAlpha || c.isDigit || c == '$' || c == '_')
    (pattern := "[a-zA-Z$_][a-zA-Z0-9$_]*") (p := fun c => c.isAlpha || c == '$' || c == '_') hc
  rw [ht] at this
  exact this

theorem reads_identifier_fail {name : String} (h : ∀ c, w.head? = some c → Syntax.idStart c = false) (hn : Free name) :
    BReads E K K (Script.identifier name) w .fail :=
  .regexN_fail (find_one_none h) hn

theorem reads_string {raw val : Str} {name : String} (h : Quoted w raw val rest) (hn : Free name) :
    ∃ w1, w = '\'' :: w1 ∧ w1 = raw ++ '\'' :: rest ∧
    BReads E K K (Script.string name) w (.tok rest (delimT E name.toList w w1 ('\'' :: rest) rest val)) := by
  obtain ⟨h⟩ := h
  refine ⟨_, rfl, by rw [h.split]; simp, ?_⟩
  exact .sequenceN (a := ['\'']) (z := ['\'']) (e := ['\\']) h hn

theorem _root_.Adx.Syntax.Quoted.head {raw val : Str} (h : Quoted w raw val rest) : w.head? = some '\'' := by
  cases h
  rfl

theorem _root_.Adx.Syntax.Quoted.suffix {raw val : Str} (h : Quoted w raw val rest) : rest <:+ w := by
  obtain ⟨h⟩ := h
  rw [h.split]
  exact ⟨'\'' :: raw ++ ['\''], by simp⟩

theorem reads_string_fail {name : String} (h : w.head? ≠ some '\'') (hn : Free name) :
    BReads E K K (Script.string name) w .fail := by
  refine .sequenceN_fail (a := ['\'']) (z := ['\'']) (e := ['\\']) (fun w1 raw val rest hw _ => h ?_) hn
  rw [hw]
  rfl

theorem reads_comment (h : Comment w rest) : BReads E K K Script.comment w (.tok rest (leafT E "Comment".toList w rest)) := by
  obtain ⟨h⟩ := h
  obtain ⟨rfl, h1, h2⟩ := h
  rename_i u
  have ht : (u ++ rest).takeWhile (fun c => c != '\r' && c != '\n') = u :=
    Munch.take (p := Syntax.lineChar) ⟨rfl, h1, h2⟩ fun d _ => rfl
  have := find_one_star (w := u ++ rest) (q := fun c => c != '\r' && c != '\n')
    (pattern := "#[^\\r\\n]*") (p := (· == '#')) (c := '#') rfl
  rw [ht] at this
  exact .regexN (u := '#' :: u) (by simp) this

theorem reads_comment_fail (h : w.head? ≠ some '#') : BReads E K K Script.comment w .fail := by
  refine .regexN_fail (find_one_none fun c hc => ?_)
  cases hb : (c == '#') with
  | false => rfl
  | true =>
    rw [beq_iff_eq] at hb
    subst hb
    exact (h hc).elim

theorem _root_.Adx.Syntax.Comment.suffix (h : Comment w rest) : rest <:+ w := by
  obtain ⟨h⟩ := h
  exact h.suffix.trans (List.suffix_cons ..)

/-! ### The other regular expressions -/

theorem reads_number {n : Nat} {name : String} {uni : Uni} (h : Number w n rest) (hn : Free name) :
    ∃ ds, w = ds ++ rest ∧ parseUsize ds = some n ∧
      BReads E K K (B.regexN name (Script.rxDigits uni)) w (.tok rest (leafT E name.toList w rest)) := by
  obtain ⟨ds, h1, h2, h3⟩ := h
  refine ⟨ds, h1.split, ?_, ?_⟩
  · rw [(parseUsize_numeral h2).1, if_pos h3]
  · refine reads_plus h1 ?_ (fun c hc => uni.digit_ascii c hc) hn
    cases h2 <;> simp

theorem rxSeq_lits {s : Str} {is : List RxItem} : ∀ {n : Nat}, rxSeq is w = some n →
    rxSeq (s.map Rx.lit ++ is) (s ++ w) = some (blen s + n) := by
  induction s with
  | nil => intro n h; simpa [blen] using h
  | cons c s ih =>
    intro n h
    show (if (c == c) = true then (rxSeq (s.map Rx.lit ++ is) (s ++ w)).map (c.utf8Size + ·) else none) = _
    rw [if_pos (by simp), ih h]
    show some (c.utf8Size + (blen s + n)) = some (c.utf8Size + blen s + n)
    rw [Nat.add_assoc]

/-- `\s*,\s*`: the first white space is given back nowhere. -/
theorem rxStar_munch {p : Char → Bool} {k : Str → Option Nat} {n : Nat} (h : Munch p w u rest) (hk : k rest = some n) :
    rxStar p k w = some (blen u + n) := by
  obtain ⟨rfl, h1, h2⟩ := h
  induction u with
  | nil =>
    rw [List.nil_append]
    cases rest with
    | nil => unfold rxStar; rw [hk]; simp [blen]
    | cons c rest =>
      unfold rxStar
      rw [h2 c rfl, if_neg (by decide), hk]
      simp [blen]
  | cons c u ih =>
    rw [List.cons_append]
    unfold rxStar
    rw [h1 c (by simp), if_pos rfl, ih fun d hd => h1 d (by simp [hd])]
    simp only [blen]
    rw [Nat.add_assoc]

theorem reads_comma (h : Comma w rest) : BReads E K K (B.discard (B.regex Script.rxComma)) w (.past rest) := by
  refine .of_has fun hw => ?_
  obtain ⟨w1, ⟨u1, h1⟩, u2, h2⟩ := h
  have ha := hw.ascii
  have hs1 := h1.split
  have hs2 := h2.split
  have hw1 : ∀ c ∈ w1, c ∈ w := by
    intro c hc
    rw [hs1]
    simp [hc]
  have h1' := h1.same (q := Rx.isSpace) fun c hc => space_ascii (ha c hc)
  have h2' := h2.same (q := Rx.isSpace) fun c hc => space_ascii (ha c (hw1 c hc))
  have hf : Script.rxComma.find (u1 ++ ',' :: u2 ++ rest) = some (0, blen (u1 ++ ',' :: u2)) := by
    refine find_here ?_
    have : rxSeq [.star Rx.isSpace, Rx.lit ',', .star Rx.isSpace] w = some (blen (u1 ++ ',' :: u2)) := by
      unfold rxSeq
      rw [blen_append]
      refine rxStar_munch h1' ?_
      unfold rxSeq Rx.lit
      dsimp only
      rw [if_pos (by rfl)]
      unfold rxSeq
      rw [rxStar_end, h2'.take (q := Rx.isSpace) fun _ _ => rfl]
      rfl
    have hw : u1 ++ ',' :: u2 ++ rest = w := by rw [hs1, hs2]; simp
    rw [hw]
    unfold rxAlt
    rw [this]
  have hw : w = u1 ++ ',' :: u2 ++ rest := by rw [hs1, hs2]; simp
  rw [hw]
  exact .discard (.regex (by simp) hf)

theorem reads_percent (h : Gap w rest) : BReads E K K (B.discard (B.regex Script.rxPercent)) ('%' :: w) (.past rest) := by
  refine .of_has fun hw => ?_
  obtain ⟨u, h⟩ := h
  have ht := h.take (q := Rx.isSpace) fun c hc => space_ascii (hw.ascii c (by simp [hc]))
  have hf := find_one_star (w := w) (q := Rx.isSpace) (pattern := "%\\s*") (p := (· == '%')) (c := '%') rfl
  rw [ht] at hf
  have hs := h.split
  subst hs
  exact .discard (.regex (u := '%' :: u) (by simp) hf)

theorem reads_percent_fail (h : w.head? ≠ some '%') : BReads E K K (B.discard (B.regex Script.rxPercent)) w .fail := by
  refine .discard (.regex_fail (find_one_none fun c hc => ?_))
  cases hb : (c == '%') with
  | false => rfl
  | true =>
    rw [beq_iff_eq] at hb
    subst hb
    exact (h hc).elim

theorem reads_adextopa : BReads E K K (B.discard (B.regex Script.rxAdextopa)) ("<!--[adextopa".toList ++ w) (.past w) := by
  have hf : Script.rxAdextopa.find ("<!--[adextopa".toList ++ w) = some (0, blen "<!--[adextopa".toList) := by
    refine find_here ?_
    have := rxSeq_lits (s := "<!--[adextopa".toList) (is := []) (w := w) (n := 0) rfl
    rw [List.append_nil] at this
    unfold rxAlt Rx.lits
    rw [this]
    rfl
  exact .discard (.regex (by simp) hf)

theorem rxSeq_lits_none {s : Str} {is : List RxItem} (h : ¬ s <+: w) : rxSeq (s.map Rx.lit ++ is) w = none := by
  induction s generalizing w with
  | nil => exact (h List.nil_prefix).elim
  | cons c s ih =>
    unfold Rx.lit
    rw [List.map_cons, List.cons_append]
    unfold rxSeq
    cases w with
    | nil => rfl
    | cons d w =>
      dsimp only
      split
      · rename_i hd
        rw [beq_iff_eq] at hd
        subst hd
        have := ih (w := w) fun hp => h (List.cons_prefix_cons.mpr ⟨rfl, hp⟩)
        unfold Rx.lit at this
        rw [this]
        rfl
      · rfl

theorem reads_adextopa_fail (h : ¬ "<!--[adextopa".toList <+: w) : BReads E K K (B.discard (B.regex Script.rxAdextopa)) w .fail := by
  refine .discard (.regex_fail (find_none ?_))
  have := rxSeq_lits_none (is := []) h
  rw [List.append_nil] at this
  unfold rxAlt Rx.lits
  rw [this]
  rfl

/-- Not both modifiers. -/
theorem reads_modifiers (h : ¬ ['?', '!'] <+: w) (h' : ¬ ['!', '?'] <+: w) :
    BReads E K K (B.assertIf (B.regex Script.rxBothModifiers) Script.bothModifiersMsg) w (.past w) := by
  refine .assertIf (.regex_fail (find_none ?_))
  have h1 := rxSeq_lits_none (is := []) h
  have h2 := rxSeq_lits_none (is := []) h'
  rw [List.append_nil] at h1 h2
  have e1 : Rx.lits "?!" = ['?', '!'].map Rx.lit := rfl
  have e2 : Rx.lits "!?" = ['!', '?'].map Rx.lit := rfl
  unfold rxAlt
  rw [e1, h1]
  unfold rxAlt
  rw [e2, h2]
  rfl

theorem reads_quote (h : w.head? = some '\'') {msg : String} : BReads E K K (B.fatalIf (B.regex Script.rxNotQuote) msg) w (.past w) := by
  refine .fatalIf (.regex_fail (find_one_none fun c hc => ?_))
  rw [h] at hc
  cases hc
  rfl

theorem reads_underscore {uni : Uni} {n : Str} (hm : Munch Syntax.attrChar w n rest) (h : n.head? = some '_' → n = ['_']) {msg : String} :
    BReads E K K (B.assertIf (B.regex (Script.rxAttrUnderscore uni)) msg) w (.past w) := by
  refine .of_has fun hw => .assertIf (.regex_fail (find_none ?_))
  have : rxSeq (Rx.lit '_' :: Rx.plus (Script.isAttr uni)) w = none := by
    unfold Rx.lit rxSeq
    cases hw' : w with
    | nil => rfl
    | cons c w1 =>
      dsimp only
      split
      · rename_i hc
        rw [beq_iff_eq] at hc
        subst hc
        have hn : n = ['_'] := by
          apply h
          cases n with
          | nil =>
            have h1 := hm.split
            have := hm.most '_' (by rw [← List.nil_append rest, ← h1, hw']; rfl)
            exact absurd this (by decide)
          | cons d n =>
            have h1 := hm.split
            rw [hw'] at h1
            cases h1
            rfl
        have h1 := hm.split
        rw [hw', hn] at h1
        obtain rfl : w1 = rest := by cases h1; rfl
        have : rxSeq (Rx.plus (Script.isAttr uni)) w1 = none := by
          unfold Rx.plus rxSeq
          cases hw1 : w1 with
          | nil => rfl
          | cons d w2 =>
            dsimp only
            have := hm.most d (by rw [hw1]; rfl)
            rw [attr_ascii (hw.ascii d (by rw [hw', hw1]; simp)), this]
            rfl
        rw [this]
        rfl
      · rfl
  unfold rxAlt
  rw [this]
  rfl

theorem reads_flags (h : Munch Syntax.flagChar w u rest) :
    (u = [] ∧ rest = w ∧ BReads E K K (B.regexN "Flags" Script.rxFlags) w (.past w)) ∨
    (u ≠ [] ∧ BReads E K K (B.regexN "Flags" Script.rxFlags) w (.tok rest (leafT E "Flags".toList w rest))) := by
  have hf := find_star (fun c => c == 'i' || c == 'm' || c == 's' || c == 'U') "[imsU]*" w
  have ht : w.takeWhile (fun c => c == 'i' || c == 'm' || c == 's' || c == 'U') = u := h.take fun _ _ => rfl
  rw [ht] at hf
  have hs := h.split
  by_cases hu : u = []
  · subst hu
    exact Or.inl ⟨rfl, hs.symm, .regexN_empty hf⟩
  · subst hs
    exact Or.inr ⟨hu, .regexN hu hf⟩

/-- Characters of a regular expression that mean nothing to the end of it. -/
def plainPart (c : Char) : Bool := c != '/' && c != '\\' && c != '['

theorem reads_plainPart (h : Munch plainPart w u rest) :
    (u = [] ∧ rest = w ∧ BReads E K K (B.regexN "Part" Script.rxPlainPart) w (.past w)) ∨
    (u ≠ [] ∧ BReads E K K (B.regexN "Part" Script.rxPlainPart) w (.tok rest (leafT E "Part".toList w rest))) := by
  have hf := find_star (fun c => c != '/' && c != '\\' && c != '[') "[^/\\\\\\[]*" w
  have ht : w.takeWhile (fun c => c != '/' && c != '\\' && c != '[') = u := h.take fun _ _ => rfl
  rw [ht] at hf
  have hs := h.split
  by_cases hu : u = []
  · subst hu
    exact Or.inl ⟨rfl, hs.symm, .regexN_empty hf⟩
  · subst hs
    exact Or.inr ⟨hu, .regexN hu hf⟩

theorem reads_escape {c : Char} (hc : c ≠ '\n') :
    BReads E K K (B.regexN "Part" Script.rxEscape) ('\\' :: c :: w) (.tok w (leafT E "Part".toList ('\\' :: c :: w) w)) := by
  refine .regexN (u := ['\\', c]) (by simp) (find_here ?_)
  have : rxSeq [Rx.lit '\\', .one (· != '\n')] ('\\' :: c :: w) = some (blen ['\\', c]) := by
    unfold Rx.lit rxSeq
    dsimp only
    rw [if_pos (by rfl)]
    unfold rxSeq
    dsimp only
    rw [if_pos (by simpa using hc)]
    rfl
  unfold rxAlt
  show (match rxSeq [Rx.lit '\\', .one (· != '\n')] ('\\' :: c :: w) with | some n => some n | none => rxAlt [] _) = _
  rw [this]

theorem reads_escape_fail (h : w.head? ≠ some '\\') : BReads E K K (B.regexN "Part" Script.rxEscape) w .fail := by
  refine .regexN_fail (find_one_none fun c hc => ?_)
  cases hb : (c == '\\') with
  | false => rfl
  | true =>
    rw [beq_iff_eq] at hb
    subst hb
    exact (h hc).elim

/-! ### Single characters -/

theorem reads_char {c : Char} {s : String} (hs : s.toList = [c] := by rfl) :
    BReads E K K (B.discard (B.equals s)) (c :: w) (.past w) :=
  .discard (.equals (l := [c]) hs)

theorem head_prefix {c : Char} (h : w.head? ≠ some c) : ¬ [c] <+: w := by
  intro hp
  cases w with
  | nil => obtain ⟨t, ht⟩ := hp; cases ht
  | cons d w => exact h (by rw [(List.cons_prefix_cons.mp hp).1]; rfl)

theorem reads_char_fail {c : Char} {s : String} (h : w.head? ≠ some c) (hs : s.toList = [c] := by rfl) :
    BReads E K K (B.discard (B.equals s)) w .fail :=
  .discard (.equals_fail (head_prefix h) hs)

end

end Adx.Read
