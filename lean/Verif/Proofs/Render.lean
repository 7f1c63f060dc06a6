import Verif.Spec.Render
import Verif.Props.Syntax
/-
  What is written is a text of the language of grammar scripts.
-/
namespace Adx.Render

open Syntax

attribute [local irreducible] String.toList

/-! ### Words -/

theorem munch {p : Char → Bool} {u rest : Str} (hu : ∀ c ∈ u, p c = true) (hr : ∀ c, rest.head? = some c → p c = false) :
    Munch p (u ++ rest) u rest := ⟨rfl, hu, hr⟩

theorem head_cons {p : Char → Prop} {c : Char} {w : Str} (h : p c) : ∀ d, (c :: w).head? = some d → p d := by
  intro d hd
  cases hd
  exact h

theorem gap_nil {w : Str} (h : ∀ c, w.head? = some c → space c = false) : Gap w w :=
  ⟨[], rfl, by simp, h⟩

theorem gap_of {u w : Str} (hu : ∀ c ∈ u, space c = true) (h : ∀ c, w.head? = some c → space c = false) : Gap (u ++ w) w :=
  ⟨u, rfl, hu, h⟩

theorem gap_one {c : Char} {w : Str} (hc : space c = true) (h : ∀ c, w.head? = some c → space c = false) : Gap (c :: w) w :=
  ⟨[c], rfl, by simpa using hc, h⟩

theorem blanks_nil {w : Str} (h : ∀ c, w.head? = some c → blank c = false) : Blanks w w :=
  ⟨[], rfl, by simp, h⟩

theorem blanks_one {w : Str} (h : ∀ c, w.head? = some c → blank c = false) : Blanks (' ' :: w) w :=
  ⟨[' '], rfl, by simp; decide, h⟩

theorem quoted (s rest : Str) : Quoted (quote s ++ rest) (escapeText '\'' '\\' s) s rest := by
  unfold quote
  rw [List.cons_append, List.append_assoc]
  exact .mk (body_escapeText (by decide) s rest)

theorem escape_raw (s : Str) : AttrRaw (escapeText '\'' '\\' s) := by
  induction s with
  | nil => exact .nil
  | cons c s ih =>
    unfold escapeText
    split
    · exact .escaped ih
    · rename_i h
      exact .char (by simpa using h) ih

theorem AttrRaw.body {r : Str} (h : AttrRaw r) : ∃ val, ∀ rest, Body ['\''] ['\\'] (r ++ '\'' :: rest) r val rest := by
  induction h with
  | nil => exact ⟨[], fun rest => Body.done rest⟩
  | @char c r hc _ ih =>
    obtain ⟨val, ih⟩ := ih
    refine ⟨c :: val, fun rest => .plain ?_ (Or.inr ?_) (ih rest)⟩
    · rintro ⟨t, ht⟩
      exact hc.1 (List.cons.inj ht).1.symm
    · rintro ⟨t, ht⟩
      exact hc.2 (List.cons.inj ht).1.symm
  | @escaped c r _ ih =>
    obtain ⟨val, ih⟩ := ih
    refine ⟨c :: val, fun rest => .escaped (esc := ['\\']) ?_ (by simp) (ih rest)⟩
    rintro ⟨t, ht⟩
    exact absurd (List.cons.inj ht).1 (by decide)

theorem body_raw {w raw val rest : Str} (h : Body ['\''] ['\\'] w raw val rest) : AttrRaw raw := by
  induction h with
  | done => exact .nil
  | escaped _ _ _ ih => exact .escaped ih
  | plain h1 h2 _ ih =>
    refine .char ⟨?_, ?_⟩ ih
    · rintro rfl
      exact h1 ⟨_, rfl⟩
    · rintro rfl
      rcases h2 with h2 | h2
      · cases h2
      · exact h2 ⟨_, rfl⟩

theorem body_rest {a b : Char} {w raw val rest : Str} (h : Body [a] [b] w raw val rest) (rest' : Str) :
    Body [a] [b] (raw ++ a :: rest') raw val rest' := by
  induction h with
  | done => exact Body.done rest'
  | escaped h1 _ _ ih =>
    refine .escaped (esc := [b]) ?_ (by simp) ih
    rintro ⟨t, ht⟩
    exact h1 ⟨_, by rw [(List.cons.inj ht).1]⟩
  | plain h1 h2 _ ih =>
    refine .plain ?_ (Or.inr ?_) ih
    · rintro ⟨t, ht⟩
      exact h1 ⟨_, by rw [(List.cons.inj ht).1]; rfl⟩
    · rintro ⟨t, ht⟩
      rcases h2 with h2 | h2
      · cases h2
      · exact h2 ⟨_, by rw [(List.cons.inj ht).1]; rfl⟩

theorem regular_rest {w t rest : Str} (h : Regular w t rest) (rest' : Str) : Regular (t ++ '/' :: rest') t rest' := by
  induction h with
  | done => exact .done
  | char hc _ ih => exact .char hc ih
  | escape hc _ ih => exact .escape hc ih
  | @bracket w raw val w' t rest hb _ ih =>
    have := Regular.bracket (body_rest hb (t ++ '/' :: rest')) ih
    simpa using this

theorem number {n : Nat} {rest : Str} (hn : n < 2 ^ 64) (h : ∀ c, rest.head? = some c → c.isDigit = false) :
    Number (natStr n ++ rest) n rest :=
  ⟨natStr n, munch (fun c hc => by
    have := ((numeral_natStr n).digits).2.1
    exact List.all_eq_true.mp this c hc) h, numeral_natStr n, hn⟩

theorem natStr_head (n : Nat) (rest : Str) : ∀ c, (natStr n ++ rest).head? = some c → c.isDigit = true := by
  intro c hc
  have h := (numeral_natStr n).digits
  cases hd : natStr n with
  | nil => exact absurd hd h.1
  | cons d ds =>
    rw [hd] at hc h
    cases hc
    exact List.all_eq_true.mp h.2.1 c (List.mem_cons_self ..)

theorem digit_blank {c : Char} (h : c.isDigit = true) : blank c = false := by
  unfold blank space
  unfold Char.isDigit at h
  simp only [Bool.and_eq_true, decide_eq_true_eq] at h
  have h1 : 48 ≤ c.toNat := h.1
  have h2 : c ≠ ' ' := by rintro rfl; exact absurd h1 (by decide)
  simp [h2]
  omega

theorem ident {n rest : Str} (h : Ident n) (hr : ∀ c, rest.head? = some c → idChar c = false) : Identifier (n ++ rest) n rest :=
  ⟨munch h.2 hr, h.1⟩

theorem idStart_alpha {c : Char} (h : idStart c = true) : space c = false ∧ c ≠ '-' ∧ c ≠ '#' := by
  refine ⟨?_, ?_, ?_⟩
  · unfold space
    unfold idStart at h
    simp only [Bool.or_eq_true, beq_iff_eq] at h
    have hn : 36 ≤ c.toNat := by
      rcases h with (h | h) | h
      · unfold Char.isAlpha Char.isUpper Char.isLower at h
        simp only [Bool.or_eq_true, Bool.and_eq_true, decide_eq_true_eq, ge_iff_le] at h
        rcases h with ⟨h, _⟩ | ⟨h, _⟩
        · have h : 65 ≤ c.toNat := h
          omega
        · have h : 97 ≤ c.toNat := h
          omega
      · subst h; decide
      · subst h; decide
    have h2 : c ≠ ' ' := by rintro rfl; exact absurd hn (by decide)
    simp [h2]
    omega
  · rintro rfl; exact absurd h (by decide)
  · rintro rfl; exact absurd h (by decide)

theorem ident_head {n : Str} (h : Ident n) (rest : Str) : ∀ c, (n ++ rest).head? = some c → idStart c = true := by
  obtain ⟨⟨d, ds, rfl, hd⟩, _⟩ := h
  exact head_cons hd

theorem ident_gap {n : Str} (h : Ident n) (rest : Str) : ∀ c, (n ++ rest).head? = some c → space c = false :=
  fun c hc => (idStart_alpha (ident_head h rest c hc)).1

theorem blank_space {c : Char} (h : space c = false) : blank c = false := by
  unfold blank
  rw [h]
  rfl

/-! ### Parts of definitions -/

/-- What does not go on with saying how often. -/
def Free (w : Str) : Prop := ∀ c, w.head? = some c → c ≠ '*' ∧ c ≠ '+' ∧ c ≠ '{'

theorem rep_read {r : Rep} {rest : Str} (h : r.Good) (hf : Free rest) : Repeat (r.text ++ rest) r.range rest := by
  cases r with
  | once => exact .once hf
  | any => exact .any
  | some => exact .some
  | upTo n =>
    have : Rep.text (.upTo n) ++ rest = '{' :: (natStr n ++ '}' :: rest) := by simp [Rep.text]
    rw [this]
    exact .upTo (blanks_nil fun c hc => digit_blank (natStr_head n _ c hc)) (number h (head_cons (by decide)))
      (blanks_nil (head_cons (by decide)))
  | atLeast n =>
    have : Rep.text (.atLeast n) ++ rest = '{' :: (natStr n ++ ',' :: '}' :: rest) := by simp [Rep.text]
    rw [this]
    exact .atLeast (blanks_nil fun c hc => digit_blank (natStr_head n _ c hc)) (number h (head_cons (by decide)))
      (blanks_nil (head_cons (by decide))) (blanks_nil (head_cons (by decide)))
  | between n m =>
    have : Rep.text (.between n m) ++ rest = '{' :: (natStr n ++ ',' :: (natStr m ++ '}' :: rest)) := by simp [Rep.text]
    rw [this]
    exact .between (blanks_nil fun c hc => digit_blank (natStr_head n _ c hc))
      (number (Nat.lt_of_le_of_lt h.1 h.2) (head_cons (by decide)))
      (blanks_nil (head_cons (by decide))) (blanks_nil fun c hc => digit_blank (natStr_head m _ c hc))
      (number h.2 (head_cons (by decide))) (blanks_nil (head_cons (by decide))) h.1

theorem attr_space {c : Char} (h : attrChar c = true) : space c = false := by
  unfold attrChar at h
  simp only [Bool.or_eq_true, beq_iff_eq] at h
  unfold space
  have hn : 43 ≤ c.toNat := by
    rcases h with (h | h) | h
    · unfold Char.isAlphanum Char.isAlpha Char.isUpper Char.isLower Char.isDigit at h
      simp only [Bool.or_eq_true, Bool.and_eq_true, decide_eq_true_eq, ge_iff_le] at h
      rcases h with (⟨h, _⟩ | ⟨h, _⟩) | ⟨h, _⟩
      · have h : 65 ≤ c.toNat := h
        omega
      · have h : 97 ≤ c.toNat := h
        omega
      · have h : 48 ≤ c.toNat := h
        omega
    · subst h; decide
    · subst h; decide
  have h2 : c ≠ ' ' := by rintro rfl; exact absurd hn (by decide)
  simp [h2]
  omega

/-- Attributes are read back. -/
theorem attrs_read (as : List (Str × Str)) (h : ∀ a ∈ as, AttrName a.1 ∧ AttrRaw a.2) {rest : Str}
    (hr : ∀ c, rest.head? = some c → space c = false ∧ attrChar c = false) :
    ∃ w bs, Gap (attrsText as ++ rest) w ∧ AttrList w bs rest ∧ bs.map (fun b => (b.name, b.raw)) = as ∧
      ∀ b ∈ bs, ∀ rest, Body ['\''] ['\\'] (b.raw ++ '\'' :: rest) b.raw b.val rest := by
  induction as with
  | nil => exact ⟨rest, [], gap_nil fun c hc => (hr c hc).1, .nil fun c hc => (hr c hc).2, rfl, by simp⟩
  | cons a as ih =>
    obtain ⟨w, bs, h1, h2, h3, h4⟩ := ih fun b hb => h b (List.mem_cons_of_mem _ hb)
    obtain ⟨⟨n1, n2, n3⟩, hraw⟩ := h a (List.mem_cons_self ..)
    obtain ⟨val, hval⟩ := hraw.body
    have e : attrsText (a :: as) ++ rest = ' ' :: (a.1 ++ '=' :: '\'' :: (a.2 ++ '\'' :: (attrsText as ++ rest))) := by
      simp [attrsText]
    refine ⟨_, ⟨a.1, a.2, val⟩ :: bs, ?_, .cons (munch n2 (head_cons (by decide))) n1 n3 (blanks_nil (head_cons (by decide)))
      (blanks_nil (head_cons (by decide))) (.mk (hval _)) h1 h2, by simp [h3], ?_⟩
    · rw [e]
      refine gap_one (by decide) fun c hc => ?_
      cases hn : a.1 with
      | nil => exact absurd hn n1
      | cons d ds =>
        rw [hn] at hc n2
        cases hc
        exact attr_space (n2 c (List.mem_cons_self ..))
    · intro b hb
      rcases List.mem_cons.mp hb with rfl | hb
      · exact hval
      · exact h4 b hb

theorem valued_eq {bs : List Attr} {as : List (Str × Str)} (h : bs.map (fun b => (b.name, b.raw)) = as) (g : Gram) :
    attributed bs g = valued as g := by
  subst h
  unfold attributed valued
  cases bs with
  | nil => rfl
  | cons b bs => simp [List.foldl_map]

theorem mod_gap (m : Mod) {w : Str} (h : ∀ c, w.head? = some c → space c = false) :
    ∀ c, (m.text ++ w).head? = some c → space c = false := by
  cases m with
  | none => exact h
  | opt => exact head_cons (by decide)
  | not => exact head_cons (by decide)

theorem def_head (d : Def) (rest : Str) :
    ∀ c, (d.text ++ rest).head? = some c → c = '<' ∨ c = '?' ∨ c = '!' := by
  cases d with
  | mk outer inner m as r =>
    unfold Def.text
    cases outer with
    | none => exact head_cons (by decide)
    | opt => exact head_cons (by decide)
    | not => exact head_cons (by decide)

theorem def_gap (d : Def) (rest : Str) : ∀ c, (d.text ++ rest).head? = some c → space c = false := by
  intro c hc
  rcases def_head d rest c hc with rfl | rfl | rfl <;> decide

theorem pat_head (p : Pat) (rest : Str) :
    ∀ c, (p.text ++ rest).head? = some c → c = '<' ∨ c = '?' ∨ c = '!' ∨ c = '(' := by
  cases p with
  | plain d =>
    unfold Pat.text
    intro c hc
    rcases def_head d rest c hc with rfl | rfl | rfl <;> simp
  | captured d => unfold Pat.text; exact head_cons (by decide)
  | named l d => unfold Pat.text; exact head_cons (by decide)

theorem pat_gap (p : Pat) (rest : Str) : ∀ c, (p.text ++ rest).head? = some c → space c = false := by
  intro c hc
  rcases pat_head p rest c hc with rfl | rfl | rfl | rfl <;> decide

variable {env : Env}

theorem leaf_gap (m : Leaf) (h : m.Good env) (rest : Str) : ∀ c, (m.text ++ rest).head? = some c → space c = false := by
  cases m with
  | ref n => unfold Leaf.text; unfold Leaf.Good at h; exact ident_gap h rest
  | _ => unfold Leaf.text; exact head_cons (by decide)

/-! ### Patterns -/

/-- What may be behind a leaf. -/
def Behind (w : Str) : Prop := ∃ c t, w = c :: t ∧ (c = ' ' ∨ c = '>')

theorem pats_gap (ps : Pats) (rest : Str) : (∀ c, (ps.barred ++ rest).head? = some c → space c = false) ∧
    ∀ c, (ps.spaced ++ rest).head? = some c → space c = false := by
  cases ps with
  | one p =>
    unfold Pats.barred Pats.spaced
    exact ⟨pat_gap p rest, pat_gap p rest⟩
  | more p ps =>
    unfold Pats.barred Pats.spaced
    rw [List.append_assoc, List.append_assoc]
    exact ⟨pat_gap p _, pat_gap p _⟩

mutual

theorem pat_read (p : Pat) (h : p.Good env) {rest : Str} (hf : Free rest) : Pattern env (p.text ++ rest) (p.gram env) rest := by
  match p with
  | .plain d =>
    unfold Pat.text Pat.gram
    unfold Pat.Good at h
    exact .plain (def_read d h [] hf)
  | .captured d =>
    unfold Pat.text Pat.gram
    unfold Pat.Good at h
    rw [List.cons_append, List.append_assoc]
    exact .captured (gap_nil (def_gap d _)) (def_read d h [] (head_cons (by decide))) (gap_nil (head_cons (by decide)))
  | .named l d =>
    unfold Pat.text Pat.gram
    unfold Pat.Good at h
    rw [List.cons_append, List.cons_append, List.append_assoc, List.cons_append, List.append_assoc]
    exact .named (gap_nil (head_cons (by decide))) (quoted l _) (gap_one (by decide) (def_gap d _))
      (def_read d h _ (head_cons (by decide))) (gap_nil (head_cons (by decide)))

theorem def_read (d : Def) (h : d.Good env) (name : Str) {rest : Str} (hf : Free rest) :
    Definition env name (d.text ++ rest) (d.gram env name) rest := by
  match d with
  | .mk outer inner m as r =>
    unfold Def.text Def.gram
    unfold Def.Good at h
    obtain ⟨h1, h2, h3⟩ := h
    have e : outer.text ++ '<' :: (inner.text ++ (m.text ++ (attrsText as ++ '>' :: r.text))) ++ rest =
        outer.text ++ '<' :: (inner.text ++ (m.text ++ (attrsText as ++ '>' :: (r.text ++ rest)))) := by simp
    rw [e]
    obtain ⟨w, bs, b1, b2, b3, _⟩ := attrs_read as h2 (rest := '>' :: (r.text ++ rest)) (head_cons (by decide))
    rw [← valued_eq b3]
    refine .mk (gap_nil (leaf_gap m h1 _)) (leaf_read m h1 ?_) b1 b2 (rep_read h3 hf)
    cases as with
    | nil => exact ⟨_, _, rfl, Or.inr rfl⟩
    | cons a as => exact ⟨_, _, rfl, Or.inl rfl⟩

theorem leaf_read (m : Leaf) (h : m.Good env) {rest : Str} (hb : Behind rest) : Matcher env (m.text ++ rest) (m.gram env) rest := by
  match m with
  | .equals s =>
    unfold Leaf.text Leaf.gram
    unfold Leaf.Good at h
    exact .equals (quoted s rest) h
  | .regex t f =>
    unfold Leaf.text Leaf.gram
    unfold Leaf.Good at h
    obtain ⟨h1, h2, h3, h4⟩ := h
    rw [List.cons_append, List.append_assoc, List.cons_append]
    refine .regex (regular_rest h2 (f ++ rest)) h1 (munch h3 ?_) ?_
    · obtain ⟨c, t, rfl, rfl | rfl⟩ := hb
      · exact head_cons (by decide)
      · exact head_cons (by decide)
    · cases hr : env.regex (flagged f t) with
      | none => exact absurd hr h4
      | some re => rfl
  | .sequence a b e =>
    unfold Leaf.text Leaf.gram
    unfold Leaf.Good at h
    have e' : '%' :: (quote a ++ ',' :: ' ' :: (quote b ++ ',' :: ' ' :: quote e)) ++ rest =
        '%' :: (quote a ++ (',' :: ' ' :: (quote b ++ (',' :: ' ' :: (quote e ++ rest))))) := by simp
    rw [e']
    exact .sequence (gap_nil (head_cons (by decide))) (quoted a _)
      ⟨_, gap_nil (head_cons (by decide)), gap_one (by decide) (head_cons (by decide))⟩ (quoted b _)
      ⟨_, gap_nil (head_cons (by decide)), gap_one (by decide) (head_cons (by decide))⟩ (quoted e _) h.1 h.2
  | .ref n =>
    unfold Leaf.text Leaf.gram
    unfold Leaf.Good at h
    refine .custom (ident h ?_)
    obtain ⟨c, t, rfl, rfl | rfl⟩ := hb
    · exact head_cons (by decide)
    · exact head_cons (by decide)
  | .switch ps =>
    unfold Leaf.text Leaf.gram
    unfold Leaf.Good at h
    rw [List.cons_append, List.append_assoc]
    exact .switch (barred_read ps h (gap_nil (pats_gap ps _).1))
  | .program ps =>
    unfold Leaf.text Leaf.gram
    unfold Leaf.Good at h
    rw [List.cons_append, List.append_assoc]
    exact .program (spaced_read ps h (gap_nil (pats_gap ps _).2))

theorem barred_read (ps : Pats) (h : ps.Good env) {w rest : Str} (hg : Gap w (ps.barred ++ ']' :: rest)) :
    Choices env w (ps.grams env) rest := by
  match ps with
  | .one p =>
    unfold Pats.barred at hg
    unfold Pats.grams
    unfold Pats.Good at h
    exact .last hg (pat_read p h (head_cons (by decide))) (gap_nil (head_cons (by decide)))
  | .more p ps =>
    unfold Pats.barred at hg
    unfold Pats.grams
    unfold Pats.Good at h
    rw [List.append_assoc, List.cons_append, List.cons_append, List.cons_append] at hg
    exact .more hg (pat_read p h.1 (head_cons (by decide))) (gap_one (by decide) (head_cons (by decide)))
      (barred_read ps h.2 (gap_one (by decide) (pats_gap ps _).1))

theorem spaced_read (ps : Pats) (h : ps.Good env) {w rest : Str} (hg : Gap w (ps.spaced ++ '}' :: rest)) :
    Patterns env w (ps.grams env) rest := by
  match ps with
  | .one p =>
    unfold Pats.spaced at hg
    unfold Pats.grams
    unfold Pats.Good at h
    exact .last hg (pat_read p h (head_cons (by decide))) (gap_nil (head_cons (by decide)))
  | .more p ps =>
    unfold Pats.spaced at hg
    unfold Pats.grams
    unfold Pats.Good at h
    rw [List.append_assoc, List.cons_append] at hg
    exact .more hg (pat_read p h.1 (head_cons (by decide))) (gap_one (by decide) (pats_gap ps _).2)
      (spaced_read ps h.2 (gap_nil (pats_gap ps _).2))

end

/-! ### Scripts -/

theorem gap_unique {w r r' : Str} (h : Gap w r) (h' : Gap w r') : r = r' := by
  obtain ⟨u, h⟩ := h
  obtain ⟨u', h'⟩ := h'
  exact (Munch.unique h h').2

theorem lines_free {ls : List Str} {rest : Str} (h : Free rest) : Free (lines ls ++ rest) := by
  cases ls with
  | nil => exact h
  | cons l ls => exact head_cons (by decide)

theorem items_read (ps : List Pat) (h : ∀ p ∈ ps, p.Good env) : Items env (lines (ps.map Pat.text)) (ps.map (Pat.gram env)) := by
  induction ps with
  | nil => exact .done (gap_nil (by simp [lines]))
  | cons p ps ih =>
    have hf : Free (lines (ps.map Pat.text)) := by
      have := lines_free (ls := ps.map Pat.text) (rest := []) (by simp [Free])
      rwa [List.append_nil] at this
    exact .pattern (gap_one (by decide) (pat_gap p _)) (pat_read p (h p (List.mem_cons_self ..)) hf)
      (ih fun q hq => h q (List.mem_cons_of_mem _ hq))

theorem as_read {m rest : Str} (h : Ident m) : As (" as ".toList ++ (m ++ rest)) (m ++ rest) := by
  have e : " as ".toList = [' '] ++ ("as".toList ++ [' ']) := by decide +kernel
  rw [e]
  simp only [List.append_assoc]
  refine ⟨[' '], [' '], [' '] ++ (m ++ rest), munch (by decide) ?_, by simp, munch (by decide) (ident_gap h rest), by simp⟩
  have e : "as".toList = ['a', 's'] := by decide +kernel
  rw [e]
  exact head_cons (by decide)

theorem ids_read (ids : List (Str × Str)) (h0 : ids ≠ []) (h : ∀ i ∈ ids, Ident i.1 ∧ Ident i.2) (rest : Str) :
    ImportIds (idsText ids ++ ' ' :: '}' :: rest) ids rest := by
  induction ids with
  | nil => exact absurd rfl h0
  | cons i is ih =>
    obtain ⟨h1, h2⟩ := h i (List.mem_cons_self ..)
    have e : idsText (i :: is) ++ ' ' :: '}' :: rest =
        ' ' :: (i.1 ++ (" as ".toList ++ (i.2 ++ ',' :: (idsText is ++ ' ' :: '}' :: rest)))) := by simp [idsText]
    have hid : ImportId (i.1 ++ (" as ".toList ++ (i.2 ++ ',' :: (idsText is ++ ' ' :: '}' :: rest)))) i.1 i.2
        (idsText is ++ ' ' :: '}' :: rest) := by
      refine .renamed (ident h1 ?_) (as_read h2) (ident h2 (head_cons (by decide))) .comma
      have e : " as ".toList = [' ', 'a', 's', ' '] := by decide +kernel
      rw [e]
      exact head_cons (by decide)
    rw [e]
    cases is with
    | nil => exact .last (gap_one (by decide) (ident_gap h1 _)) hid (gap_one (by decide) (head_cons (by decide)))
    | cons j js =>
      exact .more (gap_one (by decide) (ident_gap h1 _)) hid (ih (by simp) fun k hk => h k (List.mem_cons_of_mem _ hk))

theorem stm_head (t : Stm) (h : t.Good env) (rest : Str) : ∀ c, (t.text ++ rest).head? = some c → space c = false ∧ c ≠ '-' := by
  have key : ∀ {n : Str} (_ : Ident n) (w : Str), ∀ c, (n ++ w).head? = some c → space c = false ∧ c ≠ '-' :=
    fun hn w c hc => ⟨(idStart_alpha (ident_head hn w c hc)).1, (idStart_alpha (ident_head hn w c hc)).2.1⟩
  cases t with
  | own n d =>
    unfold Stm.text
    rw [List.append_assoc]
    exact key h.1 _
  | «alias» n x y m =>
    unfold Stm.text
    rw [List.append_assoc]
    exact key h.1 _
  | imports path ids =>
    unfold Stm.text
    have e : "import {".toList = ['i', 'm', 'p', 'o', 'r', 't', ' ', '{'] := by decide +kernel
    rw [e]
    exact head_cons (by decide)
  | comment line => exact head_cons (by decide)

theorem stm_read (t : Stm) (h : t.Good env) {w rest : Str} {ss : List Stmt} (hs : Statements env ('\n' :: w) ss rest) :
    Statements env ('\n' :: (t.text ++ '\n' :: w)) (t.stmts env ++ ss) rest := by
  have hg := gap_one (c := '\n') (by decide) fun c hc => (stm_head t h ('\n' :: w) c hc).1
  cases t with
  | own n d =>
    obtain ⟨h1, h2⟩ := h
    unfold Stm.text at hg ⊢
    have e : n ++ ' ' :: '=' :: ' ' :: d.text ++ '\n' :: w = n ++ ' ' :: '=' :: ' ' :: (d.text ++ '\n' :: w) := by simp
    rw [e] at hg ⊢
    exact .definition hg (ident h1 (head_cons (by decide))) (gap_one (by decide) (head_cons (by decide)))
      (gap_one (by decide) (def_gap d _)) (def_read d h2 n (head_cons (by decide))) hs
  | «alias» n x y m =>
    obtain ⟨h1, h2, h3⟩ := h
    have hy : Gap (y ++ (m ++ '\n' :: w)) (m ++ '\n' :: w) :=
      gap_of (fun c hc => h3 c (List.mem_append_right _ hc)) (ident_gap h2 _)
    have hx : Gap (x ++ '=' :: (y ++ (m ++ '\n' :: w))) ('=' :: (y ++ (m ++ '\n' :: w))) :=
      gap_of (fun c hc => h3 c (List.mem_append_left _ hc)) (head_cons (by decide))
    have e : n ++ (x ++ '=' :: (y ++ m)) ++ '\n' :: w = n ++ (x ++ '=' :: (y ++ (m ++ '\n' :: w))) := by simp
    refine .alias (text := n ++ (x ++ '=' :: (y ++ m))) hg (n := n) ?_ hx hy (ident h2 (head_cons (by decide))) hs
    rw [e]
    refine ident h1 fun c hc => ?_
    cases x with
    | nil => cases hc; decide
    | cons d x =>
      cases hc
      have := h3 c (by simp)
      unfold space at this
      unfold idChar idStart Char.isAlpha Char.isUpper Char.isLower Char.isDigit
      simp only [Bool.or_eq_true, Bool.and_eq_true, decide_eq_true_eq, beq_iff_eq] at this
      have hn : c.toNat ≤ 32 := by
        rcases this with h | rfl
        · omega
        · decide
      have h1 : c ≠ '$' := by rintro rfl; exact absurd hn (by decide)
      have h2 : c ≠ '_' := by rintro rfl; exact absurd hn (by decide)
      have f : ∀ k : UInt32, 32 < k.toNat → ¬ k ≤ c.val := by
        intro k hk hle
        have : k.toNat ≤ c.toNat := hle
        omega
      simp [h1, h2, f]
  | imports path ids =>
    obtain ⟨h1, h2⟩ := h
    have e1 : "import {".toList = "import".toList ++ [' ', '{'] := by decide +kernel
    have e2 : " } from ".toList = ' ' :: '}' :: ' ' :: ("from".toList ++ [' ']) := by decide +kernel
    have e : Stm.text (.imports path ids) ++ '\n' :: w = "import".toList ++ (' ' :: '{' ::
        (idsText ids ++ ' ' :: '}' :: (' ' :: ("from".toList ++ (' ' :: (quote path ++ '\n' :: w)))))) := by
      unfold Stm.text
      rw [e1, e2]
      simp only [List.append_assoc, List.cons_append, List.nil_append]
    rw [e] at hg ⊢
    refine .imports hg (blanks_one (head_cons (by decide))) (ids_read ids h1 h2 _) (blanks_one ?_)
      (blanks_one (head_cons (by decide))) (quoted path _) hs
    have e : "from".toList = ['f', 'r', 'o', 'm'] := by decide +kernel
    rw [e]
    exact head_cons (by decide)
  | comment line =>
    exact .comment hg (.mk (munch h (head_cons (by decide)))) hs

theorem stms_read (ss : List Stm) (h : ∀ s ∈ ss, s.Good env) (rest : Str) :
    ∃ w, lines (ss.map Stm.text) ++ '\n' :: ("-->".toList ++ rest) = '\n' :: w ∧
      Statements env ('\n' :: w) (ss.flatMap (Stm.stmts env)) rest := by
  induction ss with
  | nil =>
    refine ⟨_, rfl, .done (gap_one (by decide) ?_)⟩
    have e : "-->".toList = ['-', '-', '>'] := by decide +kernel
    rw [e]
    exact head_cons (by decide)
  | cons t ss ih =>
    obtain ⟨w, h1, h2⟩ := ih fun u hu => h u (List.mem_cons_of_mem _ hu)
    refine ⟨t.text ++ '\n' :: w, ?_, ?_⟩
    · simp only [List.map_cons, lines, List.cons_append, List.append_assoc, h1]
    · rw [List.flatMap_cons]
      exact stm_read t (h t (List.mem_cons_self ..)) h2

theorem header_read (v : Nat) (n : Option Str) (ss : List Stm) (hv : v < 2 ^ 64) (h : ∀ s ∈ ss, s.Good env) (rest : Str) :
    Header env ("<!--[adextopa".toList ++
      (attrsText (("version".toList, natStr v) :: (n.map fun n => ("name".toList, escapeText '\'' '\\' n)).toList) ++
        ']' :: (lines (ss.map Stm.text) ++ ((if ss = [] then [] else ['\n']) ++ ("-->".toList ++ rest)))))
      n (ss.flatMap (Stm.stmts env)) rest := by
  have arrow : "-->".toList = ['-', '-', '>'] := by decide +kernel
  generalize hw : lines (ss.map Stm.text) ++ ((if ss = [] then [] else ['\n']) ++ ("-->".toList ++ rest)) = w
  have hs : Statements env w (ss.flatMap (Stm.stmts env)) rest ∧
      ∀ w3, Gap w ("-->".toList ++ w3) → w = "-->".toList ++ w3 := by
    subst hw
    cases ss with
    | nil =>
      have hg : Gap ("-->".toList ++ rest) ("-->".toList ++ rest) := by
        rw [arrow]
        exact gap_nil (head_cons (by decide))
      exact ⟨.done hg, fun w3 h3 => gap_unique hg h3⟩
    | cons t ss =>
      rw [if_neg (by simp)]
      obtain ⟨w, h1, h2⟩ := stms_read (t :: ss) h rest
      rw [List.singleton_append, h1]
      refine ⟨h2, fun w3 h3 => ?_⟩
      rw [← h1] at h3
      simp only [List.map_cons, lines, List.cons_append, List.append_assoc] at h3
      have hd := fun w c hc => stm_head t (h t (List.mem_cons_self ..)) w c hc
      have := gap_unique h3 (gap_one (by decide) fun c hc => (hd _ c hc).1)
      refine absurd rfl (hd (lines (ss.map Stm.text) ++ '\n' :: ("-->".toList ++ rest)) '-' ?_).2
      rw [← this, arrow]
      rfl
  have hb : ∀ s : Str, ∀ w, Body ['\''] ['\\'] (escapeText '\'' '\\' s ++ '\'' :: w) (escapeText '\'' '\\' s) s w :=
    fun s w => body_escapeText (by decide) s w
  have hn : escapeText '\'' '\\' (natStr v) = natStr v := by
    have hd := ((numeral_natStr v).digits).2.1
    rw [List.all_eq_true] at hd
    generalize natStr v = ds at hd
    induction ds with
    | nil => rfl
    | cons d ds ih =>
      have h1 := hd d (List.mem_cons_self ..)
      have h2 : d ≠ '\'' := by rintro rfl; exact absurd h1 (by decide)
      have h3 : d ≠ '\\' := by rintro rfl; exact absurd h1 (by decide)
      unfold escapeText
      rw [if_neg (by simp [h2, h3]), ih fun c hc => hd c (List.mem_cons_of_mem _ hc)]
  have hver : ∀ c ∈ "version".toList, attrChar c = true := by decide +kernel
  have hver0 : "version".toList ≠ [] := by decide +kernel
  have hver1 : "version".toList.head? = some '_' → "version".toList = ['_'] := by decide +kernel
  have hvs : ∀ c w, ("version".toList ++ w).head? = some c → blank c = false := by
    have e : "version".toList = ['v', 'e', 'r', 's', 'i', 'o', 'n'] := by decide +kernel
    rw [e]
    exact fun c w => head_cons (p := fun c => blank c = false) (by decide) c
  have hnam : ∀ c ∈ "name".toList, attrChar c = true := by decide +kernel
  have hnam0 : "name".toList ≠ [] := by decide +kernel
  have hnam1 : "name".toList.head? = some '_' → "name".toList = ['_'] := by decide +kernel
  have hns : ∀ c w, ("name".toList ++ w).head? = some c → space c = false := by
    have e : "name".toList = ['n', 'a', 'm', 'e'] := by decide +kernel
    rw [e]
    exact fun c w => head_cons (p := fun c => space c = false) (by decide) c
  cases n with
  | none =>
    have e : attrsText (("version".toList, natStr v) :: (Option.none.map fun n => ("name".toList, escapeText '\'' '\\' n)).toList) ++
        ']' :: w = ' ' :: ("version".toList ++ '=' :: '\'' :: (escapeText '\'' '\\' (natStr v) ++ '\'' :: ']' :: w)) := by
      simp [attrsText, hn]
    rw [e]
    have := Header.mk (env := env) (as := [⟨"version".toList, _, natStr v⟩]) (n := v) (blanks_one fun c => hvs c _)
      (.cons (munch hver (head_cons (by decide))) hver0 hver1 (blanks_nil (head_cons (by decide)))
        (blanks_nil (head_cons (by decide))) (.mk (hb (natStr v) _)) (gap_nil (head_cons (by decide)))
        (.nil (head_cons (by decide)))) (v := natStr v) (by simp [attrOf, lastDef]) (numeral_natStr v) hv hs.1 hs.2
    have en : attrOf [⟨"version".toList, escapeText '\'' '\\' (natStr v), natStr v⟩] "name" = Option.none := by
      simp [attrOf, lastDef]
    rwa [en] at this
  | some n =>
    have e : attrsText (("version".toList, natStr v) :: ((Option.some n).map fun n => ("name".toList, escapeText '\'' '\\' n)).toList) ++
        ']' :: w = ' ' :: ("version".toList ++ '=' :: '\'' :: (escapeText '\'' '\\' (natStr v) ++ '\'' :: ' ' ::
          ("name".toList ++ '=' :: '\'' :: (escapeText '\'' '\\' n ++ '\'' :: ']' :: w)))) := by
      simp [attrsText, hn]
    rw [e]
    have := Header.mk (env := env) (as := [⟨"version".toList, _, natStr v⟩, ⟨"name".toList, _, n⟩]) (n := v)
      (blanks_one fun c => hvs c _)
      (.cons (munch hver (head_cons (by decide))) hver0 hver1 (blanks_nil (head_cons (by decide)))
        (blanks_nil (head_cons (by decide))) (.mk (hb (natStr v) _)) (gap_one (c := ' ') (by decide) fun c => hns c _)
        (.cons (munch hnam (head_cons (by decide))) hnam0 hnam1 (blanks_nil (head_cons (by decide)))
          (blanks_nil (head_cons (by decide))) (.mk (hb n _)) (gap_nil (head_cons (by decide)))
          (.nil (head_cons (by decide))))) (v := natStr v) (by simp [attrOf, lastDef]) (numeral_natStr v) hv hs.1 hs.2
    have en : attrOf [⟨"version".toList, escapeText '\'' '\\' (natStr v), natStr v⟩, ⟨"name".toList, escapeText '\'' '\\' n, n⟩] "name" =
        Option.some n := by
      simp [attrOf, lastDef]
    rwa [en] at this

theorem scr_read (t : Scr) (h : t.Good env) : Syntax.Script env t.text t.name (t.grams env) (t.stmts env) := by
  cases t with
  | headed v n ss ps =>
    obtain ⟨h1, h2, h3⟩ := h
    refine .headed (.done (gap_nil ?_) ?_) (header_read v n ss h1 h2 _) (items_read ps h3)
    all_goals
      have e : "<!--[adextopa".toList = '<' :: "!--[adextopa".toList := by decide +kernel
      unfold Scr.text
      rw [e]
    · exact head_cons (by decide)
    · intro hc
      cases hc
  | bare p ps =>
    obtain ⟨h1, h2⟩ := h
    have hf : Free (lines (ps.map Pat.text)) := by
      have := lines_free (ls := ps.map Pat.text) (rest := []) (by simp [Free])
      rwa [List.append_nil] at this
    refine .bare (.done (gap_nil (pat_gap p _)) fun hc => ?_) (pat_read p h1 hf) (items_read ps h2)
    rcases pat_head p _ '#' hc with h | h | h | h <;> exact absurd h (by decide)

end Adx.Render
