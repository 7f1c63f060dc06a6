import Verif.Proofs.Render
/-
  Whatever a text of the language of grammar scripts describes can be written down.
-/
namespace Adx.Render

open Syntax

attribute [local irreducible] String.toList

/-! ### ASCII -/

theorem ascii_append {a b : Str} (ha : Ascii a) (hb : Ascii b) : Ascii (a ++ b) := by
  intro c hc
  rcases List.mem_append.mp hc with h | h
  · exact ha c h
  · exact hb c h

theorem ascii_cons {c : Char} {a : Str} (hc : c.toNat < 128) (ha : Ascii a) : Ascii (c :: a) := by
  intro d hd
  rcases List.mem_cons.mp hd with rfl | h
  · exact hc
  · exact ha d h

theorem ascii_nil : Ascii [] := by simp [Ascii]

theorem ascii_left {a b : Str} (h : Ascii (a ++ b)) : Ascii a := fun c hc => h c (List.mem_append_left _ hc)

theorem ascii_right {a b : Str} (h : Ascii (a ++ b)) : Ascii b := fun c hc => h c (List.mem_append_right _ hc)

theorem ascii_tail {c : Char} {a : Str} (h : Ascii (c :: a)) : Ascii a := fun d hd => h d (List.mem_cons_of_mem _ hd)

theorem ascii_suffix {a b : Str} (h : Ascii b) (hs : a <:+ b) : Ascii a := by
  obtain ⟨t, rfl⟩ := hs
  exact ascii_right h

theorem munch_ascii {p : Char → Bool} {w u rest : Str} (h : Munch p w u rest) (ha : Ascii w) : Ascii u := by
  rw [h.split] at ha
  exact ascii_left ha

theorem natStr_ascii (n : Nat) : Ascii (natStr n) := by
  intro c hc
  have := List.all_eq_true.mp ((numeral_natStr n).digits).2.1 c hc
  unfold Char.isDigit at this
  simp only [Bool.and_eq_true, decide_eq_true_eq] at this
  have : c.toNat ≤ 57 := this.2
  omega

theorem body_ascii {stop esc w raw val rest : Str} (h : Body stop esc w raw val rest) (ha : Ascii w) : Ascii raw ∧ Ascii val := by
  induction h with
  | done => exact ⟨ascii_nil, ascii_nil⟩
  | escaped _ _ _ ih =>
    have h2 := ascii_right ha
    obtain ⟨i1, i2⟩ := ih (ascii_tail h2)
    have hc := h2 _ (List.mem_cons_self ..)
    exact ⟨ascii_append (ascii_left ha) (ascii_cons hc i1), ascii_cons hc i2⟩
  | plain _ _ _ ih =>
    obtain ⟨i1, i2⟩ := ih (ascii_tail ha)
    have hc := ha _ (List.mem_cons_self ..)
    exact ⟨ascii_cons hc i1, ascii_cons hc i2⟩

theorem body_suffix {stop esc w raw val rest : Str} (h : Body stop esc w raw val rest) : rest <:+ w := by
  induction h with
  | done => exact List.suffix_append ..
  | escaped _ _ _ ih => exact (ih.trans (List.suffix_cons ..)).trans (List.suffix_append ..)
  | plain _ _ _ ih => exact ih.trans (List.suffix_cons ..)

theorem escape_ascii {s : Str} (h : Ascii s) : Ascii (escapeText '\'' '\\' s) := by
  induction s with
  | nil => exact ascii_nil
  | cons c s ih =>
    have hc := h c (List.mem_cons_self ..)
    unfold escapeText
    split
    · exact ascii_cons (by decide) (ascii_cons hc (ih (ascii_tail h)))
    · exact ascii_cons hc (ih (ascii_tail h))

theorem quote_ascii {s : Str} (h : Ascii s) : Ascii (quote s) :=
  ascii_cons (by decide) (ascii_append (escape_ascii h) (ascii_cons (by decide) ascii_nil))

theorem quoted_ascii {w raw val rest : Str} (h : Quoted w raw val rest) (ha : Ascii w) : Ascii val := by
  obtain ⟨h⟩ := h
  exact (body_ascii h (ascii_tail ha)).2

theorem regular_ascii {w t rest : Str} (h : Regular w t rest) (ha : Ascii w) : Ascii t := by
  induction h with
  | done => exact ascii_nil
  | char _ _ ih => exact ascii_cons (ha _ (List.mem_cons_self ..)) (ih (ascii_tail ha))
  | escape _ _ ih =>
    have h2 := ascii_tail ha
    exact ascii_cons (by decide) (ascii_cons (h2 _ (List.mem_cons_self ..)) (ih (ascii_tail h2)))
  | bracket hb _ ih =>
    have h2 := ascii_tail ha
    exact ascii_append (ascii_cons (by decide) (body_ascii hb h2).1)
      (ascii_cons (by decide) (ih (ascii_suffix h2 (body_suffix hb))))

theorem regular_suffix {w t rest : Str} (h : Regular w t rest) : rest <:+ w := by
  induction h with
  | done => exact List.suffix_cons ..
  | char _ _ ih => exact ih.trans (List.suffix_cons ..)
  | escape _ _ ih => exact (ih.trans (List.suffix_cons ..)).trans (List.suffix_cons ..)
  | bracket hb _ ih => exact (ih.trans (body_suffix hb)).trans (List.suffix_cons ..)

theorem mod_ascii (m : Mod) : Ascii m.text := by
  cases m with
  | none => exact ascii_nil
  | opt => exact ascii_cons (by decide) ascii_nil
  | not => exact ascii_cons (by decide) ascii_nil

theorem rep_ascii (r : Rep) : Ascii r.text := by
  cases r with
  | once => exact ascii_nil
  | any => exact ascii_cons (by decide) ascii_nil
  | some => exact ascii_cons (by decide) ascii_nil
  | upTo n => exact ascii_cons (by decide) (ascii_append (natStr_ascii n) (ascii_cons (by decide) ascii_nil))
  | atLeast n =>
    exact ascii_cons (by decide) (ascii_append (natStr_ascii n) (ascii_cons (by decide) (ascii_cons (by decide) ascii_nil)))
  | between n m =>
    exact ascii_cons (by decide) (ascii_append (natStr_ascii n) (ascii_cons (by decide)
      (ascii_append (natStr_ascii m) (ascii_cons (by decide) ascii_nil))))

theorem attrs_ascii {as : List (Str × Str)} (h : ∀ a ∈ as, Ascii a.1 ∧ Ascii a.2) : Ascii (attrsText as) := by
  induction as with
  | nil => exact ascii_nil
  | cons a as ih =>
    obtain ⟨h1, h2⟩ := h a (List.mem_cons_self ..)
    exact ascii_cons (by decide) (ascii_append h1 (ascii_cons (by decide) (ascii_cons (by decide) (ascii_append h2
      (ascii_cons (by decide) (ih fun b hb => h b (List.mem_cons_of_mem _ hb)))))))

/-! ### Parts of definitions -/

theorem rep_of {w rest : Str} {r : Option (Nat × Nat)} (h : Repeat w r rest) : ∃ x : Rep, x.Good ∧ x.range = r := by
  cases h with
  | once => exact ⟨.once, trivial, rfl⟩
  | any => exact ⟨.any, trivial, rfl⟩
  | some => exact ⟨.some, trivial, rfl⟩
  | upTo _ h2 => exact ⟨.upTo _, h2.choose_spec.2.2, rfl⟩
  | atLeast _ h2 => exact ⟨.atLeast _, h2.choose_spec.2.2, rfl⟩
  | between _ _ _ _ h5 _ hle => exact ⟨.between _ _, ⟨hle, h5.choose_spec.2.2⟩, rfl⟩

theorem attrs_of {w rest : Str} {as : List Attr} (h : AttrList w as rest) (ha : Ascii w) :
    ∃ bs : List (Str × Str), (∀ b ∈ bs, AttrName b.1 ∧ AttrRaw b.2) ∧ as.map (fun a => (a.name, a.raw)) = bs ∧
      ∀ b ∈ bs, Ascii b.1 ∧ Ascii b.2 := by
  induction h with
  | nil => exact ⟨[], by simp, rfl, by simp⟩
  | @cons w n w1 w2 w3 raw val w4 w5 rest as h1 h2 h3 h4 h5 h6 h7 _ ih =>
    have a3 : Ascii w3 := ascii_suffix ha (h5.suffix.trans ((List.suffix_cons ..).trans (h4.suffix.trans h1.suffix)))
    obtain ⟨bs, b1, b2, b3⟩ := ih (ascii_suffix a3 (h7.suffix.trans h6.suffix))
    obtain ⟨hb⟩ := h6
    refine ⟨(n, raw) :: bs, ?_, by simp [b2], ?_⟩
    · intro b hb'
      rcases List.mem_cons.mp hb' with rfl | hb'
      · exact ⟨⟨h2, h1.all, h3⟩, body_raw hb⟩
      · exact b1 b hb'
    · intro b hb'
      rcases List.mem_cons.mp hb' with rfl | hb'
      · exact ⟨munch_ascii h1 ha, (body_ascii hb (ascii_tail a3)).1⟩
      · exact b3 b hb'

variable {env : Env}

/-! ### Patterns -/

mutual

theorem matcher_of {w rest : Str} {g : Gram} (h : Matcher env w g rest) (ha : Ascii w) :
    ∃ m : Leaf, m.Good env ∧ m.gram env = g ∧ Ascii m.text ∧ rest <:+ w := by
  match h with
  | .equals (val := val) h hv =>
    refine ⟨.equals val, ?_, ?_, ?_, h.suffix.trans (List.suffix_cons ..)⟩
    · unfold Leaf.Good; exact hv
    · unfold Leaf.gram; rfl
    · unfold Leaf.text
      exact ascii_cons (by decide) (quote_ascii (quoted_ascii h (ascii_tail ha)))
  | .regex (text := t) (flags := f) h ht hf hr =>
    refine ⟨.regex t f, ?_, ?_, ?_, (hf.suffix.trans (regular_suffix h)).trans (List.suffix_cons ..)⟩
    · unfold Leaf.Good
      exact ⟨ht, regular_rest h [], hf.all, by rw [hr]; simp⟩
    · unfold Leaf.gram
      rw [hr]
      rfl
    · unfold Leaf.text
      have a1 := ascii_tail ha
      exact ascii_cons (by decide) (ascii_append (regular_ascii h a1) (ascii_cons (by decide)
        (munch_ascii hf (ascii_suffix a1 (regular_suffix h)))))
  | .sequence (a := a) (b := b) (e := e) h1 h2 h3 h4 h5 h6 ha' hb =>
    have s1 := h1.suffix.trans (List.suffix_cons '%' _)
    have s3 := h3.suffix.trans (h2.suffix.trans s1)
    have s5 := h5.suffix.trans (h4.suffix.trans s3)
    refine ⟨.sequence a b e, ?_, ?_, ?_, h6.suffix.trans s5⟩
    · unfold Leaf.Good
      exact ⟨ha', hb⟩
    · unfold Leaf.gram
      rfl
    · unfold Leaf.text
      have q1 := quote_ascii (quoted_ascii h2 (ascii_suffix ha s1))
      have q2 := quote_ascii (quoted_ascii h4 (ascii_suffix ha s3))
      have q3 := quote_ascii (quoted_ascii h6 (ascii_suffix ha s5))
      exact ascii_cons (by decide) (ascii_append q1 (ascii_cons (by decide) (ascii_cons (by decide)
        (ascii_append q2 (ascii_cons (by decide) (ascii_cons (by decide) q3))))))
  | .custom (n := n) h =>
    refine ⟨.ref n, ?_, ?_, ?_, h.suffix⟩
    · unfold Leaf.Good
      exact ⟨h.start, h.munch.all⟩
    · unfold Leaf.gram
      rfl
    · unfold Leaf.text
      exact munch_ascii h.munch ha
  | .switch h =>
    obtain ⟨ps, h1, h2, h3, h4⟩ := choices_of h (ascii_tail ha)
    refine ⟨.switch ps, ?_, ?_, ?_, h4.trans (List.suffix_cons ..)⟩
    · unfold Leaf.Good
      exact h1
    · unfold Leaf.gram
      rw [h2]
    · unfold Leaf.text
      exact ascii_cons (by decide) (ascii_append h3 (ascii_cons (by decide) ascii_nil))
  | .program h =>
    obtain ⟨ps, h1, h2, h3, h4⟩ := patterns_of h (ascii_tail ha)
    refine ⟨.program ps, ?_, ?_, ?_, h4.trans (List.suffix_cons ..)⟩
    · unfold Leaf.Good
      exact h1
    · unfold Leaf.gram
      rw [h2]
    · unfold Leaf.text
      exact ascii_cons (by decide) (ascii_append h3 (ascii_cons (by decide) ascii_nil))

theorem choices_of {w rest : Str} {gs : List Gram} (h : Choices env w gs rest) (ha : Ascii w) :
    ∃ ps : Pats, ps.Good env ∧ ps.grams env = gs ∧ Ascii ps.barred ∧ rest <:+ w := by
  match h with
  | .last h1 h2 h3 =>
    obtain ⟨p, p1, p2, p3, p4⟩ := pattern_of h2 (ascii_suffix ha h1.suffix)
    refine ⟨.one p, ?_, ?_, ?_, (List.suffix_cons ..).trans (h3.suffix.trans (p4.trans h1.suffix))⟩
    · unfold Pats.Good
      exact p1
    · unfold Pats.grams
      rw [p2]
    · unfold Pats.barred
      exact p3
  | .lastBar h1 h2 h3 h4 =>
    obtain ⟨p, p1, p2, p3, p4⟩ := pattern_of h2 (ascii_suffix ha h1.suffix)
    refine ⟨.one p, ?_, ?_, ?_, (List.suffix_cons ..).trans (h4.suffix.trans ((List.suffix_cons ..).trans
      (h3.suffix.trans (p4.trans h1.suffix))))⟩
    · unfold Pats.Good
      exact p1
    · unfold Pats.grams
      rw [p2]
    · unfold Pats.barred
      exact p3
  | .more h1 h2 h3 h4 =>
    obtain ⟨p, p1, p2, p3, p4⟩ := pattern_of h2 (ascii_suffix ha h1.suffix)
    have s := (List.suffix_cons ..).trans (h3.suffix.trans (p4.trans h1.suffix))
    obtain ⟨ps, q1, q2, q3, q4⟩ := choices_of h4 (ascii_suffix ha s)
    refine ⟨.more p ps, ?_, ?_, ?_, q4.trans s⟩
    · unfold Pats.Good
      exact ⟨p1, q1⟩
    · unfold Pats.grams
      rw [p2, q2]
    · unfold Pats.barred
      exact ascii_append p3 (ascii_cons (by decide) (ascii_cons (by decide) (ascii_cons (by decide) q3)))

theorem patterns_of {w rest : Str} {gs : List Gram} (h : Patterns env w gs rest) (ha : Ascii w) :
    ∃ ps : Pats, ps.Good env ∧ ps.grams env = gs ∧ Ascii ps.spaced ∧ rest <:+ w := by
  match h with
  | .last h1 h2 h3 =>
    obtain ⟨p, p1, p2, p3, p4⟩ := pattern_of h2 (ascii_suffix ha h1.suffix)
    refine ⟨.one p, ?_, ?_, ?_, (List.suffix_cons ..).trans (h3.suffix.trans (p4.trans h1.suffix))⟩
    · unfold Pats.Good
      exact p1
    · unfold Pats.grams
      rw [p2]
    · unfold Pats.spaced
      exact p3
  | .more h1 h2 h3 h4 =>
    obtain ⟨p, p1, p2, p3, p4⟩ := pattern_of h2 (ascii_suffix ha h1.suffix)
    have s := h3.suffix.trans (p4.trans h1.suffix)
    obtain ⟨ps, q1, q2, q3, q4⟩ := patterns_of h4 (ascii_suffix ha s)
    refine ⟨.more p ps, ?_, ?_, ?_, q4.trans s⟩
    · unfold Pats.Good
      exact ⟨p1, q1⟩
    · unfold Pats.grams
      rw [p2, q2]
    · unfold Pats.spaced
      exact ascii_append p3 (ascii_cons (by decide) q3)

theorem definition_of {name w rest : Str} {g : Gram} (h : Definition env name w g rest) (ha : Ascii w) :
    ∃ d : Def, d.Good env ∧ d.gram env name = g ∧ Ascii d.text ∧ rest <:+ w := by
  match h with
  | .mk (outer := outer) (inner := inner) h1 h2 h3 h4 h5 =>
    have a1 := ascii_right (ascii_tail (ascii_right ha))
    obtain ⟨m, m1, m2, m3, m4⟩ := matcher_of h2 (ascii_suffix a1 h1.suffix)
    have a4 := ascii_suffix a1 (h3.suffix.trans (m4.trans h1.suffix))
    obtain ⟨bs, b1, b2, b3⟩ := attrs_of h4 a4
    obtain ⟨r, r1, r2⟩ := rep_of h5
    refine ⟨.mk outer inner m bs r, ?_, ?_, ?_, ?_⟩
    · unfold Def.Good
      exact ⟨m1, b1, r1⟩
    · unfold Def.gram
      rw [m2, r2, valued_eq b2]
    · unfold Def.text
      exact ascii_append (mod_ascii outer) (ascii_cons (by decide) (ascii_append (mod_ascii inner) (ascii_append m3
        (ascii_append (attrs_ascii b3) (ascii_cons (by decide) (rep_ascii r))))))
    · refine h5.suffix.trans ((List.suffix_cons ..).trans (h4.suffix.trans (h3.suffix.trans (m4.trans (h1.suffix.trans ?_)))))
      exact ((List.suffix_append ..).trans (List.suffix_cons ..)).trans (List.suffix_append ..)

theorem pattern_of {w rest : Str} {g : Gram} (h : Pattern env w g rest) (ha : Ascii w) :
    ∃ p : Pat, p.Good env ∧ p.gram env = g ∧ Ascii p.text ∧ rest <:+ w := by
  match h with
  | .plain h =>
    obtain ⟨d, d1, d2, d3, d4⟩ := definition_of h ha
    refine ⟨.plain d, ?_, ?_, ?_, d4⟩
    · unfold Pat.Good
      exact d1
    · unfold Pat.gram
      rw [d2]
    · unfold Pat.text
      exact d3
  | .captured h1 h2 h3 =>
    obtain ⟨d, d1, d2, d3, d4⟩ := definition_of h2 (ascii_suffix (ascii_tail ha) h1.suffix)
    refine ⟨.captured d, ?_, ?_, ?_, (List.suffix_cons ..).trans (h3.suffix.trans (d4.trans (h1.suffix.trans (List.suffix_cons ..))))⟩
    · unfold Pat.Good
      exact d1
    · unfold Pat.gram
      rw [d2]
    · unfold Pat.text
      exact ascii_cons (by decide) (ascii_append d3 (ascii_cons (by decide) ascii_nil))
  | .named (val := val) h1 h2 h3 h4 h5 =>
    have a1 := ascii_tail (ascii_suffix (ascii_tail ha) h1.suffix)
    obtain ⟨d, d1, d2, d3, d4⟩ := definition_of h4 (ascii_suffix a1 (h3.suffix.trans h2.suffix))
    refine ⟨.named val d, ?_, ?_, ?_, (List.suffix_cons ..).trans (h5.suffix.trans (d4.trans (h3.suffix.trans (h2.suffix.trans
      ((List.suffix_cons ..).trans (h1.suffix.trans (List.suffix_cons ..)))))))⟩
    · unfold Pat.Good
      exact d1
    · unfold Pat.gram
      rw [d2]
    · unfold Pat.text
      exact ascii_cons (by decide) (ascii_cons (by decide) (ascii_append (quote_ascii (quoted_ascii h2 a1))
        (ascii_cons (by decide) (ascii_append d3 (ascii_cons (by decide) ascii_nil)))))

end

/-! ### Scripts -/

theorem lines_ascii {ls : List Str} (h : ∀ l ∈ ls, Ascii l) : Ascii (lines ls) := by
  induction ls with
  | nil => exact ascii_nil
  | cons l ls ih =>
    exact ascii_cons (by decide) (ascii_append (h l (List.mem_cons_self ..)) (ih fun k hk => h k (List.mem_cons_of_mem _ hk)))

theorem items_of {w : Str} {gs : List Gram} (h : Items env w gs) (ha : Ascii w) :
    ∃ ps : List Pat, (∀ p ∈ ps, p.Good env) ∧ ps.map (Pat.gram env) = gs ∧ ∀ p ∈ ps, Ascii p.text := by
  induction h with
  | done => exact ⟨[], by simp, rfl, by simp⟩
  | comment h1 h2 _ ih => exact ih (ascii_suffix ha (h2.suffix.trans h1.suffix))
  | pattern h1 h2 _ ih =>
    obtain ⟨p, p1, p2, p3, p4⟩ := pattern_of h2 (ascii_suffix ha h1.suffix)
    obtain ⟨ps, q1, q2, q3⟩ := ih (ascii_suffix ha (p4.trans h1.suffix))
    exact ⟨p :: ps, by simpa using ⟨p1, q1⟩, by simp [p2, q2], by simpa using ⟨p3, q3⟩⟩

theorem importId_of {w n m rest : Str} (h : ImportId w n m rest) (ha : Ascii w) : Ident n ∧ Ident m ∧ Ascii n ∧ Ascii m := by
  cases h with
  | plain h1 => exact ⟨⟨h1.start, h1.munch.all⟩, ⟨h1.start, h1.munch.all⟩, munch_ascii h1.munch ha, munch_ascii h1.munch ha⟩
  | renamed h1 h2 h3 =>
    exact ⟨⟨h1.start, h1.munch.all⟩, ⟨h3.start, h3.munch.all⟩, munch_ascii h1.munch ha,
      munch_ascii h3.munch (ascii_suffix ha (h2.suffix.trans h1.suffix))⟩

theorem importIds_of {w rest : Str} {ids : List (Str × Str)} (h : ImportIds w ids rest) (ha : Ascii w) :
    ids ≠ [] ∧ (∀ i ∈ ids, Ident i.1 ∧ Ident i.2) ∧ Ascii (idsText ids) := by
  have has : Ascii " as ".toList := by unfold Ascii; decide +kernel
  induction h with
  | last h1 h2 =>
    obtain ⟨i1, i2, i3, i4⟩ := importId_of h2 (ascii_suffix ha h1.suffix)
    exact ⟨by simp, by simpa using ⟨i1, i2⟩, ascii_cons (by decide) (ascii_append (ascii_append (ascii_append i3 has) i4)
      (ascii_cons (by decide) ascii_nil))⟩
  | more h1 h2 _ ih =>
    obtain ⟨i1, i2, i3, i4⟩ := importId_of h2 (ascii_suffix ha h1.suffix)
    obtain ⟨_, j2, j3⟩ := ih (ascii_suffix ha (h2.suffix.trans h1.suffix))
    refine ⟨by simp, ?_, ascii_cons (by decide) (ascii_append (ascii_append (ascii_append i3 has) i4)
      (ascii_cons (by decide) j3))⟩
    intro i hi
    rcases List.mem_cons.mp hi with rfl | hi
    · exact ⟨i1, i2⟩
    · exact j2 i hi

theorem statements_of {w rest : Str} {ss : List Stmt} (h : Statements env w ss rest) (ha : Ascii w) :
    ∃ ts : List Stm, (∀ t ∈ ts, t.Good env) ∧ ts.flatMap (Stm.stmts env) = ss ∧ (∀ t ∈ ts, Ascii t.text) ∧ rest <:+ w := by
  induction h with
  | done h => exact ⟨[], by simp, rfl, by simp, (List.suffix_append ..).trans h.suffix⟩
  | comment h1 h2 _ ih =>
    have s := h2.suffix.trans h1.suffix
    obtain ⟨ts, t1, t2, t3, t4⟩ := ih (ascii_suffix ha s)
    exact ⟨ts, t1, t2, t3, t4.trans s⟩
  | @imports w w1 w2 w3 w4 raw path w5 w6 rest ids ss h1 h2 h3 h4 h5 h6 _ ih =>
    have s2 : w2 <:+ w := (List.suffix_cons ..).trans (h2.suffix.trans ((List.suffix_append ..).trans h1.suffix))
    have s5 : w5 <:+ w := h5.suffix.trans ((List.suffix_append ..).trans (h4.suffix.trans (h3.suffix.trans s2)))
    have s := h6.suffix.trans s5
    obtain ⟨ts, t1, t2, t3, t4⟩ := ih (ascii_suffix ha s)
    obtain ⟨i1, i2, i3⟩ := importIds_of h3 (ascii_suffix ha s2)
    refine ⟨.imports path ids :: ts, by simpa using ⟨⟨i1, by simpa using i2⟩, t1⟩, by simp [Stm.stmts, t2], ?_, t4.trans s⟩
    intro t ht
    rcases List.mem_cons.mp ht with rfl | ht
    · have e1 : Ascii "import {".toList := by unfold Ascii; decide +kernel
      have e2 : Ascii " } from ".toList := by unfold Ascii; decide +kernel
      exact ascii_append e1 (ascii_append (ascii_append i3 e2) (quote_ascii (quoted_ascii h6 (ascii_suffix ha s5))))
    · exact t3 t ht
  | @definition w w1 n w2 w3 w4 w5 rest g ss h1 h2 h3 h4 h5 _ ih =>
    have s4 : w4 <:+ w := h4.suffix.trans ((List.suffix_cons ..).trans (h3.suffix.trans (h2.suffix.trans h1.suffix)))
    obtain ⟨d, d1, d2, d3, d4⟩ := definition_of h5 (ascii_suffix ha s4)
    obtain ⟨ts, t1, t2, t3, t4⟩ := ih (ascii_suffix ha (d4.trans s4))
    refine ⟨.own n d :: ts, ?_, by simp [Stm.stmts, t2, d2], ?_, t4.trans (d4.trans s4)⟩
    · intro t ht
      rcases List.mem_cons.mp ht with rfl | ht
      · exact ⟨⟨h2.start, h2.munch.all⟩, d1⟩
      · exact t1 t ht
    · intro t ht
      rcases List.mem_cons.mp ht with rfl | ht
      · exact ascii_append (munch_ascii h2.munch (ascii_suffix ha h1.suffix)) (ascii_cons (by decide) (ascii_cons (by decide)
          (ascii_cons (by decide) d3)))
      · exact t3 t ht
  | @«alias» w text n w2 w3 w4 m w5 rest ss h1 h2 h3 h4 h5 _ ih =>
    have s5 : w5 <:+ w := (List.suffix_append ..).trans h1.suffix
    obtain ⟨ts, t1, t2, t3, t4⟩ := ih (ascii_suffix ha s5)
    obtain ⟨x, hx⟩ := h3
    obtain ⟨y, hy⟩ := h4
    have e : text = n ++ (x ++ '=' :: (y ++ m)) := by
      have := h2.munch.split
      rw [hx.split, hy.split, h5.munch.split] at this
      refine List.append_cancel_right (bs := w5) ?_
      rw [this]
      simp
    refine ⟨.alias n x y m :: ts, ?_, by simp [Stm.stmts, t2, e], ?_, t4.trans s5⟩
    · intro t ht
      rcases List.mem_cons.mp ht with rfl | ht
      · refine ⟨⟨h2.start, h2.munch.all⟩, ⟨h5.start, h5.munch.all⟩, fun c hc => ?_⟩
        rcases List.mem_append.mp hc with hc | hc
        · exact hx.all c hc
        · exact hy.all c hc
      · exact t1 t ht
    · intro t ht
      rcases List.mem_cons.mp ht with rfl | ht
      · have := ascii_left (ascii_suffix ha h1.suffix)
        rw [e] at this
        exact this
      · exact t3 t ht

theorem attrOf_ascii {w rest : Str} {as : List Attr} (h : AttrList w as rest) (ha : Ascii w) : ∀ a ∈ as, Ascii a.val := by
  induction h with
  | nil => simp
  | @cons w n w1 w2 w3 raw val w4 w5 rest as h1 h2 h3 h4 h5 h6 h7 _ ih =>
    have a3 : Ascii w3 := ascii_suffix ha (h5.suffix.trans ((List.suffix_cons ..).trans (h4.suffix.trans h1.suffix)))
    have a4 := ih (ascii_suffix a3 (h7.suffix.trans h6.suffix))
    intro a hm
    rcases List.mem_cons.mp hm with rfl | hm
    · exact quoted_ascii h6 a3
    · exact a4 a hm

theorem attrOf_mem {as : List Attr} {n : String} {v : Str} (h : attrOf as n = some v) : ∃ a ∈ as, a.val = v := by
  unfold attrOf lastDef at h
  obtain ⟨b, hb, rfl⟩ := Option.map_eq_some_iff.mp h
  have := List.mem_of_find?_eq_some hb
  rw [List.mem_reverse, List.mem_map] at this
  obtain ⟨a, ha, rfl⟩ := this
  exact ⟨a, ha, rfl⟩

theorem comments_suffix {w rest : Str} (h : Comments w rest) : rest <:+ w := by
  induction h with
  | done h => exact h.suffix
  | more h1 h2 _ ih => exact ih.trans (h2.suffix.trans h1.suffix)

theorem scr_of {w : Str} {nm : Option Str} {gs : List Gram} {ss : List Stmt} (h : Syntax.Script env w nm gs ss) (ha : Ascii w) :
    ∃ t : Scr, t.Good env ∧ t.name = nm ∧ t.grams env = gs ∧ t.stmts env = ss ∧ Ascii t.text := by
  cases h with
  | headed h1 h2 h3 =>
    have s1 := comments_suffix h1
    cases h2 with
    | @mk w w1 w2 rest v as n ss b1 b2 b3 b4 b5 b6 b7 =>
      have sw : w1 <:+ _ := b1.suffix.trans ((List.suffix_append ..).trans s1)
      have s2 : w2 <:+ _ := (List.suffix_cons ..).trans (b2.suffix.trans sw)
      obtain ⟨ts, t1, t2, t3, t4⟩ := statements_of b6 (ascii_suffix ha s2)
      obtain ⟨ps, p1, p2, p3⟩ := items_of h3 (ascii_suffix ha (t4.trans s2))
      refine ⟨.headed n (attrOf as "name") ts ps, ⟨b5, t1, p1⟩, rfl, p2, t2, ?_⟩
      have e1 : Ascii "<!--[adextopa".toList := by unfold Ascii; decide +kernel
      have e2 : Ascii "version".toList := by unfold Ascii; decide +kernel
      have e3 : Ascii "name".toList := by unfold Ascii; decide +kernel
      have e4 : Ascii "-->".toList := by unfold Ascii; decide +kernel
      refine ascii_append e1 (ascii_append (attrs_ascii ?_) (ascii_cons (by decide) (ascii_append (lines_ascii ?_)
        (ascii_append ?_ (ascii_append e4 (lines_ascii ?_))))))
      · intro a hm
        rcases List.mem_cons.mp hm with rfl | hm
        · exact ⟨e2, natStr_ascii n⟩
        · cases hn : attrOf as "name" with
          | none => rw [hn] at hm; cases hm
          | some x =>
            rw [hn] at hm
            simp only [Option.map_some, Option.toList_some, List.mem_singleton] at hm
            subst hm
            obtain ⟨a, h1, rfl⟩ := attrOf_mem hn
            exact ⟨e3, escape_ascii (attrOf_ascii b2 (ascii_suffix ha sw) a h1)⟩
      · simpa using t3
      · split
        · exact ascii_nil
        · exact ascii_cons (by decide) ascii_nil
      · simpa using p3
  | bare h1 h2 h3 =>
    have s1 := comments_suffix h1
    obtain ⟨p, p1, p2, p3, p4⟩ := pattern_of h2 (ascii_suffix ha s1)
    obtain ⟨ps, q1, q2, q3⟩ := items_of h3 (ascii_suffix ha (p4.trans s1))
    refine ⟨.bare p ps, ⟨p1, q1⟩, rfl, by simp [Scr.grams, p2, q2], rfl, ascii_append p3 (lines_ascii (by simpa using q3))⟩

end Adx.Render
