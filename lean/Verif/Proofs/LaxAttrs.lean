import Verif.Proofs.LaxRegex
/-
  Reading any text: attributes.
-/
namespace Adx.Read

open Syntax (Munch Gap Blanks Quoted Attr)
open B

section
variable {E : Setting} {K : Option Nat} {w w' : Str} {n : String} {uni : Uni}

/-- The token of an attribute, perhaps with an error in it. -/
structure RawAttr (E : Setting) (t : Tr) (a : Attr) : Prop where
  flags : t.info.flags = 0
  name : t.name = "Attribute".toList
  kids : ∃ n v es, t.kids = n :: v :: es ∧ valueOf E n.info = a.name ∧ valueOf E v.info = a.val
  tree : AttrT E t.purge a

theorem RawAttr.len {t : Tr} {a : Attr} (h : RawAttr E t a) : 2 ≤ t.kids.length := by
  obtain ⟨n, v, es, h, -⟩ := h.kids
  rw [h]
  simp

/-- The tokens of attributes. -/
inductive RawAttrs (E : Setting) : List Tr → List Attr → Prop
  | nil : RawAttrs E [] []
  | cons {t : Tr} {ts : List Tr} {a : Attr} {as : List Attr} (h : RawAttr E t a) (h' : RawAttrs E ts as) : RawAttrs E (t :: ts) (a :: as)

theorem RawAttrs.purge {ts : List Tr} {as : List Attr} (h : RawAttrs E ts as) : AttrTs E (purges ts) as := by
  induction h with
  | nil => rw [purges_nil]; exact .nil
  | cons h _ ih => rw [purges_cons h.flags]; exact .cons h.tree ih

theorem RawAttrs.len {ts : List Tr} {as : List Attr} (h : RawAttrs E ts as) : ∀ t ∈ ts, 2 ≤ t.kids.length := by
  induction h with
  | nil => intro _ h; cases h
  | cons h _ ih =>
    intro t ht
    rcases List.mem_cons.mp ht with rfl | ht
    · exact h.len
    · exact ih t ht

theorem RawAttrs.names {ts : List Tr} {as : List Attr} (h : RawAttrs E ts as) : ∀ t ∈ ts, t.info.flags = 0 ∧ t.name = "Attribute".toList := by
  induction h with
  | nil => intro _ h; cases h
  | cons h _ ih =>
    intro t ht
    rcases List.mem_cons.mp ht with rfl | ht
    · exact ⟨h.flags, h.name⟩
    · exact ih t ht

theorem purges_flagged {l : List Tr} (h : ∀ t ∈ l, t.info.flags ≠ 0) : purges l = [] := by
  induction l with
  | nil => exact purges_nil
  | cons t l ih =>
    rw [purges_drop (h t (by simp))]
    exact ih fun t ht => h t (List.mem_cons_of_mem _ ht)

/-- An attribute. -/
def AttrR (E : Setting) : Rel := fun w w' l => ∃ n w1 w2 w3 raw val t, Munch Syntax.attrChar w n w1 ∧ n ≠ [] ∧ Blanks w1 ('=' :: w2) ∧ Blanks w2 w3 ∧
  Quoted w3 raw val w' ∧ l = [t] ∧ RawAttr E t ⟨n, raw, val⟩ ∧ t.matched.stop = E.at_ w'

theorem quote_yields {msg : String} (hw : E.Has w) : Yields E K false (fatalIf (regex Script.rxNotQuote) msg) w (fun w' l => l = [] ∧ w' = w) True := by
  unfold Script.rxNotQuote
  rcases rx_cases (pattern := "[^'\\s]+") (as := [Rx.plus fun c => c != '\'' && !Rx.isSpace c]) w with h | h | ⟨u, w', rfl, hu, h⟩
  · exact ⟨_, .fatalIf (.regex_fail h), List.suffix_refl _, .past ⟨rfl, rfl⟩ (fun h => by cases h)⟩
  · exact ⟨_, .fatalIf_past (.regex_empty h), List.suffix_refl _, .past ⟨rfl, rfl⟩ (fun h => by cases h)⟩
  · obtain ⟨g1, g2, g3⟩ := leaf_good (name := "Matches".toList) hw hu
    exact ⟨_, .fatalIf_hit (.regex hu h) g2, trivial, .fatal⟩

theorem attribute_yields (hE : E.errs = true) (hw : E.Has w) : Yields E none true (Script.attribute_ uni) w (AttrR E w) True := by
  have hl : Row E (some (E.at_ w)) (blen w + 1) [_, _, _, _, _, _] _ :=
    .free (N := fun w w' l => l = [leafT E "Name".toList w w'] ∧ ∃ u, Munch Syntax.attrChar w u w' ∧ u ≠ [])
      (fun _ hw => yields_plus (n := "Name") (pattern := "[\\w+_]+") hw (fun _ => attr_ascii (u := uni)) (by decide)) <|
    .free (N := BlanksR) (fun _ _ => yields_ws0) <| .free (N := SkipR "=") (fun _ hw => yields_skip hw) <|
    .free (N := BlanksR) (fun _ _ => yields_ws0) <| .free (N := fun w w' l => l = [] ∧ w' = w) (fun _ hw => quote_yields
      (msg := "Malformed attribute detected. Attribute value is not single-quoted. The proper format for an attribute is: name='value'") hw) <|
    .free (N := StringR E "Value") (fun _ hw => yields_string hw) .nil
  obtain ⟨o, h1, h2⟩ := hl.go hw (.start hw) (Nat.lt_succ_self _)
  have hm : ∀ {o : End}, Pass E (some (E.at_ w)) ([regexN "Name" (Script.rxAttrName uni), Script.ws0, discard (equals "="), Script.ws0,
      fatalIf (regex Script.rxNotQuote) "Malformed attribute detected. Attribute value is not single-quoted. The proper format for an attribute is: name='value'",
      Script.string "Value"] ++ [pinN "Pin" (.fetch "AttributeStartOffset.range".toList)
      (assertIf (regex (Script.rxAttrUnderscore uni)) "Attribute names can not start with an underscore")]) (.start E w) o →
      ∀ {K' g}, ProgramGives E w "Attribute".toList o K' g → BReads E none none (Script.attribute_ uni) w g := by
    intro o hp K' g hg
    exact .forget (.programN (.cons .mark hp) hg)
  cases o with
  | done K' a =>
    obtain ⟨rfl, h3, h4, l, h5, h6, h7⟩ := h2
    replace h5 : a.kids = l := h5
    subst h5
    obtain ⟨w1, l1, l2, hkids, ⟨rfl, u, hu, hne⟩, w2, l3, l4, rfl, ⟨rfl, hb1⟩, w3, l5, l6, rfl, ⟨rfl, rfl⟩, w4, l7, l8, rfl, ⟨rfl, hb2⟩,
      w5, l9, l10, rfl, ⟨rfl, rfl⟩, w6, l11, l12, rfl, ⟨x1, raw, val, rfl, e1, e2, hq⟩, hrest, rfl⟩ := h6
    dsimp only [Run.start] at *
    have hw5 : E.Has w5 := hw.tail (hb2.suffix.trans ((List.suffix_cons ..).trans (hb1.suffix.trans hu.suffix)))
    have key : ∀ (es : List Tr) (r : Run), (∀ t ∈ es, t.info.flags ≠ 0) → RunOk E w r → r.far = E.at_ r.rest → r.loose = false → r.caps ≠ [] →
        r.kids = [leafT E "Name".toList w w1, delimT E "Value".toList w5 x1 ('\'' :: w6) w6 val] ++ es → r.rest = w6 →
        ∃ g, Gives E w "Attribute".toList r g ∧ g.Good E w ∧ Comes E true w (AttrR E w) True g := by
      intro es r hes hr hf hlo hc hk hrr
      have hG := Gives.tok (E := E) (name := "Attribute".toList) (r := r) (by rw [hk]; simp) hc hlo hr.sfx hf
      refine ⟨_, hG, hG.good hr, .tok ⟨u, w1, w3, w5, raw, val, _, hu, hne, hb1, hb2, hrr ▸ hq, rfl, ⟨rfl, rfl, ⟨_, _, es, hk, ?_, ?_⟩, ?_⟩, hf⟩⟩
      · have hs := hu.split
        subst hs
        exact hw.range
      · rfl
      · have hs := hu.split
        subst hs
        rw [show (r.tree E "Attribute".toList (u ++ w1)).purge = .node _ (purges r.kids) from purge_node, hk, purges_append,
          purges_bare (l := [leafT E "Name".toList (u ++ w1) w1, delimT E "Value".toList w5 x1 ('\'' :: w6) w6 val]) (by
            intro t ht
            simp only [List.mem_cons, List.not_mem_nil, or_false] at ht
            rcases ht with rfl | rfl
            · exact bare_leaf
            · exact bare_delim), purges_flagged hes, List.append_nil]
        refine ⟨_, _, _, rfl, .node (Cold.names (n := "Attribute") (by decide)) ?_, ?_, ?_⟩
        · intro t ht
          simp only [List.mem_cons, List.not_mem_nil, or_false] at ht
          rcases ht with rfl | rfl
          · exact quiet_leaf
          · exact quiet_delim
        · intro toks lo i hi
          obtain ⟨k, hk, -, h7, h8⟩ := hi.leaf
          rw [hw.range] at h7 h8
          exact ⟨k, hk, h8, h7⟩
        · intro toks lo i hi
          obtain ⟨k, hk, -, h7, h8⟩ := hi.delim
          refine ⟨k, hk, ?_, h7⟩
          rw [h8, e2]
          rw [e1, e2] at hw5
          exact (hw5.tail (List.suffix_cons ..)).range
    rcases underscore_cases (u := uni) (K := some (E.at_ w)) (msg := "Attribute names can not start with an underscore") hE hw with hu | ⟨w', r, hu⟩
    · obtain ⟨g, k1, k2, k3⟩ := key [] (a.take E (.past a.rest)) (fun _ h => by cases h) (h3.past hw (List.suffix_refl _)).ok (h3.past hw (List.suffix_refl _)).sync h3.tight
        (by show a.caps ≠ []; rw [h3.caps, hkids]; simp) hkids hrest
      exact ⟨g, hm (h1.then (.cons (.look hw hu) .nil rfl h3.sync)) (.done k1), k2, k3⟩
    · have hok : RunOk E w (a.take E (.note (errorT E "Attribute names can not start with an underscore".toList r))) := by
        have := h3.ok.grow (w1 := a.rest) (f := a.far) (ks := [errorT E "Attribute names can not start with an underscore".toList r]) (cs := []) h3.ok.sfx
          (Nat.le_refl _) h3.ok.le h3.ok.far (fun k hk hn => by
            rw [List.mem_singleton.mp hk] at hn
            exact (hn rfl).elim) (fun _ h => by cases h) (fun h => (h rfl).elim)
        rw [List.append_nil] at this
        exact this
      obtain ⟨g, k1, k2, k3⟩ := key [errorT E "Attribute names can not start with an underscore".toList r] _ (fun t h => by
        rw [List.mem_singleton.mp h]
        exact (by decide : IS_ERROR ≠ 0)) hok h3.sync h3.tight
        (by show a.caps ≠ []; rw [h3.caps, hkids]; simp) (by
          show a.kids ++ [_] = _
          rw [hkids]
          rfl) hrest
      exact ⟨g, hm (h1.then (.cons (.look_note hw hu rfl) .nil rfl h3.sync)) (.done k1), k2, k3⟩
  | fails K' a => exact ⟨_, hm (h1.stop fun _ _ h => by cases h) .fails, trivial, .fail trivial⟩
  | breaks => exact h2.elim
  | fatal K' => exact ⟨_, hm (h1.stop fun _ _ h => by cases h) .fatal, trivial, .fatal⟩

/-- The place behind an attribute: further attributes may follow. -/
def Behind (E : Setting) (w w' : Str) (t : Tr) : Prop := ∃ w1 w2 as, t.matched.stop = E.at_ w1 ∧ w1 <:+ w ∧ Gap w1 w2 ∧ Lax.AttrList w2 as w'

/-- Attributes. -/
def AttrsR (E : Setting) : Rel := fun w w' l => ∃ as, Lax.AttrList w as w' ∧
  ((as = [] ∧ l = []) ∨ ∃ ts c, l = [blockT E "Attributes".toList c w w' ts] ∧ as ≠ [] ∧ RawAttrs E ts as ∧ ∀ t ∈ ts, Behind E w w' t)

theorem attributes_yields (hE : E.errs = true) (hw : E.Has w) : Yields E none false (Script.attributes uni) w (AttrsR E w) False := by
  have hl : Lap E none (blen w + 1) "Attributes".toList (true || (false || false)) [Script.attribute_ uni, Script.wsn0] _ _ _ :=
    .cons (s := true) (N := AttrR E) (L := fun _ => Never) (X := fun _ => True) (fun w hw _ => (attribute_yields hE hw).turn) <|
    .cons (s := false) (N := GapR) (L := fun _ => Never) (X := fun _ => False) (fun w hw _ => yields_wsn0.turn) .nil
  obtain ⟨g, h1, h2, h3⟩ := hl.loopN (lo := .included 1) hw (Nat.lt_succ_self _)
  have h4 := h3.mono (M' := fun w' l => ∃ as, Lax.AttrList w as w' ∧ RawAttrs E l as ∧ ∀ t ∈ l, Behind E w w' t) fun w' l h => by
    refine Laps.fold (P := fun w w' l => ∃ as, Lax.AttrList w as w' ∧ RawAttrs E l as ∧ ∀ t ∈ l, Behind E w w' t) ?_ ?_ ?_ h
    · rintro w w' l (⟨-, rfl, rfl⟩ | ⟨w1, l1, l2, -, -, ⟨h, -⟩ | ⟨w2, l3, l4, -, -, h⟩⟩)
      · exact ⟨[], .nil, .nil, fun _ h => by cases h⟩
      · exact h.elim
      · exact h.elim
    · rintro w w' l (h | ⟨w1, l1, l2, -, -, h | ⟨w2, l3, l4, -, -, h⟩⟩)
      · exact h.elim
      · exact h.elim
      · exact h.elim
    · rintro w w1 w' l1 l2 ⟨w2, l3, l4, rfl, ⟨n, w3, w4, w5, raw, val, t, h1, h2, h3, h4, h5, rfl, h6, hp⟩, w6, l5, l6, rfl, ⟨rfl, h7⟩, rfl, rfl⟩ ⟨as, h8, h9, h10⟩
      refine ⟨⟨n, raw, val⟩ :: as, .cons h1 h2 h3 h4 h5 h7 h8, .cons h6 h9, fun t' ht' => ?_⟩
      have hsf : w2 <:+ w := h5.suffix.trans (h4.suffix.trans ((List.suffix_cons ..).trans (h3.suffix.trans h1.suffix)))
      rcases List.mem_cons.mp ht' with rfl | ht'
      · exact ⟨w2, _, as, hp, hsf, h7, h8⟩
      · obtain ⟨v1, v2, as', b1, b2, b3⟩ := h10 t' ht'
        exact ⟨v1, v2, as', b1, b2.trans (h7.suffix.trans hsf), b3⟩
  refine ((h4.yields h1 h2).mono' (M := AttrsR E w) (Y := True) ?_ fun _ => trivial).optional ?_
  · rintro w' l ⟨c, ks, rfl, hne, as, h5, h6, h7⟩
    refine ⟨as, h5, Or.inr ⟨ks, c, rfl, ?_, h6, h7⟩⟩
    rintro rfl
    cases h6
    exact hne rfl
  · intro _
    exact ⟨[], .nil, Or.inl ⟨rfl, rfl⟩⟩

end

end Adx.Read
