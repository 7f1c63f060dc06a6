import Verif.Proofs.Lax
/-
  Reading any text: the parts of pattern definitions that do not contain definitions
  themselves.
-/
namespace Adx.Read

open Syntax (Munch Gap Blanks Identifier Number Quoted Comment Comma Attr)
open B

/-! ### Trees without errors -/

mutual
/-- The tree without the error tokens below its root. -/
def Tr.purge : Tr → Tr
  | .node i ks => .node i (purges ks)
/-- The trees that are no errors, without the error tokens in them. -/
def purges : List Tr → List Tr
  | [] => []
  | t :: ts => if t.info.flags = 0 then t.purge :: purges ts else purges ts
end

section
variable {t : Tr} {l l' : List Tr}

theorem purge_info : t.purge.info = t.info := by
  cases t
  rfl

theorem purge_kids : t.purge.kids = purges t.kids := by
  cases t
  rfl

theorem purge_node {i : Info} : (Tr.node i l).purge = .node i (purges l) := by rw [Tr.purge]

theorem purges_nil : purges [] = [] := by rw [purges]

theorem purges_cons (h : t.info.flags = 0) : purges (t :: l) = t.purge :: purges l := by rw [purges, if_pos h]

theorem purges_drop (h : t.info.flags ≠ 0) : purges (t :: l) = purges l := by rw [purges, if_neg h]

theorem purges_append : purges (l ++ l') = purges l ++ purges l' := by
  induction l with
  | nil => rw [purges_nil]; rfl
  | cons t l ih =>
    rw [List.cons_append]
    by_cases h : t.info.flags = 0
    · rw [purges_cons h, purges_cons h, ih]
      rfl
    · rw [purges_drop h, purges_drop h, ih]

theorem purges_all (h : ∀ t ∈ l, t.info.flags = 0 ∧ t.purge = t) : purges l = l := by
  induction l with
  | nil => exact purges_nil
  | cons t l ih =>
    rw [purges_cons (h t (by simp)).1, (h t (by simp)).2, ih fun t ht => h t (List.mem_cons_of_mem _ ht)]

theorem mem_purges (h : t ∈ purges l) : ∃ t' ∈ l, t'.info.flags = 0 ∧ t = t'.purge := by
  induction l with
  | nil =>
    rw [purges_nil] at h
    cases h
  | cons t' l ih =>
    by_cases hf : t'.info.flags = 0
    · rw [purges_cons hf] at h
      rcases List.mem_cons.mp h with rfl | h
      · exact ⟨t', by simp, hf, rfl⟩
      · obtain ⟨t2, h1, h2⟩ := ih h
        exact ⟨t2, List.mem_cons_of_mem _ h1, h2⟩
    · rw [purges_drop hf] at h
      obtain ⟨t2, h1, h2⟩ := ih h
      exact ⟨t2, List.mem_cons_of_mem _ h1, h2⟩

theorem purge_leaf {E : Setting} {n w w' : Str} : (leafT E n w w').purge = leafT E n w w' := by
  unfold leafT
  rw [purge_node, purges_nil]

theorem purge_delim {E : Setting} {n w w1 w2 w' val : Str} : (delimT E n w w1 w2 w' val).purge = delimT E n w w1 w2 w' val := by
  unfold delimT
  rw [purge_node, purges_nil]

theorem purge_flat {E : Setting} {n w w' : Str} (h : ∀ t ∈ l, t.info.flags = 0 ∧ t.purge = t) : (nodeT E n w w' l).purge = nodeT E n w w' l := by
  unfold nodeT
  rw [purge_node, purges_all h]

end

/-- A token that is no error, of one of these names, which says something without errors. -/
structure Sound (E : Setting) (names : List String) (Q : List Token → TokId → Prop) (t : Tr) : Prop where
  flags : t.info.flags = 0
  quiet : Quiet t.purge
  name : ∃ n ∈ names, t.name = n.toList
  means : Desc E t.purge Q

section
variable {E : Setting} {K : Option Nat} {w w' : Str} {n : String} {uni : Uni}

/-! ### Words -/

theorem munch_any (p : Char → Bool) (w : Str) : ∃ u rest, Munch p w u rest := by
  induction w with
  | nil => exact ⟨[], [], rfl, (fun c hc => by cases hc), fun c hc => by cases hc⟩
  | cons d w ih =>
    cases hd : p d with
    | false => exact ⟨[], d :: w, rfl, (fun c hc => by cases hc), fun c hc => by cases hc; exact hd⟩
    | true =>
      obtain ⟨u, rest, h1, h2, h3⟩ := ih
      refine ⟨d :: u, rest, by rw [h1]; rfl, ?_, h3⟩
      intro c hc
      rcases List.mem_cons.mp hc with rfl | hc
      · exact hd
      · exact h2 c hc

theorem gap_any (w : Str) : ∃ rest, Gap w rest := by
  obtain ⟨u, rest, h⟩ := munch_any Syntax.space w
  exact ⟨rest, u, h⟩

theorem _root_.Adx.Syntax.Blanks.unique {w a b : Str} (h : Blanks w a) (h' : Blanks w b) : a = b := by
  obtain ⟨u, h⟩ := h
  obtain ⟨u', h'⟩ := h'
  exact (h.unique h').2

theorem blanks_any (w : Str) : ∃ rest, Blanks w rest := by
  obtain ⟨u, rest, h⟩ := munch_any Syntax.blank w
  exact ⟨rest, u, h⟩

def GapR : Rel := fun w w' l => l = [] ∧ Gap w w'
def BlanksR : Rel := fun w w' l => l = [] ∧ Blanks w w'
def SkipR (s : String) : Rel := fun w w' l => l = [] ∧ w = s.toList ++ w'
def LeafR (E : Setting) (n s : String) : Rel := fun w w' l => l = [leafT E n.toList w w'] ∧ w = s.toList ++ w'
def IdR (E : Setting) (n : String) : Rel := fun w w' l => l = [leafT E n.toList w w'] ∧ ∃ u, Identifier w u w'
def DigitsR (E : Setting) (n : String) : Rel := fun w w' l => l = [leafT E n.toList w w'] ∧ ∃ ds, Munch Char.isDigit w ds w' ∧ ds ≠ []
def StringR (E : Setting) (n : String) : Rel := fun w w' l => ∃ w1 raw val, l = [delimT E n.toList w w1 ('\'' :: w') w' val] ∧
  w = '\'' :: w1 ∧ w1 = raw ++ '\'' :: w' ∧ Quoted w raw val w'

theorem yields_wsn0 : Yields E K false Script.wsn0 w (GapR w) False := by
  obtain ⟨rest, h⟩ := gap_any w
  exact ⟨_, reads_gap h, h.suffix, .past ⟨rfl, h⟩ (fun h => by cases h)⟩

theorem yields_ws0 : Yields E K false Script.ws0 w (BlanksR w) False := by
  obtain ⟨rest, h⟩ := blanks_any w
  exact ⟨_, reads_blanks h, h.suffix, .past ⟨rfl, h⟩ (fun h => by cases h)⟩

theorem yields_skip {s : String} (hw : E.Has w) (hs : s.toList ≠ [] := by simp) :
    Yields E K true (discard (equals s)) w (SkipR s w) (¬ s.toList <+: w) := by
  by_cases h : s.toList <+: w
  · obtain ⟨w', rfl⟩ := h
    refine ⟨_, .discard (.equals rfl hs), (leaf_good (name := "Equals".toList) hw hs).1, .past ⟨rfl, rfl⟩ fun _ => ?_⟩
    exact suffix_lt (List.suffix_append ..) (by simpa using hs)
  · exact ⟨_, .discard (.equals_fail h), trivial, .fail h⟩

theorem yields_equalsN {s : String} (hw : E.Has w) (hn : Free n := by decide) (hs : s.toList ≠ [] := by simp) :
    Yields E K true (equalsN n s) w (LeafR E n s w) (¬ s.toList <+: w) := by
  by_cases h : s.toList <+: w
  · obtain ⟨w', rfl⟩ := h
    exact ⟨_, .equalsN hn rfl hs, leaf_good hw hs, .tok ⟨rfl, rfl⟩⟩
  · exact ⟨_, .equalsN_fail h hn, trivial, .fail h⟩

theorem munch_good {p : Char → Bool} {u : Str} {name : Str} (hw : E.Has w) (h : Munch p w u w') (hu : u ≠ []) :
    (Got.tok w' (leafT E name w w')).Good E w := by
  have := h.split
  subst this
  exact leaf_good hw hu

theorem yields_plus {p q : Char → Bool} {pattern : String} (hw : E.Has w) (hq : ∀ c : Char, c.toNat < 128 → q c = p c) (hn : Free n) :
    Yields E K true (regexN n (mkRx pattern [Rx.plus q])) w
      (fun w' l => l = [leafT E n.toList w w'] ∧ ∃ u, Munch p w u w' ∧ u ≠ []) (∀ c, w.head? = some c → p c = false) := by
  obtain ⟨u, rest, h⟩ := munch_any p w
  by_cases hu : u = []
  · subst hu
    have hs := h.split
    rw [List.nil_append] at hs
    subst hs
    exact ⟨_, reads_plus_fail h.most hq hn, trivial, .fail h.most⟩
  · exact ⟨_, reads_plus h hu hq hn, munch_good hw h hu, .tok ⟨rfl, u, h, hu⟩⟩

theorem yields_digits (hw : E.Has w) (hn : Free n := by decide) :
    Yields E K true (regexN n (Script.rxDigits uni)) w (DigitsR E n w) (∀ c, w.head? = some c → Char.isDigit c = false) :=
  yields_plus hw (fun c hc => uni.digit_ascii c hc) hn

theorem yields_identifier (hw : E.Has w) (hn : Free n := by decide) :
    Yields E K true (Script.identifier n) w (IdR E n w) (∀ c, w.head? = some c → Syntax.idStart c = false) := by
  by_cases h : ∀ c, w.head? = some c → Syntax.idStart c = false
  · exact ⟨_, reads_identifier_fail h hn, trivial, .fail h⟩
  · obtain ⟨c, hc, hs⟩ : ∃ c, w.head? = some c ∧ Syntax.idStart c = true := by
      by_contra hno
      refine h fun c hc => ?_
      cases hs : Syntax.idStart c with
      | false => rfl
      | true => exact (hno ⟨c, hc, hs⟩).elim
    obtain ⟨u, rest, hm⟩ := munch_any Syntax.idChar w
    have hi : Identifier w u rest := by
      refine ⟨hm, ?_⟩
      cases u with
      | nil =>
        have h1 := hm.split
        rw [List.nil_append] at h1
        subst h1
        have := hm.most c hc
        unfold Syntax.idChar at this
        rw [hs] at this
        cases this
      | cons d u =>
        have h1 := hm.split
        rw [h1] at hc
        cases hc
        exact ⟨_, u, rfl, hs⟩
    exact ⟨_, reads_identifier hi hn, munch_good hw hm hi.ne, .tok ⟨rfl, u, hi⟩⟩

theorem yields_string (hw : E.Has w) (hn : Free n := by decide) :
    Yields E K true (Script.string n) w (StringR E n w) (∀ raw val rest, ¬ Quoted w raw val rest) := by
  by_cases h : ∃ raw val rest, Quoted w raw val rest
  · obtain ⟨raw, val, rest, h⟩ := h
    obtain ⟨w1, rfl, h2, h3⟩ := reads_string (E := E) (K := K) h hn
    refine ⟨_, h3, ?_, .tok ⟨w1, raw, val, rfl, rfl, h2, h⟩⟩
    obtain ⟨hb⟩ := h
    exact body_good (a := ['\'']) (z := ['\'']) hw (by simp) hb
  · have h' : ∀ raw val rest, ¬ Quoted w raw val rest := fun raw val rest hq => h ⟨raw, val, rest, hq⟩
    refine ⟨_, .sequenceN_fail (a := ['\'']) (z := ['\'']) (e := ['\\']) (fun w1 raw val rest h1 h2 => ?_) hn, trivial, .fail h'⟩
    subst h1
    exact h' _ _ _ ⟨h2⟩

theorem yields_comment (hw : E.Has w) :
    Yields E K true Script.comment w (fun w' l => l = [leafT E "Comment".toList w w'] ∧ Comment w w') (w.head? ≠ some '#') := by
  by_cases h : w.head? = some '#'
  · obtain ⟨w1, rfl⟩ : ∃ w1, w = '#' :: w1 := by
      cases w with
      | nil => cases h
      | cons c w => cases h; exact ⟨w, rfl⟩
    obtain ⟨u, rest, hm⟩ := munch_any Syntax.lineChar w1
    refine ⟨_, reads_comment ⟨hm⟩, ?_, .tok ⟨rfl, ⟨hm⟩⟩⟩
    have := hm.split
    subst this
    exact leaf_good (u := '#' :: u) hw (by simp)
  · exact ⟨_, reads_comment_fail h, trivial, .fail h⟩

/-! ### Repeats -/

/-- A repeat specifier, or none. -/
def RepeatR (E : Setting) : Rel := fun w w' l => (l = [] ∧ w' = w ∧ Lax.Repeat w none w) ∨
  ∃ t, l = [t] ∧ Sound E repeatSpecifierNames (fun toks i => ∀ lo hi, Repeats toks i lo hi → Lax.Repeat w (some (lo, hi)) w') t

theorem first_only {toks : List Token} {names : List String} {ts : List TokId} {i j : TokId} (h : First toks names ts i) (h' : First toks names ts j) :
    i = j := by
  obtain ⟨a, b, rfl, ⟨n, hn, he⟩, hab⟩ := h
  obtain ⟨a', b', he', ⟨n', hn', hj⟩, hab'⟩ := h'
  rcases List.append_eq_append_iff.mp he' with ⟨c, h1, h2⟩ | ⟨c, h1, h2⟩
  · cases c with
    | nil => exact (List.cons.inj h2).1
    | cons d c =>
      have := (List.cons.inj h2).1
      subst this
      rw [h1] at hab'
      exact (hab' i (by simp) n hn he).elim
  · cases c with
    | nil => exact (List.cons.inj h2).1.symm
    | cons d c =>
      have := (List.cons.inj h2).1
      subst this
      rw [h1] at hab
      exact (hab j (by simp) n' hn' hj).elim

theorem number_of {ds : Str} {m : Nat} (hm : Munch Char.isDigit w ds w') (hp : parseUsize ds = some m) : Number w m w' := by
  obtain ⟨h1, h2⟩ := parseUsize_iff.mp hp
  refine ⟨ds, hm, ?_, ?_⟩
  · rcases h2 with h2 | ⟨ds', rfl, -⟩
    · exact h2
    · have := hm.all '+' (by simp)
      exact absurd this (by decide)
  · unfold usizeMax at h1
    omega

theorem digits_value {toks : List Token} {lo : Nat} {i : TokId} {k : Token} {ds : Str} {m : Nat} {name : Str} (hw : E.Has w)
    (hm : Munch Char.isDigit w ds w') (h : Reps E toks lo [i] [leafT E name w w']) (hk : toks[i]? = some k)
    (hp : parseUsize k.getCapturedValue = some m) : Number w m w' := by
  obtain ⟨k', h1, -, -, h2⟩ := h.leaf
  rw [hk] at h1
  cases h1
  have := hm.split
  subst this
  rw [h2, hw.range] at hp
  exact number_of hm hp

theorem repeatRange_yields (hw : E.Has w) : Yields E K true (Script.repeatRange uni) w
    (fun w' l => ∃ t, l = [t] ∧ Sound E repeatSpecifierNames (fun toks i => ∀ lo hi, Repeats toks i lo hi → Lax.Repeat w (some (lo, hi)) w') t) True := by
  have hl : Row E K (blen w + 1) _ _ :=
    .free (N := SkipR "{") (fun _ hw => yields_skip hw) <| .free (N := BlanksR) (fun _ _ => yields_ws0) <|
    .free (N := DigitsR E "Minimum") (fun _ hw => yields_digits (uni := uni) hw) <| .free (N := BlanksR) (fun _ _ => yields_ws0) <|
    .free (N := fun w w' l => LeafR E "Seperator" "," w w' l ∨ Stop w w' l)
      (fun _ hw => (yields_equalsN (n := "Seperator") (s := ",") hw).mono (fun _ _ h => Or.inl h) |>.optional (fun _ => Or.inr ⟨rfl, rfl⟩)) <|
    .free (N := BlanksR) (fun _ _ => yields_ws0) <|
    .free (N := fun w w' l => DigitsR E "Maximum" w w' l ∨ Stop w w' l)
      (fun _ hw => (yields_digits (uni := uni) (n := "Maximum") hw).mono (fun _ _ h => Or.inl h) |>.optional (fun _ => Or.inr ⟨rfl, rfl⟩)) <|
    .free (N := BlanksR) (fun _ _ => yields_ws0) <| .free (N := SkipR "}") (fun _ hw => yields_skip hw) .nil
  refine ((Yields.programN (n := "RepeatRange") hl hw (by omega))).mono ?_
  rintro w' l ⟨ks, rfl, -, w1, -, l1, rfl, ⟨rfl, rfl⟩, w2, -, l2, rfl, ⟨rfl, hb1⟩, w3, -, l3, rfl, ⟨rfl, ds, hd1, hd2⟩, w4, -, l4, rfl, ⟨rfl, hb2⟩,
    w5, ls, l5, rfl, hsep, w6, -, l6, rfl, ⟨rfl, hb3⟩, w7, lm, l7, rfl, hmax, w8, -, l8, rfl, ⟨rfl, hb4⟩, w9, -, -, rfl, ⟨rfl, rfl⟩, rfl, rfl⟩
  simp only [List.nil_append, List.append_nil]
  have hw2 : E.Has w2 := hw.tail (hb1.suffix.trans (List.suffix_append ..))
  have hls : ∀ t ∈ ls, t.info.flags = 0 ∧ t.purge = t ∧ Quiet t := by
    rcases hsep with ⟨rfl, -⟩ | ⟨-, rfl⟩
    · intro t ht
      rw [List.mem_singleton.mp ht]
      exact ⟨rfl, purge_leaf, quiet_leaf⟩
    · intro t ht
      cases ht
  have hlm : ∀ t ∈ lm, t.info.flags = 0 ∧ t.purge = t ∧ Quiet t := by
    rcases hmax with ⟨rfl, -⟩ | ⟨-, rfl⟩
    · intro t ht
      rw [List.mem_singleton.mp ht]
      exact ⟨rfl, purge_leaf, quiet_leaf⟩
    · intro t ht
      cases ht
  have hall : ∀ t ∈ [leafT E "Minimum".toList w2 w3] ++ (ls ++ lm), t.info.flags = 0 ∧ t.purge = t ∧ Quiet t := by
    intro t ht
    rcases List.mem_append.mp ht with ht | ht
    · rw [List.mem_singleton.mp ht]
      exact ⟨rfl, purge_leaf, quiet_leaf⟩
    · rcases List.mem_append.mp ht with ht | ht
      · exact hls t ht
      · exact hlm t ht
  have hp := purge_flat (E := E) (n := "RepeatRange".toList) (w := "{".toList ++ w1) (w' := w') (l := [leafT E "Minimum".toList w2 w3] ++ (ls ++ lm))
    fun t ht => ⟨(hall t ht).1, (hall t ht).2.1⟩
  refine ⟨_, rfl, rfl, ?_, ⟨"RepeatRange", by decide, rfl⟩, ?_⟩
  · rw [hp]
    exact quiet_node fun t ht => (hall t ht).2.2
  · rw [hp]
    intro toks lo i hr a b hrep
    obtain ⟨k, hk, -, hn, hc, -⟩ := hr.node
    obtain ⟨m, h4, h5⟩ := Reps.first (pre := []) hc (names := ["Minimum"]) (fun _ h => by cases h) ⟨_, List.mem_cons_self .., rfl⟩
    -- the number in front
    have hmin : ∀ {a' : TokId} {ak : Token} {n : Nat}, First toks ["Minimum"] k.children a' → toks[a']? = some ak →
        parseUsize ak.getCapturedValue = some n → Number w2 n w3 := by
      intro a' ak n h1 h2 h3
      obtain rfl := first_only h1 h4
      exact digits_value hw2 hd1 h5 h2 h3
    have same : ∀ {k'}, toks[i]? = some k' → k' = k := fun h => by rw [hk] at h; exact (Option.some.inj h).symm
    cases hrep with
    | any hk' hn' =>
      obtain rfl := same hk'
      rw [hn] at hn'
      exact absurd hn' (toList_ne (by decide))
    | some hk' hn' =>
      obtain rfl := same hk'
      rw [hn] at hn'
      exact absurd hn' (toList_ne (by decide))
    | upTo hk' hn' ha hak hs h1 =>
      obtain rfl := same hk'
      have hnum := hmin ha hak h1
      rcases hsep with ⟨rfl, -⟩ | ⟨rfl, rfl⟩
      · obtain ⟨x, hx, -⟩ := Reps.first (pre := [leafT E "Minimum".toList w2 w3]) hc (names := ["Seperator"])
          (fun t ht n hn => by
            rw [List.mem_singleton.mp ht, List.mem_singleton.mp hn]
            exact toList_ne (by decide)) ⟨_, List.mem_cons_self .., rfl⟩
        exact absurd hs (First.present hx)
      · have h56 := hb3.unique hb2.again
        subst h56
        rcases hmax with ⟨-, ds', hd3, hd4⟩ | ⟨rfl, -⟩
        · exact .noComma hb1 hnum hb2 hd3 hd4 hb4
        · have h8 := hb4.unique hb2.again
          exact .strict (.upTo hb1 hnum (by rw [← h8] at hb2; exact hb2))
    | atLeast hk' hn' ha hak hs hm h1 =>
      obtain rfl := same hk'
      have hnum := hmin ha hak h1
      rcases hsep with ⟨rfl, rfl⟩ | ⟨rfl, rfl⟩
      · rcases hmax with ⟨rfl, -⟩ | ⟨rfl, -⟩
        · obtain ⟨x, hx, -⟩ := Reps.first (pre := [leafT E "Minimum".toList w2 w3, leafT E "Seperator".toList (",".toList ++ w5) w5]) hc (names := ["Maximum"])
            (fun t ht n hn => by
              simp only [List.mem_cons, List.not_mem_nil, or_false] at ht
              rw [List.mem_singleton.mp hn]
              rcases ht with rfl | rfl <;> exact toList_ne (by decide)) ⟨_, List.mem_cons_self .., rfl⟩
          exact absurd hm (First.present hx)
        · have h8 := hb4.unique hb3.again
          exact .strict (.atLeast hb1 hnum hb2 (by rw [← h8] at hb3; exact hb3))
      · refine (hs (hc.absent ?_)).elim
        rcases hmax with ⟨rfl, -⟩ | ⟨-, rfl⟩
        · intro t ht n hn
          simp only [List.mem_append, List.mem_cons, List.not_mem_nil, or_false, false_or] at ht
          rw [List.mem_singleton.mp hn]
          rcases ht with rfl | rfl <;> exact toList_ne (by decide)
        · intro t ht n hn
          simp only [List.mem_append, List.mem_cons, List.not_mem_nil, or_false] at ht
          rw [List.mem_singleton.mp hn, ht]
          exact toList_ne (by decide)
    | between hk' hn' ha hak hs hb' hbk h1 h2 hle =>
      obtain rfl := same hk'
      have hnum := hmin ha hak h1
      rcases hsep with ⟨rfl, rfl⟩ | ⟨rfl, rfl⟩
      · rcases hmax with ⟨rfl, ds', hd3, hd4⟩ | ⟨-, rfl⟩
        · obtain ⟨x, hx, hx'⟩ := Reps.first (pre := [leafT E "Minimum".toList w2 w3, leafT E "Seperator".toList (",".toList ++ w5) w5]) hc (names := ["Maximum"])
            (fun t ht n hn => by
              simp only [List.mem_cons, List.not_mem_nil, or_false] at ht
              rw [List.mem_singleton.mp hn]
              rcases ht with rfl | rfl <;> exact toList_ne (by decide)) ⟨_, List.mem_cons_self .., rfl⟩
          obtain rfl := first_only hb' hx
          have hw6 : E.Has w6 := hw2.tail (hb3.suffix.trans ((List.suffix_append ..).trans (hb2.suffix.trans hd1.suffix)))
          exact .strict (.between hb1 hnum hb2 hb3 (digits_value hw6 hd3 hx' hbk h2) hb4 hle)
        · refine (First.present hb' (hc.absent ?_)).elim
          intro t ht n hn
          simp only [List.mem_append, List.mem_cons, List.not_mem_nil, or_false] at ht
          rw [List.mem_singleton.mp hn]
          rcases ht with rfl | rfl <;> exact toList_ne (by decide)
      · refine (hs (hc.absent ?_)).elim
        rcases hmax with ⟨rfl, -⟩ | ⟨-, rfl⟩
        · intro t ht n hn
          simp only [List.mem_append, List.mem_cons, List.not_mem_nil, or_false, false_or] at ht
          rw [List.mem_singleton.mp hn]
          rcases ht with rfl | rfl <;> exact toList_ne (by decide)
        · intro t ht n hn
          simp only [List.mem_append, List.mem_cons, List.not_mem_nil, or_false] at ht
          rw [List.mem_singleton.mp hn, ht]
          exact toList_ne (by decide)

/-- The other specifiers. -/
theorem repeat_yields (hw : E.Has w) : Yields E K false (optional (Script.repeatSpecifier uni)) w (RepeatR E w) False := by
  have h : Yields E K true (Script.repeatSpecifier uni) w (fun w' l => ∃ t, l = [t] ∧
      Sound E repeatSpecifierNames (fun toks i => ∀ lo hi, Repeats toks i lo hi → Lax.Repeat w (some (lo, hi)) w') t)
      (¬ "*".toList <+: w ∧ ¬ "+".toList <+: w ∧ True ∧ True) := by
    refine YieldsP.switchN (name := []) (.cons (Yields.turn ?_) <| .cons (Yields.turn ?_) <| .cons (Yields.turn (repeatRange_yields hw)) .nil)
    · refine (yields_equalsN (n := "RepeatZeroOrMore") (s := "*") hw).mono ?_
      rintro w' l ⟨rfl, rfl⟩
      refine ⟨_, rfl, rfl, ?_, ⟨"RepeatZeroOrMore", by decide, rfl⟩, ?_⟩
      · rw [purge_leaf]
        exact quiet_leaf
      · rw [purge_leaf]
        intro toks lo i hr a b hrep
        obtain ⟨k, hk, hn, -⟩ := hr.leaf
        have bad : ∀ {n : String} {k'}, toks[i]? = some k' → k'.name = n.toList → n ≠ "RepeatZeroOrMore" → False := by
          intro n k' h1 h2 h3
          rw [hk] at h1
          cases h1
          rw [hn] at h2
          exact h3 (String.toList_inj.mp h2).symm
        cases hrep with
        | any => exact .strict .any
        | some h1 h2 => exact (bad h1 h2 (by decide)).elim
        | upTo h1 h2 => exact (bad h1 h2 (by decide)).elim
        | atLeast h1 h2 => exact (bad h1 h2 (by decide)).elim
        | between h1 h2 => exact (bad h1 h2 (by decide)).elim
    · refine (yields_equalsN (n := "RepeatOneOrMore") (s := "+") hw).mono ?_
      rintro w' l ⟨rfl, rfl⟩
      refine ⟨_, rfl, rfl, ?_, ⟨"RepeatOneOrMore", by decide, rfl⟩, ?_⟩
      · rw [purge_leaf]
        exact quiet_leaf
      · rw [purge_leaf]
        intro toks lo i hr a b hrep
        obtain ⟨k, hk, hn, -⟩ := hr.leaf
        have bad : ∀ {n : String} {k'}, toks[i]? = some k' → k'.name = n.toList → n ≠ "RepeatOneOrMore" → False := by
          intro n k' h1 h2 h3
          rw [hk] at h1
          cases h1
          rw [hn] at h2
          exact h3 (String.toList_inj.mp h2).symm
        cases hrep with
        | any h1 h2 => exact (bad h1 h2 (by decide)).elim
        | some => exact .strict .some
        | upTo h1 h2 => exact (bad h1 h2 (by decide)).elim
        | atLeast h1 h2 => exact (bad h1 h2 (by decide)).elim
        | between h1 h2 => exact (bad h1 h2 (by decide)).elim
  refine (h.mono (fun w' l h => Or.inr h)).optional ?_ |>.mono' (fun _ _ h => h) id
  rintro ⟨h1, h2, -⟩
  refine Or.inl ⟨rfl, rfl, ?_⟩
  cases w with
  | nil => exact .strict (.once (fun c h => by cases h))
  | cons d w =>
    by_cases hd : d = '{'
    · subst hd
      exact .brace
    · refine .strict (.once ?_)
      rintro c hc
      cases hc
      refine ⟨?_, ?_, hd⟩
      · rintro rfl
        exact h1 ⟨w, rfl⟩
      · rintro rfl
        exact h2 ⟨w, rfl⟩

/-! ### Modifiers -/

/-- Both modifiers. -/
def BothR : Rel := fun w w' l => (w' = w ∧ l = []) ∨ ∃ t, l = [t] ∧ t.info.flags ≠ 0 ∧ t.name = errorName ∧ (w = '?' :: '!' :: w' ∨ w = '!' :: '?' :: w')

theorem both_yields (hE : E.errs = true) (hw : E.Has w) :
    Yields E K false (assertIf (regex Script.rxBothModifiers) Script.bothModifiersMsg) w (BothR w) False := by
  have hit : ∀ {a : Str} {w' : Str}, a ≠ [] → w = a ++ w' → Script.rxBothModifiers.find (a ++ w') = some (0, blen a) →
      (w = '?' :: '!' :: w' ∨ w = '!' :: '?' :: w') →
      Yields E K false (assertIf (regex Script.rxBothModifiers) Script.bothModifiersMsg) w (BothR w) False := by
    rintro a w' ha rfl hf hb
    obtain ⟨g1, g2, g3⟩ := leaf_good (name := "Matches".toList) hw ha
    obtain ⟨f1, f2, f3, f4, f5⟩ := g3.facts
    rw [g2] at f2 f3
    refine ⟨_, .assertIf_hit hE (.regex ha hf) g1 g2, ⟨g1, rfl, .node (Nat.le_refl _) f2 f3 (Nat.le_of_lt f2) (fun _ h => by cases h)⟩, .tok ?_⟩
    exact Or.inr ⟨_, rfl, (show IS_ERROR ≠ 0 by decide), rfl, hb⟩
  by_cases h1 : ['?', '!'] <+: w
  · obtain ⟨w', rfl⟩ := h1
    refine hit (a := ['?', '!']) (by simp) rfl (find_here ?_) (Or.inl rfl)
    have := rxSeq_lits (s := ['?', '!']) (is := []) (w := w') (n := 0) rfl
    rw [List.append_nil] at this
    unfold rxAlt
    rw [show Rx.lits "?!" = ['?', '!'].map Rx.lit from rfl, this]
    rfl
  · by_cases h2 : ['!', '?'] <+: w
    · obtain ⟨w', rfl⟩ := h2
      refine hit (a := ['!', '?']) (by simp) rfl (find_here ?_) (Or.inr rfl)
      have e1 := rxSeq_lits_none (s := ['?', '!']) (is := []) h1
      have e2 := rxSeq_lits (s := ['!', '?']) (is := []) (w := w') (n := 0) rfl
      rw [List.append_nil] at e1 e2
      unfold rxAlt
      rw [show Rx.lits "?!" = ['?', '!'].map Rx.lit from rfl, e1]
      dsimp only
      unfold rxAlt
      rw [show Rx.lits "!?" = ['!', '?'].map Rx.lit from rfl, e2]
      rfl
    · exact ⟨_, reads_modifiers h1 h2, List.suffix_refl _, .past (Or.inl ⟨rfl, rfl⟩) (fun h => by cases h)⟩

/-- Trees without errors that nobody looks for. -/
structure Bare (t : Tr) : Prop where
  flags : t.info.flags = 0
  same : t.purge = t
  quiet : Quiet t

theorem bare_leaf {n : String} (h : Cold n := by decide) : Bare (leafT E n.toList w w') := ⟨rfl, purge_leaf, quiet_leaf h⟩

theorem bare_delim {n : String} {w1 w2 val : Str} (h : Cold n := by decide) : Bare (delimT E n.toList w w1 w2 w' val) := ⟨rfl, purge_delim, quiet_delim h⟩

theorem purges_bare {l : List Tr} (h : ∀ t ∈ l, Bare t) : purges l = l := purges_all fun t ht => ⟨(h t ht).flags, (h t ht).same⟩

theorem bare_node {n : String} {l : List Tr} (hl : ∀ t ∈ l, Bare t) (h : Cold n := by decide) : Bare (nodeT E n.toList w w' l) := by
  refine ⟨rfl, purge_flat fun t ht => ⟨(hl t ht).flags, (hl t ht).same⟩, quiet_node (fun t ht => (hl t ht).quiet) h⟩

/-- A modifier. -/
def ModR (n1 n2 : String) : Rel := fun w w' l => ∃ m : Syntax.Mod, w = m.text ++ w' ∧ ModTs n1 n2 m l ∧ ∀ t ∈ l, Bare t

theorem mod_yields {n1 n2 : String} (hw : E.Has w) (f1 : Free n1 := by decide) (f2 : Free n2 := by decide) (c1 : Cold n1 := by decide)
    (c2 : Cold n2 := by decide) : Yields E K false (optional (switch [equalsN n1 "?", equalsN n2 "!"])) w (ModR n1 n2 w) False := by
  have h : Yields E K true (switch [equalsN n1 "?", equalsN n2 "!"]) w (ModR n1 n2 w) (True ∧ True ∧ True) := by
    refine YieldsP.switch (name := []) (.cons (Yields.turn ?_) <| .cons (Yields.turn ?_) .nil)
    · refine (yields_equalsN (n := n1) (s := "?") hw f1).mono' ?_ (fun _ => trivial)
      rintro w' l ⟨rfl, rfl⟩
      exact ⟨.opt, rfl, .opt rfl (quiet_leaf c1), fun t ht => by rw [List.mem_singleton.mp ht]; exact bare_leaf c1⟩
    · refine (yields_equalsN (n := n2) (s := "!") hw f2).mono' ?_ (fun _ => trivial)
      rintro w' l ⟨rfl, rfl⟩
      exact ⟨.not, rfl, .not rfl (quiet_leaf c2), fun t ht => by rw [List.mem_singleton.mp ht]; exact bare_leaf c2⟩
  exact h.optional (fun _ => ⟨.none, rfl, .none, fun _ h => by cases h⟩) |>.mono' (fun _ _ h => h) id

/-- Both together. -/
theorem mods_of {n1 n2 : String} {l : List Tr} (h : Seq BothR (ModR n1 n2) w w' l) :
    ∃ m, Lax.Mods w m w' ∧ ModTs n1 n2 m (purges l) ∧ (∀ t ∈ l, t.name = errorName ∨ ∃ n ∈ [n1, n2], t.name = n.toList) := by
  obtain ⟨w1, l1, l2, rfl, h1, m, rfl, h2, h3⟩ := h
  have h4 := h2.names
  have h5 : ∀ t ∈ l2, t.name = errorName ∨ ∃ n ∈ [n1, n2], t.name = n.toList := fun t ht => Or.inr (h4 t ht)
  rcases h1 with ⟨he, rfl⟩ | ⟨t, rfl, hf, hn, rfl | rfl⟩
  · subst he
    refine ⟨m, .mk, ?_, by simpa using h5⟩
    rw [List.nil_append, purges_bare h3]
    exact h2
  · refine ⟨m, .optNot, ?_, ?_⟩
    · rw [List.singleton_append, purges_drop hf, purges_bare h3]
      exact h2
    · intro t' ht'
      rcases List.mem_cons.mp ht' with rfl | ht'
      · exact Or.inl hn
      · exact h5 t' ht'
  · refine ⟨m, .notOpt, ?_, ?_⟩
    · rw [List.singleton_append, purges_drop hf, purges_bare h3]
      exact h2
    · intro t' ht'
      rcases List.mem_cons.mp ht' with rfl | ht'
      · exact Or.inl hn
      · exact h5 t' ht'

/-! ### Simple matchers -/

/-- A matcher token. -/
def MatcherR (E : Setting) (env : Env) (B : Str → Gram → Str → Prop) : Rel := fun w w' l =>
  ∃ t, l = [t] ∧ Sound E patternMatcherNames (fun toks i => ∀ g, DescribesMatcher env toks i g → B w g w') t

theorem Reps.value {toks : List Token} {lo : Nat} {ts : List TokId} {trees : List Tr} {j : Nat} {i : TokId} {k : Token} {n : Str} {w1 w2 val : Str}
    (h : Reps E toks lo ts trees) (ht : trees[j]? = some (delimT E n w w1 w2 w' val)) (hi : ts[j]? = some i) (hk : toks[i]? = some k) :
    k.getValue = val := by
  obtain ⟨i', h1, h2⟩ := h.get ht
  rw [hi] at h1
  cases h1
  obtain ⟨k', h3, -, h4, -⟩ := h2.delim
  rw [hk] at h3
  cases h3
  exact h4

theorem equals_yields {env : Env} (hw : E.Has w) : Yields E K true Script.equalsMatcher w (MatcherR E env (Lax.Matcher env) w) True := by
  have hl : Row E K (blen w + 1) _ _ := .free (N := SkipR "=") (fun _ hw => yields_skip hw) <| .free (N := StringR E "String") (fun _ hw => yields_string hw) .nil
  refine (Yields.programN (n := "EqualsMatcher") hl hw (by omega)).mono ?_
  rintro w' l ⟨ks, rfl, -, w1, -, l1, rfl, ⟨rfl, rfl⟩, w2, -, -, rfl, ⟨w3, raw, val, rfl, rfl, h1, h2⟩, rfl, rfl⟩
  have hb : Bare (nodeT E "EqualsMatcher".toList ("=".toList ++ '\'' :: w3) w' [delimT E "String".toList ('\'' :: w3) w3 ('\'' :: w') w' val]) :=
    bare_node fun t ht => by rw [List.mem_singleton.mp ht]; exact bare_delim
  refine ⟨_, rfl, hb.flags, ?_, ⟨"EqualsMatcher", by decide, rfl⟩, ?_⟩
  · exact hb.same.symm ▸ hb.quiet
  · show Desc E (nodeT E "EqualsMatcher".toList ("=".toList ++ '\'' :: w3) w' [delimT E "String".toList ('\'' :: w3) w3 ('\'' :: w') w' val]).purge _
    rw [hb.same]
    intro toks lo i hr g hg
    obtain ⟨k, hk, -, hn, hc, -⟩ := hr.node
    have bad : ∀ {n : String} {k' : Token}, toks[i]? = some k' → k'.name = n.toList → n ≠ "EqualsMatcher" → False := by
      intro n k' h1 h2 h3
      rw [hk] at h1
      cases h1
      rw [hn] at h2
      exact h3 (String.toList_inj.mp h2).symm
    cases hg with
    | equals hk' hn' hc' hck hv =>
      rw [hk] at hk'
      cases hk'
      have e := hc.value (j := 0) rfl hc' hck
      rw [e] at hv ⊢
      exact .equals h2 hv
    | regex h1 h2 => exact (bad h1 h2 (by decide)).elim
    | sequence h1 h2 => exact (bad h1 h2 (by decide)).elim
    | custom h1 h2 => exact (bad h1 h2 (by decide)).elim
    | empty h1 h2 =>
      rcases h2 with h2 | h2
      · exact (bad h1 h2 (by decide)).elim
      · exact (bad h1 h2 (by decide)).elim
    | switch h1 h2 => exact (bad h1 h2 (by decide)).elim
    | program h1 h2 => exact (bad h1 h2 (by decide)).elim

theorem custom_yields {env : Env} (hw : E.Has w) : Yields E K true Script.customMatcher w (MatcherR E env (Lax.Matcher env) w) True := by
  have hl : Row E K (blen w + 1) _ _ := .free (N := IdR E "Identifier") (fun _ hw => yields_identifier hw) .nil
  refine (Yields.programN (n := "CustomMatcher") hl hw (by omega)).mono ?_
  rintro w' l ⟨ks, rfl, -, w1, -, -, rfl, ⟨rfl, id, hid⟩, rfl, rfl⟩
  have hb : Bare (nodeT E "CustomMatcher".toList w w' [leafT E "Identifier".toList w w']) :=
    bare_node fun t ht => by rw [List.mem_singleton.mp ht]; exact bare_leaf
  refine ⟨_, rfl, hb.flags, ?_, ⟨"CustomMatcher", by decide, rfl⟩, ?_⟩
  · exact hb.same.symm ▸ hb.quiet
  · show Desc E (nodeT E "CustomMatcher".toList w w' [leafT E "Identifier".toList w w']).purge _
    rw [hb.same]
    intro toks lo i hr g hg
    obtain ⟨k, hk, -, hn, hc, -⟩ := hr.node
    have bad : ∀ {n : String} {k' : Token}, toks[i]? = some k' → k'.name = n.toList → n ≠ "CustomMatcher" → False := by
      intro n k' h1 h2 h3
      rw [hk] at h1
      cases h1
      rw [hn] at h2
      exact h3 (String.toList_inj.mp h2).symm
    cases hg with
    | equals h1 h2 => exact (bad h1 h2 (by decide)).elim
    | regex h1 h2 => exact (bad h1 h2 (by decide)).elim
    | sequence h1 h2 => exact (bad h1 h2 (by decide)).elim
    | @custom _ _ c ck hk' hn' hc' hck hv =>
      rw [hk] at hk'
      cases hk'
      obtain ⟨j, h1, h2⟩ := hc.get (j := 0) rfl
      rw [hc'] at h1
      cases h1
      obtain ⟨k', h3, -, h4, -⟩ := h2.leaf
      rw [hck] at h3
      cases h3
      have e : ck.getValue = id := by
        rw [h4]
        have := hid.munch.split
        subst this
        exact hw.range
      rw [e]
      exact .custom hid
    | empty h1 h2 =>
      rcases h2 with h2 | h2
      · exact (bad h1 h2 (by decide)).elim
      · exact (bad h1 h2 (by decide)).elim
    | switch h1 h2 => exact (bad h1 h2 (by decide)).elim
    | program h1 h2 => exact (bad h1 h2 (by decide)).elim

theorem rxStar_some {p : Char → Bool} {k : Str → Option Nat} : ∀ {w : Str} {n : Nat}, rxStar p k w = some n →
    ∃ u v m, w = u ++ v ∧ (∀ c ∈ u, p c = true) ∧ k v = some m := by
  intro w
  induction w with
  | nil =>
    intro n h
    exact ⟨[], [], n, rfl, (fun _ h => by cases h), h⟩
  | cons c w ih =>
    intro n h
    unfold rxStar at h
    split at h
    · rename_i hc
      cases hs : rxStar p k w with
      | some m =>
        obtain ⟨u, v, m', rfl, h1, h2⟩ := ih hs
        refine ⟨c :: u, v, m', rfl, fun d hd => ?_, h2⟩
        rcases List.mem_cons.mp hd with rfl | hd
        · exact hc
        · exact h1 d hd
      | none =>
        rw [hs] at h
        exact ⟨[], c :: w, n, rfl, (fun _ h => by cases h), h⟩
    · exact ⟨[], c :: w, n, rfl, (fun _ h => by cases h), h⟩

theorem comma_yields (hw : E.Has w) : Yields E K false (discard (regex Script.rxComma)) w (fun w' l => l = [] ∧ Comma w w') True := by
  by_cases h : ∃ rest, Comma w rest
  · obtain ⟨rest, h⟩ := h
    exact ⟨_, reads_comma h, h.suffix, .past ⟨rfl, h⟩ (fun h => by cases h)⟩
  · refine ⟨_, .discard (.regex_fail (find_none ?_)), trivial, .fail trivial⟩
    cases hs : rxAlt [[.star Rx.isSpace, Rx.lit ',', .star Rx.isSpace]] w with
    | none => rfl
    | some n =>
      refine (h ?_).elim
      unfold rxAlt at hs
      cases hq : rxSeq [.star Rx.isSpace, Rx.lit ',', .star Rx.isSpace] w with
      | none =>
        rw [hq] at hs
        cases hs
      | some m =>
        unfold rxSeq at hq
        obtain ⟨u, v, m', rfl, h1, h2⟩ := rxStar_some hq
        unfold rxSeq Rx.lit at h2
        cases v with
        | nil => cases h2
        | cons c v =>
          dsimp only at h2
          split at h2
          · rename_i hc
            rw [beq_iff_eq] at hc
            subst hc
            obtain ⟨rest, hg⟩ := gap_any v
            refine ⟨rest, v, ⟨u, rfl, ?_, ?_⟩, hg⟩
            · intro c hc
              rw [← space_ascii (hw.ascii c (by simp [hc]))]
              exact h1 c hc
            · rintro c hc
              cases hc
              rfl
          · cases h2

theorem percent_yields : Yields E K true (discard (regex Script.rxPercent)) w (fun w' l => l = [] ∧ ∃ w1, w = '%' :: w1 ∧ Gap w1 w') True := by
  by_cases h : w.head? = some '%'
  · obtain ⟨w1, rfl⟩ : ∃ w1, w = '%' :: w1 := by
      cases w with
      | nil => cases h
      | cons c w => cases h; exact ⟨w, rfl⟩
    obtain ⟨rest, h⟩ := gap_any w1
    refine ⟨_, reads_percent h, adv h.suffix _, .past ⟨rfl, w1, rfl, h⟩ fun _ => ?_⟩
    have := suffix_blen h.suffix
    have := blen_lt (List.suffix_cons '%' w1) (by simp)
    omega
  · exact ⟨_, reads_percent_fail h, trivial, .fail trivial⟩

theorem sequence_yields {env : Env} (hw : E.Has w) : Yields E K true Script.sequenceMatcher w (MatcherR E env (Lax.Matcher env) w) True := by
  have hl : Row E K (blen w + 1) _ _ :=
    .free (N := fun w w' l => l = [] ∧ ∃ w1, w = '%' :: w1 ∧ Gap w1 w') (fun _ _ => percent_yields) <|
    .free (N := StringR E "StartPattern") (fun _ hw => yields_string hw) <| .free (N := fun w w' l => l = [] ∧ Comma w w') (fun _ hw => comma_yields hw) <|
    .free (N := StringR E "EndPattern") (fun _ hw => yields_string hw) <| .free (N := fun w w' l => l = [] ∧ Comma w w') (fun _ hw => comma_yields hw) <|
    .free (N := StringR E "EscapePattern") (fun _ hw => yields_string hw) .nil
  refine (Yields.programN (n := "SequenceMatcher") (xs := [discard (regex Script.rxPercent), Script.string "StartPattern", discard (regex Script.rxComma),
    Script.string "EndPattern", discard (regex Script.rxComma), Script.string "EscapePattern"]) hl hw (by omega)).mono ?_
  rintro w' l ⟨ks, rfl, -, w1, -, l1, rfl, ⟨rfl, v, rfl, hg⟩, w2, -, l2, rfl, ⟨x1, raw1, v1, rfl, rfl, -, q1⟩, w3, -, l3, rfl, ⟨rfl, c1⟩,
    w4, -, l4, rfl, ⟨x2, raw2, v2, rfl, rfl, -, q2⟩, w5, -, l5, rfl, ⟨rfl, c2⟩, w6, -, -, rfl, ⟨x3, raw3, v3, rfl, rfl, -, q3⟩, rfl, rfl⟩
  have hb : Bare (nodeT E "SequenceMatcher".toList ('%' :: v) w' [delimT E "StartPattern".toList ('\'' :: x1) x1 ('\'' :: w2) w2 v1,
      delimT E "EndPattern".toList ('\'' :: x2) x2 ('\'' :: w4) w4 v2, delimT E "EscapePattern".toList ('\'' :: x3) x3 ('\'' :: w') w' v3]) :=
    bare_node fun t ht => by
      simp only [List.mem_cons, List.not_mem_nil, or_false] at ht
      rcases ht with rfl | rfl | rfl <;> exact bare_delim
  refine ⟨_, rfl, hb.flags, ?_, ⟨"SequenceMatcher", by decide, rfl⟩, ?_⟩
  · exact hb.same.symm ▸ hb.quiet
  · show Desc E (nodeT E "SequenceMatcher".toList ('%' :: v) w' [delimT E "StartPattern".toList ('\'' :: x1) x1 ('\'' :: w2) w2 v1,
      delimT E "EndPattern".toList ('\'' :: x2) x2 ('\'' :: w4) w4 v2, delimT E "EscapePattern".toList ('\'' :: x3) x3 ('\'' :: w') w' v3]).purge _
    rw [hb.same]
    intro toks lo i hr g hg'
    obtain ⟨k, hk, -, hn, hc, -⟩ := hr.node
    have bad : ∀ {n : String} {k' : Token}, toks[i]? = some k' → k'.name = n.toList → n ≠ "SequenceMatcher" → False := by
      intro n k' h1 h2 h3
      rw [hk] at h1
      cases h1
      rw [hn] at h2
      exact h3 (String.toList_inj.mp h2).symm
    cases hg' with
    | equals h1 h2 => exact (bad h1 h2 (by decide)).elim
    | regex h1 h2 => exact (bad h1 h2 (by decide)).elim
    | sequence hk' hn' ha hak hb' hbk he hek hva hvb =>
      rw [hk] at hk'
      cases hk'
      have e1 := hc.value (j := 0) rfl ha hak
      have e2 := hc.value (j := 1) rfl hb' hbk
      have e3 := hc.value (j := 2) rfl he hek
      rw [e1] at hva ⊢
      rw [e2] at hvb ⊢
      rw [e3]
      exact .sequence hg q1 c1 q2 c2 q3 hva hvb
    | custom h1 h2 => exact (bad h1 h2 (by decide)).elim
    | empty h1 h2 =>
      rcases h2 with h2 | h2
      · exact (bad h1 h2 (by decide)).elim
      · exact (bad h1 h2 (by decide)).elim
    | switch h1 h2 => exact (bad h1 h2 (by decide)).elim
    | program h1 h2 => exact (bad h1 h2 (by decide)).elim

/-- The name of a capture. -/
def NameR (E : Setting) : Rel := fun w w' l => ∃ w1 raw val t, w = '?' :: w1 ∧ Quoted w1 raw val w' ∧ l = [nodeT E "MatcherName".toList w w' [t]] ∧
  t.name = "Name".toList ∧ Bare t

theorem name_yields (hw : E.Has w) : Yields E K true Script.matcherName w (NameR E w) True := by
  have hl : Row E K (blen w + 1) _ _ := .free (N := SkipR "?") (fun _ hw => yields_skip hw) <| .free (N := StringR E "Name") (fun _ hw => yields_string hw) .nil
  refine (Yields.programN (n := "MatcherName") hl hw (by omega)).mono ?_
  rintro w' l ⟨ks, rfl, -, w1, -, l1, rfl, ⟨rfl, rfl⟩, w2, -, -, rfl, ⟨w3, raw, val, rfl, rfl, h1, h2⟩, rfl, rfl⟩
  exact ⟨_, raw, val, _, rfl, h2, rfl, rfl, bare_delim⟩

end

end Adx.Read
