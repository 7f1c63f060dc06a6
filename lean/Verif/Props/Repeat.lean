import Verif.Props.Peg
import Verif.Props.Text
import Verif.Props.Script
import Verif.Proofs.Rx
import Verif.Proofs.RepeatText
/-
  C38, from the text of a repeat specifier to its iteration range.
-/
namespace Adx

namespace Peg
open Script

/-! ### The parts of the grammar -/

section
variable {G : MatcherId → Expr} {p : Parser} {stop pos : Nat} {w : Str} {n : Nat} {m x : MatcherId} {name : Str}

theorem eval_lit {s : Str} (hg : G m = .lit name s) (hw : TextAt p.src pos stop w) :
    eval G p stop (n + 1) m pos = if s ≠ [] ∧ s.isPrefixOf w then
        some (.token (leaf p name ⟨pos, pos + blen s⟩ ⟨pos, pos + blen s⟩))
      else some .fail := by
  unfold eval
  rw [hg, bslice_iff.mpr hw]
  rfl

theorem eval_star {q : Char → Bool} {pattern : String} (hg : G m = .re name (mkRx pattern [[.star q]]).find)
    (hw : TextAt p.src pos stop w) : eval G p stop (n + 1) m pos =
      if w.takeWhile q = [] then some (.skip 0) else
      some (.token (leaf p name ⟨pos, pos + blen (w.takeWhile q)⟩ ⟨pos, pos + blen (w.takeWhile q)⟩)) := by
  unfold eval
  rw [hg, bslice_iff.mpr hw]
  dsimp only [Option.getD_some]
  rw [find_star]
  split
  · rename_i h
    injection h with h
    injection h with _ h
    rw [if_pos (blen_eq_zero.mp h)]
  · rename_i b hb h
    injection h with h
    injection h with _ h
    subst h
    rw [if_neg fun h => hb (by rw [h]; rfl)]
  · rename_i h1 h2
    exact (h2 _ rfl).elim

theorem eval_plus {q : Char → Bool} {pattern : String} (hg : G m = .re name (mkRx pattern [Rx.plus q]).find)
    (hw : TextAt p.src pos stop w) : eval G p stop (n + 1) m pos =
      if w.takeWhile q = [] then some .fail else
      some (.token (leaf p name ⟨pos, pos + blen (w.takeWhile q)⟩ ⟨pos, pos + blen (w.takeWhile q)⟩)) := by
  unfold eval
  rw [hg, bslice_iff.mpr hw]
  dsimp only [Option.getD_some]
  by_cases h0 : w.takeWhile q = []
  · rw [if_pos h0]
    split
    · rename_i h; exact (find_plus_none h0 _ h).elim
    · rename_i h; exact (find_plus_none h0 _ h).elim
    · rfl
  · rw [if_neg h0, find_plus h0]
    split
    · rename_i h
      injection h with h
      injection h with _ h
      exact (h0 (blen_eq_zero.mp h)).elim
    · rename_i h
      injection h with h
      injection h with _ h
      subst h
      rfl
    · rename_i h1 h2
      exact (h2 _ rfl).elim

theorem eval_drop (hg : G m = .drop x) : eval G p stop (n + 1) m pos = (eval G p stop n x pos).map (Result.drop pos) := by
  rw [eval, hg]

theorem eval_opt (hg : G m = .opt x) : eval G p stop (n + 1) m pos = (eval G p stop n x pos).map Result.opt := by
  rw [eval, hg]

theorem eval_blanks {q : Char → Bool} {pattern : String} (hg : G m = .drop x)
    (hx : G x = .re name (mkRx pattern [[.star q]]).find) (hw : TextAt p.src pos stop w) :
    eval G p stop (n + 2) m pos = some (.skip (blen (w.takeWhile q))) := by
  rw [eval_drop hg, eval_star hx hw]
  split
  · rename_i h; rw [h]; rfl
  · show some (Result.skip (pos + _ - pos)) = _
    rw [Nat.add_sub_cancel_left]

end

/-! ### The grammar of a repeat specifier -/

/-- The matchers of a repeat specifier, built from `b` on. -/
def specNodes (u : Uni) (b : Nat) : List Node :=
  [.equals "RepeatZeroOrMore".toList true (.str ['*']),
   .equals "RepeatOneOrMore".toList true (.str ['+']),
   .equals "Equals".toList false (.str ['{']),
   .discard (b + 2),
   .regex "Whitespace".toList true rxWS0,
   .discard (b + 4),
   .regex "Minimum".toList true (rxDigits u),
   .regex "Whitespace".toList true rxWS0,
   .discard (b + 7),
   .equals "Seperator".toList true (.str [',']),
   .optional (b + 9),
   .regex "Whitespace".toList true rxWS0,
   .discard (b + 11),
   .regex "Maximum".toList true (rxDigits u),
   .optional (b + 13),
   .regex "Whitespace".toList true rxWS0,
   .discard (b + 15),
   .equals "Equals".toList false (.str ['}']),
   .discard (b + 17),
   .program [b + 3, b + 5, b + 6, b + 8, b + 10, b + 12, b + 14, b + 16, b + 18] "RepeatRange".toList true Option.none false,
   .program [b, b + 1, b + 19] "RepeatSpecifier".toList true Option.none true]

theorem specNodes_eq (u : Uni) (ns : List Node) :
    repeatSpecifier u ns = (ns.length + 20, ns ++ specNodes u ns.length) := by
  simp [repeatSpecifier, B.switchN, repeatZeroOrMore, repeatOneOrMore, repeatRange, B.programN, ws0, B.discard, B.optional,
    B.equals, B.equalsN, B.regexN, B.mk, specNodes, List.mapM_cons, bind, StateT.bind, pure, StateT.pure]

/-- Its expressions. -/
def specG (u : Uni) (b : Nat) (m : MatcherId) : Expr :=
  ((specNodes u b)[m - b]?.bind (exprOf fun _ => Option.none)).getD .empty

/-- The matchers of the specifier. -/
def specS (b : Nat) (m : MatcherId) : Prop := ∃ i : Nat, i < 21 ∧ m = b + i

theorem spec_grammar {T : Table} {u : Uni} {b : Nat} (hT : ∀ (i : Nat) n, (specNodes u b)[i]? = some n → T (b + i) = n) :
    Grammar T (fun _ => Option.none) (specS b) (specG u b) := by
  refine ⟨fun m hm => ?_, fun m hm x hx => ?_, (fun m _ _ x hx => nomatch hx), fun m hm name c re hre => ?_⟩
  · obtain ⟨i, hi, rfl⟩ := hm
    unfold specG
    rw [Nat.add_sub_cancel_left]
    rcases i with _ | _ | _ | _ | _ | _ | _ | _ | _ | _ | _ | _ | _ | _ | _ | _ | _ | _ | _ | _ | _ | i
    all_goals first | omega | (rw [hT _ _ rfl]; rfl)
  · obtain ⟨i, hi, rfl⟩ := hm
    unfold specG at hx
    rw [Nat.add_sub_cancel_left] at hx
    rcases i with _ | _ | _ | _ | _ | _ | _ | _ | _ | _ | _ | _ | _ | _ | _ | _ | _ | _ | _ | _ | _ | i
    all_goals first | omega | (simp [specNodes, exprOf, Expr.uses] at hx; done) | skip
    all_goals simp [specNodes, exprOf, Expr.uses] at hx
    all_goals repeat' (rcases hx with hx | hx)
    all_goals try subst hx
    all_goals first | exact ⟨0, by decide, rfl⟩ | exact ⟨_, by decide, rfl⟩
  · obtain ⟨i, hi, rfl⟩ := hm
    rcases i with _ | _ | _ | _ | _ | _ | _ | _ | _ | _ | _ | _ | _ | _ | _ | _ | _ | _ | _ | _ | _ | i
    all_goals first | omega | (rw [hT _ _ rfl] at hre; cases hre; done) | skip
    all_goals (rw [hT _ _ rfl] at hre; cases hre; exact rx_cuts _ _)

/-! ### What it does -/

section
variable {p : Parser} {stop pos : Nat} {w : Str} {n : Nat} {u : Uni} {b : Nat}

theorem specG_at (i : Nat) : specG u b (b + i) = ((specNodes u b)[i]?.bind (exprOf fun _ => Option.none)).getD .empty := by
  unfold specG
  rw [Nat.add_sub_cancel_left]

theorem parts_skip {ev : MatcherId → Nat → Option Result} {m : MatcherId} {ms : List MatcherId} {q k : Nat}
    {ks : List Tree} {cs : List Range} (h : ev m q = some (.skip k)) :
    parts ev (m :: ms) ⟨q, q, ks, cs⟩ = parts ev ms ⟨q + k, q + k, ks, cs⟩ := by
  have h0 : Run.take ⟨q, q, ks, cs⟩ (.skip k) = ⟨q + k, q + k, ks, cs⟩ := by
    show Run.mk (q + k) (max q (q + k)) ks cs = _
    rw [Nat.max_eq_right (Nat.le_add_right _ _)]
  rw [parts, show ev m (Run.mk q q ks cs).pos = _ from h]
  show parts ev ms (Run.take ⟨q, q, ks, cs⟩ (.skip k)) = _
  rw [h0]

theorem parts_leaf {ev : MatcherId → Nat → Option Result} {m : MatcherId} {ms : List MatcherId} {q k : Nat}
    {ks : List Tree} {cs : List Range} {name : Str} (h : ev m q = some (.token (leaf p name ⟨q, q + k⟩ ⟨q, q + k⟩))) :
    parts ev (m :: ms) ⟨q, q, ks, cs⟩ =
      parts ev ms ⟨q + k, q + k, ks ++ [leaf p name ⟨q, q + k⟩ ⟨q, q + k⟩], cs ++ [⟨q, q + k⟩]⟩ := by
  have h0 : Run.take ⟨q, q, ks, cs⟩ (.token (leaf p name ⟨q, q + k⟩ ⟨q, q + k⟩)) =
      ⟨q + k, q + k, ks ++ [leaf p name ⟨q, q + k⟩ ⟨q, q + k⟩], cs ++ [⟨q, q + k⟩]⟩ := by
    show Run.mk (q + k) (max q (q + k)) _ _ = _
    rw [Nat.max_eq_right (Nat.le_add_right _ _)]
    rfl
  rw [parts, show ev m (Run.mk q q ks cs).pos = _ from h]
  show parts ev ms (Run.take ⟨q, q, ks, cs⟩ (.token _)) = _
  rw [h0]

theorem parts_fail {ev : MatcherId → Nat → Option Result} {m : MatcherId} {ms : List MatcherId} {r : Run}
    (h : ev m r.pos = some .fail) : parts ev (m :: ms) r = some (false, r) := by
  rw [parts, h]
  rfl

theorem finish_token {r : Run} {name : Str} {kids : List Tree} {far : Nat} (hk : r.kids = kids) (hne : kids ≠ [])
    (hf : r.far = far) : ∃ cap v mv, ((parts ev [] r).map fun x =>
      match x with
      | (true, r) => r.finish p name pos
      | (false, _) => .fail) = some (.token (.node name cap ⟨pos, far⟩ v mv Option.none kids)) := by
  subst hk hf
  refine ⟨span r.caps, (span r.caps).text p, Range.text ⟨pos, r.far⟩ p, ?_⟩
  show some (r.finish p name pos) = _
  unfold Run.finish
  rw [if_neg hne]

theorem pieces (u : Uni) (w : Str) : ∃ b1 ds b2 sep b3 es b4 rest, Pieces u ('{' :: w) b1 ds b2 sep b3 es b4 rest := by
  have cut : ∀ (q : Char → Bool) (w : Str), ∃ x y, w = x ++ y ∧ w.takeWhile q = x :=
    fun q w => ⟨_, _, (List.takeWhile_append_dropWhile (p := q)).symm, rfl⟩
  obtain ⟨b1, w1, rfl, h1⟩ := cut isBlank w
  obtain ⟨ds, w2, rfl, h2⟩ := cut u.digit w1
  obtain ⟨b2, w3, rfl, h3⟩ := cut isBlank w2
  have : ∃ sep w4, w3 = sep ++ w4 ∧ (sep = [','] ∨ (sep = [] ∧ ¬ [','] <+: w4)) := by
    by_cases h : [','] <+: w3
    · obtain ⟨w4, rfl⟩ := h
      exact ⟨[','], w4, rfl, Or.inl rfl⟩
    · exact ⟨[], w3, rfl, Or.inr ⟨rfl, h⟩⟩
  obtain ⟨sep, w4, rfl, h4⟩ := this
  obtain ⟨b3, w5, rfl, h5⟩ := cut isBlank w4
  obtain ⟨es, w6, rfl, h6⟩ := cut u.digit w5
  obtain ⟨b4, w7, rfl, h7⟩ := cut isBlank w6
  exact ⟨b1, ds, b2, sep, b3, es, b4, w7, rfl, h1, h2, h3, h4, h5, h6, h7⟩

/-- The tokens below a range. -/
def rangeKids (p : Parser) (q1 q2 q3 q4 q5 q6 : Nat) (sep es : Str) : List Tree :=
  [leaf p "Minimum".toList ⟨q1, q2⟩ ⟨q1, q2⟩] ++
    (if sep = [] then [] else [leaf p "Seperator".toList ⟨q3, q4⟩ ⟨q3, q4⟩]) ++
    (if es = [] then [] else [leaf p "Maximum".toList ⟨q5, q6⟩ ⟨q5, q6⟩])

set_option maxHeartbeats 1000000 in
/-- The result for a text that starts with a brace. -/
theorem eval_range {b1 ds b2 sep b3 es b4 rest : Str} (hw : TextAt p.src pos stop w)
    (hP : Pieces u w b1 ds b2 sep b3 es b4 rest) :
    (ds = [] ∧ eval (specG u b) p stop (n + 3) (b + 19) pos = some .fail) ∨
    (ds ≠ [] ∧ ¬ ['}'] <+: rest ∧ eval (specG u b) p stop (n + 3) (b + 19) pos = some .fail) ∨
    (ds ≠ [] ∧ ['}'] <+: rest ∧ ∃ cap v mv, eval (specG u b) p stop (n + 3) (b + 19) pos = some (.token
      (.node "RepeatRange".toList cap
        ⟨pos, pos + 1 + blen b1 + blen ds + blen b2 + blen sep + blen b3 + blen es + blen b4 + 1⟩ v mv Option.none
        (rangeKids p (pos + 1 + blen b1) (pos + 1 + blen b1 + blen ds) (pos + 1 + blen b1 + blen ds + blen b2)
          (pos + 1 + blen b1 + blen ds + blen b2 + blen sep)
          (pos + 1 + blen b1 + blen ds + blen b2 + blen sep + blen b3)
          (pos + 1 + blen b1 + blen ds + blen b2 + blen sep + blen b3 + blen es) sep es)))) := by
  obtain ⟨rfl, t1, t2, t3, t4, t5, t6, t7⟩ := hP
  have hw1 : TextAt p.src (pos + 1) stop (b1 ++ (ds ++ (b2 ++ (sep ++ (b3 ++ (es ++ (b4 ++ rest))))))) :=
    hw.suffix (x := ['{'])
  have hw2 := hw1.suffix
  have hw3 := hw2.suffix
  have hw4 := hw3.suffix
  have hw5 := hw4.suffix
  have hw6 := hw5.suffix
  have hw7 := hw6.suffix
  have hw8 := hw7.suffix
  have e0 : eval (specG u b) p stop (n + 2) (b + 3) pos = some (.skip 1) := by
    rw [eval_drop (specG_at 3), eval_lit (specG_at 2) hw, if_pos ⟨by simp, by simp⟩]
    show some (Result.skip (pos + 1 - pos)) = _
    rw [Nat.add_sub_cancel_left]
  have e1 : eval (specG u b) p stop (n + 2) (b + 5) _ = _ := eval_blanks (n := n) (specG_at 5) (specG_at 4) hw1
  have e2 : eval (specG u b) p stop (n + 2) (b + 6) _ = _ := eval_plus (n := n + 1) (specG_at 6) hw2
  have e3 : eval (specG u b) p stop (n + 2) (b + 8) _ = _ := eval_blanks (n := n) (specG_at 8) (specG_at 7) hw3
  have e5 : eval (specG u b) p stop (n + 2) (b + 12) _ = _ := eval_blanks (n := n) (specG_at 12) (specG_at 11) hw5
  have e7 : eval (specG u b) p stop (n + 2) (b + 16) _ = _ := eval_blanks (n := n) (specG_at 16) (specG_at 15) hw7
  rw [t1] at e1
  rw [t2] at e2
  rw [t3] at e3
  rw [t5] at e5
  rw [t7] at e7
  have hseq : eval (specG u b) p stop (n + 3) (b + 19) pos =
      (parts (eval (specG u b) p stop (n + 2))
        [b + 3, b + 5, b + 6, b + 8, b + 10, b + 12, b + 14, b + 16, b + 18] (.start pos)).map fun x =>
        match x with
        | (true, r) => r.finish p "RepeatRange".toList pos
        | (false, _) => .fail := by
    rw [eval, show specG u b (b + 19) = _ from specG_at 19]
    rfl
  rw [hseq]
  have e4 : ∀ ms ks cs, parts (eval (specG u b) p stop (n + 2)) ((b + 10) :: ms)
        ⟨pos + 1 + blen b1 + blen ds + blen b2, pos + 1 + blen b1 + blen ds + blen b2, ks, cs⟩ =
      parts (eval (specG u b) p stop (n + 2)) ms ⟨pos + 1 + blen b1 + blen ds + blen b2 + blen sep,
        pos + 1 + blen b1 + blen ds + blen b2 + blen sep,
        ks ++ (if sep = [] then [] else [leaf p "Seperator".toList
          ⟨pos + 1 + blen b1 + blen ds + blen b2, pos + 1 + blen b1 + blen ds + blen b2 + blen sep⟩
          ⟨pos + 1 + blen b1 + blen ds + blen b2, pos + 1 + blen b1 + blen ds + blen b2 + blen sep⟩]),
        cs ++ (if sep = [] then [] else
          [⟨pos + 1 + blen b1 + blen ds + blen b2, pos + 1 + blen b1 + blen ds + blen b2 + blen sep⟩])⟩ := by
    intro ms ks cs
    have h := fun q => eval_opt (p := p) (stop := stop) (pos := q) (n := n + 1) (specG_at (u := u) (b := b) 10)
    have h' : eval (specG u b) p stop (n + 1) (b + 9) _ = _ := eval_lit (n := n) (specG_at 9) hw4
    rcases t4 with rfl | ⟨rfl, t4⟩
    · rw [if_pos ⟨by simp, by simp⟩] at h'
      rw [if_neg (by simp), if_neg (by simp)]
      refine parts_leaf ?_
      rw [h, h']
      rfl
    · rw [if_neg (fun hh => t4 (List.isPrefixOf_iff_prefix.mp hh.2))] at h'
      rw [if_pos rfl, if_pos rfl, List.append_nil, List.append_nil]
      refine parts_skip ?_
      rw [h, h']
      rfl
  have e6 : ∀ ms ks cs, parts (eval (specG u b) p stop (n + 2)) ((b + 14) :: ms)
        ⟨pos + 1 + blen b1 + blen ds + blen b2 + blen sep + blen b3,
          pos + 1 + blen b1 + blen ds + blen b2 + blen sep + blen b3, ks, cs⟩ =
      parts (eval (specG u b) p stop (n + 2)) ms ⟨pos + 1 + blen b1 + blen ds + blen b2 + blen sep + blen b3 + blen es,
        pos + 1 + blen b1 + blen ds + blen b2 + blen sep + blen b3 + blen es,
        ks ++ (if es = [] then [] else [leaf p "Maximum".toList
          ⟨pos + 1 + blen b1 + blen ds + blen b2 + blen sep + blen b3,
            pos + 1 + blen b1 + blen ds + blen b2 + blen sep + blen b3 + blen es⟩
          ⟨pos + 1 + blen b1 + blen ds + blen b2 + blen sep + blen b3,
            pos + 1 + blen b1 + blen ds + blen b2 + blen sep + blen b3 + blen es⟩]),
        cs ++ (if es = [] then [] else
          [⟨pos + 1 + blen b1 + blen ds + blen b2 + blen sep + blen b3,
            pos + 1 + blen b1 + blen ds + blen b2 + blen sep + blen b3 + blen es⟩])⟩ := by
    intro ms ks cs
    have h := fun q => eval_opt (p := p) (stop := stop) (pos := q) (n := n + 1) (specG_at (u := u) (b := b) 14)
    have h' : eval (specG u b) p stop (n + 1) (b + 13) _ = _ := eval_plus (n := n) (specG_at 13) hw6
    rw [t6] at h'
    by_cases he : es = []
    · subst he
      rw [if_pos rfl] at h'
      rw [if_pos rfl, if_pos rfl, List.append_nil, List.append_nil]
      refine parts_skip ?_
      rw [h, h']
      rfl
    · rw [if_neg he] at h'
      rw [if_neg he, if_neg he]
      refine parts_leaf ?_
      rw [h, h']
      rfl
  have e8 : eval (specG u b) p stop (n + 2) (b + 18)
      (pos + 1 + blen b1 + blen ds + blen b2 + blen sep + blen b3 + blen es + blen b4) =
      if ['}'] <+: rest then some (.skip 1) else some .fail := by
    rw [eval_drop (specG_at 18), eval_lit (specG_at 17) hw8]
    by_cases hr : ['}'] <+: rest
    · rw [if_pos ⟨by simp, List.isPrefixOf_iff_prefix.mpr hr⟩, if_pos hr]
      show some (Result.skip (_ + 1 - _)) = _
      rw [Nat.add_sub_cancel_left]
    · rw [if_neg (fun hh => hr (List.isPrefixOf_iff_prefix.mp hh.2)), if_neg hr]
      rfl
  rw [show Run.start pos = ⟨pos, pos, [], []⟩ from rfl, parts_skip e0, parts_skip e1]
  by_cases hds : ds = []
  · rw [if_pos hds] at e2
    rw [parts_fail e2]
    exact Or.inl ⟨hds, rfl⟩
  · rw [if_neg hds] at e2
    rw [parts_leaf e2, parts_skip e3, e4, parts_skip e5, e6, parts_skip e7]
    by_cases hr : ['}'] <+: rest
    · rw [if_pos hr] at e8
      rw [parts_skip e8]
      refine Or.inr (Or.inr ⟨hds, hr, ?_⟩)
      refine finish_token rfl ?_ rfl
      unfold rangeKids
      rw [List.append_assoc]
      exact List.cons_ne_nil _ _
    · rw [if_neg hr] at e8
      rw [parts_fail e8]
      exact Or.inr (Or.inl ⟨hds, hr, rfl⟩)

/-- The result for any other text. -/
theorem eval_range_none (hw : TextAt p.src pos stop w) (hb : ∀ w', w ≠ '{' :: w') :
    eval (specG u b) p stop (n + 3) (b + 19) pos = some .fail := by
  rw [eval, show specG u b (b + 19) = _ from specG_at 19]
  show (parts (eval (specG u b) p stop (n + 2))
        [b + 3, b + 5, b + 6, b + 8, b + 10, b + 12, b + 14, b + 16, b + 18] (.start pos)).map _ = _
  have e0 : eval (specG u b) p stop (n + 2) (b + 3) (Run.start pos).pos = some .fail := by
    show eval (specG u b) p stop (n + 2) (b + 3) pos = _
    rw [eval_drop (specG_at 3), eval_lit (specG_at 2) hw, if_neg]
    · rfl
    · rintro ⟨-, h⟩
      obtain ⟨t, ht⟩ := List.isPrefixOf_iff_prefix.mp h
      exact hb t ht.symm
  rw [parts_fail e0]
  rfl

/-- The result for the whole specifier. -/
theorem eval_spec (hw : TextAt p.src pos stop w) :
    (∃ w', w = '*' :: w' ∧ eval (specG u b) p stop (n + 4) (b + 20) pos =
      some (.token (leaf p "RepeatZeroOrMore".toList ⟨pos, pos + 1⟩ ⟨pos, pos + 1⟩))) ∨
    (∃ w', w = '+' :: w' ∧ eval (specG u b) p stop (n + 4) (b + 20) pos =
      some (.token (leaf p "RepeatOneOrMore".toList ⟨pos, pos + 1⟩ ⟨pos, pos + 1⟩))) ∨
    ((∀ w', w ≠ '*' :: w') ∧ (∀ w', w ≠ '+' :: w') ∧ eval (specG u b) p stop (n + 4) (b + 20) pos =
      (eval (specG u b) p stop (n + 3) (b + 19) pos).bind fun x =>
        match x with
        | .fail => some .fail
        | .skip 0 => some .fail
        | x => some x) := by
  have h : eval (specG u b) p stop (n + 4) (b + 20) pos =
      choose (eval (specG u b) p stop (n + 3)) pos [b, b + 1, b + 19] := by
    rw [eval, show specG u b (b + 20) = _ from specG_at 20]
    rfl
  rw [h]
  have h0 : eval (specG u b) p stop (n + 3) b pos = _ := eval_lit (n := n + 2) (specG_at 0) hw
  have h1 : eval (specG u b) p stop (n + 3) (b + 1) pos = _ := eval_lit (n := n + 2) (specG_at 1) hw
  have hp : ∀ ch : Char, ([ch] ≠ [] ∧ [ch].isPrefixOf w = true) ↔ ∃ w', w = ch :: w' := by
    intro ch
    constructor
    · rintro ⟨-, h⟩
      obtain ⟨t, ht⟩ := List.isPrefixOf_iff_prefix.mp h
      exact ⟨t, ht.symm⟩
    · rintro ⟨w', rfl⟩
      exact ⟨by simp, by simp⟩
  by_cases hs : ∃ w', w = '*' :: w'
  · obtain ⟨w', hw'⟩ := hs
    refine Or.inl ⟨w', hw', ?_⟩
    rw [if_pos ((hp '*').mpr ⟨w', hw'⟩)] at h0
    rw [choose, h0]
    rfl
  · rw [if_neg (fun h => hs ((hp '*').mp h))] at h0
    by_cases hq : ∃ w', w = '+' :: w'
    · obtain ⟨w', hw'⟩ := hq
      refine Or.inr (Or.inl ⟨w', hw', ?_⟩)
      rw [if_pos ((hp '+').mpr ⟨w', hw'⟩)] at h1
      rw [choose, h0]
      show choose _ _ _ = _
      rw [choose, h1]
      rfl
    · rw [if_neg (fun h => hq ((hp '+').mp h))] at h1
      refine Or.inr (Or.inr ⟨fun w' h => hs ⟨w', h⟩, fun w' h => hq ⟨w', h⟩, ?_⟩)
      rw [choose, h0]
      show choose _ _ _ = _
      rw [choose, h1]
      show choose _ _ _ = _
      rw [choose]
      rfl

/-! ### The tokens and their range -/

theorem First.head {toks : List Token} {n : String} {a : TokId} {r : List TokId}
    (h : nameAt toks a = some n.toList) : First toks [n] (a :: r) a :=
  ⟨[], r, rfl, ⟨n, by simp, h⟩, fun _ h => nomatch h⟩

theorem nameAt_of {toks : List Token} {a : TokId} {k : Token} (hk : toks[a]? = some k) :
    nameAt toks a = some k.name := by
  unfold nameAt
  rw [hk]
  rfl

theorem not_name {toks : List Token} {a : TokId} {x : Str} {n : String} (h : nameAt toks a = some x)
    (hx : x ≠ n.toList) : ∀ n' ∈ [n], nameAt toks a ≠ some n'.toList := by
  intro n' hn' he
  rw [List.mem_singleton] at hn'
  subst hn'
  rw [h] at he
  exact hx (Option.some.inj he)

/-- The tokens below a range token. -/
structure RangeToks (toks : List Token) (cs : List TokId) (q1 q2 q5 q6 : Nat) (sep es : Str) : Prop where
  min : ∃ a k, First toks ["Minimum"] cs a ∧ toks[a]? = some k ∧ k.kind = .standard ∧ k.captured = ⟨q1, q2⟩
  sep : Absent toks ["Seperator"] cs ↔ sep = []
  none : es = [] → Absent toks ["Maximum"] cs
  max : es ≠ [] → ∃ a k, First toks ["Maximum"] cs a ∧ toks[a]? = some k ∧ k.kind = .standard ∧ k.captured = ⟨q5, q6⟩

theorem reps_leaf {toks : List Token} {lo : Nat} {ts : List TokId} {name : Str} {r r' : Range} {trees : List Tree}
    (h : Reps toks lo ts (leaf p name r r' :: trees)) : ∃ t k ts', ts = t :: ts' ∧ toks[t]? = some k ∧
      nameAt toks t = some name ∧ k.kind = .standard ∧ k.captured = r ∧ k.matched = r' ∧ Reps toks lo ts' trees := by
  unfold leaf at h
  generalize hx : Tree.node name r r' _ _ Option.none [] = x at h
  cases h with
  | @cons _ t k ts' cs _ hl hk hs hf hc hr =>
    injection hx with h1 h2 h3
    exact ⟨t, k, ts', rfl, hk, by rw [nameAt_of hk, h1], hs, h2.symm, h3.symm, hr⟩

theorem reps_nil {toks : List Token} {lo : Nat} {ts : List TokId} (h : Reps toks lo ts []) : ts = [] := by
  cases h
  rfl

theorem absent_nil {toks : List Token} {n : String} : Absent toks [n] [] := fun _ h => nomatch h

theorem absent_cons {toks : List Token} {n : String} {a : TokId} {cs : List TokId} {x : Str}
    (h : nameAt toks a = some x) (hx : x ≠ n.toList) (hc : Absent toks [n] cs) : Absent toks [n] (a :: cs) := by
  intro b hb
  rcases List.mem_cons.mp hb with rfl | hb
  · exact not_name h hx
  · exact hc b hb

theorem range_toks {toks : List Token} {lo q1 q2 q3 q4 q5 q6 : Nat} {cs : List TokId} {sep es : Str}
    (h : Reps toks lo cs (rangeKids p q1 q2 q3 q4 q5 q6 sep es)) : RangeToks toks cs q1 q2 q5 q6 sep es := by
  unfold rangeKids at h
  have n1 : "Minimum".toList ≠ "Seperator".toList := by decide
  have n2 : "Minimum".toList ≠ "Maximum".toList := by decide
  have n3 : "Seperator".toList ≠ "Maximum".toList := by decide
  have n4 : "Maximum".toList ≠ "Seperator".toList := by decide
  obtain ⟨a, ka, cs, rfl, hka, na, sa, ca, -, h⟩ := reps_leaf (trees := _ ++ _) h
  by_cases hs : sep = []
  · rw [if_pos hs] at h
    by_cases he : es = []
    · rw [if_pos he] at h
      cases reps_nil h
      exact ⟨⟨a, ka, First.head na, hka, sa, ca⟩, ⟨fun _ => hs, fun _ => absent_cons na n1 absent_nil⟩,
        fun _ => absent_cons na n2 absent_nil, fun h => (h he).elim⟩
    · rw [if_neg he] at h
      obtain ⟨b, kb, cs, rfl, hkb, nb, sb, cb, -, h⟩ := reps_leaf h
      cases reps_nil h
      exact ⟨⟨a, ka, First.head na, hka, sa, ca⟩, ⟨fun _ => hs, fun _ => absent_cons na n1 (absent_cons nb n4 absent_nil)⟩,
        fun h => (he h).elim, fun _ => ⟨b, kb, First.cons (not_name na n2) (First.head nb), hkb, sb, cb⟩⟩
  · rw [if_neg hs] at h
    obtain ⟨d, kd, cs, rfl, hkd, nd, sd, cd, -, h⟩ := reps_leaf (trees := _) h
    have hsep : Absent toks ["Seperator"] (a :: d :: cs) ↔ sep = [] :=
      ⟨fun h => (First.not_absent (First.cons (not_name na n1) (First.head nd)) h).elim, fun h => (hs h).elim⟩
    by_cases he : es = []
    · rw [if_pos he] at h
      cases reps_nil h
      exact ⟨⟨a, ka, First.head na, hka, sa, ca⟩, hsep,
        fun _ => absent_cons na n2 (absent_cons nd n3 absent_nil), fun h => (h he).elim⟩
    · rw [if_neg he] at h
      obtain ⟨b, kb, cs, rfl, hkb, nb, sb, cb, -, h⟩ := reps_leaf h
      cases reps_nil h
      exact ⟨⟨a, ka, First.head na, hka, sa, ca⟩, hsep, fun h => (he h).elim,
        fun _ => ⟨b, kb, First.cons (not_name na n2) (First.cons (not_name nd n3) (First.head nb)), hkb, sb, cb⟩⟩

theorem captured_text {k : Token} (ha : Ascii p.src) (hk : TextInv p k) (hs : k.kind = .standard) {a e : Nat} {x : Str}
    (hc : k.captured = ⟨a, e⟩) (hx : TextAt p.src a e x) : k.getCapturedValue = x := by
  unfold Token.getCapturedValue
  rw [hs]
  dsimp only
  rw [hk.captured, hc]
  exact substring_textAt hx ha

theorem parse_digits {ds : Str} {n : Nat} (hd : ds.all Char.isDigit = true) :
    parseUsize ds = some n ↔ Numeral ds n ∧ n ≤ usizeMax := by
  rw [parseUsize_iff]
  constructor
  · rintro ⟨h, h' | ⟨r, rfl, _⟩⟩
    · exact ⟨h', h⟩
    · simp at hd
  · exact fun ⟨h, h'⟩ => ⟨h', Or.inl h⟩

/-- The range of a range token. -/
theorem range_repeats {toks : List Token} {t : TokId} {k : Token} {q1 q2 q5 q6 lo hi : Nat} {ds sep es : Str}
    (ha : Ascii p.src) (hall : ∀ (i : Nat) k, toks[i]? = some k → TextInv p k)
    (hk : toks[t]? = some k) (hn : k.name = "RepeatRange".toList) (h : RangeToks toks k.children q1 q2 q5 q6 sep es)
    (hds : TextAt p.src q1 q2 ds) (hes : TextAt p.src q5 q6 es) (hdd : ds.all Char.isDigit = true)
    (hed : es.all Char.isDigit = true) (hsep : sep = [','] ∨ sep = []) :
    Repeats toks t lo hi ↔ PieceRange ds sep es lo hi := by
  obtain ⟨⟨a, ka, fa, hka, sa, ca⟩, hs, hmn, hmx⟩ := h
  have va := captured_text ha (hall a ka hka) sa ca hds
  have no1 : ("RepeatRange".toList : Str) ≠ "RepeatZeroOrMore".toList := by decide
  have no2 : ("RepeatRange".toList : Str) ≠ "RepeatOneOrMore".toList := by decide
  constructor
  · intro hr
    cases hr with
    | any hk' hn' => cases hk.symm.trans hk'; exact (no1 (hn.symm.trans hn')).elim
    | some hk' hn' => cases hk.symm.trans hk'; exact (no2 (hn.symm.trans hn')).elim
    | upTo hk' hn' ha' hak' hs' h1' =>
      cases hk.symm.trans hk'
      cases fa.unique ha'
      cases hka.symm.trans hak'
      rw [va, parse_digits hdd] at h1'
      exact Or.inl ⟨hs.mp hs', rfl, h1'.1, h1'.2⟩
    | atLeast hk' hn' ha' hak' hs' hm' h1' =>
      cases hk.symm.trans hk'
      cases fa.unique ha'
      cases hka.symm.trans hak'
      rw [va, parse_digits hdd] at h1'
      refine Or.inr (Or.inl ⟨hsep.resolve_right fun h => hs' (hs.mpr h), ?_, h1'.1, h1'.2, rfl⟩)
      by_cases he : es = []
      · exact he
      · obtain ⟨b, kb, fb, _⟩ := hmx he
        exact (fb.not_absent hm').elim
    | between hk' hn' ha' hak' hs' hb' hbk' h1' h2' hle =>
      cases hk.symm.trans hk'
      cases fa.unique ha'
      cases hka.symm.trans hak'
      rw [va, parse_digits hdd] at h1'
      have he : es ≠ [] := fun he => hb'.not_absent (hmn he)
      obtain ⟨b, kb, fb, hkb, sb, cb⟩ := hmx he
      have vb := captured_text ha (hall b kb hkb) sb cb hes
      cases fb.unique hb'
      cases hkb.symm.trans hbk'
      rw [vb, parse_digits hed] at h2'
      exact Or.inr (Or.inr ⟨hsep.resolve_right fun h => hs' (hs.mpr h), h1'.1, h2'.1, h2'.2, hle⟩)
  · rintro (⟨h1, rfl, h2, h3⟩ | ⟨h1, h2, h3, h4, rfl⟩ | ⟨h1, h2, h3, h4, h5⟩)
    · exact .upTo hk hn fa hka (hs.mpr h1) (by rw [va, parse_digits hdd]; exact ⟨h2, h3⟩)
    · exact .atLeast hk hn fa hka (fun h => by rw [hs.mp h] at h1; cases h1) (hmn h2)
        (by rw [va, parse_digits hdd]; exact ⟨h3, h4⟩)
    · obtain ⟨b, kb, fb, hkb, sb, cb⟩ := hmx h3.digits.1
      exact .between hk hn fa hka (fun h => by rw [hs.mp h] at h1; cases h1) fb hkb
        (by rw [va, parse_digits hdd]; exact ⟨h2, by omega⟩)
        (by rw [captured_text ha (hall b kb hkb) sb cb hes, parse_digits hed]; exact ⟨h3, h4⟩) h5

theorem made_spec {T : Table} {m : MatcherId} (h : Made T (repeatSpecifier u) m) :
    ∃ b : Nat, m = b + 20 ∧ Grammar T (fun _ => Option.none) (specS b) (specG u b) := by
  obtain ⟨ns0, ns1, h1, h2⟩ := h
  rw [specNodes_eq] at h1
  cases h1
  refine ⟨ns0.length, rfl, spec_grammar fun i n hi => h2 _ _ (Nat.le_add_right _ _) ?_⟩
  rw [List.getElem?_append_right (Nat.le_add_right _ _), Nat.add_sub_cancel_left]
  exact hi

theorem Sim.of_some {α β : Type} {x : Res α} {b : β} {Q : α → State → β → Prop} (h : Sim x (some b) Q) :
    ∃ a s, x = .ok a s ∧ Q a s b := by
  unfold Sim at h
  split at h
  · rename_i h1
    cases h1
    exact ⟨_, _, rfl, h⟩
  · rename_i h1
    cases h1
  · exact h.elim

/-- What the specifier's matcher returns. -/
theorem spec_runs {T : Table} {cfg : Cfg} {m : MatcherId} {c : Ctx} {sc : SCtxId} {s : State}
    (hT : ∀ m, (T m).Polite p) (hm : Made T (repeatSpecifier u) m) (ha : Ascii p.src) (hb : blen p.src ≤ isizeMax)
    (hc : Ready p stop c) (hw : TextAt p.src c.offset.start stop w) (h0 : AllTok (TextInv p) s) :
    ∃ r s', Runs T cfg m c sc s r s' ∧
      ((∃ t k x rest, r = .ok (.token t) ∧ s'.toks[t]? = some k ∧ w = x ++ rest ∧
          k.matched = ⟨c.offset.start, c.offset.start + blen x⟩ ∧
          (∀ lo hi, Repeats s'.toks t lo hi ↔ RepeatText x lo hi) ∧
          ∀ x' lo hi, x' <+: w → RepeatText x' lo hi → x' = x) ∨
        (r = .err .fail ∧ ∀ x lo hi, x <+: w → ¬ RepeatText x lo hi)) := by
  obtain ⟨b, rfl, hG⟩ := made_spec hm
  have hl := lock (cfg := cfg) (stop := stop) hG hb (fun _ _ _ _ _ _ _ => asciiBetween_of_ascii ha) 4 (b + 20) ⟨20, by decide, rfl⟩ c sc s hc ⟨w, hw⟩
    (fun n m h => nomatch h)
  have haw : Ascii w := by
    obtain ⟨x, y, e, _⟩ := hw
    rw [e, Ascii.append, Ascii.append] at ha
    exact ha.1.2
  have hall : ∀ {r s'}, exec T cfg 4 (b + 20) c sc s = .ok r s' → ∀ (i : Nat) k, s'.toks[i]? = some k → TextInv p k :=
    fun hx => (exec_good TextInv.inv cfg (fun m => (hT m).good) 4 (b + 20) c sc hc.parser s _ _ hx).all h0
  have hfail : eval (specG u b) p stop 4 (b + 20) c.offset.start = some .fail →
      (∀ x lo hi, x <+: w → ¬ RepeatText x lo hi) → ∃ r s', Runs T cfg (b + 20) c sc s r s' ∧
      ((∃ t k x rest, r = .ok (.token t) ∧ s'.toks[t]? = some k ∧ w = x ++ rest ∧
          k.matched = ⟨c.offset.start, c.offset.start + blen x⟩ ∧
          (∀ lo hi, Repeats s'.toks t lo hi ↔ RepeatText x lo hi) ∧
          ∀ x' lo hi, x' <+: w → RepeatText x' lo hi → x' = x) ∨
        (r = .err .fail ∧ ∀ x lo hi, x <+: w → ¬ RepeatText x lo hi)) := by
    intro he hn
    rw [he] at hl
    obtain ⟨r, s', hx, hsh, _⟩ := Sim.of_some hl
    cases hsh
    exact ⟨_, _, ⟨4, hx⟩, Or.inr ⟨rfl, hn⟩⟩
  rcases eval_spec (n := 0) (u := u) (b := b) hw with ⟨w', hw', he⟩ | ⟨w', hw', he⟩ | ⟨hs, hp, he⟩
  · rw [he] at hl
    obtain ⟨r, s', hx, hsh, _⟩ := Sim.of_some hl
    cases hsh with
    | @token t _ hr =>
      obtain ⟨t', k, ts, ht, hk, hn, _, _, hmt, _⟩ := reps_leaf hr
      cases ht
      rw [nameAt_of hk] at hn
      have hn := Option.some.inj hn
      refine ⟨_, _, ⟨4, hx⟩, Or.inl ⟨t, k, ['*'], w', rfl, hk, hw', hmt, fun lo hi => ?_, ?_⟩⟩
      · constructor
        · intro h
          have h1 := h.unique (.any hk hn)
          rw [h1.1, h1.2]
          exact .any
        · intro h
          cases h
          exact .any hk hn
      · rintro x lo hi ⟨y, hy⟩ h
        rw [hw'] at hy
        cases h <;> cases hy
        rfl
  · rw [he] at hl
    obtain ⟨r, s', hx, hsh, _⟩ := Sim.of_some hl
    cases hsh with
    | @token t _ hr =>
      obtain ⟨t', k, ts, ht, hk, hn, _, _, hmt, _⟩ := reps_leaf hr
      cases ht
      rw [nameAt_of hk] at hn
      have hn := Option.some.inj hn
      refine ⟨_, _, ⟨4, hx⟩, Or.inl ⟨t, k, ['+'], w', rfl, hk, hw', hmt, fun lo hi => ?_, ?_⟩⟩
      · constructor
        · intro h
          have h1 := h.unique (.some hk hn)
          rw [h1.1, h1.2]
          exact .some
        · intro h
          cases h
          exact .some hk hn
      · rintro x lo hi ⟨y, hy⟩ h
        rw [hw'] at hy
        cases h <;> cases hy
        rfl
  · by_cases hbr : ∃ w', w = '{' :: w'
    · obtain ⟨w', rfl⟩ := hbr
      obtain ⟨b1, ds, b2, sep, b3, es, b4, rest, hP⟩ := pieces u w'
      have hnum : ∀ {x lo hi}, x <+: '{' :: w' → RepeatText x lo hi →
          ds ≠ [] ∧ ∃ y, rest = '}' :: y ∧ '{' :: w' = x ++ y ∧ PieceRange ds sep es lo hi := by
        rintro x lo hi ⟨y, hy⟩ h
        obtain ⟨h1, h2⟩ := h.pieces hy.symm hP
        refine ⟨?_, y, h1, hy.symm, h2⟩
        rcases h2 with h2 | h2 | h2
        · exact h2.2.2.1.digits.1
        · exact h2.2.2.1.digits.1
        · exact h2.2.1.digits.1
      rcases eval_range (n := 0) (u := u) (b := b) hw hP with ⟨hds, he'⟩ | ⟨hds, hr, he'⟩ | ⟨hds, hr, cap, v, mv, he'⟩
      · rw [he'] at he
        exact hfail he fun x lo hi hx h => (hnum hx h).1 hds
      · rw [he'] at he
        exact hfail he fun x lo hi hx h => by
          obtain ⟨_, y, h1, _⟩ := hnum hx h
          exact hr ⟨y, h1.symm⟩
      · rw [he'] at he
        replace he : eval (specG u b) p stop 4 (b + 20) c.offset.start = some (.token _) := he
        rw [he] at hl
        obtain ⟨r, s', hx, hsh, _⟩ := Sim.of_some hl
        obtain ⟨y, hy⟩ := hr
        have hy : rest = '}' :: y := hy.symm
        generalize htree : Tree.node _ cap _ v mv _ _ = tree at hsh
        cases hsh with
        | @token t _ hr =>
          cases hr with
          | @cons _ _ k _ cs _ hl hk hstd hf hc' _ =>
            injection htree with hn _ hmt _ _ _ hcs
            subst hcs
            have hrt := range_toks hc'
            have e1 : '{' :: w' = ('{' :: (b1 ++ (ds ++ (b2 ++ (sep ++ (b3 ++ (es ++ (b4 ++ ['}'])))))))) ++ y := by
              rw [hP.text, hy]
              simp only [List.append_assoc, List.cons_append, List.nil_append]
            have hw1 : TextAt p.src (c.offset.start + 1) stop
                (b1 ++ (ds ++ (b2 ++ (sep ++ (b3 ++ (es ++ (b4 ++ rest))))))) := by
              have := hw
              rw [hP.text] at this
              exact this.suffix (x := ['{'])
            have hds' := hw1.suffix.prefix
            have hes' := hw1.suffix.suffix.suffix.suffix.suffix.prefix
            have haw' := haw
            rw [hP.text] at haw'
            have haw' : Ascii (b1 ++ (ds ++ (b2 ++ (sep ++ (b3 ++ (es ++ (b4 ++ rest))))))) :=
              fun c hc => haw' c (List.mem_cons_of_mem _ hc)
            simp only [Ascii.append] at haw'
            obtain ⟨_, a2, _, _, _, a6, _⟩ := haw'
            have hrep : ∀ lo hi, Repeats s'.toks t lo hi ↔ PieceRange ds sep es lo hi := fun lo hi =>
              range_repeats ha (hall hx) hk hn.symm hrt hds' hes' ((digits_iff a2).mp (takeWhile_all hP.t2))
                ((digits_iff a6).mp (takeWhile_all hP.t6)) (hP.t4.imp id And.left)
            have hcons : ∀ (x : Char) (l : Str), blen (x :: l) = x.utf8Size + blen l := fun _ _ => rfl
            refine ⟨_, _, ⟨4, hx⟩, Or.inl ⟨t, k, _, y, rfl, hk, e1, ?_, fun lo hi => ?_, ?_⟩⟩
            · rw [← hmt]
              congr 1
              simp only [blen_append, hcons]
              have z1 : '{'.utf8Size = 1 := rfl
              have z2 : '}'.utf8Size = 1 := rfl
              have z3 : blen [] = 0 := rfl
              omega
            · rw [hrep]
              constructor
              · exact hP.text_of haw hy
              · intro h
                exact (h.pieces e1 hP).2
            · rintro x' lo hi hpre h
              obtain ⟨_, y', hy', hxy, _⟩ := hnum hpre h
              rw [hy] at hy'
              cases hy'
              rw [e1] at hxy
              exact (List.append_cancel_right hxy).symm
    · exact hfail (by rw [he, eval_range_none hw fun w' h => hbr ⟨w', h⟩]; rfl) fun x lo hi ⟨y, hy⟩ h => by
        subst hy
        cases h with
        | any => exact hs _ rfl
        | some => exact hp _ rfl
        | _ => exact hbr ⟨_, rfl⟩

/-- **C38**: the texts of repeat specifiers.  The matcher of specifiers reads the text `x`
and the iteration range of its token is `lo..hi`, exactly if `x` is written as
`RepeatText` says. -/
theorem C38_text_iff {T : Table} {cfg : Cfg} {m : MatcherId} {c : Ctx} {sc : SCtxId} {s : State}
    (hT : ∀ m, (T m).Polite p) (hm : Made T (repeatSpecifier u) m) (ha : Ascii p.src) (hb : blen p.src ≤ isizeMax)
    (hc : Ready p stop c) (hw : TextAt p.src c.offset.start stop w) (h0 : AllTok (TextInv p) s) {x : Str} {lo hi : Nat} :
    (x <+: w ∧ ∃ t k s', Runs T cfg m c sc s (.ok (.token t)) s' ∧ s'.toks[t]? = some k ∧
      k.matched = ⟨c.offset.start, c.offset.start + blen x⟩ ∧
      ∀ ns, getRepeatSpecifierRange t s'.toks ns = .ok (lo, hi) ns) ↔ x <+: w ∧ RepeatText x lo hi := by
  obtain ⟨r, s', hrun, h⟩ := spec_runs (cfg := cfg) (sc := sc) hT hm ha hb hc hw h0
  constructor
  · rintro ⟨hx, t, k, s1, h1, h2, h3, h4⟩
    refine ⟨hx, ?_⟩
    obtain ⟨rfl, rfl⟩ := C06_unique hrun h1
    rcases h with ⟨t', k', x', rest, ht, hk', hw', hm', hrep, _⟩ | ⟨h, _⟩
    · cases ht
      cases hk'.symm.trans h2
      obtain ⟨y, hy⟩ := hx
      rw [hm'] at h3
      injection h3 with _ h3
      have hlen : blen x' = blen x := by omega
      have hxx : x' = x := by
        have h5 := hw
        rw [hw'] at h5
        have h6 := hw
        rw [← hy] at h6
        have h7 := h5.prefix
        rw [hlen] at h7
        exact h7.unique h6.prefix
      subst hxx
      exact (hrep _ _).mp (C38_range_iff.mp (h4 [])).2
    · cases h
  · rintro ⟨hx, htext⟩
    refine ⟨hx, ?_⟩
    rcases h with ⟨t, k, x', rest, rfl, hk', hw', hm', hrep, huniq⟩ | ⟨_, h⟩
    · have := huniq x lo hi hx htext
      subst this
      exact ⟨t, k, s', hrun, hk', hm', fun ns => C38_range_iff.mpr ⟨rfl, (hrep _ _).mpr htext⟩⟩
    · exact (h x lo hi hx htext).elim

/-- **C38**: a text that does not start with a repeat specifier is rejected: the matcher
fails, or the range of its token is an error. -/
theorem C38_text_reject {T : Table} {cfg : Cfg} {m : MatcherId} {c : Ctx} {sc : SCtxId} {s : State}
    (hT : ∀ m, (T m).Polite p) (hm : Made T (repeatSpecifier u) m) (ha : Ascii p.src) (hb : blen p.src ≤ isizeMax)
    (hc : Ready p stop c) (hw : TextAt p.src c.offset.start stop w) (h0 : AllTok (TextInv p) s)
    (h : ∀ x lo hi, x <+: w → ¬ RepeatText x lo hi) :
    ∃ r s', Runs T cfg m c sc s r s' ∧ (r = .err .fail ∨ ∃ t, r = .ok (.token t) ∧ ∀ ns,
      (∃ e, getRepeatSpecifierRange t s'.toks ns = .err e) ∨ ∃ e, getRepeatSpecifierRange t s'.toks ns = .panic e) := by
  obtain ⟨r, s', hrun, h'⟩ := spec_runs (cfg := cfg) (sc := sc) hT hm ha hb hc hw h0
  refine ⟨r, s', hrun, ?_⟩
  rcases h' with ⟨t, k, x', rest, rfl, hk', hw', hm', hrep, huniq⟩ | ⟨h', _⟩
  · refine Or.inr ⟨t, rfl, fun ns => C38_range_reject fun lo hi hr => h x' lo hi ⟨rest, hw'.symm⟩ ((hrep lo hi).mp hr)⟩
  · exact Or.inl h'

/-- **C38** for every number that fits: `{n}`, `{n,}` and `{n,m}`.  *Sic*: `{n}` is
`0..n`. -/
theorem C38_numbers (n m : Nat) (hn : n ≤ usizeMax) :
    RepeatText ('{' :: (natStr n ++ ['}'])) 0 n ∧
    RepeatText ('{' :: (natStr n ++ [',', '}'])) n usizeMax ∧
    (n ≤ m → m ≤ usizeMax → RepeatText ('{' :: (natStr n ++ ',' :: (natStr m ++ ['}']))) n m) := by
  have nb : Blanks [] := fun _ h => nomatch h
  refine ⟨?_, ?_, fun h1 h2 => ?_⟩
  · have := RepeatText.upTo nb (numeral_natStr n) hn nb
    simpa using this
  · have := RepeatText.atLeast nb (numeral_natStr n) hn nb nb
    simpa using this
  · have := RepeatText.between nb (numeral_natStr n) nb nb (numeral_natStr m) h2 nb h1
    simpa using this

/-- C38, falsified part: no text that starts with `?` or with `{,` starts with a repeat
specifier. -/
theorem C38_no_maximum_only {x y w' : Str} {lo hi : Nat} (hx : x ++ y = '?' :: w' ∨ x ++ y = '{' :: ',' :: w') :
    ¬ RepeatText x lo hi := by
  intro h
  have nb : ∀ {b ds : Str} {n : Nat} {r : Str}, Blanks b → Numeral ds n → b ++ (ds ++ r) ≠ ',' :: w' := by
    intro b ds n r hb hd he
    refine head_or (P := fun c => c ≠ ',') (fun c hc e => ?_) (head_num hd fun c hc e => ?_) _ _ he rfl
    · subst e
      have := hb _ hc
      revert this
      decide
    · subst e
      revert hc
      decide
  rcases hx with hx | hx
  · cases h <;> cases hx
  · cases h with
    | any => cases hx
    | some => cases hx
    | atLeast h1 h2 =>
      rw [List.cons_append] at hx
      refine nb h1 h2 (r := _) ((by simp only [List.append_assoc]; rfl : _ = _).trans (List.cons.inj hx).2)
    | between h1 h2 =>
      rw [List.cons_append] at hx
      refine nb h1 h2 (r := _) ((by simp only [List.append_assoc]; rfl : _ = _).trans (List.cons.inj hx).2)
    | upTo h1 h2 =>
      rw [List.cons_append] at hx
      refine nb h1 h2 (r := _) ((by simp only [List.append_assoc]; rfl : _ = _).trans (List.cons.inj hx).2)
    | sloppy h1 h2 =>
      rw [List.cons_append] at hx
      refine nb h1 h2 (r := _) ((by simp only [List.append_assoc]; rfl : _ = _).trans (List.cons.inj hx).2)

/-- The matchers of a repeat specifier alone. -/
def specT : Table := fun i => ((specNodes Uni.ascii 0)[i]?).getD .null

theorem specT_made : Made specT (repeatSpecifier Uni.ascii) 20 :=
  ⟨[], specNodes Uni.ascii 0, specNodes_eq _ _, fun i n _ h => by unfold specT; rw [h]; rfl⟩

theorem specT_polite (m : MatcherId) : (specT m).Polite p := by
  unfold specT
  cases h : (specNodes Uni.ascii 0)[m]? with
  | none => trivial
  | some n =>
    have := List.mem_of_getElem? h
    simp only [specNodes, List.mem_cons, List.not_mem_nil, or_false] at this
    repeat' (rcases this with rfl | this)
    all_goals first | trivial | (subst this; trivial)

/-- Non-vacuity of C38: in front of other text, with blanks and two numbers. -/
theorem C38_text_example : ∃ t k s', Runs specT ⟨true⟩ 20 (Ctx.new ⟨"{ 2 , 15}x".toList, []⟩ 0 []) 0 ⟨[], [], [[]]⟩
    (.ok (.token t)) s' ∧ s'.toks[t]? = some k ∧ k.matched = ⟨0, 9⟩ ∧
    ∀ ns, getRepeatSpecifierRange t s'.toks ns = .ok (2, 15) ns := by
  have := (C38_text_iff (cfg := ⟨true⟩) (sc := 0) (s := ⟨[], [], [[]]⟩) (c := Ctx.new ⟨"{ 2 , 15}x".toList, []⟩ 0 [])
    (p := ⟨"{ 2 , 15}x".toList, []⟩) (w := "{ 2 , 15}x".toList) (stop := 10) (x := "{ 2 , 15}".toList) (lo := 2) (hi := 15)
    specT_polite specT_made (by unfold Ascii; decide) (by decide) ⟨rfl, rfl, rfl⟩ ⟨[], [], rfl, rfl, rfl⟩ (fun _ _ h => by simp at h)).mpr
    ⟨⟨['x'], rfl⟩, ?_⟩
  · exact this.2
  · have bl : Blanks [' '] := fun c h => by rw [List.mem_singleton.mp h]; exact Or.inl rfl
    exact RepeatText.between (b1 := [' ']) (ds := ['2']) (b2 := [' ']) (b3 := [' ']) (es := ['1', '5']) (b4 := [])
      (n := 2) (m := 15) bl (.digit (by decide)) bl bl (.more (.digit (by decide)) (by decide)) (by decide)
      (fun _ h => nomatch h) (by decide)

end

end Peg

end Adx
