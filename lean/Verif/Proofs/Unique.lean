import Verif.Proofs.Transport
import Verif.Props.Script
/-
  What tokens mean is determined by them.
-/
namespace Adx

variable {toks : List Token} {env : Env}

theorem Attrs.unique {cs : List TokId} {m m1 m2 : AMap Str} (h : Attrs toks cs m m1) (h' : Attrs toks cs m m2) : m1 = m2 := by
  induction h with
  | nil => cases h'; rfl
  | cons hk ha hak hb hbk _ ih =>
    cases h' with
    | cons hk' ha' hak' hb' hbk' h' =>
      cases hk.symm.trans hk'
      cases ha.symm.trans ha'
      cases hak.symm.trans hak'
      cases hb.symm.trans hb'
      cases hbk.symm.trans hbk'
      exact ih h'

theorem WithAttrs.unique {cs : List TokId} {g g1 g2 : Gram} (h : WithAttrs toks cs g g1) (h' : WithAttrs toks cs g g2) :
    g1 = g2 := by
  cases h with
  | none h =>
    cases h' with
    | none _ => rfl
    | empty h' => exact (h'.not_absent h).elim
    | some h' => exact (h'.not_absent h).elim
  | empty h hak he =>
    cases h' with
    | none h' => exact (h.not_absent h').elim
    | empty _ => rfl
    | some h' hak' he' =>
      cases h.unique h'
      cases hak.symm.trans hak'
      exact (he' he).elim
  | some h hak he hm =>
    cases h' with
    | none h' => exact (h.not_absent h').elim
    | empty h' hak' he' =>
      cases h.unique h'
      cases hak.symm.trans hak'
      exact (he he').elim
    | some h' hak' he' hm' =>
      cases h.unique h'
      cases hak.symm.trans hak'
      rw [hm.unique hm']

theorem WithRepeat.unique {cs : List TokId} {g g1 g2 : Gram} (h : WithRepeat toks cs g g1) (h' : WithRepeat toks cs g g2) :
    g1 = g2 := by
  cases h with
  | none h =>
    cases h' with
    | none _ => rfl
    | some h' _ => exact (h'.not_absent h).elim
  | some h hr =>
    cases h' with
    | none h' => exact (h.not_absent h').elim
    | some h' hr' =>
      cases h.unique h'
      obtain ⟨rfl, rfl⟩ := hr.unique hr'
      rfl

theorem RegexText.unique {k : Token} {v v' : Str} (h : RegexText toks k v) (h' : RegexText toks k v') : v = v' := by
  cases h with
  | plain h =>
    cases h' with
    | plain _ => rfl
    | flags h' _ => exact (h'.not_absent h).elim
  | flags h hf =>
    cases h' with
    | plain h' => exact (h.not_absent h').elim
    | flags h' hf' =>
      cases h.unique h'
      cases hf.symm.trans hf'
      rfl

theorem modified_congr {o o' n n' : Prop} [Decidable o] [Decidable o'] [Decidable n] [Decidable n'] (ho : o ↔ o')
    (hn : n ↔ n') (g : Gram) : g.modified o n = g.modified o' n' := by
  unfold Gram.modified
  by_cases h : o
  · rw [if_pos h, if_pos (ho.mp h)]
  · rw [if_neg h, if_neg fun h' => h (ho.mpr h')]
    by_cases h : n
    · rw [if_pos h, if_pos (hn.mp h)]
    · rw [if_neg h, if_neg fun h' => h (hn.mpr h')]

theorem name_ne {a b : String} {n : Str} (h : n = a.toList) (hab : a ≠ b) : n ≠ b.toList := by
  rw [h]
  exact fun hh => hab (String.toList_inj.mp hh)

mutual

theorem DescribesMatcher.unique {t : TokId} {g g' : Gram} :
    DescribesMatcher env toks t g → DescribesMatcher env toks t g' → g = g'
  | .equals hk hn hc hck hv, h' => by
    cases h' with
    | equals hk' _ hc' hck' _ =>
      cases hk.symm.trans hk'; cases hc.symm.trans hc'; cases hck.symm.trans hck'; rfl
    | regex hk' hn' => cases hk.symm.trans hk'; exact (name_ne hn (by decide) hn').elim
    | sequence hk' hn' => cases hk.symm.trans hk'; exact (name_ne hn (by decide) hn').elim
    | custom hk' hn' => cases hk.symm.trans hk'; exact (name_ne hn (by decide) hn').elim
    | empty hk' hn' => cases hk.symm.trans hk'; exact (hn'.elim (name_ne hn (by decide)) (name_ne hn (by decide))).elim
    | switch hk' hn' => cases hk.symm.trans hk'; exact (name_ne hn (by decide) hn').elim
    | program hk' hn' => cases hk.symm.trans hk'; exact (name_ne hn (by decide) hn').elim
  | .regex hk hn hv ht hr, h' => by
    cases h' with
    | regex hk' _ _ ht' hr' =>
      cases hk.symm.trans hk'; cases ht.unique ht'; cases hr.symm.trans hr'; rfl
    | equals hk' hn' => cases hk.symm.trans hk'; exact (name_ne hn (by decide) hn').elim
    | sequence hk' hn' => cases hk.symm.trans hk'; exact (name_ne hn (by decide) hn').elim
    | custom hk' hn' => cases hk.symm.trans hk'; exact (name_ne hn (by decide) hn').elim
    | empty hk' hn' => cases hk.symm.trans hk'; exact (hn'.elim (name_ne hn (by decide)) (name_ne hn (by decide))).elim
    | switch hk' hn' => cases hk.symm.trans hk'; exact (name_ne hn (by decide) hn').elim
    | program hk' hn' => cases hk.symm.trans hk'; exact (name_ne hn (by decide) hn').elim
  | .sequence hk hn ha hak hb hbk he hek hva hvb, h' => by
    cases h' with
    | sequence hk' _ ha' hak' hb' hbk' he' hek' =>
      cases hk.symm.trans hk'; cases ha.symm.trans ha'; cases hak.symm.trans hak'; cases hb.symm.trans hb'
      cases hbk.symm.trans hbk'; cases he.symm.trans he'; cases hek.symm.trans hek'; rfl
    | equals hk' hn' => cases hk.symm.trans hk'; exact (name_ne hn (by decide) hn').elim
    | regex hk' hn' => cases hk.symm.trans hk'; exact (name_ne hn (by decide) hn').elim
    | custom hk' hn' => cases hk.symm.trans hk'; exact (name_ne hn (by decide) hn').elim
    | empty hk' hn' => cases hk.symm.trans hk'; exact (hn'.elim (name_ne hn (by decide)) (name_ne hn (by decide))).elim
    | switch hk' hn' => cases hk.symm.trans hk'; exact (name_ne hn (by decide) hn').elim
    | program hk' hn' => cases hk.symm.trans hk'; exact (name_ne hn (by decide) hn').elim
  | .custom hk hn hc hck hv, h' => by
    cases h' with
    | custom hk' _ hc' hck' _ =>
      cases hk.symm.trans hk'; cases hc.symm.trans hc'; cases hck.symm.trans hck'; rfl
    | equals hk' hn' => cases hk.symm.trans hk'; exact (name_ne hn (by decide) hn').elim
    | regex hk' hn' => cases hk.symm.trans hk'; exact (name_ne hn (by decide) hn').elim
    | sequence hk' hn' => cases hk.symm.trans hk'; exact (name_ne hn (by decide) hn').elim
    | empty hk' hn' => cases hk.symm.trans hk'; exact (hn'.elim (name_ne hn (by decide)) (name_ne hn (by decide))).elim
    | switch hk' hn' => cases hk.symm.trans hk'; exact (name_ne hn (by decide) hn').elim
    | program hk' hn' => cases hk.symm.trans hk'; exact (name_ne hn (by decide) hn').elim
  | .empty hk hn hc, h' => by
    cases h' with
    | empty => rfl
    | equals hk' hn' => cases hk.symm.trans hk'; exact (hn.elim (name_ne hn' (by decide)) (name_ne hn' (by decide))).elim
    | regex hk' hn' => cases hk.symm.trans hk'; exact (hn.elim (name_ne hn' (by decide)) (name_ne hn' (by decide))).elim
    | sequence hk' hn' => cases hk.symm.trans hk'; exact (hn.elim (name_ne hn' (by decide)) (name_ne hn' (by decide))).elim
    | custom hk' hn' => cases hk.symm.trans hk'; exact (hn.elim (name_ne hn' (by decide)) (name_ne hn' (by decide))).elim
    | switch hk' _ hc' => cases hk.symm.trans hk'; exact (hc' hc).elim
    | program hk' _ hc' => cases hk.symm.trans hk'; exact (hc' hc).elim
  | .switch hk hn hc hs, h' => by
    have ih := fun gs' (h : DescribesAll env toks _ gs') => hs.unique h
    cases h' with
    | switch hk' _ _ hs' => cases hk.symm.trans hk'; rw [ih _ hs']
    | empty hk' _ hc' => cases hk.symm.trans hk'; exact (hc hc').elim
    | equals hk' hn' => cases hk.symm.trans hk'; exact (name_ne hn (by decide) hn').elim
    | regex hk' hn' => cases hk.symm.trans hk'; exact (name_ne hn (by decide) hn').elim
    | sequence hk' hn' => cases hk.symm.trans hk'; exact (name_ne hn (by decide) hn').elim
    | custom hk' hn' => cases hk.symm.trans hk'; exact (name_ne hn (by decide) hn').elim
    | program hk' hn' => cases hk.symm.trans hk'; exact (name_ne hn (by decide) hn').elim
  | .program hk hn hc hs, h' => by
    have ih := fun gs' (h : DescribesAll env toks _ gs') => hs.unique h
    cases h' with
    | program hk' _ _ hs' => cases hk.symm.trans hk'; rw [ih _ hs']
    | empty hk' _ hc' => cases hk.symm.trans hk'; exact (hc hc').elim
    | equals hk' hn' => cases hk.symm.trans hk'; exact (name_ne hn (by decide) hn').elim
    | regex hk' hn' => cases hk.symm.trans hk'; exact (name_ne hn (by decide) hn').elim
    | sequence hk' hn' => cases hk.symm.trans hk'; exact (name_ne hn (by decide) hn').elim
    | custom hk' hn' => cases hk.symm.trans hk'; exact (name_ne hn (by decide) hn').elim
    | switch hk' hn' => cases hk.symm.trans hk'; exact (name_ne hn (by decide) hn').elim
termination_by structural h => h

theorem DescribesAll.unique {ts : List TokId} {gs gs' : List Gram} :
    DescribesAll env toks ts gs → DescribesAll env toks ts gs' → gs = gs'
  | .nil, h' => by cases h'; rfl
  | .cons hp hs, h' => by
    have i1 := fun g' (h : DescribesPattern env toks _ g') => hp.unique h
    have i2 := fun gs' (h : DescribesAll env toks _ gs') => hs.unique h
    cases h' with
    | cons hp' hs' => rw [i1 _ hp', i2 _ hs']
termination_by structural h => h

theorem DescribesDefinition.unique {t : TokId} {name : Str} {g g' : Gram} :
    DescribesDefinition env toks t name g → DescribesDefinition env toks t name g' → g = g'
  | @DescribesDefinition.mk _ _ _ _ _ _ _ _ _ hk hn hm hd ha _ _ _ _ ho hx hr _ _ _ _ ho' hx', h' => by
    have ih := fun g' (h : DescribesMatcher env toks _ g') => hd.unique h
    cases h' with
    | mk k1 n1 m1 d1 a1 o1 x1 r1 o1' x1' =>
      cases hk.symm.trans k1
      cases hm.unique m1
      cases ih _ d1
      cases ha.unique a1
      rw [modified_congr (o1.trans ho.symm) (x1.trans hx.symm)] at r1
      cases hr.unique r1
      exact modified_congr (ho'.trans o1'.symm) (hx'.trans x1'.symm) _
termination_by structural h => h

theorem DescribesPattern.unique {t : TokId} {g g' : Gram} :
    DescribesPattern env toks t g → DescribesPattern env toks t g' → g = g'
  | .plain hk hn hd, h' => by
    have ih := fun g' (h : DescribesDefinition env toks _ _ g') => hd.unique h
    cases h' with
    | plain hk' hn' hd' => rw [ih _ hd']
    | captured hk' hn' => cases hk.symm.trans hk'; exact (name_ne hn (by decide) hn').elim
    | named hk' hn' => cases hk.symm.trans hk'; exact (name_ne hn (by decide) hn').elim
  | .captured hk hn hm hd h, h' => by
    have ih := fun g' (h' : DescribesDefinition env toks _ _ g') => h.unique h'
    cases h' with
    | plain hk' hn' => cases hk.symm.trans hk'; exact (name_ne hn (by decide) hn').elim
    | captured hk' _ _ hd' h' =>
      cases hk.symm.trans hk'; cases hd.symm.trans hd'; exact ih _ h'
    | named hk' _ hm' => cases hk.symm.trans hk'; exact (hm'.not_absent hm).elim
  | .named hk hn hm hnk hc hck hd h, h' => by
    have ih := fun g' (h' : DescribesDefinition env toks _ _ g') => h.unique h'
    cases h' with
    | plain hk' hn' => cases hk.symm.trans hk'; exact (name_ne hn (by decide) hn').elim
    | captured hk' _ hm' => cases hk.symm.trans hk'; exact (hm.not_absent hm').elim
    | named hk' _ hm' hnk' hc' hck' hd' h' =>
      cases hk.symm.trans hk'; cases hm.unique hm'; cases hnk.symm.trans hnk'; cases hc.symm.trans hc'
      cases hck.symm.trans hck'; cases hd.symm.trans hd'; exact ih _ h'
termination_by structural h => h

end

theorem ScopeMeans.unique {cs : List TokId} {gs gs' : List Gram} (h : ScopeMeans env toks cs gs)
    (h' : ScopeMeans env toks cs gs') : gs = gs' := by
  induction h generalizing gs' with
  | nil => cases h'; rfl
  | pattern hk hn hd _ ih =>
    cases h' with
    | pattern hk' hn' hd' hs' => rw [hd.unique hd', ih hs']
    | other hk' hn' => cases hk.symm.trans hk'; exact (hn' hn).elim
  | other hk hn _ ih =>
    cases h' with
    | pattern hk' hn' => cases hk.symm.trans hk'; exact (hn hn').elim
    | other _ _ hs' => exact ih hs'

theorem ItemMeans.unique {x : TokId} {gs gs' : List Gram} {bs bs' : List (Str × Gram)} (h : ItemMeans env toks x gs bs)
    (h' : ItemMeans env toks x gs' bs') : gs = gs' ∧ bs = bs' := by
  cases h with
  | error hk hn _ =>
    cases h' with
    | error => exact ⟨rfl, rfl⟩
    | scope hk' hn' => cases hk.symm.trans hk'; exact (name_ne hn (by decide) hn').elim
    | «alias» hk' hn' => cases hk.symm.trans hk'; exact (name_ne hn (by decide) hn').elim
    | definition hk' hn' => cases hk.symm.trans hk'; exact (name_ne hn (by decide) hn').elim
    | otherValue => exact ⟨rfl, rfl⟩
    | other => exact ⟨rfl, rfl⟩
  | scope hk hn hs =>
    cases h' with
    | scope hk' _ hs' => cases hk.symm.trans hk'; rw [hs.unique hs']; exact ⟨rfl, rfl⟩
    | error hk' hn' => cases hk.symm.trans hk'; exact (name_ne hn (by decide) hn').elim
    | «alias» hk' hn' => cases hk.symm.trans hk'; exact (name_ne hn (by decide) hn').elim
    | definition hk' hn' => cases hk.symm.trans hk'; exact (name_ne hn (by decide) hn').elim
    | otherValue hk' hn' => cases hk.symm.trans hk'; exact (name_ne hn (by decide) hn').elim
    | other hk' _ hn' => cases hk.symm.trans hk'; exact (hn' hn).elim
  | «alias» hk hn ha hak hv hvk hvn =>
    cases h' with
    | scope hk' hn' => cases hk.symm.trans hk'; exact (name_ne hn (by decide) hn').elim
    | error hk' hn' => cases hk.symm.trans hk'; exact (name_ne hn (by decide) hn').elim
    | «alias» hk' _ ha' hak' =>
      cases hk.symm.trans hk'; cases ha.symm.trans ha'; cases hak.symm.trans hak'; exact ⟨rfl, rfl⟩
    | definition hk' _ _ _ hv' hvk' hvn' =>
      cases hk.symm.trans hk'; cases hv.symm.trans hv'; cases hvk.symm.trans hvk'
      exact (name_ne hvn (by decide) hvn').elim
    | otherValue hk' _ _ _ hv' hvk' hvn' =>
      cases hk.symm.trans hk'; cases hv.symm.trans hv'; cases hvk.symm.trans hvk'; exact (hvn' hvn).elim
    | other hk' _ _ hn' => cases hk.symm.trans hk'; exact (hn' hn).elim
  | definition hk hn ha hak hv hvk hvn hd =>
    cases h' with
    | scope hk' hn' => cases hk.symm.trans hk'; exact (name_ne hn (by decide) hn').elim
    | error hk' hn' => cases hk.symm.trans hk'; exact (name_ne hn (by decide) hn').elim
    | «alias» hk' _ _ _ hv' hvk' hvn' =>
      cases hk.symm.trans hk'; cases hv.symm.trans hv'; cases hvk.symm.trans hvk'
      exact (name_ne hvn (by decide) hvn').elim
    | definition hk' _ ha' hak' hv' hvk' hvn' hd' =>
      cases hk.symm.trans hk'; cases ha.symm.trans ha'; cases hak.symm.trans hak'; cases hv.symm.trans hv'
      rw [hd.unique hd']; exact ⟨rfl, rfl⟩
    | otherValue hk' _ _ _ hv' hvk' _ hvn' =>
      cases hk.symm.trans hk'; cases hv.symm.trans hv'; cases hvk.symm.trans hvk'; exact (hvn' hvn).elim
    | other hk' _ _ hn' => cases hk.symm.trans hk'; exact (hn' hn).elim
  | otherValue hk hn ha hak hv hvk hvn hvn2 =>
    cases h' with
    | scope hk' hn' => cases hk.symm.trans hk'; exact (name_ne hn (by decide) hn').elim
    | error hk' hn' => exact ⟨rfl, rfl⟩
    | «alias» hk' _ _ _ hv' hvk' hvn' =>
      cases hk.symm.trans hk'; cases hv.symm.trans hv'; cases hvk.symm.trans hvk'; exact (hvn hvn').elim
    | definition hk' _ ha' hak' hv' hvk' hvn' hd' =>
      cases hk.symm.trans hk'; cases hv.symm.trans hv'; cases hvk.symm.trans hvk'; exact (hvn2 hvn').elim
    | otherValue => exact ⟨rfl, rfl⟩
    | other => exact ⟨rfl, rfl⟩
  | other hk he hs ha hi =>
    cases h' with
    | scope hk' hn' => cases hk.symm.trans hk'; exact (hs hn').elim
    | error => exact ⟨rfl, rfl⟩
    | «alias» hk' hn' => cases hk.symm.trans hk'; exact (ha hn').elim
    | definition hk' hn' => cases hk.symm.trans hk'; exact (ha hn').elim
    | otherValue => exact ⟨rfl, rfl⟩
    | other => exact ⟨rfl, rfl⟩

theorem ScriptMeans.unique {l : List TokId} {gs gs' : List Gram} {bs bs' : List (Str × Gram)}
    (h : ScriptMeans env toks l gs bs) (h' : ScriptMeans env toks l gs' bs') : gs = gs' ∧ bs = bs' := by
  induction h generalizing gs' bs' with
  | nil => cases h'; exact ⟨rfl, rfl⟩
  | cons h _ ih =>
    cases h' with
    | cons h' hs' =>
      obtain ⟨rfl, rfl⟩ := h.unique h'
      obtain ⟨rfl, rfl⟩ := ih hs'
      exact ⟨rfl, rfl⟩

theorem ImportNames.unique {c : TokId} {a b a' b' : Str} (h : ImportNames toks c a b) (h' : ImportNames toks c a' b') :
    a = a' ∧ b = b' := by
  cases h with
  | plain hk hi hik ha =>
    cases h' with
    | plain hk' hi' hik' _ =>
      cases hk.symm.trans hk'; cases hi.unique hi'; cases hik.symm.trans hik'; exact ⟨rfl, rfl⟩
    | renamed hk' hi' hik' ha' => cases hk.symm.trans hk'; exact (ha'.not_absent ha).elim
  | renamed hk hi hik ha hak =>
    cases h' with
    | plain hk' hi' hik' ha' => cases hk.symm.trans hk'; exact (ha.not_absent ha').elim
    | renamed hk' hi' hik' ha' hak' =>
      cases hk.symm.trans hk'; cases hi.unique hi'; cases hik.symm.trans hik'; cases ha.unique ha'
      cases hak.symm.trans hak'; exact ⟨rfl, rfl⟩

theorem Imports.unique {t : Nat} {gs : List Gram} {bs : List (Str × Thing)} {n n' cur : Str} {cs : List TokId}
    {ths ths' : List (Str × Thing)} (h : Imports toks t gs bs n cur cs ths) (h' : Imports toks t gs bs n' cur cs ths') :
    n = n' ∧ ths = ths' := by
  induction h generalizing ths' with
  | nil => cases h'; exact ⟨rfl, rfl⟩
  | root h hn _ ih =>
    cases h' with
    | root h' hn' hs' =>
      obtain ⟨-, rfl⟩ := h.unique h'
      obtain ⟨rfl, rfl⟩ := ih hs'
      exact ⟨rfl, rfl⟩
    | member h' hn' => exact (hn' (h.unique h').1.symm).elim
  | member h hn _ _ ih =>
    cases h' with
    | root h' => exact (hn (h.unique h').1).elim
    | member h' hn' _ hs' =>
      obtain ⟨rfl, rfl⟩ := h.unique h'
      obtain ⟨rfl, rfl⟩ := ih hs'
      exact ⟨rfl, rfl⟩

end Adx
