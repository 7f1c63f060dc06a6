import Verif.Spec.Import
import Verif.Proofs.Construct
/-
  What tokens mean depends only on them and the tokens below them.
-/
namespace Adx

/-- The heaps have the same tokens in `l`, and the children of these are in `l`. -/
structure SameOn (l : List TokId) (toks toks' : List Token) : Prop where
  same : ∀ x ∈ l, toks'[x]? = toks[x]?
  closed : ∀ x ∈ l, ∀ k, toks[x]? = some k → ∀ c ∈ k.children, c ∈ l

variable {l : List TokId} {toks toks' : List Token} {env : Env}

namespace SameOn

theorem symm (h : SameOn l toks toks') : SameOn l toks' toks :=
  ⟨fun x hx => (h.same x hx).symm, fun x hx k hk => h.closed x hx k (by rw [← h.same x hx]; exact hk)⟩

theorem at_ (h : SameOn l toks toks') {x : TokId} {k : Token} (hx : x ∈ l) (hk : toks[x]? = some k) :
    toks'[x]? = some k := by rw [h.same x hx]; exact hk

theorem nameAt (h : SameOn l toks toks') {x : TokId} (hx : x ∈ l) : nameAt toks' x = nameAt toks x := by
  unfold Adx.nameAt
  rw [h.same x hx]

theorem first (h : SameOn l toks toks') {names : List String} {cs : List TokId} {c : TokId}
    (hcs : ∀ c ∈ cs, c ∈ l) (hf : First toks names cs c) : First toks' names cs c := by
  obtain ⟨b, a, rfl, ⟨n, hn, h1⟩, h2⟩ := hf
  refine ⟨b, a, rfl, ⟨n, hn, by rw [h.nameAt (hcs c (by simp))]; exact h1⟩, ?_⟩
  intro d hd n hn
  rw [h.nameAt (hcs d (by simp [hd]))]
  exact h2 d hd n hn

theorem absent (h : SameOn l toks toks') {names : List String} {cs : List TokId}
    (hcs : ∀ c ∈ cs, c ∈ l) (hf : Absent toks names cs) : Absent toks' names cs := by
  intro b hb n hn
  rw [h.nameAt (hcs b hb)]
  exact hf b hb n hn

theorem absent_iff (h : SameOn l toks toks') {names : List String} {cs : List TokId}
    (hcs : ∀ c ∈ cs, c ∈ l) : Absent toks' names cs ↔ Absent toks names cs :=
  ⟨h.symm.absent hcs, h.absent hcs⟩

theorem repeats (h : SameOn l toks toks') {t : TokId} {lo hi : Nat} (ht : t ∈ l)
    (hr : Repeats toks t lo hi) : Repeats toks' t lo hi := by
  cases hr with
  | any hk hn => exact .any (h.at_ ht hk) hn
  | some hk hn => exact .some (h.at_ ht hk) hn
  | upTo hk hn ha hak hs h1 =>
    have hc := h.closed t ht _ hk
    exact .upTo (h.at_ ht hk) hn (h.first hc ha) (h.at_ (hc _ ha.mem) hak) (h.absent hc hs) h1
  | atLeast hk hn ha hak hs hm h1 =>
    have hc := h.closed t ht _ hk
    exact .atLeast (h.at_ ht hk) hn (h.first hc ha) (h.at_ (hc _ ha.mem) hak)
      (fun h' => hs ((h.absent_iff hc).mp h')) (h.absent hc hm) h1
  | between hk hn ha hak hs hb hbk h1 h2 hle =>
    have hc := h.closed t ht _ hk
    exact .between (h.at_ ht hk) hn (h.first hc ha) (h.at_ (hc _ ha.mem) hak)
      (fun h' => hs ((h.absent_iff hc).mp h')) (h.first hc hb) (h.at_ (hc _ hb.mem) hbk) h1 h2 hle

theorem attrs (h : SameOn l toks toks') {cs : List TokId} {m m' : AMap Str} (hcs : ∀ c ∈ cs, c ∈ l)
    (ha : Attrs toks cs m m') : Attrs toks' cs m m' := by
  induction ha with
  | nil => exact .nil
  | @cons c cs k a ak b bk m m' hk ha hak hb hbk _ ih =>
    have hc := h.closed _ (hcs c (by simp)) _ hk
    exact .cons (h.at_ (hcs _ (by simp)) hk) ha (h.at_ (hc _ (List.mem_of_getElem? ha)) hak) hb
      (h.at_ (hc _ (List.mem_of_getElem? hb)) hbk) (ih fun c hc => hcs c (by simp [hc]))

theorem withAttrs (h : SameOn l toks toks') {cs : List TokId} {g g' : Gram} (hcs : ∀ c ∈ cs, c ∈ l)
    (ha : WithAttrs toks cs g g') : WithAttrs toks' cs g g' := by
  cases ha with
  | none ha => exact .none (h.absent hcs ha)
  | empty ha hak he => exact .empty (h.first hcs ha) (h.at_ (hcs _ ha.mem) hak) he
  | some ha hak he hm =>
    exact .some (h.first hcs ha) (h.at_ (hcs _ ha.mem) hak) he
      (h.attrs (h.closed _ (hcs _ ha.mem) _ hak) hm)

theorem withRepeat (h : SameOn l toks toks') {cs : List TokId} {g g' : Gram} (hcs : ∀ c ∈ cs, c ∈ l)
    (ha : WithRepeat toks cs g g') : WithRepeat toks' cs g g' := by
  cases ha with
  | none ha => exact .none (h.absent hcs ha)
  | some ha hr => exact .some (h.first hcs ha) (h.repeats (hcs _ ha.mem) hr)

theorem regexText (h : SameOn l toks toks') {k : Token} {v : Str} (hcs : ∀ c ∈ k.children, c ∈ l)
    (ha : RegexText toks k v) : RegexText toks' k v := by
  cases ha with
  | plain ha => exact .plain (h.absent hcs ha)
  | flags ha hf => exact .flags (h.first hcs ha) (h.at_ (hcs _ ha.mem) hf)

end SameOn

mutual

theorem DescribesMatcher.transport {t : TokId} {g : Gram} :
    DescribesMatcher env toks t g → SameOn l toks toks' → t ∈ l → DescribesMatcher env toks' t g
  | .equals hk hn hc hck hv, h, ht =>
    .equals (h.at_ ht hk) hn hc (h.at_ (h.closed _ ht _ hk _ (List.mem_of_getElem? hc)) hck) hv
  | .regex hk hn hv htx hr, h, ht =>
    .regex (h.at_ ht hk) hn hv (h.regexText (h.closed _ ht _ hk) htx) hr
  | .sequence hk hn ha hak hb hbk he hek hva hvb, h, ht =>
    have hc := h.closed _ ht _ hk
    .sequence (h.at_ ht hk) hn ha (h.at_ (hc _ (List.mem_of_getElem? ha)) hak) hb
      (h.at_ (hc _ (List.mem_of_getElem? hb)) hbk) he (h.at_ (hc _ (List.mem_of_getElem? he)) hek) hva hvb
  | .custom hk hn hc hck hv, h, ht =>
    .custom (h.at_ ht hk) hn hc (h.at_ (h.closed _ ht _ hk _ (List.mem_of_getElem? hc)) hck) hv
  | .empty hk hn hc, h, ht => .empty (h.at_ ht hk) hn hc
  | .switch hk hn hc hs, h, ht => .switch (h.at_ ht hk) hn hc (hs.transport h (h.closed _ ht _ hk))
  | .program hk hn hc hs, h, ht => .program (h.at_ ht hk) hn hc (hs.transport h (h.closed _ ht _ hk))

theorem DescribesAll.transport {ts : List TokId} {gs : List Gram} :
    DescribesAll env toks ts gs → SameOn l toks toks' → (∀ t ∈ ts, t ∈ l) →
      DescribesAll env toks' ts gs
  | .nil, _, _ => .nil
  | .cons hp hs, h, ht =>
    .cons (hp.transport h (ht _ List.mem_cons_self))
      (hs.transport h fun t hx => ht t (List.mem_cons_of_mem _ hx))

theorem DescribesDefinition.transport {t : TokId} {name : Str} {g : Gram} :
    DescribesDefinition env toks t name g → SameOn l toks toks' → t ∈ l →
      DescribesDefinition env toks' t name g
  | @DescribesDefinition.mk _ _ _ _ _ _ _ _ _ hk hn hm hd ha _ _ _ _ ho hx hr _ _ _ _ ho' hx', h, ht =>
    have hc := h.closed _ ht _ hk
    .mk (h.at_ ht hk) hn (h.first hc hm) (hd.transport h (hc _ hm.mem)) (h.withAttrs hc ha)
      (ho.trans (not_congr (h.absent_iff hc).symm)) (hx.trans (not_congr (h.absent_iff hc).symm))
      (h.withRepeat hc hr) (ho'.trans (not_congr (h.absent_iff hc).symm))
      (hx'.trans (not_congr (h.absent_iff hc).symm))

theorem DescribesPattern.transport {t : TokId} {g : Gram} :
    DescribesPattern env toks t g → SameOn l toks toks' → t ∈ l → DescribesPattern env toks' t g
  | .plain hk hn hd, h, ht => .plain (h.at_ ht hk) hn (hd.transport h ht)
  | .captured hk hn hm hd hx, h, ht =>
    have hc := h.closed _ ht _ hk
    .captured (h.at_ ht hk) hn (h.absent hc hm) hd (hx.transport h (hc _ (List.mem_of_getElem? hd)))
  | .named hk hn hm hnk hcc hck hd hx, h, ht =>
    have hc := h.closed _ ht _ hk
    .named (h.at_ ht hk) hn (h.first hc hm) (h.at_ (hc _ hm.mem) hnk) hcc
      (h.at_ (h.closed _ (hc _ hm.mem) _ hnk _ (List.mem_of_getElem? hcc)) hck) hd
      (hx.transport h (hc _ (List.mem_of_getElem? hd)))

end

theorem ScopeMeans.transport {cs : List TokId} {gs : List Gram} (hs : ScopeMeans env toks cs gs)
    (h : SameOn l toks toks') (hcs : ∀ c ∈ cs, c ∈ l) : ScopeMeans env toks' cs gs := by
  induction hs with
  | nil => exact .nil
  | @pattern c cs k g gs hk hn hd _ ih =>
    exact .pattern (h.at_ (hcs c (by simp)) hk) hn (hd.transport h (hcs c (by simp)))
      (ih fun c hc => hcs c (by simp [hc]))
  | @other c cs k gs hk hn _ ih =>
    exact .other (h.at_ (hcs c (by simp)) hk) hn (ih fun c hc => hcs c (by simp [hc]))

theorem ItemMeans.transport {x : TokId} {gs : List Gram} {bs : List (Str × Gram)}
    (hi : ItemMeans env toks x gs bs) (h : SameOn l toks toks') (hx : x ∈ l) :
    ItemMeans env toks' x gs bs := by
  have hch : ∀ {k : Token} {i : Nat} {c : TokId}, toks[x]? = some k → k.children[i]? = some c → c ∈ l :=
    fun hk hc => h.closed _ hx _ hk _ (List.mem_of_getElem? hc)
  cases hi with
  | error hk hn hm => exact .error (h.at_ hx hk) hn hm
  | scope hk hn hs => exact .scope (h.at_ hx hk) hn (hs.transport h (h.closed _ hx _ hk))
  | alias hk hn ha hak hv hvk hvn =>
    exact .alias (h.at_ hx hk) hn ha (h.at_ (hch hk ha) hak) hv (h.at_ (hch hk hv) hvk) hvn
  | definition hk hn ha hak hv hvk hvn hd =>
    exact .definition (h.at_ hx hk) hn ha (h.at_ (hch hk ha) hak) hv (h.at_ (hch hk hv) hvk) hvn
      (hd.transport h (hch hk hv))
  | otherValue hk hn ha hak hv hvk hvn hvn' =>
    exact .otherValue (h.at_ hx hk) hn ha (h.at_ (hch hk ha) hak) hv (h.at_ (hch hk hv) hvk) hvn hvn'
  | other hk he hs ha hi => exact .other (h.at_ hx hk) he hs ha hi

theorem ImportNames.transport {c : TokId} {ident name : Str} (hi : ImportNames toks c ident name)
    (h : SameOn l toks toks') (hc : c ∈ l) : ImportNames toks' c ident name := by
  cases hi with
  | plain hk hi hik ha =>
    have hcl := h.closed _ hc _ hk
    exact .plain (h.at_ hc hk) (h.first hcl hi) (h.at_ (hcl _ hi.mem) hik) (h.absent hcl ha)
  | renamed hk hi hik ha hak =>
    have hcl := h.closed _ hc _ hk
    exact .renamed (h.at_ hc hk) (h.first hcl hi) (h.at_ (hcl _ hi.mem) hik) (h.first hcl ha)
      (h.at_ (hcl _ ha.mem) hak)

theorem Imports.transport {t : Nat} {gs : List Gram} {bs ths : List (Str × Thing)} {n cur : Str} {cs : List TokId}
    (hi : Imports toks t gs bs n cur cs ths) (h : SameOn l toks toks') (hcs : ∀ c ∈ cs, c ∈ l) :
    Imports toks' t gs bs n cur cs ths := by
  induction hi with
  | nil => exact .nil
  | @root cur c cs name ths hi hn _ ih =>
    exact .root (hi.transport h (hcs c (by simp))) hn (ih fun c hc => hcs c (by simp [hc]))
  | @member cur c cs ident name th ths hi hn hd _ ih =>
    exact .member (hi.transport h (hcs c (by simp))) hn hd (ih fun c hc => hcs c (by simp [hc]))

end Adx
