import Verif.Proofs.TotalTop
import Verif.Spec.Total
import Verif.Props.Gather
/-
  The shape of the tokens of a script, after errors have been gathered.
-/
namespace Adx

/-- What is below a token is in every set that is closed. -/
theorem Pre.inside {toks : List Token} {ts l : List TokId} (h : Pre toks ts l) {L : TokId → Prop} (hr : ∀ t ∈ ts, L t)
    (hc : ∀ u, L u → ∀ k, toks[u]? = some k → ∀ c ∈ k.children, L c) : ∀ u ∈ l, L u := by
  induction h with
  | nil => exact fun u hu => by cases hu
  | @cons t k ts l l' hk _ _ ih1 ih2 =>
    intro u hu
    rcases List.mem_cons.mp hu with rfl | hu
    · exact hr _ (List.mem_cons_self ..)
    · rcases List.mem_append.mp hu with hu | hu
      · exact ih1 (hc t (hr _ (List.mem_cons_self ..)) k hk) u hu
      · exact ih2 (fun t ht => hr t (List.mem_cons_of_mem _ ht)) u hu

theorem Buried.within {toks : List Token} {ts es : List TokId} (h : Buried toks ts es) : ∀ {l}, Pre toks ts l → ∀ e ∈ es, e ∈ l := by
  induction h with
  | nil => exact fun _ e he => by cases he
  | @cons t k ts es es' hk _ _ ih1 ih2 =>
    intro l hp e he
    cases hp with
    | @cons _ k' _ l1 l2 hk' hc hs =>
      cases hk.symm.trans hk'
      rcases List.mem_append.mp he with he | he
      · rcases List.mem_append.mp he with he | he
        · exact List.mem_cons_of_mem _ (List.mem_append_left _ (ih1 hc e he))
        · exact List.mem_cons_of_mem _ (List.mem_append_left _ (hc.roots e (List.mem_filter.mp he).1))
      · exact List.mem_cons_of_mem _ (List.mem_append_right _ (ih2 hs e he))

namespace Read

variable {E : Setting} {toks toks' : List Token} {lo : Nat} {ts l : List TokId} {trees : List Tr}

/-- The tree of a token. -/
theorem Reps.find (h : Reps E toks lo ts trees) : ∀ {l}, Pre toks ts l → (∀ t ∈ trees, Well t) →
    ∀ u ∈ l, ∃ k ks, toks[u]? = some k ∧ Plain E k ∧ Reps E toks (u + 1) k.children ks ∧ Fit k.info ks := by
  induction h with
  | nil =>
    intro l hp _ u hu
    cases hp
    cases hu
  | @cons lo t k ts cs trees hl hk hpl hc hr ih1 ih2 =>
    intro l hp hw u hu
    cases hp with
    | @cons _ k' _ l1 l2 hk' hc' hs' =>
      cases hk.symm.trans hk'
      have hwt := hw _ (List.mem_cons_self ..)
      rcases List.mem_cons.mp hu with rfl | hu
      · exact ⟨k, cs, hk, hpl, hc, hwt.fit⟩
      · rcases List.mem_append.mp hu with hu | hu
        · exact ih1 hc' hwt.kids u hu
        · exact ih2 hs' (fun t ht => hw t (List.mem_cons_of_mem _ ht)) u hu

/-- The children that are left. -/
theorem Reps.left (h : Reps E toks lo ts trees) :
    (ts.filter fun c => ! isErrorTok toks c).length = (solid trees).length ∧
    (∀ t ∈ solid trees, ∃ c ∈ ts.filter fun c => ! isErrorTok toks c, nameAt toks c = some t.name) ∧
    (∀ c ∈ ts, ∃ t ∈ trees, nameAt toks c = some t.name) := by
  induction h with
  | nil => exact ⟨rfl, (fun t h => by cases h), fun t h => by cases h⟩
  | @cons lo t k ts cs trees hl hk hpl hc hr ih1 ih2 =>
    obtain ⟨a1, a2, a3⟩ := ih2
    have hn : nameAt toks t = some (Tr.node k.info cs).name := nameAt_of hk
    have h3 : ∀ c ∈ t :: ts, ∃ tr ∈ Tr.node k.info cs :: trees, nameAt toks c = some tr.name := by
      intro c hc
      rcases List.mem_cons.mp hc with rfl | hc
      · exact ⟨_, List.mem_cons_self .., hn⟩
      · obtain ⟨tr, h1, h2⟩ := a3 c hc
        exact ⟨tr, List.mem_cons_of_mem _ h1, h2⟩
    rcases hpl.flags with hf | ⟨-, hf⟩
    · have e1 : isErrorTok toks t = false := by
        rw [isErrorTok_eq hk]
        unfold Token.flagsEnabled
        rw [hf]
        decide
      have e2 : decide ((Tr.node k.info cs).info.flags = 0) = true := decide_eq_true hf
      refine ⟨?_, ?_, h3⟩
      · unfold solid at *
        rw [List.filter_cons, List.filter_cons, e1, e2]
        simp only [Bool.not_false, if_true, List.length_cons]
        rw [a1]
      · intro tr htr
        unfold solid at *
        rw [List.filter_cons, e2] at htr
        rw [List.filter_cons, e1]
        simp only [Bool.not_false, if_true] at htr ⊢
        rcases List.mem_cons.mp htr with rfl | htr
        · exact ⟨t, List.mem_cons_self .., hn⟩
        · obtain ⟨c, h1, h2⟩ := a2 tr htr
          exact ⟨c, List.mem_cons_of_mem _ h1, h2⟩
    · have e1 : isErrorTok toks t = true := by
        rw [isErrorTok_eq hk]
        unfold Token.flagsEnabled
        rw [hf.flags]
        decide
      have e2 : decide ((Tr.node k.info cs).info.flags = 0) = false := decide_eq_false (by
        show k.flags ≠ 0
        rw [hf.flags]
        decide)
      refine ⟨?_, ?_, h3⟩
      · unfold solid at *
        rw [List.filter_cons, List.filter_cons, e1, e2]
        simpa using a1
      · intro tr htr
        unfold solid at *
        rw [List.filter_cons, e2] at htr
        rw [List.filter_cons, e1]
        simpa using a2 tr (by simpa using htr)

theorem rule (j : Nat) {n : String} {f : Info → List Tr → Prop} (hr : shapeRules[j]? = some (n, f)) {k : Token} {ks : List Tr}
    (h : Fit k.info ks) (hn : k.name = n.toList) : f k.info ks := h _ (List.mem_of_getElem? hr) hn

/-- A token looks as it should, without the errors among its children. -/
theorem Reps.sound {k : Token} {ks : List Tr} (hpl : Plain E k) (hk : Reps E toks lo k.children ks) (hf : Fit k.info ks)
    (hn : ∀ c, nameAt toks' c = nameAt toks c) :
    Sound E.p.src toks' { k with children := k.children.filter fun c => ! isErrorTok toks c } := by
  obtain ⟨h1, h2, h3⟩ := hk.left
  have hlen : ∀ {m : Nat}, m ≤ (solid ks).length → m ≤ (k.children.filter fun c => ! isErrorTok toks c).length := by
    intro m hm
    rw [h1]
    exact hm
  have hhas : ∀ {n : String}, (∃ t ∈ solid ks, t.name = n.toList) →
      HasNamed toks' { k with children := k.children.filter fun c => ! isErrorTok toks c } n := by
    rintro n ⟨t, ht, hn'⟩
    obtain ⟨c, c1, c2⟩ := h2 t ht
    exact ⟨c, c1, by rw [hn, c2, hn']⟩
  have hall : ∀ {n : String}, (∀ t ∈ ks, t.name = n.toList) →
      AllNamed toks' { k with children := k.children.filter fun c => ! isErrorTok toks c } n := by
    intro n hall c hc
    obtain ⟨t, t1, t2⟩ := h3 c (List.mem_filter.mp hc).1
    rw [hn, t2, hall t t1]
  refine ⟨hpl.inside, fun he => ?_, fun he => hlen (rule 1 rfl hf he), fun he => hlen (rule 2 rfl hf he), fun he => hlen (rule 3 rfl hf he),
    fun he => hlen (rule 4 rfl hf he), fun he => ?_, fun he => hlen (rule 6 rfl hf he), fun he => hall (rule 7 rfl hf he),
    fun he => hhas (rule 8 rfl hf he), fun he => hlen (rule 9 rfl hf he), fun he => ?_, fun he => hall (rule 11 rfl hf he),
    fun he => hhas (rule 12 rfl hf he)⟩
  · have := rule 0 rfl hf he
    rcases hpl.flags with h | ⟨-, h⟩
    · exact (this h).elim
    · exact Option.isSome_iff_exists.mp h.message
  · obtain ⟨r1, r2⟩ := rule 5 rfl hf he
    refine ⟨hlen r1, fun ⟨c, hc, hcn⟩ => hlen (r2 ?_)⟩
    obtain ⟨t, t1, t2⟩ := h3 c (List.mem_filter.mp hc).1
    rw [hn, t2] at hcn
    exact ⟨t, t1, Option.some.inj hcn⟩
  · obtain ⟨r1, r2⟩ := rule 10 rfl hf he
    exact ⟨hhas r1, hhas r2⟩

/-- Gathering errors makes the tokens of a tree sound. -/
theorem Reps.gathered {s : State} {t : TokId} {tree : Tr} (h : Reps E s.toks lo [t] [tree]) (hw : Well tree)
    (hname : tree.name = "Script".toList ∨ tree.name = errorName) {l : List TokId} (hp : Pre s.toks [t] l) (hn : l.Nodup) :
    ∃ s' k, collectErrorsTop t s = .ok () s' ∧ s'.toks[t]? = some k ∧ k.name = tree.name ∧
      ∀ l', Pre s'.toks [t] l' → ∀ u ∈ l', ∀ j, s'.toks[u]? = some j → Sound E.p.src s'.toks j := by
  cases hp with
  | @cons _ k _ l1 l2 hk hc hs =>
    cases hs
    rw [List.append_nil] at *
    obtain ⟨es, s', hb, hrun, -, -, g3, g4, g5, g6⟩ := C23_gather hk hc hn
    obtain ⟨k', -, hk', hpl, hi, hch⟩ := h.root
    cases hk.symm.trans hk'
    have hkn : k.name = tree.name := congrArg Info.name hi
    refine ⟨s', _, hrun, g4, hkn, fun l' hp' => ?_⟩
    have hl' : ∀ u ∈ l', u = t ∨ u ∈ l1 := by
      refine hp'.inside (fun u hu => Or.inl (List.mem_singleton.mp hu)) fun u hu j hj c hcj => Or.inr ?_
      by_cases hut : u = t
      · subst hut
        rw [g4] at hj
        cases hj
        rcases List.mem_append.mp hcj with hcj | hcj
        · exact hc.roots c hcj
        · exact hb.within hc c hcj
      · have hu := hu.resolve_left hut
        obtain ⟨j0, hj0⟩ : ∃ j0, s.toks[u]? = some j0 := ⟨_, List.getElem?_eq_getElem (hc.valid u hu)⟩
        rw [g5 u hu _ hj0] at hj
        cases hj
        exact hc.closed u hu _ hj0 c (List.mem_filter.mp hcj).1
    have hnames : ∀ c, nameAt s'.toks c = nameAt s.toks c := by
      intro c
      unfold nameAt
      by_cases hct : c = t
      · subst hct
        rw [g4, hk]
        rfl
      · by_cases hcl : c ∈ l1
        · obtain ⟨j0, hj0⟩ : ∃ j0, s.toks[c]? = some j0 := ⟨_, List.getElem?_eq_getElem (hc.valid c hcl)⟩
          rw [g5 c hcl _ hj0, hj0]
          rfl
        · rw [g6 c hct hcl]
    intro u hu j hj
    by_cases hut : u = t
    · subst hut
      rw [g4] at hj
      cases hj
      have hno : ∀ n : String, n ≠ "Script" → n ≠ "Error" → k.name ≠ n.toList := by
        intro n n1 n2 he
        rw [hkn] at he
        rcases hname with h | h <;> rw [h] at he
        · exact n1 (String.toList_inj.mp he).symm
        · exact n2 (String.toList_inj.mp he).symm
      refine ⟨hpl.inside, fun he => ?_, fun he => (hno _ (by decide) (by decide) he).elim, fun he => (hno _ (by decide) (by decide) he).elim,
        fun he => (hno _ (by decide) (by decide) he).elim, fun he => (hno _ (by decide) (by decide) he).elim,
        fun he => (hno _ (by decide) (by decide) he).elim, fun he => (hno _ (by decide) (by decide) he).elim,
        fun he => (hno _ (by decide) (by decide) he).elim, fun he => (hno _ (by decide) (by decide) he).elim,
        fun he => (hno _ (by decide) (by decide) he).elim, fun he => (hno _ (by decide) (by decide) he).elim,
        fun he => (hno _ (by decide) (by decide) he).elim, fun he => (hno _ (by decide) (by decide) he).elim⟩
      have hfit := hw.fit
      rw [← hi] at hfit
      have := rule 0 rfl hfit he
      rcases hpl.flags with h | ⟨-, h⟩
      · exact (this h).elim
      · exact Option.isSome_iff_exists.mp h.message
    · have hul := (hl' u hu).resolve_left hut
      obtain ⟨j0, ks, hj0, hpj, hkj, hfj⟩ := hch.find hc hw.kids u hul
      rw [g5 u hul _ hj0] at hj
      cases hj
      exact hkj.sound hpj hfj hnames

end Read

end Adx
