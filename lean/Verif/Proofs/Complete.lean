import Verif.Proofs.Import
import Verif.Proofs.Unique
/-
  A script whose tokens all have a meaning is built, also with imports.
-/
namespace Adx

variable {env : Env} {w0 : World} {gs gs1 : List Gram} {bs bs1 : List (Str × Thing)} {n : Str} {b : Build}
  {fromFile : Option Str} {imp : Str → Str → List Gram → List (Str × Thing) → Prop} {l : List TokId} {x : TokId}
  {k : Token} {depth t : Nat}

/-- A hook succeeds for the token `x`, which brings `gs1` and `bs1`. -/
def HookMakes (w0 : World) (gs : List Gram) (bs : List (Str × Thing)) (n : Str) (x : TokId) (gs1 : List Gram)
    (bs1 : List (Str × Thing)) (r : Except ParseError Unit × Build) : Prop :=
  ∃ b', r = (.ok (), b') ∧ Means w0 (gs ++ gs1) (bs ++ bs1) (scriptName w0.st.toks [x] n) b'

theorem ItemBrings.unique_own {gs2 : List Gram} {bs2 : List (Str × Thing)} (hk : w0.st.toks[x]? = some k)
    (hn : k.name ≠ "ImportStatement".toList) (h : ItemBrings env fromFile imp w0.st.toks t x gs1 bs1)
    (h' : ItemBrings env fromFile imp w0.st.toks t x gs2 bs2) : gs1 = gs2 ∧ bs1 = bs2 := by
  cases h with
  | own h =>
    cases h' with
    | own h' =>
      obtain ⟨rfl, rfl⟩ := h.unique h'
      exact ⟨rfl, rfl⟩
    | imported hk' hn' => cases hk.symm.trans hk'; exact (hn hn').elim
  | imported hk' hn' => cases hk.symm.trans hk'; exact (hn hn').elim

theorem HookBrings.makes {r : Except ParseError Unit × Build} (hk : w0.st.toks[x]? = some k)
    (hn : k.name ≠ "ImportStatement".toList) (hi : ItemBrings env fromFile imp w0.st.toks bs.length x gs1 bs1)
    (h : HookBrings env fromFile imp w0 gs bs n x r) (hr : ∀ gs' bs', ItemMeans env w0.st.toks x gs' bs' → ∃ b', r = (.ok (), b')) :
    HookMakes w0 gs bs n x gs1 bs1 r := by
  have : ∃ b', r = (.ok (), b') := by
    cases hi with
    | own hi => exact hr _ _ hi
    | imported hk' hn' => cases hk.symm.trans hk'; exact (hn hn').elim
  obtain ⟨b', rfl⟩ := this
  obtain ⟨gs2, bs2, h1, h2⟩ := h
  obtain ⟨rfl, rfl⟩ := hi.unique_own hk hn h1
  exact ⟨b', rfl, h2⟩

section hooks

theorem hookError_makes (h : Means w0 gs bs n b) (hs : SameOn l w0.st.toks b.w.st.toks) (hx : x ∈ l)
    (hk : w0.st.toks[x]? = some k) (hn : k.name = "Error".toList)
    (hi : ItemBrings env fromFile imp w0.st.toks bs.length x gs1 bs1) : HookMakes w0 gs bs n x gs1 bs1 (hookError x b) := by
  refine (hookError_brings h hs hx hk hn).makes hk (name_ne hn (by decide)) hi fun gs' bs' hi => ?_
  have ht := hs.at_ hx hk
  have hm : ∃ msg, k.getAttribute "__message".toList = some msg := by
    cases hi with
    | error hk' _ hm => cases hk.symm.trans hk'; exact ⟨_, hm⟩
    | scope hk' hn' => cases hk.symm.trans hk'; exact (name_ne hn (by decide) hn').elim
    | «alias» hk' hn' => cases hk.symm.trans hk'; exact (name_ne hn (by decide) hn').elim
    | definition hk' hn' => cases hk.symm.trans hk'; exact (name_ne hn (by decide) hn').elim
    | otherValue hk' hn' => cases hk.symm.trans hk'; exact (name_ne hn (by decide) hn').elim
    | other hk' hn' => cases hk.symm.trans hk'; exact (hn' hn).elim
  obtain ⟨msg, hm⟩ := hm
  exact ⟨{ b with errors := b.errors ++ [⟨msg, some k.matched⟩] }, by
    simp only [hookError, Build.step, Bind.bind, C.bind', C.tok, ht, C.ofOpt, hm, pure, C.pure']⟩

theorem hookAdextopaScope_makes (h : Means w0 gs bs n b) (hs : SameOn l w0.st.toks b.w.st.toks) (hx : x ∈ l)
    (hk : w0.st.toks[x]? = some k) (hn : k.name = "AdextopaScope".toList)
    (hi : ItemBrings env fromFile imp w0.st.toks bs.length x gs1 bs1) :
    HookMakes w0 gs bs n x gs1 bs1 (hookAdextopaScope w0.nodes.length x b) := by
  refine (hookAdextopaScope_brings h hs hx hk hn).makes hk (name_ne hn (by decide)) hi fun _ _ _ => ?_
  have ht := hs.at_ hx hk
  cases hm : k.getAttribute "name".toList with
  | none =>
    exact ⟨b, by simp only [hookAdextopaScope, Build.step, Bind.bind, C.bind', C.tok, ht, hm, pure, C.pure']⟩
  | some n' =>
    exact ⟨{ b with w := { b.w with
        nodes := b.w.nodes.set w0.nodes.length (.program [w0.nodes.length + 3] n' true none false) } }, by
      simp only [hookAdextopaScope, Build.step, Bind.bind, C.bind', C.tok, ht, hm, C.setName, setNameGo, h.root,
        Node.namePassedTo, Node.setOwnName]⟩

theorem hookAssignment_makes (h : Means w0 gs bs n b) (hs : SameOn l w0.st.toks b.w.st.toks) (hx : x ∈ l)
    (hk : w0.st.toks[x]? = some k) (hn : k.name = "AssignmentExpression".toList)
    (hd : ¬ Deep w0.st.toks depth x) (hi : ItemBrings env fromFile imp w0.st.toks bs.length x gs1 bs1) :
    HookMakes w0 gs bs n x gs1 bs1 (hookAssignment env depth w0.st.sctxs.length x b) := by
  refine (hookAssignment_brings h hs hx hk hn hd).makes hk (name_ne hn (by decide)) hi fun gs' bs' hi => ?_
  have hi' := hi.transport hs hx
  exact hookAssignment_effect (P := fun r => ∃ b', r = (.ok (), b'))
    rfl (hs.at_ hx hk) hn (fun hd' => hd (hd'.transport hs.symm hx)) (fun _ _ _ => ⟨_, rfl⟩) (fun _ _ _ _ _ _ _ => ⟨_, rfl⟩)
    (fun _ hno => (hno _ _ hi').elim) (fun _ hno => (hno _ _ hi').elim)

theorem hookPatternScope_makes (h : Means w0 gs bs n b) (hs : SameOn l w0.st.toks b.w.st.toks) (hx : x ∈ l)
    (hk : w0.st.toks[x]? = some k) (hn : k.name = "PatternScope".toList)
    (hd : ¬ Deep w0.st.toks depth x) (hi : ItemBrings env fromFile imp w0.st.toks bs.length x gs1 bs1) :
    HookMakes w0 gs bs n x gs1 bs1 (hookPatternScope env depth (w0.nodes.length + 1) x b) := by
  refine (hookPatternScope_brings h hs hx hk hn hd).makes hk (name_ne hn (by decide)) hi fun gs' bs' hi => ?_
  have hi' := hi.transport hs hx
  obtain ⟨ps, hin, hb⟩ := h.inner
  exact hookPatternScope_effect (P := fun r => ∃ b', r = (.ok (), b'))
    rfl (hs.at_ hx hk) hn (fun hd' => hd (hd'.transport hs.symm hx))
    (Nat.add_lt_add_left (by decide : 1 < 4) _) h.length_le hin hb (fun _ _ _ _ _ _ _ _ => ⟨_, rfl⟩)
    (fun _ hno => (hno _ _ hi').elim) (fun _ hno => (hno _ _ hi').elim)

end hooks

/-! ### Imports -/

section imports
variable {sc isc : SCtxId} {root : MatcherId} {file : Str} {ps : List MatcherId} {cur : Str}
  {it : Option (Nat × Nat)} {f : Bool}

theorem importIdentifier_makes {c : TokId} {ident name : Str} (hr : b.w.nodes[root]? = some (.program ps cur true it f))
    (h : ImportNames b.w.st.toks c ident name) (h1 : ident = "_".toList → name ≠ "_".toList)
    (h2 : ident ≠ "_".toList → ∃ x, b.w.st.lookup isc ident = some (.matcher x)) :
    ∃ b', importIdentifier sc isc root file c b = (.ok (), b') := by
  unfold importIdentifier
  refine step_spec (Q := fun p ns => ns = b.w.nodes ∧ ImportNames b.w.st.toks c p.1.getValue p.2)
    (E := False) (D := False) (P := fun r => ∃ b', r = (.ok (), b')) ?_ ?_ (fun _ h => h.elim) (fun _ h => h.elim)
    (fun h => h.elim)
  · obtain ⟨k, i, ik, hk, hi, hik, has⟩ : ∃ k i ik, b.w.st.toks[c]? = some k ∧ First b.w.st.toks ["ImportName"] k.children i ∧
        b.w.st.toks[i]? = some ik ∧ (∀ a, First b.w.st.toks ["ImportAsName"] k.children a → ∃ ak, b.w.st.toks[a]? = some ak) := by
      cases h with
      | plain hk hi hik ha => exact ⟨_, _, _, hk, hi, hik, fun a h => (h.not_absent ha).elim⟩
      | renamed hk hi hik ha hak => exact ⟨_, _, _, hk, hi, hik, fun a h => by cases h.unique ha; exact ⟨_, hak⟩⟩
    apply CPost.bind
    refine CPost.tok (fun k' hk' => ?_) (fun h => by rw [hk] at h; cases h)
    cases hk.symm.trans hk'
    apply CPost.bind
    refine CPost.findChild (fun i' hi' => ?_) (fun h => (hi.not_absent h).elim)
    cases hi.unique hi'
    apply CPost.bind
    refine CPost.ofOpt (fun i' hi' => ?_) (fun h => by cases h)
    cases hi'
    apply CPost.bind
    refine CPost.tok (fun ik' hik' => ?_) (fun h => by rw [hik] at h; cases h)
    cases hik.symm.trans hik'
    apply CPost.bind
    refine CPost.findChild (fun a ha => ?_) (fun ha => ?_)
    · obtain ⟨ak, hak⟩ := has a ha
      apply CPost.bind
      refine CPost.tok (fun ak' hak' => ?_) (fun h => by rw [hak] at h; cases h)
      exact ⟨rfl, .renamed hk hi hik ha hak'⟩
    · exact ⟨rfl, .plain hk hi hik ha⟩
  · rintro ⟨ik, name'⟩ ns ⟨rfl, hnames⟩
    dsimp only at hnames ⊢
    obtain ⟨rfl, rfl⟩ := h.unique hnames
    split
    · rename_i hid
      rw [if_neg (h1 hid)]
      have hstep : C.setName root name b.w.st.toks b.w.nodes =
          .ok () (b.w.nodes.set root (.program ps name true it f)) := by
        unfold C.setName setNameGo
        simp only [hr, Node.namePassedTo, Node.setOwnName]
      unfold Build.step
      rw [hstep]
      exact ⟨_, rfl⟩
    · rename_i hid
      obtain ⟨y, hy⟩ := h2 hid
      rw [hy]
      exact ⟨_, rfl⟩

theorem importIdentifiers_makes {toks : List Token} {fgs : List Gram} {fbs ths : List (Str × Thing)} {n' : Str} {cs : List TokId}
    (hne : isc ≠ sc) (h : Imports toks t fgs fbs n' cur cs ths) : ∀ {b : Build}, b.w.st.toks = toks → ScopesOK b.w.st →
    sc < b.w.st.sctxs.length → (∃ cur', b.w.nodes[root]? = some (.program ps cur' true it f)) →
    (∀ ident th, lastDef fbs ident = some th → ∃ x, b.w.st.lookup isc ident = some (.matcher x)) →
    ∃ b', importIdentifiers sc isc root file cs b = (.ok (), b') := by
  have next : ∀ {b b1 : Build} {c : TokId} {cs : List TokId},
      (∀ {b : Build}, b.w.st.toks = toks → ScopesOK b.w.st →
        sc < b.w.st.sctxs.length → (∃ cur', b.w.nodes[root]? = some (.program ps cur' true it f)) →
        (∀ ident th, lastDef fbs ident = some th → ∃ x, b.w.st.lookup isc ident = some (.matcher x)) →
        ∃ b', importIdentifiers sc isc root file cs b = (.ok (), b')) →
      b.w.st.toks = toks → ScopesOK b.w.st → sc < b.w.st.sctxs.length →
      (∃ cur', b.w.nodes[root]? = some (.program ps cur' true it f)) →
      (∀ ident th, lastDef fbs ident = some th → ∃ x, b.w.st.lookup isc ident = some (.matcher x)) →
      importIdentifier sc isc root file c b = (.ok (), b1) →
      ∃ b', importIdentifiers sc isc root file (c :: cs) b = (.ok (), b') := by
    intro b b1 c cs ih ht hok hsc hr hl h1
    obtain ⟨cur', hr⟩ := hr
    have hlt : root < b.w.nodes.length := (List.getElem?_eq_some_iff.mp hr).1
    obtain ⟨b', hb'⟩ : ∃ b', importIdentifiers sc isc root file cs b1 = (.ok (), b') := by
      rcases importIdentifier_effect hr h1 with ⟨name, -, -, rfl⟩ | ⟨ident, name, y, -, -, -, rfl⟩
      · have hlook : (b.w.st.bindVar sc name (.matcher root)).lookup isc = b.w.st.lookup isc :=
          funext fun y => (C09_set_get b.w.st hok sc hsc name (.matcher root)).2.2 isc y hne
        refine ih ((bindVar_toks ..).trans ht) (hok.bindVar hsc _ _) ?_ ⟨name, List.getElem?_set_self hlt⟩ ?_
        · show sc < (b.w.st.bindVar sc name (.matcher root)).sctxs.length
          rw [bindVar_length hok hsc]
          exact hsc
        · intro ident th hd
          show ∃ x, (b.w.st.bindVar sc name (.matcher root)).lookup isc ident = _
          rw [hlook]
          exact hl ident th hd
      · have hlook : (b.w.st.bindVar sc name (.matcher (b.w.nodes.length + 1))).lookup isc = b.w.st.lookup isc :=
          funext fun y => (C09_set_get b.w.st hok sc hsc name (.matcher (b.w.nodes.length + 1))).2.2 isc y hne
        refine ih ((bindVar_toks ..).trans ht) (hok.bindVar hsc _ _) ?_ ⟨cur', ?_⟩ ?_
        · show sc < (b.w.st.bindVar sc name (.matcher (b.w.nodes.length + 1))).sctxs.length
          rw [bindVar_length hok hsc]
          exact hsc
        · show (b.w.nodes ++ _)[root]? = _
          rw [List.getElem?_append_left hlt]
          exact hr
        · intro ident th hd
          show ∃ x, (b.w.st.bindVar sc name (.matcher (b.w.nodes.length + 1))).lookup isc ident = _
          rw [hlook]
          exact hl ident th hd
    refine ⟨b', ?_⟩
    unfold importIdentifiers
    rw [h1]
    exact hb'
  induction h with
  | nil => intro b _ _ _ _ _; exact ⟨b, rfl⟩
  | root h hn _ ih =>
    intro b ht hok hsc hr hl
    obtain ⟨cur', hr'⟩ := hr
    obtain ⟨b1, h1⟩ := importIdentifier_makes (sc := sc) (isc := isc) (file := file) hr' (ht.symm ▸ h) (fun _ => hn) fun h => (h rfl).elim
    exact next ih ht hok hsc ⟨_, hr'⟩ hl h1
  | member h hn hd _ ih =>
    intro b ht hok hsc hr hl
    obtain ⟨cur', hr'⟩ := hr
    obtain ⟨b1, h1⟩ := importIdentifier_makes (sc := sc) (isc := isc) (file := file) hr' (ht.symm ▸ h) (fun h => (hn h).elim) fun _ => hl _ _ hd
    exact next ih ht hok hsc ⟨_, hr'⟩ hl h1

/-- Imported files that mean something are compiled, if there is enough fuel. -/
def FileMakes (imp : Str → Str → List Gram → List (Str × Thing) → Prop) (cf : Nat → Str → World → BuildRes) : Prop :=
  ∀ file w n gs bs, Milds w.nodes → ScopesOK w.st → imp file n gs bs →
    ∃ N root isc w1, (∀ fuel, N ≤ fuel → cf fuel file w = .ok root isc w1) ∧ ScopesOK w1.st ∧
      IsFile w1 w.nodes.length w.st.sctxs.length root isc n gs bs ∧ Grafted w1 (root + 1) isc w1.st.sctxs.length bs

theorem hookImport_makes {cf : Nat → Str → World → BuildRes} {ts : List TokId}
    (hf : FileMakes imp cf) (hsafe : ∀ fuel file w, Milds w.nodes → FileSafe w (cf fuel file w))
    (h : Means w0 gs bs n b) (hp : Pre w0.st.toks ts l) (hx : x ∈ l)
    (hk : w0.st.toks[x]? = some k) (hn : k.name = "ImportStatement".toList)
    (hi : ItemBrings env fromFile imp w0.st.toks bs.length x gs1 bs1) :
    ∃ N r, HookMakes w0 gs bs n x gs1 bs1 r ∧
      ∀ fuel, N ≤ fuel → hookImport env (cf fuel) fromFile w0.st.sctxs.length x b = r := by
  have hname : scriptName w0.st.toks [x] n = n := scriptName_other hk (by rw [hn]; decide) n
  have hsame := SameOn.of_pre hp h.going.toks
  cases hi with
  | own hi =>
    cases hi with
    | error hk' hn' => cases hk.symm.trans hk'; exact (name_ne hn (by decide) hn').elim
    | scope hk' hn' => cases hk.symm.trans hk'; exact (name_ne hn (by decide) hn').elim
    | «alias» hk' hn' => cases hk.symm.trans hk'; exact (name_ne hn (by decide) hn').elim
    | definition hk' hn' => cases hk.symm.trans hk'; exact (name_ne hn (by decide) hn').elim
    | otherValue hk' hn' => cases hk.symm.trans hk'; exact (name_ne hn (by decide) hn').elim
    | other hk' _ _ _ hn' => cases hk.symm.trans hk'; exact (hn' hn).elim
  | imported hk' hn' hids hidk hq hqk hff hj hc himp him =>
    rename_i ids idk q qk base joined file n0 n' fgs fbs
    cases hk.symm.trans hk'
    subst hff
    obtain ⟨N, root, isc, w1, hcf, hok1, hfile, hgraft⟩ := hf file b.w n0 fgs fbs h.going.milds h.ok himp
    have hs := hsafe N file b.w h.going.milds
    rw [hcf N (Nat.le_refl _)] at hs
    obtain ⟨hnodes, htoks, -, hroot, -, hown⟩ := hs
    have hcl := hp.closed x hx k hk
    have hcl2 := hp.closed ids (hcl _ hids.mem) idk hidk
    have hsame1 := SameOn.of_pre hp (h.going.toks.trans htoks)
    have hsc := h.bound.lt
    have hne : isc ≠ w0.st.sctxs.length := by
      intro he
      have := hown.new
      rw [he] at this
      exact Nat.lt_irrefl _ (Nat.lt_of_lt_of_le hsc this)
    obtain ⟨b', hb'⟩ : ∃ b', importIdentifiers w0.st.sctxs.length isc root file idk.children { b with w := w1 } = (.ok (), b') := by
      cases hfile with
      | mk _ _ hm _ _ _ _ _ _ _ hbs =>
        refine importIdentifiers_makes hne (him.transport hsame1 hcl2) rfl hok1
          (Nat.lt_of_lt_of_le hsc hown.sctxs.length_le) ⟨_, hm⟩ ?_
        cases hbs with
        | mk _ f hd _ _ => exact fun ident th hl => ⟨_, hd ident th hl⟩
    have hrun : ∀ fuel, N ≤ fuel → hookImport env (cf fuel) (some base) w0.st.sctxs.length x b = (.ok (), b') := by
      intro fuel hfu
      unfold hookImport
      dsimp only
      refine step_spec (Q := fun p ns => ns = b.w.nodes ∧ p = (idk.children, file))
        (E := False) (D := False) (P := fun r => r = (.ok (), b')) ?_ ?_ (fun _ h => h.elim) (fun _ h => h.elim)
        (fun h => h.elim)
      · have k1 := hsame.at_ hx hk
        have k2 := hsame.first hcl hids
        have k3 := hsame.at_ (hcl _ hids.mem) hidk
        have k4 := hsame.first hcl hq
        have k5 := hsame.at_ (hcl _ hq.mem) hqk
        apply CPost.bind
        refine CPost.tok (fun k' hk' => ?_) (fun h => by rw [k1] at h; cases h)
        cases k1.symm.trans hk'
        apply CPost.bind
        refine CPost.findChild (fun i hi => ?_) (fun h => (k2.not_absent h).elim)
        cases k2.unique hi
        apply CPost.bind
        refine CPost.ofOpt (fun _ he => ?_) (fun h => by cases h)
        cases he
        apply CPost.bind
        refine CPost.tok (fun _ hk' => ?_) (fun h => by rw [k3] at h; cases h)
        cases k3.symm.trans hk'
        apply CPost.bind
        refine CPost.findChild (fun i hi => ?_) (fun h => (k4.not_absent h).elim)
        cases k4.unique hi
        apply CPost.bind
        refine CPost.ofOpt (fun _ he => ?_) (fun h => by cases h)
        cases he
        apply CPost.bind
        refine CPost.tok (fun _ hk' => ?_) (fun h => by rw [k5] at h; cases h)
        cases k5.symm.trans hk'
        apply CPost.bind
        refine CPost.ofOpt (fun _ he => ?_) (fun h => by rw [hj] at h; cases h)
        cases hj.symm.trans he
        apply CPost.bind
        refine CPost.ofOpt (fun _ he => ?_) (fun h => by rw [hc] at h; cases h)
        cases hc.symm.trans he
        exact ⟨rfl, rfl⟩
      · rintro p ns ⟨rfl, rfl⟩
        dsimp only
        rw [hcf fuel hfu]
        exact hb'
    have hg := hookImport_safe (env := env) (fromFile := some base) (hsafe N) h.going x
    rw [hrun N (Nat.le_refl _)] at hg
    obtain ⟨n2, ths, him2, hM⟩ := imported_means h hnodes htoks hroot hown hok1 hfile hgraft hb' hg
    obtain ⟨-, rfl⟩ := him.unique (him2.transport hsame1.symm hcl2)
    exact ⟨N, _, ⟨b', rfl, by rw [List.append_nil, hname]; exact hM⟩, hrun⟩

end imports

/-! ### The visit -/

theorem callHooks_makes {cf : Nat → Str → World → BuildRes} {ts all : List TokId}
    (hf : FileMakes imp cf) (hsafe : ∀ fuel file w, Milds w.nodes → FileSafe w (cf fuel file w))
    (hp : Pre w0.st.toks ts all) (hd : w0.st.toks.length ≤ depth) {l : List TokId} {gs1 : List Gram} {bs1 : List (Str × Thing)}
    (hb : ScriptBrings env fromFile imp w0.st.toks t l gs1 bs1) :
    ∀ {gs : List Gram} {bs : List (Str × Thing)} {n : Str} {b : Build}, t = bs.length → (∀ x ∈ l, x ∈ all) → Means w0 gs bs n b →
    ∃ N b', Means w0 (gs ++ gs1) (bs ++ bs1) (scriptName w0.st.toks l n) b' ∧ ∀ fuel, N ≤ fuel →
      callHooks w0.st.toks
        (buildHooks env (cf fuel) fromFile depth w0.nodes.length (w0.nodes.length + 1) w0.st.sctxs.length) l b = .ok b' := by
  induction hb with
  | nil =>
    intro gs bs n b _ _ h
    exact ⟨0, b, by rw [List.append_nil, List.append_nil]; exact h, fun _ _ => rfl⟩
  | @cons t x l gs1 gs2 bs1 bs2 hi hs ih =>
    intro gs bs n b htl hl h
    subst htl
    have hx := hl x (by simp)
    obtain ⟨k, hk⟩ : ∃ k, w0.st.toks[x]? = some k := ⟨_, List.getElem?_eq_getElem (hp.valid x hx)⟩
    have hdx := hp.not_deep hx hd
    have hsame := SameOn.of_pre hp h.going.toks
    -- the token is done
    have after : ∀ {N b1}, Means w0 (gs ++ gs1) (bs ++ bs1) (scriptName w0.st.toks [x] n) b1 →
        (∀ fuel, N ≤ fuel → callHooks w0.st.toks
          (buildHooks env (cf fuel) fromFile depth w0.nodes.length (w0.nodes.length + 1) w0.st.sctxs.length) (x :: l) b =
          callHooks w0.st.toks
          (buildHooks env (cf fuel) fromFile depth w0.nodes.length (w0.nodes.length + 1) w0.st.sctxs.length) l b1) →
        ∃ N b', Means w0 (gs ++ (gs1 ++ gs2)) (bs ++ (bs1 ++ bs2)) (scriptName w0.st.toks (x :: l) n) b' ∧ ∀ fuel, N ≤ fuel →
          callHooks w0.st.toks
            (buildHooks env (cf fuel) fromFile depth w0.nodes.length (w0.nodes.length + 1) w0.st.sctxs.length) (x :: l) b = .ok b' := by
      intro N b1 h2 h3
      obtain ⟨N', b', h4, h5⟩ := ih (List.length_append ..).symm (fun y hy => hl y (List.mem_cons_of_mem _ hy)) h2
      refine ⟨max N N', b', ?_, fun fuel hfu => ?_⟩
      · rw [scriptName_cons, ← List.append_assoc, ← List.append_assoc]
        exact h4
      · rw [h3 fuel (by omega), h5 fuel (by omega)]
    -- a hook
    have key : ∀ (N : Nat) (hook : Nat → Hook Build) (r : Except ParseError Unit × Build),
        (∀ fuel, hookFor (buildHooks env (cf fuel) fromFile depth w0.nodes.length (w0.nodes.length + 1) w0.st.sctxs.length)
          k.name = some (hook fuel)) →
        HookMakes w0 gs bs n x gs1 bs1 r → (∀ fuel, N ≤ fuel → hook fuel x b = r) →
        ∃ N b', Means w0 (gs ++ (gs1 ++ gs2)) (bs ++ (bs1 ++ bs2)) (scriptName w0.st.toks (x :: l) n) b' ∧ ∀ fuel, N ≤ fuel →
          callHooks w0.st.toks
            (buildHooks env (cf fuel) fromFile depth w0.nodes.length (w0.nodes.length + 1) w0.st.sctxs.length) (x :: l) b = .ok b' := by
      rintro N hook r hf ⟨b1, rfl, hM⟩ hrun
      refine after (N := N) hM fun fuel hfu => ?_
      have hb : (w0.st.toks[x]?).bind (fun k => hookFor
          (buildHooks env (cf fuel) fromFile depth w0.nodes.length (w0.nodes.length + 1) w0.st.sctxs.length) k.name) =
          some (hook fuel) := by
        rw [hk]; exact hf fuel
      conv => lhs; unfold callHooks
      rw [hb]
      dsimp only
      rw [hrun fuel hfu]
    by_cases h1 : k.name = "Error".toList
    · exact key 0 (fun _ => hookError) _ (fun _ => h1 ▸ hookFor_hit (pre := []) rfl (by decide)) (hookError_makes h hsame hx hk h1 hi)
        fun _ _ => rfl
    by_cases h2 : k.name = "AdextopaScope".toList
    · exact key 0 (fun _ => hookAdextopaScope w0.nodes.length) _ (fun _ => h2 ▸ hookFor_hit (pre := [_]) rfl (by simp))
        (hookAdextopaScope_makes h hsame hx hk h2 hi) fun _ _ => rfl
    by_cases h3 : k.name = "AssignmentExpression".toList
    · exact key 0 (fun _ => hookAssignment env depth w0.st.sctxs.length) _ (fun _ => h3 ▸ hookFor_hit (pre := [_, _]) rfl (by simp))
        (hookAssignment_makes h hsame hx hk h3 hdx hi) fun _ _ => rfl
    by_cases h4 : k.name = "ImportStatement".toList
    · obtain ⟨N, r, hM, hrun⟩ := hookImport_makes hf hsafe h hp hx hk h4 hi
      exact key N (fun fuel => hookImport env (cf fuel) fromFile w0.st.sctxs.length) r
        (fun _ => h4 ▸ hookFor_hit (pre := [_, _, _]) rfl (by simp)) hM hrun
    by_cases h5 : k.name = "PatternScope".toList
    · exact key 0 (fun _ => hookPatternScope env depth (w0.nodes.length + 1)) _
        (fun _ => h5 ▸ hookFor_hit (pre := [_, _, _, _]) rfl (by simp)) (hookPatternScope_makes h hsame hx hk h5 hdx hi) fun _ _ => rfl
    obtain ⟨rfl, rfl⟩ := hi.unique_own hk h4 (.own (.other hk h1 h5 h3 h4))
    refine after (N := 0) (b1 := b) (by rw [scriptName_other hk h2]; simpa using h) fun fuel _ => ?_
    have hb : (w0.st.toks[x]?).bind (fun k => hookFor
        (buildHooks env (cf fuel) fromFile depth w0.nodes.length (w0.nodes.length + 1) w0.st.sctxs.length) k.name) =
        none := by
      rw [hk]
      refine hookFor_miss ?_ (by simp [buildHooks])
      simp only [buildHooks, List.map_cons, List.map_nil, List.mem_cons, List.not_mem_nil, or_false, not_or]
      exact ⟨h1, h2, h3, h4, h5⟩
    conv => lhs; unfold callHooks
    rw [hb]

/-- A script whose tokens all bring something is built, if there is enough fuel. -/
theorem build_makes {cf : Nat → Str → World → BuildRes} {t : TokId} {ctx : Ctx} {name : Str} {w : World}
    {l : List TokId}
    (hf : FileMakes imp cf) (hsafe : ∀ fuel file w, Milds w.nodes → FileSafe w (cf fuel file w))
    (hm : Milds w.nodes) (hok : ScopesOK w.st) (hk : w.st.toks[t]? = some k) (hn : k.name = "Script".toList)
    (hl : Pre w.st.toks [t] l) (hd : w.st.toks.length ≤ depth) (hb : ScriptBrings env fromFile imp w.st.toks 0 l gs bs) :
    ∃ N m sc w', (∀ fuel, N ≤ fuel → buildMatcherFromTokens env (cf fuel) depth t ctx name fromFile w = .ok m sc w') ∧
      ScopesOK w'.st ∧ IsFile w' w.nodes.length w.st.sctxs.length m sc (scriptName w.st.toks l name) gs bs ∧
      Grafted w' (m + 1) sc w'.st.sctxs.length bs := by
  obtain ⟨N, b', hM, hrun⟩ := callHooks_makes (depth := depth) hf hsafe hl hd hb rfl (fun _ h => h)
    (Means.start (name := name) hm hok)
  rw [List.nil_append, List.nil_append] at hM
  refine ⟨N, w.nodes.length, w.st.sctxs.length, b'.w, fun fuel hfu => ?_, hM.ok, ?_⟩
  · have he : buildMatcherFromTokens env (cf fuel) depth t ctx name fromFile w =
        buildResult ctx w.nodes.length w.st.sctxs.length (callHooks w.st.toks
          (buildHooks env (cf fuel) fromFile depth w.nodes.length (w.nodes.length + 1) w.st.sctxs.length) l
          ⟨⟨w.nodes ++ preamble w.nodes.length w.st.sctxs.length name, w.st.newSCtx.2⟩, [], none⟩) := by
      unfold buildMatcherFromTokens
      rw [hk]
      dsimp only
      rw [if_neg (by simpa using hn)]
      rw [← C31_visit_preorder _ _ hl hd]
      rfl
    rw [he, hrun fuel hfu]
    rfl
  · obtain ⟨ps, hi, hps⟩ := hM.inner
    exact ⟨.mk (Nat.le_refl _) (Nat.le_refl _) hM.root (by simp) hM.scope (by simp) hM.flat
      (by simp) hi (hps.lower (by omega)) (hM.bound.lower (by omega)), hM.graft.lower (by omega)⟩

end Adx
