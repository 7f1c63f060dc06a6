import Verif.Proofs.Import
import Verif.Spec.Reports
/-
  The errors of scripts with imports.
-/
namespace Adx

/-- The step of the builder never returns an error (it may panic). -/
def NoErr {α : Type} (x : C α) : Prop := ∀ toks ns e, x toks ns ≠ .err e

namespace NoErr

variable {α β : Type}

theorem bind {x : C α} {f : α → C β} (h : NoErr x) (hf : ∀ a, NoErr (f a)) : NoErr (x >>= f) := by
  intro toks ns e he
  simp only [Bind.bind, C.bind'] at he
  cases hx : x toks ns with
  | ok a ns1 => rw [hx] at he; exact hf a _ _ _ he
  | err e' => exact h _ _ _ hx
  | panic m => rw [hx] at he; cases he
  | diverge => rw [hx] at he; cases he

theorem pure {a : α} : NoErr (Pure.pure a : C α) := fun _ _ _ h => nomatch h

theorem tok {t : TokId} : NoErr (C.tok t) := by
  intro toks ns e h
  unfold C.tok at h
  cases ht : toks[t]? with
  | none => rw [ht] at h; cases h
  | some k => rw [ht] at h; cases h

theorem ofOpt {m : String} {o : Option α} : NoErr (C.ofOpt m o) := by
  intro toks ns e h
  cases o <;> cases h

theorem findChild {k : Token} {n : String} : NoErr (C.findChild k n) := fun _ _ _ h => nomatch h

end NoErr

/-- A step that returns no error. -/
theorem step_noErr {α : Type} {x : C α} {b : Build} {Q : α → List Node → Prop} {E D : Prop} (hx : NoErr x)
    (h : CPost x b.w.st.toks b.w.nodes Q E D) {P : Except ParseError Unit × Build → Prop}
    {k : α → Build → Except ParseError Unit × Build} {ke : Str → ParseError}
    (hk : ∀ a ns, Q a ns → P (k a { b with w := { b.w with nodes := ns } }))
    (hp : ∀ e c, P (.error e, { b with crash := some c })) :
    P (Build.step x b k ke) := by
  unfold CPost at h
  unfold Build.step
  cases hx' : x b.w.st.toks b.w.nodes with
  | ok a ns => rw [hx'] at h; exact hk a ns h
  | err e => exact absurd hx' (hx _ _ _)
  | panic m => exact hp _ _
  | diverge => exact hp _ _

theorem ImportOf.names {toks : List Token} {c : TokId} {ik : Token} {name : Str} (h : ImportOf toks c ik name) :
    ImportNames toks c ik.getValue name := by
  cases h with
  | plain hk hi hik ha => exact .plain hk hi hik ha
  | renamed hk hi hik ha hak => exact .renamed hk hi hik ha hak

theorem ImportOf.transport {toks toks' : List Token} {l : List TokId} {c : TokId} {ik : Token} {name : Str}
    (hi : ImportOf toks c ik name) (h : SameOn l toks toks') (hc : c ∈ l) : ImportOf toks' c ik name := by
  cases hi with
  | plain hk hi hik ha =>
    have hcl := h.closed _ hc _ hk
    exact .plain (h.at_ hc hk) (h.first hcl hi) (h.at_ (hcl _ hi.mem) hik) (h.absent hcl ha)
  | renamed hk hi hik ha hak =>
    have hcl := h.closed _ hc _ hk
    exact .renamed (h.at_ hc hk) (h.first hcl hi) (h.at_ (hcl _ hi.mem) hik) (h.first hcl ha)
      (h.at_ (hcl _ ha.mem) hak)

section identifiers

variable {sc isc : SCtxId} {root : MatcherId} {file : Str} {ps : List MatcherId} {cur : Str}
  {it : Option (Nat × Nat)} {f : Bool} {b : Build}

/-- What one identifier says when it cannot be imported; `look` is the scope of the imported
script. -/
def SaysOf (toks : List Token) (file : Str) (look : Str → Option Var) (c : TokId) (e : ParseError) : Prop :=
  ∃ ik name, ImportOf toks c ik name ∧
    ((ik.getValue = "_".toList ∧ name = "_".toList ∧
        e = ⟨"Error root import '_' must be named using 'import {{ _ as Name }}'".toList, some ik.matched⟩) ∨
      (ik.getValue ≠ "_".toList ∧ (∀ m, look ik.getValue ≠ some (.matcher m)) ∧
        e = ⟨"Failed to import `".toList ++ ik.getValue ++ "` from '".toList ++ file ++ "': Not found".toList,
          some ik.matched⟩))

/-- The identifier is imported. -/
def GivesOf (toks : List Token) (look : Str → Option Var) (c : TokId) : Prop :=
  ∃ ik name, ImportOf toks c ik name ∧
    (ik.getValue = "_".toList ∧ name ≠ "_".toList ∨
      ik.getValue ≠ "_".toList ∧ ∃ m, look ik.getValue = some (.matcher m))

theorem importIdentifier_says {c : TokId} (hr : b.w.nodes[root]? = some (.program ps cur true it f))
    (hc : b.crash = none) :
    match importIdentifier sc isc root file c b with
    | (.ok _, b') => b'.errors = b.errors ∧ b'.crash = none ∧ b'.w.st.toks = b.w.st.toks ∧
        (∃ name m, b'.w.st = b.w.st.bindVar sc name (.matcher m)) ∧
        (∃ cur', b'.w.nodes[root]? = some (.program ps cur' true it f)) ∧
        GivesOf b.w.st.toks (b.w.st.lookup isc) c
    | (.error e, b') => b'.crash = none → b'.errors = b.errors ∧ SaysOf b.w.st.toks file (b.w.st.lookup isc) c e := by
  have hlt : root < b.w.nodes.length := (List.getElem?_eq_some_iff.mp hr).1
  unfold importIdentifier
  refine step_noErr (Q := fun p ns => ns = b.w.nodes ∧ ImportOf b.w.st.toks c p.1 p.2) (E := True) (D := True)
    (P := fun r => match r with
      | (.ok _, b') => b'.errors = b.errors ∧ b'.crash = none ∧ b'.w.st.toks = b.w.st.toks ∧
        (∃ name m, b'.w.st = b.w.st.bindVar sc name (.matcher m)) ∧
        (∃ cur', b'.w.nodes[root]? = some (.program ps cur' true it f)) ∧
        GivesOf b.w.st.toks (b.w.st.lookup isc) c
      | (.error e, b') => b'.crash = none →
        b'.errors = b.errors ∧ SaysOf b.w.st.toks file (b.w.st.lookup isc) c e) ?_ ?_ ?_ ?_
  · refine .bind .tok fun k => .bind .findChild fun o => .bind .ofOpt fun i => .bind .tok fun ik => .bind .findChild
      fun a => ?_
    cases a with
    | none => exact .pure
    | some a => exact .bind .tok fun _ => .pure
  · apply CPost.bind
    refine CPost.tok (fun k hk => ?_) (fun _ => trivial)
    apply CPost.bind
    refine CPost.findChild (fun i hi => ?_) (fun hi => ?_)
    · apply CPost.bind
      refine CPost.ofOpt (fun i' hi' => ?_) (fun _ => trivial)
      cases hi'
      apply CPost.bind
      refine CPost.tok (fun ik hik => ?_) (fun _ => trivial)
      apply CPost.bind
      refine CPost.findChild (fun a ha => ?_) (fun ha => ?_)
      · apply CPost.bind
        refine CPost.tok (fun ak hak => ?_) (fun _ => trivial)
        exact ⟨rfl, .renamed hk hi hik ha hak⟩
      · exact ⟨rfl, .plain hk hi hik ha⟩
    · trivial
  · rintro ⟨ik, name⟩ ns ⟨rfl, hof⟩
    dsimp only at hof ⊢
    by_cases hid : ik.getValue = "_".toList
    · rw [if_pos hid]
      by_cases hne : name = "_".toList
      · rw [if_pos hne]
        exact fun _ => ⟨rfl, ik, name, hof, .inl ⟨hid, hne, rfl⟩⟩
      · rw [if_neg hne]
        have hstep : C.setName root name b.w.st.toks b.w.nodes =
            .ok () (b.w.nodes.set root (.program ps name true it f)) := by
          unfold C.setName setNameGo
          simp only [hr, Node.namePassedTo, Node.setOwnName]
        unfold Build.step
        rw [hstep]
        exact ⟨rfl, hc, bindVar_toks _ _ _ _, ⟨_, _, rfl⟩, ⟨name, List.getElem?_set_self hlt⟩,
          ik, name, hof, .inl ⟨hid, hne⟩⟩
    · rw [if_neg hid]
      have hfail : (∀ m, b.w.st.lookup isc ik.getValue ≠ some (.matcher m)) →
          SaysOf b.w.st.toks file (b.w.st.lookup isc) c
            ⟨"Failed to import `".toList ++ ik.getValue ++ "` from '".toList ++ file ++ "': Not found".toList,
              some ik.matched⟩ := fun hx => ⟨ik, name, hof, .inr ⟨hid, hx, rfl⟩⟩
      cases hv : b.w.st.lookup isc ik.getValue with
      | none => exact fun _ => ⟨rfl, hfail fun m hm => by rw [hv] at hm; cases hm⟩
      | some v =>
        cases v with
        | matcher x =>
          refine ⟨rfl, hc, bindVar_toks _ _ _ _, ⟨_, _, rfl⟩, ⟨cur, ?_⟩, ik, name, hof, .inr ⟨hid, x, hv⟩⟩
          show ((b.w.nodes ++ [_]) ++ [_])[root]? = _
          rw [List.append_assoc, List.getElem?_append_left hlt]
          exact hr
        | _ => exact fun _ => ⟨rfl, hfail fun m hm => by rw [hv] at hm; cases hm⟩
  · intro e c' h
    cases h

theorem importIdentifiers_says (hne : isc ≠ sc) (cs : List TokId) : ∀ {b : Build} {cur : Str},
    ScopesOK b.w.st → sc < b.w.st.sctxs.length → b.w.nodes[root]? = some (.program ps cur true it f) →
    b.crash = none →
    match importIdentifiers sc isc root file cs b with
    | (.ok _, b') => b'.errors = b.errors ∧ b'.crash = none
    | (.error e, b') => b'.crash = none → b'.errors = b.errors ∧
        ∃ pre c post, cs = pre ++ c :: post ∧ (∀ c' ∈ pre, GivesOf b.w.st.toks (b.w.st.lookup isc) c') ∧
          SaysOf b.w.st.toks file (b.w.st.lookup isc) c e := by
  induction cs with
  | nil => exact fun _ _ _ hc => ⟨rfl, hc⟩
  | cons c cs ih =>
    intro b cur hok hsc hr hc
    have h1 := importIdentifier_says (sc := sc) (isc := isc) (file := file) (c := c) hr hc
    unfold importIdentifiers
    cases hx : importIdentifier sc isc root file c b with
    | mk r b1 =>
    rw [hx] at h1
    cases r with
    | error e =>
      dsimp only at h1 ⊢
      intro h
      obtain ⟨h2, h3⟩ := h1 h
      exact ⟨h2, [], c, cs, rfl, (fun _ h => nomatch h), h3⟩
    | ok u =>
      obtain ⟨h2, h3, h4, ⟨name, m, h5⟩, ⟨cur', h6⟩, h7⟩ := h1
      have hlook : b1.w.st.lookup isc = b.w.st.lookup isc := by
        rw [h5]
        exact funext fun y => (C09_set_get b.w.st hok sc hsc name (.matcher m)).2.2 isc y hne
      have := ih (b := b1) (by rw [h5]; exact hok.bindVar hsc _ _) (by rw [h5, bindVar_length hok hsc]; exact hsc) h6 h3
      dsimp only
      cases hy : importIdentifiers sc isc root file cs b1 with
      | mk r b2 =>
      rw [hy] at this
      cases r with
      | ok u => exact ⟨this.1.trans h2, this.2⟩
      | error e =>
        dsimp only at this ⊢
        intro h
        obtain ⟨g1, pre, c', post, rfl, g2, g3⟩ := this h
        rw [h4, hlook] at g2 g3
        refine ⟨g1.trans h2, c :: pre, c', post, rfl, ?_, g3⟩
        intro d hd
        rcases List.mem_cons.mp hd with rfl | hd
        · exact h7
        · exact g2 d hd

end identifiers

/-! ### Hooks -/

variable {env : Env} {w0 : World} {gs : List Gram} {bs : List (Str × Thing)} {n : Str} {b b' : Build}
  {fromFile : Option Str} {imp : Str → Str → List Gram → List (Str × Thing) → Prop}
  {rep : Str → List ParseError → Prop}

/-- The error of a hook, as it says something or not. -/
def Says (e : ParseError) : Option ParseError → Prop
  | some e' => e = e' ∧ e.message ≠ []
  | none => e.message = []

/-- What a hook for the token `x` does to the errors `es`. -/
def HookTells (env : Env) (fromFile : Option Str) (imp : Str → Str → List Gram → List (Str × Thing) → Prop)
    (rep : Str → List ParseError → Prop) (toks : List Token) (es : List ParseError) (x : TokId) :
    Except ParseError Unit × Build → Prop
  | (.ok _, b) => b.errors = es ++ errorReports toks [x] ∧ b.crash = none
  | (.error e, b) => b.crash = none → ∃ more o, Stops env fromFile imp rep toks x more o ∧ Says e o ∧
      b.errors = es ++ more

section hooks

variable {l : List TokId} {x : TokId} {k : Token} {depth : Nat}

theorem hookError_tells (hs : SameOn l w0.st.toks b.w.st.toks) (hx : x ∈ l) (hc : b.crash = none)
    (hk : w0.st.toks[x]? = some k) (hn : k.name = "Error".toList) :
    HookTells env fromFile imp rep w0.st.toks b.errors x (hookError x b) := by
  have ht := hs.at_ hx hk
  cases hm : k.getAttribute "__message".toList with
  | some msg =>
    have he : hookError x b = (.ok (), { b with errors := b.errors ++ [⟨msg, some k.matched⟩] }) := by
      simp only [hookError, Build.step, Bind.bind, C.bind', C.tok, ht, C.ofOpt, hm, pure, C.pure']
    rw [he]
    refine ⟨?_, hc⟩
    simp only [errorReports, hk, if_pos hn, hm, Option.getD_some]
  | none =>
    have he : hookError x b = (.error ⟨[], none⟩, { b with
        crash := some (some "called `Option::unwrap()` on a `None` value") }) := by
      simp only [hookError, Build.step, Bind.bind, C.bind', C.tok, ht, C.ofOpt, hm, C.panic]
    rw [he]
    exact fun h => nomatch h

theorem hookAdextopaScope_tells (h : Means w0 gs bs n b) (hs : SameOn l w0.st.toks b.w.st.toks) (hx : x ∈ l)
    (hc : b.crash = none) (hk : w0.st.toks[x]? = some k) (hn : k.name = "AdextopaScope".toList) :
    HookTells env fromFile imp rep w0.st.toks b.errors x (hookAdextopaScope w0.nodes.length x b) := by
  have ht := hs.at_ hx hk
  have hr : errorReports w0.st.toks [x] = [] := reports_other hk (by rw [hn]; decide)
  cases hm : k.getAttribute "name".toList with
  | none =>
    have he : hookAdextopaScope w0.nodes.length x b = (.ok (), b) := by
      simp only [hookAdextopaScope, Build.step, Bind.bind, C.bind', C.tok, ht, hm, pure, C.pure']
    rw [he]
    exact ⟨by rw [hr, List.append_nil], hc⟩
  | some n' =>
    have he : hookAdextopaScope w0.nodes.length x b = (.ok (), { b with w := { b.w with
        nodes := b.w.nodes.set w0.nodes.length (.program [w0.nodes.length + 3] n' true none false) } }) := by
      simp only [hookAdextopaScope, Build.step, Bind.bind, C.bind', C.tok, ht, hm, C.setName, setNameGo, h.root,
        Node.namePassedTo, Node.setOwnName]
    rw [he]
    exact ⟨by rw [hr, List.append_nil], hc⟩

theorem stops_pattern (hs : SameOn l w0.st.toks b.w.st.toks) (hx : x ∈ l) (hk : w0.st.toks[x]? = some k)
    (hn : k.name = "AssignmentExpression".toList ∨ k.name = "PatternScope".toList) (e : Str)
    (h : ∀ gs' bs', ¬ ItemMeans env b.w.st.toks x gs' bs') :
    HookTells env fromFile imp rep w0.st.toks b.errors x (.error (patternError e), b) := by
  intro _
  refine ⟨[], _, .pattern (m := e) hk hn fun gs bs hi => h gs bs (hi.transport hs hx), ⟨rfl, patternError_message e⟩, by simp⟩

theorem hookAssignment_tells (hs : SameOn l w0.st.toks b.w.st.toks) (hx : x ∈ l) (hc : b.crash = none)
    (hk : w0.st.toks[x]? = some k) (hn : k.name = "AssignmentExpression".toList)
    (hd : ¬ Deep w0.st.toks depth x) {sc : SCtxId} :
    HookTells env fromFile imp rep w0.st.toks b.errors x (hookAssignment env depth sc x b) := by
  have hr : errorReports w0.st.toks [x] = [] := reports_other hk (by rw [hn]; decide)
  refine hookAssignment_effect rfl (hs.at_ hx hk) hn (fun hd' => hd (hd'.transport hs.symm hx)) ?_ ?_ ?_ ?_
  · exact fun _ _ _ => ⟨by rw [hr, List.append_nil], hc⟩
  · exact fun _ _ _ _ _ _ _ => ⟨by rw [hr, List.append_nil]; rfl, hc⟩
  · exact fun e h => stops_pattern hs hx hk (.inl hn) e h
  · exact fun _ _ h => nomatch h

theorem hookPatternScope_tells (h : Means w0 gs bs n b) (hs : SameOn l w0.st.toks b.w.st.toks) (hx : x ∈ l)
    (hc : b.crash = none) (hk : w0.st.toks[x]? = some k) (hn : k.name = "PatternScope".toList)
    (hd : ¬ Deep w0.st.toks depth x) :
    HookTells env fromFile imp rep w0.st.toks b.errors x (hookPatternScope env depth (w0.nodes.length + 1) x b) := by
  have hr : errorReports w0.st.toks [x] = [] := reports_other hk (by rw [hn]; decide)
  obtain ⟨ps, hi, hb⟩ := h.inner
  refine hookPatternScope_effect rfl (hs.at_ hx hk) hn (fun hd' => hd (hd'.transport hs.symm hx))
    (Nat.add_lt_add_left (by decide : 1 < 4) _) h.length_le hi hb ?_ ?_ ?_
  · exact fun _ _ _ _ _ _ _ _ => ⟨by rw [hr, List.append_nil], hc⟩
  · exact fun e h => stops_pattern hs hx hk (.inr hn) e h
  · exact fun _ _ h => nomatch h

/-- Which errors compiling an imported file reports. -/
def FileTells (rep : Str → List ParseError → Prop) (compileFile : Str → World → BuildRes) : Prop :=
  ∀ file w es, Milds w.nodes → ScopesOK w.st → compileFile file w = .err es → rep file es

theorem hookImport_tells {compileFile : Str → World → BuildRes} {ts : List TokId}
    (hf : FileBrings imp compileFile) (hsafe : ∀ file w, Milds w.nodes → FileSafe w (compileFile file w))
    (hrep : FileTells rep compileFile)
    (h : Means w0 gs bs n b) (hp : Pre w0.st.toks ts l) (hx : x ∈ l) (hc : b.crash = none)
    (hk : w0.st.toks[x]? = some k) (hn : k.name = "ImportStatement".toList) :
    HookTells env fromFile imp rep w0.st.toks b.errors x (hookImport env compileFile fromFile w0.st.sctxs.length x b) := by
  have hr : errorReports w0.st.toks [x] = [] := reports_other hk (by rw [hn]; decide)
  have hsame := SameOn.of_pre hp h.going.toks
  unfold hookImport
  cases hff : fromFile with
  | none =>
    refine step_noErr (Q := fun k' _ => b.w.st.toks[x]? = some k') (E := True) (D := True) .tok ?_ ?_ ?_
    · exact CPost.tok (fun _ h => h) (fun _ => trivial)
    · intro k' ns hk' _
      cases (hsame.at_ hx hk).symm.trans hk'
      exact ⟨[], _, .forbidden hk hn rfl, ⟨rfl, List.cons_ne_nil _ _⟩, by simp⟩
    · intro _ _ h; cases h
  | some base =>
    refine step_noErr (Q := fun p ns => ns = b.w.nodes ∧ ∃ ids idk q qk joined,
        First b.w.st.toks ["ImportIdentifiers"] k.children ids ∧ b.w.st.toks[ids]? = some idk ∧
        First b.w.st.toks ["Path"] k.children q ∧ b.w.st.toks[q]? = some qk ∧
        env.relative base qk.getValue = some joined ∧ env.canonical joined = some p.2 ∧ p.1 = idk.children)
      (E := True) (D := True) ?_ ?_ ?_ ?_
    · exact .bind .tok fun _ => .bind .findChild fun _ => .bind .ofOpt fun _ => .bind .tok fun _ => .bind .findChild
        fun _ => .bind .ofOpt fun _ => .bind .tok fun _ => .bind .ofOpt fun _ => .bind .ofOpt fun _ => .pure
    · apply CPost.bind
      refine CPost.tok (fun k' hk' => ?_) (fun _ => trivial)
      cases (hsame.at_ hx hk).symm.trans hk'
      apply CPost.bind
      refine CPost.findChild (fun ids hids => ?_) (fun _ => ?_)
      case refine_2 => trivial
      apply CPost.bind
      refine CPost.ofOpt (fun _ he => ?_) (fun _ => trivial)
      cases he
      apply CPost.bind
      refine CPost.tok (fun idk hidk => ?_) (fun _ => trivial)
      apply CPost.bind
      refine CPost.findChild (fun q hq => ?_) (fun _ => ?_)
      case refine_2 => trivial
      apply CPost.bind
      refine CPost.ofOpt (fun _ he => ?_) (fun _ => trivial)
      cases he
      apply CPost.bind
      refine CPost.tok (fun qk hqk => ?_) (fun _ => trivial)
      apply CPost.bind
      refine CPost.ofOpt (fun joined hj => ?_) (fun _ => trivial)
      apply CPost.bind
      refine CPost.ofOpt (fun file hc => ?_) (fun _ => trivial)
      exact ⟨rfl, ids, idk, q, qk, joined, hids, hidk, hq, hqk, hj, hc, rfl⟩
    · rintro ⟨ids, file⟩ ns ⟨rfl, idt, idk, q, qk, joined, hids, hidk, hq, hqk, hj, hca, rfl⟩
      dsimp only at hca ⊢
      have hcl := hp.closed x hx k hk
      have hidk0 := hsame.symm.at_ (hcl _ hids.mem) hidk
      have hfrom : ImportsFrom env (some base) w0.st.toks x idk.children file :=
        .mk hk hn (hsame.symm.first hcl hids) hidk0 (hsame.symm.first hcl hq) (hsame.symm.at_ (hcl _ hq.mem) hqk) rfl
          hj hca
      have hs := hsafe file b.w h.going.milds
      cases hcf : compileFile file b.w with
      | err es => exact fun _ => ⟨es, none, .file hfrom (hrep file b.w es h.going.milds h.ok hcf), rfl, rfl⟩
      | panic m => exact fun h => nomatch h
      | diverge => exact fun h => nomatch h
      | ok root isc w1 =>
      rw [hcf] at hs
      obtain ⟨hnodes, htoks, -, hroot, -, hown⟩ := hs
      obtain ⟨hok1, nf, fgs, fbs, himp, hfile, -⟩ := hf file b.w root isc w1 h.going.milds h.ok hcf
      have hsc := h.bound.lt
      have hne : isc ≠ w0.st.sctxs.length := by
        intro he
        have := hown.new
        rw [he] at this
        exact Nat.lt_irrefl _ (Nat.lt_of_lt_of_le hsc this)
      cases hfile with
      | mk hl hs hm hla ha hlb hb hli hi hps hbs =>
      have hsay := importIdentifiers_says (file := file) hne idk.children (b := { b with w := w1 }) hok1
        (Nat.lt_of_lt_of_le hsc hown.sctxs.length_le) hm hc
      dsimp only at hsay ⊢
      cases hres : importIdentifiers w0.st.sctxs.length isc root file idk.children { b with w := w1 } with
      | mk r b' =>
      rw [hres] at hsay
      cases r with
      | ok u => exact ⟨by rw [hr, List.append_nil]; exact hsay.1, hsay.2⟩
      | error e =>
        intro hc'
        obtain ⟨g1, pre, c, post, hcs, g2, ik, name, g3, g4⟩ := hsay hc'
        have hsame1 := (SameOn.of_pre hp (h.going.toks.trans htoks)).symm
        have hin : ∀ c ∈ idk.children, c ∈ l := hp.closed idt (hcl _ hids.mem) idk hidk0
        cases hbs with
        | mk _ fn hd _ hu =>
        have hdef : ∀ i, (∃ m, w1.st.lookup isc i = some (.matcher m)) ↔ ∃ th, lastDef fbs i = some th := by
          intro i
          constructor
          · rintro ⟨m, hm⟩
            cases hl : lastDef fbs i with
            | none => rw [hu i hl] at hm; cases hm
            | some th => exact ⟨th, rfl⟩
          · rintro ⟨th, hl⟩
            exact ⟨_, hd i th hl⟩
        have hpre : ∀ c' ∈ pre, Importable w0.st.toks fbs c' := by
          intro c' hc'
          obtain ⟨ik, name, q1, q2⟩ := g2 c' hc'
          refine ⟨ik, name, q1.transport hsame1 (hin _ (by rw [hcs]; simp [hc'])), q2.imp id fun q => ⟨q.1, (hdef _).mp q.2⟩⟩
        have g3 := g3.transport hsame1 (hin c (by rw [hcs]; simp))
        rw [hcs] at hfrom
        rcases g4 with ⟨q1, q2, rfl⟩ | ⟨q1, q2, rfl⟩
        · exact ⟨[], _, .identifier hfrom himp hpre (.unnamed (q2 ▸ g3) q1), ⟨rfl, List.cons_ne_nil _ _⟩, by
            rw [List.append_nil]; exact g1⟩
        · refine ⟨[], _, .identifier hfrom himp hpre (.missing g3 q1 ?_), ⟨rfl, ?_⟩, by rw [List.append_nil]; exact g1⟩
          · cases hl : lastDef fbs ik.getValue with
            | none => rfl
            | some th =>
              obtain ⟨m, hm⟩ := (hdef _).mpr ⟨th, hl⟩
              exact absurd hm (q2 m)
          · exact List.cons_ne_nil _ _
    · intro _ _ h; cases h

end hooks

/-! ### The visit -/

/-- What the visit of the tokens `l` does to the errors `es`. -/
def VisitTells (env : Env) (fromFile : Option Str) (imp : Str → Str → List Gram → List (Str × Thing) → Prop)
    (rep : Str → List ParseError → Prop) (w0 : World) (t : Nat) (es : List ParseError) (l : List TokId) :
    VRes Build → Prop
  | .err e b => b.crash = none → ∃ l1 x l2 gs bs more o, l = l1 ++ x :: l2 ∧
      ScriptBrings env fromFile imp w0.st.toks t l1 gs bs ∧ Stops env fromFile imp rep w0.st.toks x more o ∧ Says e o ∧
      b.errors = es ++ errorReports w0.st.toks l1 ++ more
  | _ => True

theorem errorReports_cons (toks : List Token) (x : TokId) (l : List TokId) :
    errorReports toks (x :: l) = errorReports toks [x] ++ errorReports toks l := by
  simp only [errorReports]
  split
  · split <;> simp
  · simp

theorem callHooks_tells {compileFile : Str → World → BuildRes} {ts all : List TokId} {depth : Nat}
    (hf : FileBrings imp compileFile) (hsafe : ∀ file w, Milds w.nodes → FileSafe w (compileFile file w))
    (hrep : FileTells rep compileFile)
    (hp : Pre w0.st.toks ts all) (hd : w0.st.toks.length ≤ depth) (l : List TokId) :
    ∀ {gs : List Gram} {bs : List (Str × Thing)} {n : Str} {b : Build}, (∀ x ∈ l, x ∈ all) → Means w0 gs bs n b →
    b.crash = none →
    VisitTells env fromFile imp rep w0 bs.length b.errors l (callHooks w0.st.toks
      (buildHooks env compileFile fromFile depth w0.nodes.length (w0.nodes.length + 1) w0.st.sctxs.length) l b) := by
  induction l with
  | nil => intros; trivial
  | cons x l ih =>
    intro gs bs n b hl h hcr
    have hx := hl x (by simp)
    obtain ⟨k, hk⟩ : ∃ k, w0.st.toks[x]? = some k := ⟨_, List.getElem?_eq_getElem (hp.valid x hx)⟩
    have hdx := hp.not_deep hx hd
    have hsame := SameOn.of_pre hp h.going.toks
    -- the token is done
    have after : ∀ {gs1 bs1 b1}, ItemBrings env fromFile imp w0.st.toks bs.length x gs1 bs1 →
        Means w0 (gs ++ gs1) (bs ++ bs1) (scriptName w0.st.toks [x] n) b1 →
        b1.errors = b.errors ++ errorReports w0.st.toks [x] → b1.crash = none →
        VisitTells env fromFile imp rep w0 bs.length b.errors (x :: l) (callHooks w0.st.toks
          (buildHooks env compileFile fromFile depth w0.nodes.length (w0.nodes.length + 1) w0.st.sctxs.length) l b1) := by
      intro gs1 bs1 b1 h1 h2 h3 h4
      have := ih (fun y hy => hl y (List.mem_cons_of_mem _ hy)) h2 h4
      cases hc : callHooks w0.st.toks
          (buildHooks env compileFile fromFile depth w0.nodes.length (w0.nodes.length + 1) w0.st.sctxs.length) l b1 with
      | err e b' =>
        rw [hc] at this
        intro hb
        obtain ⟨l1, y, l2, gs2, bs2, more, o, rfl, g1, g2, g3, g4⟩ := this hb
        rw [List.length_append] at g1
        refine ⟨x :: l1, y, l2, gs1 ++ gs2, bs1 ++ bs2, more, o, rfl, .cons h1 g1, g2, g3, ?_⟩
        rw [g4, h3, errorReports_cons _ x l1]
        simp
      | ok b' => trivial
      | dangling => trivial
      | diverge => trivial
    -- a hook
    have key : ∀ hook : Hook Build,
        hookFor (buildHooks env compileFile fromFile depth w0.nodes.length (w0.nodes.length + 1) w0.st.sctxs.length)
          k.name = some hook →
        HookBrings env fromFile imp w0 gs bs n x (hook x b) →
        HookTells env fromFile imp rep w0.st.toks b.errors x (hook x b) →
        VisitTells env fromFile imp rep w0 bs.length b.errors (x :: l) (callHooks w0.st.toks
          (buildHooks env compileFile fromFile depth w0.nodes.length (w0.nodes.length + 1) w0.st.sctxs.length)
          (x :: l) b) := by
      intro hook hf hok htell
      have hb : (w0.st.toks[x]?).bind (fun k => hookFor
          (buildHooks env compileFile fromFile depth w0.nodes.length (w0.nodes.length + 1) w0.st.sctxs.length) k.name) =
          some hook := by
        rw [hk]; exact hf
      unfold callHooks
      rw [hb]
      dsimp only
      rcases ho : hook x b with ⟨r, b1⟩
      rw [ho] at hok htell
      cases r with
      | error e =>
        intro hb1
        obtain ⟨more, o, g1, g2, g3⟩ := htell hb1
        exact ⟨[], x, l, [], [], more, o, rfl, .nil, g1, g2, by simpa [errorReports] using g3⟩
      | ok u =>
        obtain ⟨gs1, bs1, h1, h2⟩ := hok
        exact after h1 h2 htell.1 htell.2
    by_cases h1 : k.name = "Error".toList
    · exact key _ (h1 ▸ hookFor_hit (pre := []) rfl (by decide)) (hookError_brings h hsame hx hk h1)
        (hookError_tells hsame hx hcr hk h1)
    by_cases h2 : k.name = "AdextopaScope".toList
    · exact key _ (h2 ▸ hookFor_hit (pre := [_]) rfl (by simp)) (hookAdextopaScope_brings h hsame hx hk h2)
        (hookAdextopaScope_tells h hsame hx hcr hk h2)
    by_cases h3 : k.name = "AssignmentExpression".toList
    · exact key _ (h3 ▸ hookFor_hit (pre := [_, _]) rfl (by simp)) (hookAssignment_brings h hsame hx hk h3 hdx)
        (hookAssignment_tells hsame hx hcr hk h3 hdx)
    by_cases h4 : k.name = "ImportStatement".toList
    · exact key _ (h4 ▸ hookFor_hit (pre := [_, _, _]) rfl (by simp)) (hookImport_brings hf hsafe h hp hx hk h4)
        (hookImport_tells hf hsafe hrep h hp hx hcr hk h4)
    by_cases h5 : k.name = "PatternScope".toList
    · exact key _ (h5 ▸ hookFor_hit (pre := [_, _, _, _]) rfl (by simp))
        (hookPatternScope_brings h hsame hx hk h5 hdx) (hookPatternScope_tells h hsame hx hcr hk h5 hdx)
    have hb : (w0.st.toks[x]?).bind (fun k => hookFor
        (buildHooks env compileFile fromFile depth w0.nodes.length (w0.nodes.length + 1) w0.st.sctxs.length) k.name) =
        none := by
      rw [hk]
      refine hookFor_miss ?_ (by simp [buildHooks])
      simp only [buildHooks, List.map_cons, List.map_nil, List.mem_cons, List.not_mem_nil, or_false, not_or]
      exact ⟨h1, h2, h3, h4, h5⟩
    unfold callHooks
    rw [hb]
    refine after (.own (.other hk h1 h5 h3 h4)) (by
      rw [scriptName_other hk h2]
      simpa using h) (by rw [reports_other hk h1, List.append_nil]) hcr

theorem errorString_new (parser : Parser) (sc : SCtxId) (name msg : Str) (r : Range) :
    (Ctx.new parser sc name).errorString msg r = (Ctx.new parser 0 []).errorString msg r := rfl

/-- The errors of a build. -/
theorem build_tells {compileFile : Str → World → BuildRes} {depth : Nat} {t : TokId} {k : Token} {parser : Parser}
    {sc : SCtxId} {name cname : Str} {w : World} {l : List TokId} {es : List ParseError}
    (hf : FileBrings imp compileFile) (hsafe : ∀ file w, Milds w.nodes → FileSafe w (compileFile file w))
    (hrep : FileTells rep compileFile)
    (hm : Milds w.nodes) (hok : ScopesOK w.st) (hk : w.st.toks[t]? = some k) (hn : k.name = "Script".toList)
    (hl : Pre w.st.toks [t] l) (hd : w.st.toks.length ≤ depth)
    (h : buildMatcherFromTokens env compileFile depth t (Ctx.new parser sc cname) name fromFile w = .err es) :
    ∃ l1 x l2 gs bs more o last, l = l1 ++ x :: l2 ∧ ScriptBrings env fromFile imp w.st.toks 0 l1 gs bs ∧
      Stops env fromFile imp rep w.st.toks x more o ∧ LastReport parser o last ∧
      es = errorReports w.st.toks l1 ++ more ++ last := by
  have hv := callHooks_tells (env := env) (fromFile := fromFile) hf hsafe hrep hl hd l (fun _ h => h)
    (Means.start (name := name) hm hok) rfl
  have he : buildMatcherFromTokens env compileFile depth t (Ctx.new parser sc cname) name fromFile w =
      buildResult (Ctx.new parser sc cname) w.nodes.length w.st.sctxs.length (callHooks w.st.toks
        (buildHooks env compileFile fromFile depth w.nodes.length (w.nodes.length + 1) w.st.sctxs.length) l
        ⟨⟨w.nodes ++ preamble w.nodes.length w.st.sctxs.length name, w.st.newSCtx.2⟩, [], none⟩) := by
    unfold buildMatcherFromTokens
    rw [hk]
    dsimp only
    rw [if_neg (by simpa using hn)]
    rw [← C31_visit_preorder _ _ hl hd]
    rfl
  rw [he] at h
  generalize callHooks w.st.toks
        (buildHooks env compileFile fromFile depth w.nodes.length (w.nodes.length + 1) w.st.sctxs.length) l
        ⟨⟨w.nodes ++ preamble w.nodes.length w.st.sctxs.length name, w.st.newSCtx.2⟩, [], none⟩ = r at h hv
  cases r with
  | ok b => cases h
  | dangling => cases h
  | diverge => cases h
  | err e b =>
    unfold buildResult at h
    dsimp only at h
    cases hc : b.crash with
    | some c => rw [hc] at h; cases c <;> cases h
    | none =>
      rw [hc] at h
      dsimp only at h
      obtain ⟨l1, x, l2, gs, bs, more, o, h1, h2, h3, h4, h5⟩ := hv hc
      cases o with
      | none =>
        rw [if_neg (fun h' => h' h4)] at h
        cases h
        exact ⟨l1, x, l2, gs, bs, more, none, [], h1, h2, h3, .none, by rw [h5]; simp⟩
      | some e' =>
        obtain ⟨rfl, hmsg⟩ := h4
        rw [if_pos hmsg] at h
        cases ht : (Ctx.new parser sc cname).errorString e.message (e.range.getD ⟨0, 0⟩) with
        | none => rw [ht] at h; cases h
        | some text =>
          rw [ht] at h
          cases h
          exact ⟨l1, x, l2, gs, bs, more, some e, _, h1, h2, h3, .some ht, by rw [h5]; simp⟩

end Adx
