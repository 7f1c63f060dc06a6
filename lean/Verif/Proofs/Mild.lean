import Verif.Proofs.ScriptNodes
import Verif.Proofs.Confine
import Verif.Props.Balance
import Verif.Props.Text
/-
  The callbacks of the grammar of grammar scripts and of the matchers built from
  scripts.  They change the name, the value and the attributes of the token they are
  given, and create error tokens; that is all.
-/
namespace Adx

/-- Two tokens that agree but for name, value and attributes. -/
structure Token.Alike (k k' : Token) : Prop where
  kind : k'.kind = k.kind
  parser : k'.parser = k.parser
  captured : k'.captured = k.captured
  matched : k'.matched = k.matched
  capturedValue : k'.capturedValue = k.capturedValue
  matchedValue : k'.matchedValue = k.matchedValue
  parent : k'.parent = k.parent
  children : k'.children = k.children
  flags : k'.flags = k.flags

theorem Token.Alike.refl (k : Token) : k.Alike k := ⟨rfl, rfl, rfl, rfl, rfl, rfl, rfl, rfl, rfl⟩

theorem Token.Alike.trans {a b c : Token} (h : a.Alike b) (h' : b.Alike c) : a.Alike c :=
  ⟨h'.1.trans h.1, h'.2.trans h.2, h'.3.trans h.3, h'.4.trans h.4, h'.5.trans h.5, h'.6.trans h.6,
    h'.7.trans h.7, h'.8.trans h.8, h'.9.trans h.9⟩

theorem Token.Alike.setAttribute (k : Token) (a v : Str) : k.Alike (k.setAttribute a v) :=
  ⟨rfl, rfl, rfl, rfl, rfl, rfl, rfl, rfl, rfl⟩

theorem Token.Alike.setName (k : Token) (n : Str) : k.Alike (k.setName n) :=
  ⟨rfl, rfl, rfl, rfl, rfl, rfl, rfl, rfl, rfl⟩

theorem Token.Alike.setValue (k : Token) (v : Str) : k.Alike (k.setValue v) := by
  unfold Token.setValue
  split <;> exact ⟨rfl, rfl, rfl, rfl, rfl, rfl, rfl, rfl, rfl⟩

theorem Token.Alike.addMissing (m : AMap Str) : ∀ k : Token, k.Alike (k.addMissing m) := by
  induction m with
  | nil => exact fun k => Token.Alike.refl k
  | cons a m ih =>
    intro k
    unfold Token.addMissing
    split
    · exact ih k
    · exact (Token.Alike.setAttribute k _ _).trans (ih _)

/-- The second heap is the first, but for name, value and attributes of token `t`. -/
def Touched (t : TokId) (s s' : State) : Prop :=
  s' = s ∨ ∃ k k', s.toks[t]? = some k ∧ k.Alike k' ∧ s' = { s with toks := s.toks.set t k' }

theorem Touched.refl (t : TokId) (s : State) : Touched t s s := Or.inl rfl

theorem Touched.trans {t : TokId} {a b c : State} (h : Touched t a b) (h' : Touched t b c) : Touched t a c := by
  rcases h with rfl | ⟨k, k1, hk, ha, rfl⟩
  · exact h'
  · rcases h' with rfl | ⟨k2, k3, hk2, ha2, rfl⟩
    · exact Or.inr ⟨k, k1, hk, ha, rfl⟩
    · have hlt := (List.getElem?_eq_some_iff.mp hk).1
      have : k2 = k1 := by
        simp only [List.getElem?_set_self hlt] at hk2
        exact (Option.some.inj hk2).symm
      subst this
      exact Or.inr ⟨k, k3, hk, ha.trans ha2, by simp⟩

theorem Touched.modTok {t : TokId} {f : Token → Token} {u : Unit} {s s' : State} (hf : ∀ k : Token, k.Alike (f k))
    (h : modTok t f s = .ok u s') : Touched t s s' := by
  obtain ⟨k, hk, rfl⟩ := modTok_ok.mp h
  exact Or.inr ⟨k, f k, hk, hf k, rfl⟩

/-- The token that `new_error_token` makes. -/
def errorTok (p : Parser) (msg : Str) (r : Range) : Token :=
  ((Token.mk' p "Error".toList r).setAttribute "__message".toList msg).enableFlags IS_ERROR

/-- What a success callback may do. -/
def MildOk (sf : TokId → Ctx → SCtxId → M R) : Prop :=
  ∀ t c sc s r s', sf t c sc s = .ok r s' → ∃ s1, Touched t s s1 ∧
    ((s' = s1 ∧ (r = .ok (.token t) ∨ ∃ f, r = .err f)) ∨
      ∃ msg q, s' = { s1 with toks := s1.toks ++ [errorTok c.parser msg q] } ∧
        r = .ok (.token s1.toks.length))

/-- What a failure callback may do. -/
def MildErr (ff : Failure → Ctx → SCtxId → M R) : Prop :=
  ∀ e c sc s r s', ff e c sc s = .ok r s' → s' = s ∧ ((∃ f, r = .err f) ∨ ∃ k, r = .ok (.skip k))

/-- A matcher whose callbacks are of this kind, and no `ExpandRange`. -/
def Node.Mild : Node → Prop
  | .catch_ _ _ => False
  | .expandRange _ => False
  | .map _ sf ff => MildOk sf ∧ MildErr ff
  | _ => True

/-! ### The callbacks -/

theorem mild_passFailure : MildErr passFailure := by
  intro e c sc s r s' h
  obtain ⟨rfl, rfl⟩ := pure_ok.mp h
  exact ⟨rfl, Or.inl ⟨_, rfl⟩⟩

theorem mild_failureIsFine : MildErr failureIsFine := by
  intro e c sc s r s' h
  unfold failureIsFine at h
  cases e with
  | fail =>
    obtain ⟨rfl, rfl⟩ := pure_ok.mp h
    exact ⟨rfl, Or.inr ⟨_, rfl⟩⟩
  | error e =>
    obtain ⟨rfl, rfl⟩ := pure_ok.mp h
    exact ⟨rfl, Or.inl ⟨_, rfl⟩⟩

theorem newErrorTokenWithRange_ok {c : Ctx} {msg : Str} {q : Range} {t : TokId} {s s' : State}
    (h : newErrorTokenWithRange c msg q s = .ok t s') :
    ∃ w, s' = { s with toks := s.toks ++ [errorTok c.parser w q] } ∧ t = s.toks.length := by
  obtain ⟨w, s1, h1, h2⟩ := bind_ok.mp h
  obtain ⟨_, rfl⟩ := ofOpt_ok.mp h1
  obtain ⟨rfl, rfl⟩ := newTok_ok.mp h2
  exact ⟨w, rfl, rfl⟩

/-- A computation that ends by returning an error token. -/
theorem mild_error {c : Ctx} {msg : Str} {q : Range} {t : TokId} {s s1 s' : State} {r : R} (ht : Touched t s s1)
    (h : (do let e ← newErrorTokenWithRange c msg q; pure (R.ok (.token e)) : M R) s1 = .ok r s') :
    ∃ s1, Touched t s s1 ∧ ((s' = s1 ∧ (r = .ok (.token t) ∨ ∃ f, r = .err f)) ∨
      ∃ msg q, s' = { s1 with toks := s1.toks ++ [errorTok c.parser msg q] } ∧
        r = .ok (.token s1.toks.length)) := by
  obtain ⟨e, s2, h1, h2⟩ := bind_ok.mp h
  obtain ⟨w, rfl, rfl⟩ := newErrorTokenWithRange_ok h1
  obtain ⟨rfl, rfl⟩ := pure_ok.mp h2
  exact ⟨s1, ht, Or.inr ⟨w, q, rfl, rfl⟩⟩

theorem mild_fatalIf (msg : Str) : MildOk (fatalIfOk msg) := by
  intro t c sc s r s' h
  unfold fatalIfOk at h
  obtain ⟨k, s1, h1, h2⟩ := bind_ok.mp h
  obtain ⟨_, rfl⟩ := getTok_ok.mp h1
  obtain ⟨w, s2, h3, h4⟩ := bind_ok.mp h2
  obtain ⟨_, rfl⟩ := ofOpt_ok.mp h3
  obtain ⟨rfl, rfl⟩ := pure_ok.mp h4
  exact ⟨_, Touched.refl _ _, Or.inl ⟨rfl, Or.inr ⟨_, rfl⟩⟩⟩

theorem mild_assertIf (msg : Str) : MildOk (assertIfOk msg) := by
  intro t c sc s r s' h
  unfold assertIfOk at h
  obtain ⟨k, s1, h1, h2⟩ := bind_ok.mp h
  obtain ⟨_, rfl⟩ := getTok_ok.mp h1
  exact mild_error (Touched.refl _ _) h2

theorem findLoop_state {test : Str → Bool} (cs : List TokId) : ∀ {o : Option TokId} {s s' : State},
    findLoop test cs s = .ok o s' → s' = s := by
  induction cs with
  | nil => intro o s s' h; obtain ⟨_, rfl⟩ := pure_ok.mp h; rfl
  | cons c cs ih =>
    intro o s s' h
    unfold findLoop at h
    obtain ⟨k, s1, h1, h2⟩ := bind_ok.mp h
    obtain ⟨_, rfl⟩ := getTok_ok.mp h1
    split at h2
    · obtain ⟨_, rfl⟩ := pure_ok.mp h2; rfl
    · exact ih h2

theorem findChild_state {k : Token} {n : Str} {o : Option TokId} {s s' : State}
    (h : k.findChild n s = .ok o s') : s' = s := by
  unfold Token.findChild at h
  split at h
  · obtain ⟨_, rfl⟩ := pure_ok.mp h; rfl
  · exact findLoop_state _ h

namespace Script

theorem partsRange_state (cs : List TokId) : ∀ {q q' : Range} {s s' : State},
    partsRange cs q s = .ok q' s' → s' = s := by
  induction cs with
  | nil => intro q q' s s' h; obtain ⟨_, rfl⟩ := pure_ok.mp h; rfl
  | cons c cs ih =>
    intro q q' s s' h
    unfold partsRange at h
    obtain ⟨k, s1, h1, h2⟩ := bind_ok.mp h
    obtain ⟨_, rfl⟩ := getTok_ok.mp h1
    split at h2
    · exact ih h2
    · exact ih h2

theorem mild_regex : MildOk regexMatcherDone := by
  intro t c sc s r s' h
  unfold regexMatcherDone at h
  obtain ⟨k, s1, h1, h2⟩ := bind_ok.mp h
  obtain ⟨_, rfl⟩ := getTok_ok.mp h1
  obtain ⟨q, s2, h3, h4⟩ := bind_ok.mp h2
  obtain rfl := partsRange_state _ h3
  obtain ⟨u, s3, h5, h6⟩ := bind_ok.mp h4
  obtain ⟨rfl, rfl⟩ := pure_ok.mp h6
  exact ⟨_, Touched.modTok (fun k => Token.Alike.setValue k _) h5, Or.inl ⟨rfl, Or.inl rfl⟩⟩

theorem copyAttributes_touched {t : TokId} (as : List TokId) : ∀ {v o : Option TokId} {s s' : State},
    copyAttributes t as v s = .ok o s' → Touched t s s' := by
  induction as with
  | nil => intro v o s s' h; obtain ⟨_, rfl⟩ := pure_ok.mp h; exact Touched.refl _ _
  | cons a as ih =>
    intro v o s s' h
    unfold copyAttributes at h
    obtain ⟨k, s1, h1, g1⟩ := bind_ok.mp h
    obtain ⟨_, rfl⟩ := getTok_ok.mp h1
    obtain ⟨x, s2, h2, g2⟩ := bind_ok.mp g1
    obtain ⟨_, rfl⟩ := ofOpt_ok.mp h2
    obtain ⟨y, s3, h3, g3⟩ := bind_ok.mp g2
    obtain ⟨_, rfl⟩ := ofOpt_ok.mp h3
    obtain ⟨xk, s4, h4, g4⟩ := bind_ok.mp g3
    obtain ⟨_, rfl⟩ := getTok_ok.mp h4
    obtain ⟨yk, s5, h5, g5⟩ := bind_ok.mp g4
    obtain ⟨_, rfl⟩ := getTok_ok.mp h5
    obtain ⟨u, s6, h6, g6⟩ := bind_ok.mp g5
    exact (Touched.modTok (fun k => Token.Alike.setAttribute k _ _) h6).trans (ih g6)

theorem copyAllAttributes_touched {t : TokId} {o : Option TokId} {s s' : State}
    (h : copyAllAttributes t s = .ok o s') : Touched t s s' := by
  unfold copyAllAttributes at h
  obtain ⟨k, s1, h1, g1⟩ := bind_ok.mp h
  obtain ⟨_, rfl⟩ := getTok_ok.mp h1
  obtain ⟨x, s2, h2, g2⟩ := bind_ok.mp g1
  obtain rfl := findChild_state h2
  cases x with
  | none => obtain ⟨_, rfl⟩ := pure_ok.mp g2; exact Touched.refl _ _
  | some a =>
    obtain ⟨ak, s3, h3, g3⟩ := bind_ok.mp g2
    obtain ⟨_, rfl⟩ := getTok_ok.mp h3
    exact copyAttributes_touched _ g3

theorem mild_definition : MildOk patternDefinitionDone := by
  intro t c sc s r s' h
  unfold patternDefinitionDone at h
  obtain ⟨k, s1, h1, h2⟩ := bind_ok.mp h
  obtain ⟨rfl, rfl⟩ := pure_ok.mp h2
  exact ⟨_, copyAllAttributes_touched h1, Or.inl ⟨rfl, Or.inl rfl⟩⟩

theorem mild_scope : MildOk patternScopeDone := by
  intro t c sc s r s' h
  unfold patternScopeDone at h
  obtain ⟨k, s1, h1, g1⟩ := bind_ok.mp h
  obtain ⟨_, rfl⟩ := getTok_ok.mp h1
  split at g1
  · obtain ⟨x, s2, h2, g2⟩ := bind_ok.mp g1
    obtain ⟨_, rfl⟩ := ofOpt_ok.mp h2
    exact mild_error (Touched.refl _ _) g2
  · obtain ⟨rfl, rfl⟩ := pure_ok.mp g1
    exact ⟨_, Touched.refl _ _, Or.inl ⟨rfl, Or.inl rfl⟩⟩

theorem mild_header : MildOk adextopaScopeDone := by
  intro t c sc s r s' h
  unfold adextopaScopeDone at h
  obtain ⟨v, s1, h1, g1⟩ := bind_ok.mp h
  have ht := copyAllAttributes_touched h1
  obtain ⟨k, s2, h2, g2⟩ := bind_ok.mp g1
  obtain ⟨_, rfl⟩ := getTok_ok.mp h2
  cases hv : k.getAttribute "version".toList with
  | none =>
    rw [hv] at g2
    obtain ⟨x, s3, h3, g3⟩ := bind_ok.mp g2
    obtain rfl := findChild_state h3
    cases x with
    | none =>
      obtain ⟨q, s4, h4, g4⟩ := bind_ok.mp g3
      obtain ⟨rfl, rfl⟩ := pure_ok.mp h4
      exact mild_error ht g4
    | some p =>
      obtain ⟨pk, s5, h5, g4⟩ := bind_ok.mp g3
      obtain ⟨_, rfl⟩ := getTok_ok.mp h5
      obtain ⟨q, s4, h4, g5⟩ := bind_ok.mp g4
      obtain ⟨rfl, rfl⟩ := pure_ok.mp h4
      exact mild_error ht g5
  | some ver =>
    rw [hv] at g2
    cases hp : parseUsize ver with
    | none =>
      simp only [hp] at g2
      obtain ⟨x, s3, h3, g5⟩ := bind_ok.mp g2
      obtain ⟨_, rfl⟩ := ofOpt_ok.mp h3
      obtain ⟨xk, s4, h4, g6⟩ := bind_ok.mp g5
      obtain ⟨_, rfl⟩ := getTok_ok.mp h4
      exact mild_error ht g6
    | some _ =>
      simp only [hp] at g2
      obtain ⟨rfl, rfl⟩ := pure_ok.mp g2
      exact ⟨_, ht, Or.inl ⟨rfl, Or.inl rfl⟩⟩

theorem mild_script : MildOk scriptDone := by
  intro t c sc s r s' h
  unfold scriptDone at h
  obtain ⟨k, s1, h1, g1⟩ := bind_ok.mp h
  obtain ⟨_, rfl⟩ := getTok_ok.mp h1
  obtain ⟨x, s2, h2, g2⟩ := bind_ok.mp g1
  obtain rfl := findChild_state h2
  obtain ⟨y, s3, h3, g3⟩ := bind_ok.mp g2
  obtain rfl := findChild_state h3
  split at g3
  · exact mild_error (Touched.refl _ _) g3
  · obtain ⟨rfl, rfl⟩ := pure_ok.mp g3
    exact ⟨_, Touched.refl _ _, Or.inl ⟨rfl, Or.inl rfl⟩⟩

end Script

theorem mild_attributes (m : AMap Str) : MildOk (addMissingAttributes m) := by
  intro t c sc s r s' h
  unfold addMissingAttributes at h
  obtain ⟨u, s3, h5, h6⟩ := bind_ok.mp h
  obtain ⟨rfl, rfl⟩ := pure_ok.mp h6
  exact ⟨_, Touched.modTok (fun k => Token.Alike.addMissing m k) h5, Or.inl ⟨rfl, Or.inl rfl⟩⟩

theorem mild_rename (n : Str) : MildOk (renameToken n) := by
  intro t c sc s r s' h
  unfold renameToken at h
  obtain ⟨u, s3, h5, h6⟩ := bind_ok.mp h
  obtain ⟨rfl, rfl⟩ := pure_ok.mp h6
  exact ⟨_, Touched.modTok (fun k => Token.Alike.setName k _) h5, Or.inl ⟨rfl, Or.inl rfl⟩⟩

/-- A matcher with such callbacks that does not change the scope context, and refers to
matchers from `lo` on only. -/
structure Node.Local (lo : Nat) (nd : Node) : Prop where
  mild : nd.Mild
  scope : match nd with | .setScope .. => False | _ => True
  refs : ∀ m ∈ nd.refs, lo ≤ m

/-- The matchers of the grammar of grammar scripts are of this kind. -/
theorem local_safe (lo : Nat) : ScriptSafe lo (Node.Local lo) where
  plain nd h hr := ⟨by cases nd <;> first | trivial | exact h.elim, by cases nd <;> trivial, hr⟩
  fatalIf _ msg h := ⟨⟨mild_fatalIf msg, mild_failureIsFine⟩, trivial, by simpa [Node.refs] using h⟩
  assertIf _ msg h := ⟨⟨mild_assertIf msg, mild_failureIsFine⟩, trivial, by simpa [Node.refs] using h⟩
  regex _ h := ⟨⟨Script.mild_regex, mild_passFailure⟩, trivial, by simpa [Node.refs] using h⟩
  definition _ h := ⟨⟨Script.mild_definition, mild_passFailure⟩, trivial, by simpa [Node.refs] using h⟩
  scope _ h := ⟨⟨Script.mild_scope, mild_passFailure⟩, trivial, by simpa [Node.refs] using h⟩
  header _ h := ⟨⟨Script.mild_header, mild_passFailure⟩, trivial, by simpa [Node.refs] using h⟩
  script _ h := ⟨⟨Script.mild_script, mild_passFailure⟩, trivial, by simpa [Node.refs] using h⟩

/-! ### What follows from it -/

theorem Touched.length {t : TokId} {s s' : State} (h : Touched t s s') : s'.toks.length = s.toks.length := by
  rcases h with rfl | ⟨k, k', hk, ha, rfl⟩
  · rfl
  · simp

theorem Touched.frm {n : Nat} {t : TokId} {s s' : State} (h : Touched t s s') (hn : n ≤ t) : Frm n s s' := by
  rcases h with rfl | ⟨k, k', hk, ha, rfl⟩
  · exact Frm.refl _ _
  · refine Frm.setTok hn fun hab c hc => ?_
    rw [ha.children] at hc
    exact hab t k hn hk c hc

theorem Node.Mild.frame {nd : Node} (h : nd.Mild) : FrameNode nd := by
  cases nd with
  | catch_ m f => exact h.elim
  | map m sf ff =>
    obtain ⟨h1, h2⟩ := h
    refine ⟨fun n t c sc s hn hl ha => Post.intro fun r s' hr => ?_, fun e c sc s => Post.intro fun r s' hr => ?_⟩
    · obtain ⟨s1, ht, ⟨rfl, hr⟩ | ⟨msg, q, rfl, rfl⟩⟩ := h1 _ _ _ _ _ _ hr
      · refine ⟨ht.frm hn, ?_⟩
        rcases hr with rfl | ⟨f, rfl⟩
        · exact ⟨hn, by rw [ht.length]; exact hl⟩
        · trivial
      · have hle : n ≤ s1.toks.length := by rw [ht.length]; exact Nat.le_trans hn (Nat.le_of_lt hl)
        refine ⟨(ht.frm hn).trans (Frm.newTok hle ?_), hle, by simp⟩
        intro c hc
        cases hc
    · obtain ⟨rfl, ⟨f, rfl⟩ | ⟨k, rfl⟩⟩ := h2 _ _ _ _ _ _ hr
      · exact ⟨Frm.refl _ _, trivial⟩
      · exact ⟨Frm.refl _ _, trivial⟩
  | _ => trivial

theorem Touched.grow {n : Nat} {t : TokId} {s s' : State} (h : Touched t s s') : Grow n s s' := by
  rcases h with rfl | ⟨k, k', hk, ha, rfl⟩
  · exact Grow.refl _ _
  · exact Grow.set hk (Or.inr ⟨ha.children, ha.flags⟩)

theorem Node.Mild.grafts {nd : Node} (h : nd.Mild) : nd.Grafts := by
  cases nd with
  | catch_ m f => exact h.elim
  | map m sf ff =>
    obtain ⟨h1, h2⟩ := h
    refine ⟨fun n t c sc s l r s' hn hl hr => ?_, fun e c sc s r s' hr => ?_⟩
    · obtain ⟨s1, ht, ⟨rfl, hr⟩ | ⟨msg, q, rfl, rfl⟩⟩ := h1 _ _ _ _ _ _ hr
      · rcases hr with rfl | ⟨f, rfl⟩
        · refine ⟨ht.grow, fun u hu => ?_⟩
          cases hu
          exact ⟨l, hl.grow_all ht.grow⟩
        · exact Grows.err ht.grow
      · exact (Grows.leaf rfl (by rw [ht.length]; exact hn)).after ht.grow
    · obtain ⟨rfl, ⟨f, rfl⟩ | ⟨k, rfl⟩⟩ := h2 _ _ _ _ _ _ hr
      · exact Grows.err (Grow.refl _ _)
      · exact Grows.skip (Grow.refl _ _)
  | _ => trivial

theorem Touched.vars {t : TokId} {s s' : State} (h : Touched t s s') : ∃ ts, s' = { s with toks := ts } := by
  rcases h with rfl | ⟨k, k', hk, ha, rfl⟩
  · exact ⟨s'.toks, rfl⟩
  · exact ⟨_, rfl⟩

theorem Node.Mild.pres {T : Table} {Rel : State → State → Prop} (H : VarRel T Rel) {nd : Node} (h : nd.Mild) :
    PresNode Rel nd := by
  cases nd with
  | catch_ m f => exact h.elim
  | map m sf ff =>
    obtain ⟨h1, h2⟩ := h
    refine ⟨fun t c sc s r s' hr => ?_, fun e c sc s r s' hr => ?_⟩
    · obtain ⟨s1, ht, h3⟩ := h1 _ _ _ _ _ _ hr
      obtain ⟨ts, rfl⟩ := ht.vars
      rcases h3 with ⟨rfl, _⟩ | ⟨msg, q, rfl, _⟩
      · exact H.toks s _
      · exact H.toks s _
    · obtain ⟨rfl, _⟩ := h2 _ _ _ _ _ _ hr
      exact H.refl s'
  | _ => trivial

/-- The stored texts of a token are the substrings at its ranges; it may carry any
attributes. -/
structure Stored (p : Parser) (k : Token) : Prop where
  parser : k.parser = p
  captured : k.capturedValue = k.captured.text p
  matched : k.matchedValue = k.matched.text p
  pin : k.kind = .pin → k.captured = k.matched ∧ k.flagsEnabled IS_ERROR = false

theorem TextInv.stored {p : Parser} {k : Token} (h : TextInv p k) : Stored p k :=
  ⟨h.parser, h.captured, h.matched, fun hk => ⟨(h.pin hk).1, (h.pin hk).2.1⟩⟩

theorem Stored.setCaptured {p : Parser} {k : Token} (h : Stored p k) (hs : k.kind = .standard) (r : Range) :
    Stored p (k.setCaptured r) := by
  obtain ⟨h1, h2, h3, h4⟩ := h
  unfold Token.setCaptured
  rw [hs]
  exact ⟨h1, by rw [← h1], h3, fun hk => by simp at hk⟩

theorem Stored.setMatched {p : Parser} {k : Token} (h : Stored p k) (hs : k.kind = .standard) (r : Range) :
    Stored p (k.setMatched r) := by
  obtain ⟨h1, h2, h3, h4⟩ := h
  unfold Token.setMatched
  rw [hs]
  exact ⟨h1, h2, by rw [← h1], fun hk => by simp at hk⟩

theorem Stored.std {p : Parser} {k : Token} (h : Stored p k)
    (hs : k.kind = .standard ∨ k.flagsEnabled IS_ERROR = true) : k.kind = .standard := by
  rcases hs with hs | hs
  · exact hs
  · cases hk : k.kind with
    | standard => rfl
    | pin => rw [(h.pin hk).2] at hs; cases hs

theorem Stored.inv (p : Parser) : TokInv (Stored p) p where
  fresh name c m := (TextInv.mkMatched name c m).stored
  quoted name c m v := ⟨rfl, rfl, rfl, fun h => by cases h⟩
  error r v := ⟨rfl, rfl, rfl, fun h => by cases h⟩
  pin name r := ⟨rfl, rfl, rfl, fun _ => ⟨rfl, by simp [Token.mkPin, Token.mkMatched, Token.flagsEnabled]⟩⟩
  parent k q h := ⟨h.parser, h.captured, h.matched, h.pin⟩
  kids k l h := ⟨h.parser, h.captured, h.matched, h.pin⟩
  captured k r h hs := h.setCaptured (h.std hs) r
  matched k r h hs := h.setMatched (h.std hs) r
  expand k h := by
    cases hk : k.kind with
    | standard => exact h.setCaptured hk _
    | pin =>
      have he := h.pin hk
      unfold Token.setCaptured
      rw [hk]
      exact ⟨h.parser, by rw [h.captured, he.1], h.matched, fun _ => ⟨rfl, he.2⟩⟩

theorem Stored.alike {p : Parser} {k k' : Token} (h : Stored p k) (ha : k.Alike k') : Stored p k' := by
  obtain ⟨h1, h2, h3, h4⟩ := h
  refine ⟨by rw [ha.parser, h1], by rw [ha.capturedValue, ha.captured, h2],
    by rw [ha.matchedValue, ha.matched, h3], fun hk => ?_⟩
  rw [ha.kind] at hk
  rw [ha.captured, ha.matched]
  unfold Token.flagsEnabled
  rw [ha.flags]
  exact h4 hk

theorem Touched.good {p : Parser} {t : TokId} {s s' : State} (h : Touched t s s') : Good (Stored p) s s' := by
  rcases h with rfl | ⟨k, k', hk, ha, rfl⟩
  · exact Good.refl _
  · exact Good.set hk ha.kind fun h => h.alike ha

theorem Node.Mild.stored {p : Parser} {nd : Node} (h : nd.Mild) : GoodNode (Stored p) p nd := by
  cases nd with
  | catch_ m f => exact h.elim
  | map m sf ff =>
    obtain ⟨h1, h2⟩ := h
    refine ⟨fun t c sc hc s r s' hr => ?_, fun e c sc hc s r s' hr => ?_⟩
    · obtain ⟨s1, ht, ⟨rfl, hr⟩ | ⟨msg, q, rfl, rfl⟩⟩ := h1 _ _ _ _ _ _ hr
      · exact ht.good
      · exact ht.good.trans (Good.new (by rw [hc]; exact (Stored.inv p).error q msg))
    · obtain ⟨rfl, _⟩ := h2 _ _ _ _ _ _ hr
      exact Good.refl _
  | _ => trivial

theorem MildOk.keep {sf : TokId → Ctx → SCtxId → M R} (h : MildOk sf) {I : State → Prop}
    (hI : ∀ s ts, I s → I { s with toks := ts }) (t : TokId) (c : Ctx) (sc : SCtxId) : Keep I (sf t c sc) := by
  intro s r s' hs hx
  obtain ⟨s1, ht, h1⟩ := h t c sc s r s' hx
  have h2 : I s1 := by
    rcases ht with rfl | ⟨k, k', hk, ha, rfl⟩
    · exact hs
    · exact hI _ _ hs
  rcases h1 with ⟨rfl, _⟩ | ⟨msg, q, rfl, _⟩
  · exact h2
  · exact hI _ _ h2

theorem MildErr.keep {ff : Failure → Ctx → SCtxId → M R} (h : MildErr ff) {I : State → Prop}
    (e : Failure) (c : Ctx) (sc : SCtxId) : Keep I (ff e c sc) := by
  intro s r s' hs hx
  rw [(h e c sc s r s' hx).1]
  exact hs

theorem Node.Local.keep {lo : Nat} {nd : Node} (h : nd.Local lo) {I : State → Prop}
    (hI : ∀ s ts, I s → I { s with toks := ts }) : KeepNode (lo ≤ ·) I nd := by
  obtain ⟨hm, hs, hr⟩ := h
  cases nd with
  | map m sf ff => exact ⟨hr m (by simp [Node.refs]), hm.1.keep hI, hm.2.keep⟩
  | catch_ m f => exact hm.elim
  | setScope k m => exact hs.elim
  | pin m o n c =>
    cases m with
    | none => trivial
    | some m => exact hr m (by simp [Node.refs])
  | debug m k =>
    cases m with
    | none => trivial
    | some m => exact hr m (by simp [Node.refs])
  | ref t n c =>
    cases t with
    | matcher m => exact hr m (by simp [Node.refs])
    | _ => trivial
  | program ps n c i f => exact hr
  | register ps => exact hr
  | optional m => exact hr m (by simp [Node.refs])
  | not m => exact hr m (by simp [Node.refs])
  | discard m => exact hr m (by simp [Node.refs])
  | proxyChildren m n c => exact hr m (by simp [Node.refs])
  | expandRange m => exact hr m (by simp [Node.refs])
  | store m n c => exact hr m (by simp [Node.refs])
  | _ => trivial

end Adx
