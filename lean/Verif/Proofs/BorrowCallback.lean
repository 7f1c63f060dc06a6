import Verif.Model.BorrowCallback
import Verif.Proofs.Borrow
import Verif.Proofs.Mild
/-
  Callbacks with borrow flags do what they do without.
-/
namespace Adx

open Held

variable {α β : Type} {s : State} {fl : Borrows} {base k : Nat} {t : TokId} {l : List TokId}

/-- What a callback of `Map!` for tokens has to keep to: called with the root of a proper tree
of new tokens that are not borrowed, it does what it does without flags. -/
def SuccessAgrees (sfB : TokId → Nat → Ctx → SCtxId → Held R) (sf : TokId → Ctx → SCtxId → M R) : Prop :=
  ∀ base k t c sc s fl l, Quiet base k fl → base ≤ s.toks.length → Pre s.toks [t] l → l.Nodup →
    (∀ u ∈ l, base ≤ u) → Agrees (sfB t k c sc) (sf t c sc) s fl

/-- The same for failures. -/
def FailureAgrees (ffB : Failure → Nat → Ctx → SCtxId → Held R) (ff : Failure → Ctx → SCtxId → M R) : Prop :=
  ∀ base k e c sc s fl, Quiet base k fl → base ≤ s.toks.length → Agrees (ffB e k c sc) (ff e c sc) s fl

/-- The same for the callback of `Catch!`. -/
def CaughtAgrees (fB : Nat → Ctx → Failure → Held R) (f : Ctx → Failure → M R) : Prop :=
  ∀ base k c e s fl, Quiet base k fl → base ≤ s.toks.length → Agrees (fB k c e) (f c e) s fl

/-- The callbacks of a matcher keep to this. -/
def Node.Follows (F : Callbacks) : Node → Prop
  | .catch_ _ f => CaughtAgrees F.caught f
  | .map _ sf ff => SuccessAgrees F.success sf ∧ FailureAgrees F.failure ff
  | _ => True

/-! ### The engine -/

section
variable {T : Table} {F : MatcherId → Callbacks} {cfg : Cfg} {recB : ExecFnB} {rec_ : ExecFn}

theorem agrees_nodeC (hr : RecAgrees base recB rec_) (hp : Proper rec_) {nd : Node} {F : Callbacks} (hF : nd.Follows F)
    {k : Nat} {ctx : Ctx} {sc : SCtxId} (q : Quiet base k fl) (hs : base ≤ s.toks.length) :
    Agrees (execNodeC T cfg recB F nd k ctx sc) (execNode T cfg rec_ nd ctx sc) s fl := by
  have h := agrees_node (T := T) (cfg := cfg) hr hp nd (ctx := ctx) (sc := sc) q hs
  cases nd with
  | catch_ m f =>
    refine agrees_touch q.context (agrees_bind (agrees_run hr q.succ hs) fun r s1 h1 => ?_)
    rcases r with a | e
    · exact agrees_pure _
    · exact hF _ _ _ _ _ _ q.succ (Nat.le_trans hs (hp.longer _ _ _ _ _ _ h1))
  | map m sf ff =>
    refine agrees_touch q.context (agrees_bind (agrees_run hr q.succ hs) fun r s1 h1 => ?_)
    have hs1 := Nat.le_trans hs (hp.longer _ _ _ _ _ _ h1)
    have htok : ∀ t, r.tok = some t → Agrees (F.success t (k + 1) (ctx.withName "Map".toList) sc)
        (sf t (ctx.withName "Map".toList) sc) s1 fl := by
      intro t ht
      obtain ⟨l, h2, h3, h4⟩ := hp.tree _ _ _ _ _ _ t h1 ht
      exact hF.1 _ _ _ _ _ _ _ l q.succ hs1 h2 h3 fun u hu => Nat.le_trans hs (h4 u hu)
    rcases r with a | e
    · cases a with
      | token t => exact htok t rfl
      | proxyChildren t => exact htok t rfl
      | _ => exact agrees_pure _
    · exact hF.2 _ _ _ _ _ _ _ q.succ hs1
  | _ => exact h

theorem agrees_execC (hT : ∀ m, (T m).Grafts) (hF : ∀ m, (T m).Follows (F m)) :
    ∀ n, RecAgrees base (execC T F cfg n) (exec T cfg n) := by
  intro n
  induction n with
  | zero => intro m k c sc s fl _ _; exact agrees_lift M.diverge
  | succ n ih =>
    intro m k c sc s fl q hs
    refine agrees_bind ?_ fun _ s1 h1 => agrees_nodeC ih (exec_proper hT n) (hF m) q ?_
    · exact agrees_if (fun _ => agrees_bindVar (q.names sc) q.scope) fun _ => agrees_pure _
    · unfold beforeExec at h1
      split at h1
      · cases h1
        rw [State.bindVar_toks]
        exact hs
      · cases h1
        exact hs

theorem agrees_tokenizeC (hT : ∀ m, (T m).Grafts) (hF : ∀ m, (T m).Follows (F m)) {n k : Nat} {ctx : Ctx} {m : MatcherId}
    (q : Quiet base k fl) (hs : base ≤ s.toks.length) :
    Agrees (tokenizeC T F cfg n k ctx m) (tokenize T cfg n ctx m) s fl := by
  refine agrees_touch q.context (agrees_share (q.matcher m) fun j _ => ?_)
  have q1 : Quiet base k (fl.set (.matcher m) (.shared (j + 1))) := q.shareMatcher m
  refine agrees_bind (agrees_execC hT hF n _ _ _ _ _ _ q1 hs) fun r s1 h1 => ?_
  have htop : ∀ {t : TokId} {f : Held (Except Failure TokId)} {g : M (Except Failure TokId)}, r.tok = some t →
      (∀ s2, Agrees f g s2 (fl.set (.matcher m) (.shared (j + 1)))) →
      Agrees (collectErrorsTopB t >>= fun _ => f) (collectErrorsTop t >>= fun _ => g) s1
        (fl.set (.matcher m) (.shared (j + 1))) := by
    intro t f g ht hfg
    obtain ⟨l, hl, hn, hb⟩ := (exec_proper hT n).tree _ _ _ _ _ _ t h1 ht
    exact agrees_bind (agrees_collectTop hl hn fun u hu => q1.new u (Nat.le_trans hs (hb u hu))) fun _ s2 _ => hfg s2
  rcases r with a | f
  · cases a with
    | token t => exact htop rfl fun _ => agrees_pure _
    | proxyChildren t => exact htop rfl fun _ => agrees_pure _
    | brk x d =>
      cases d with
      | token t => exact htop rfl fun _ => agrees_pure _
      | _ => exact agrees_pure _
    | cont x d =>
      cases d with
      | token t => exact htop rfl fun _ => agrees_pure _
      | _ => exact agrees_pure _
    | _ => exact agrees_pure _
  · exact agrees_pure _

end

/-! ### Error tokens -/

/-- Tokens that may be read. -/
def Readable (P : TokId → Prop) (fl : Borrows) : Prop := ∀ x, P x → fl (.token x) ≠ .exclusive

theorem Readable.share {P : TokId → Prop} (h : Readable P fl) (c : Cell) (n : Nat) : Readable P (fl.set c (.shared n)) := by
  intro x hx
  by_cases hc : Cell.token x = c
  · subst hc
    rw [Borrows.set_same]
    intro h
    cases h
  · rw [Borrows.set_other _ _ hc]
    exact h x hx

theorem Readable.own {P : TokId → Prop} (h : Readable P fl) {t : TokId} (ht : ¬ P t) : Readable P (fl.set (.token t) .exclusive) := by
  intro x hx
  rw [Borrows.set_other _ _ (by rintro ⟨⟩; exact ht hx)]
  exact h x hx

theorem Quiet.readable (q : Quiet base k fl) : Readable (fun _ => True) fl := fun x _ => q.token x

theorem agrees_errorToken {c : Ctx} {msg : Str} {r : Range} (hk : fl (.context k) ≠ .exclusive)
    (hn : fl (.token s.toks.length) = .shared 0) :
    Agrees (newErrorTokenWithRangeB k c msg r) (newErrorTokenWithRange c msg r) s fl := by
  refine agrees_share hk fun n _ => agrees_last (agrees_lift _) fun e s1 h1 => agrees_touchMut ?_ (agrees_pure _)
  obtain ⟨w, _, rfl⟩ := newErrorTokenWithRange_ok h1
  rw [Borrows.set_other _ _ (by simp)]
  exact hn

/-! ### The macros -/

theorem agrees_fatalIf (msg : Str) : SuccessAgrees (fatalIfOkB msg) (fatalIfOk msg) := by
  intro base k t c sc s fl l q _ _ _ _
  refine agrees_share (q.token t) fun n _ => agrees_bind (agrees_lift _) fun tk s1 _ => ?_
  refine agrees_bind (agrees_share ?_ fun _ _ => agrees_lift _) fun _ _ _ => agrees_pure _
  rw [Borrows.set_other _ _ (by simp)]
  exact q.context

theorem agrees_failureIsFine : FailureAgrees failureIsFineB failureIsFine := fun _ _ _ _ _ _ _ _ _ => agrees_lift _
theorem agrees_successIsFine : SuccessAgrees successIsFineB successIsFine := fun _ _ _ _ _ _ _ _ _ _ _ _ _ => agrees_lift _
theorem agrees_passFailure : FailureAgrees passFailureB passFailure := fun _ _ _ _ _ _ _ _ _ => agrees_lift _

theorem agrees_fatalIfNot (msg : Str) : FailureAgrees (fatalIfNotErrB msg) (fatalIfNotErr msg) := by
  intro base k e c sc s fl q _
  cases e with
  | error e => exact agrees_pure _
  | fail =>
    exact agrees_touch q.context (agrees_bind (agrees_share q.context fun _ _ => agrees_lift _) fun _ _ _ => agrees_pure _)

/-- Making an error token while a token is borrowed. -/
theorem agrees_errorUnder {c : Ctx} {msg : Str} {r : Range} {n : Nat} (q : Quiet base k fl) (hs : base ≤ s.toks.length)
    (ht : t < s.toks.length) :
    Agrees (do let e ← newErrorTokenWithRangeB k c msg r; pure (R.ok (.token e)))
      (do let e ← newErrorTokenWithRange c msg r; pure (R.ok (.token e))) s (fl.set (.token t) (.shared n)) := by
  refine agrees_bind (agrees_errorToken ?_ ?_) fun _ _ _ => agrees_pure _
  · rw [Borrows.set_other _ _ (by simp)]
    exact q.context
  · rw [Borrows.set_other _ _ (by simp; exact Nat.ne_of_gt ht)]
    exact q.new _ hs

theorem agrees_assertIf (msg : Str) : SuccessAgrees (assertIfOkB msg) (assertIfOk msg) := by
  intro base k t c sc s fl l q hs hp _ _
  refine agrees_share (q.token t) fun n _ => agrees_bind (agrees_lift _) fun tk s1 h1 => ?_
  obtain ⟨_, rfl⟩ := getTok_ok.mp h1
  exact agrees_errorUnder q hs (hp.valid t (hp.roots t (by simp)))

theorem agrees_assertIfNot (msg : Str) : FailureAgrees (assertIfNotErrB msg) (assertIfNotErr msg) := by
  intro base k e c sc s fl q hs
  cases e with
  | error e => exact agrees_pure _
  | fail =>
    exact agrees_touch q.context (agrees_bind (agrees_errorToken q.context (q.new _ hs)) fun _ _ _ => agrees_pure _)

/-! ### Scripts -/

theorem agrees_findLoop {P : TokId → Prop} (hr : Readable P fl) {test : Str → Bool} : ∀ (cs : List TokId) (s : State),
    (∀ c ∈ cs, P c) → Agrees (findLoopB test cs) (findLoop test cs) s fl := by
  intro cs
  induction cs with
  | nil => exact fun _ _ => agrees_pure _
  | cons c cs ih =>
    intro s h
    exact agrees_bind (agrees_getTok (hr c (h c (by simp)))) fun k s1 _ =>
      agrees_if (fun _ => agrees_pure _) fun _ => ih s1 fun d hd => h d (by simp [hd])

theorem agrees_findChild {P : TokId → Prop} (hr : Readable P fl) {tk : Token} {needle : Str} (h : ∀ c ∈ tk.children, P c) :
    Agrees (findChildB tk needle) (tk.findChild needle) s fl :=
  agrees_if (fun _ => agrees_pure _) fun _ => agrees_findLoop hr _ _ h

theorem findLoop_mem {test : Str → Bool} : ∀ (cs : List TokId) {c : TokId} {s s' : State},
    findLoop test cs s = .ok (some c) s' → c ∈ cs := by
  intro cs
  induction cs with
  | nil => intro c s s' h; obtain ⟨h, _⟩ := pure_ok.mp h; cases h
  | cons d cs ih =>
    intro c s s' h
    obtain ⟨k, s1, _, h2⟩ := bind_ok.mp h
    split at h2
    · obtain ⟨h2, _⟩ := pure_ok.mp h2
      cases h2
      exact List.mem_cons_self
    · exact List.mem_cons_of_mem _ (ih h2)

theorem findChild_mem {tk : Token} {needle : Str} {c : TokId} {s s' : State}
    (h : tk.findChild needle s = .ok (some c) s') : c ∈ tk.children := by
  unfold Token.findChild at h
  split at h
  · obtain ⟨h, _⟩ := pure_ok.mp h
    cases h
  · exact findLoop_mem _ h

namespace Script

theorem agrees_partsRange {P : TokId → Prop} (hr : Readable P fl) : ∀ (cs : List TokId) (r : Range) (s : State),
    (∀ c ∈ cs, P c) → Agrees (partsRangeB cs r) (partsRange cs r) s fl := by
  intro cs
  induction cs with
  | nil => exact fun _ _ _ => agrees_pure _
  | cons c cs ih =>
    intro r s h
    exact agrees_bind (agrees_getTok (hr c (h c (by simp)))) fun k s1 _ =>
      agrees_if (fun _ => ih _ s1 fun d hd => h d (by simp [hd])) fun _ => ih _ s1 fun d hd => h d (by simp [hd])

theorem agrees_regexMatcherDone : SuccessAgrees regexMatcherDoneB regexMatcherDone := by
  intro base k t c sc s fl l q _ hp _ hb
  have ht := q.new t (hb t (hp.roots t (by simp)))
  unfold regexMatcherDoneB regexMatcherDone
  cases hk : s.toks[t]? with
  | none => exact absurd (hp.valid t (hp.roots t (by simp))) (Nat.not_lt.mpr (List.getElem?_eq_none_iff.mp hk))
  | some tk =>
    have e1 : getTok t s = .ok tk s := getTok_ok.mpr ⟨hk, rfl⟩
    have hx : Agrees (share (.token t) (do
        let tk ← lift (getTok t)
        partsRangeB tk.children ⟨usizeMax, usizeMax⟩)) (do
        let tk ← getTok t
        partsRange tk.children ⟨usizeMax, usizeMax⟩) s fl :=
      agrees_share (q.token t) fun n _ => agrees_bind (agrees_lift _) fun tk s1 _ =>
        agrees_partsRange (q.readable.share _ _) _ _ _ fun _ _ => trivial
    refine agrees_congr (a := (getTok t >>= fun tk => partsRange tk.children ⟨usizeMax, usizeMax⟩) >>= fun r =>
      getTok t >>= fun tk => modTok t (·.setValue (r.text tk.parser)) >>= fun _ => pure (R.ok (.token t)))
      (agrees_bind hx fun r s1 _ => agrees_bind (agrees_getTok (q.token t)) fun tk s2 _ =>
        agrees_bind (agrees_modTok ht) fun _ _ _ => agrees_pure _) ?_
    rw [M.bind_assoc, bind_run e1, bind_run e1]
    simp only [bind_eq, M.bind]
    cases hr : partsRange tk.children ⟨usizeMax, usizeMax⟩ s with
    | panic m => rfl
    | diverge => rfl
    | ok r s1 =>
      obtain rfl := partsRange_state _ hr
      dsimp only
      rw [e1]

/-- One attribute, without flags. -/
def copyAttribute (t a : TokId) (version : Option TokId) : M (Option TokId) := do
  let ak ← getTok a
  let name ← M.ofOpt "index out of bounds" ak.children[0]?
  let value ← M.ofOpt "index out of bounds" ak.children[1]?
  let name ← getTok name
  let value ← getTok value
  modTok t (·.setAttribute name.getValue value.getValue)
  pure (if name.getValue = "version".toList then some a else version)

theorem copyAttributes_cons (t a : TokId) (as : List TokId) (v : Option TokId) :
    copyAttributes t (a :: as) v = (copyAttribute t a v >>= fun v => copyAttributes t as v) := by
  simp only [copyAttribute, M.bind_assoc]
  rfl

/-- The tokens below a token that is being changed. -/
structure Below (t : TokId) (P : TokId → Prop) (s : State) (fl : Borrows) : Prop where
  other : ¬ P t
  read : Readable P fl
  closed : ClosedIn P s

theorem Below.share {P : TokId → Prop} (h : Below t P s fl) (c : Cell) (n : Nat) : Below t P s (fl.set c (.shared n)) :=
  ⟨h.other, h.read.share c n, h.closed⟩

theorem ofOpt_child {msg : String} {tk : Token} {i : Nat} {c : TokId} {s s' : State}
    (h : M.ofOpt msg tk.children[i]? s = .ok c s') : c ∈ tk.children ∧ s' = s := by
  obtain ⟨h1, rfl⟩ := ofOpt_ok.mp h
  exact ⟨List.mem_of_getElem? h1, rfl⟩

theorem agrees_copyAttribute {P : TokId → Prop} {a : TokId} {v : Option TokId} (h : Below t P s fl) (ha : P a) :
    Agrees (copyAttributeB t a v) (copyAttribute t a v) s fl := by
  refine agrees_share (h.read a ha) fun n _ => agrees_bind (agrees_lift _) fun ak s1 h1 => ?_
  obtain ⟨hak, rfl⟩ := getTok_ok.mp h1
  have hc := h.closed a ha ak hak
  refine agrees_bind (agrees_lift _) fun nm s2 h2 => agrees_bind (agrees_lift _) fun vl s3 h3 => ?_
  obtain ⟨hn, rfl⟩ := ofOpt_child h2
  obtain ⟨hv, rfl⟩ := ofOpt_child h3
  have hb := h.share (.token a) (n + 1)
  refine agrees_share (hb.read nm (hc nm hn)) fun n' _ => agrees_bind (agrees_lift _) fun nk s4 h4 => ?_
  obtain ⟨_, rfl⟩ := getTok_ok.mp h4
  exact agrees_share ((hb.share (.token nm) (n' + 1)).read vl (hc vl hv)) fun _ _ => agrees_bind (agrees_lift _) fun _ _ _ =>
    agrees_bind (agrees_lift _) fun _ _ _ => agrees_pure _

theorem copyAttribute_only {a : TokId} {v o : Option TokId} {s s' : State} (h : copyAttribute t a v s = .ok o s') : Only t s s' := by
  obtain ⟨ak, s1, h1, g1⟩ := bind_ok.mp h
  obtain ⟨_, rfl⟩ := getTok_ok.mp h1
  obtain ⟨nm, s2, h2, g2⟩ := bind_ok.mp g1
  obtain ⟨_, rfl⟩ := ofOpt_ok.mp h2
  obtain ⟨vl, s3, h3, g3⟩ := bind_ok.mp g2
  obtain ⟨_, rfl⟩ := ofOpt_ok.mp h3
  obtain ⟨nk, s4, h4, g4⟩ := bind_ok.mp g3
  obtain ⟨_, rfl⟩ := getTok_ok.mp h4
  obtain ⟨vk, s5, h5, g5⟩ := bind_ok.mp g4
  obtain ⟨_, rfl⟩ := getTok_ok.mp h5
  obtain ⟨_, s6, h6, g6⟩ := bind_ok.mp g5
  obtain ⟨_, rfl⟩ := pure_ok.mp g6
  exact modTok_only h6

theorem agrees_copyAttributes {P : TokId → Prop} : ∀ (as : List TokId) (v : Option TokId) (s : State), Below t P s fl →
    (∀ a ∈ as, P a) → Agrees (copyAttributesB t as v) (copyAttributes t as v) s fl := by
  intro as
  induction as with
  | nil => exact fun _ _ _ _ => agrees_pure _
  | cons a as ih =>
    intro v s h ha
    rw [copyAttributes_cons]
    exact agrees_bind (agrees_copyAttribute h (ha a (by simp))) fun o s1 h1 =>
      ih o s1 ⟨h.other, h.read, (copyAttribute_only h1).closed h.other h.closed⟩ fun d hd => ha d (by simp [hd])

theorem below_tree (hp : Pre s.toks [t] l) (hn : l.Nodup) : ClosedIn (fun x => x ∈ l ∧ x ≠ t) s := by
  rintro x ⟨hx, hxt⟩ j hj c hc
  refine ⟨hp.closed x hx j hj c hc, ?_⟩
  rintro rfl
  exact ((hp.one_parent hn).2 x hx j hj).2 c hc |>.1 (by simp)

theorem agrees_copyAll (q : Quiet base k fl) (hp : Pre s.toks [t] l) (hn : l.Nodup) (hb : ∀ u ∈ l, base ≤ u) :
    Agrees (copyAllAttributesB t) (copyAllAttributes t) s fl := by
  have htl := hp.roots t (by simp)
  have hbelow : Below t (fun x => x ∈ l ∧ x ≠ t) s (fl.set (.token t) .exclusive) :=
    ⟨fun h => h.2 rfl, Readable.own (fun x _ => q.token x) fun h => h.2 rfl, below_tree hp hn⟩
  refine agrees_own (q.new t (hb t htl)) (agrees_bind (agrees_lift _) fun tk s1 h1 => ?_)
  obtain ⟨hk, rfl⟩ := getTok_ok.mp h1
  have hch : ∀ c ∈ tk.children, c ∈ l ∧ c ≠ t := by
    intro c hc
    refine ⟨hp.closed t htl tk hk c hc, ?_⟩
    have := (((hp.one_parent hn).2 t htl tk hk).2 c hc).1
    simpa using this
  refine agrees_bind (agrees_findChild hbelow.read hch) fun o s2 h2 => ?_
  obtain rfl := findChild_state h2
  cases o with
  | none => exact agrees_pure _
  | some a =>
    have ha := hch a (findChild_mem h2)
    refine agrees_share (hbelow.read a ha) fun n _ => agrees_bind (agrees_lift _) fun ak s3 h3 => ?_
    obtain ⟨hak, rfl⟩ := getTok_ok.mp h3
    exact agrees_copyAttributes _ _ _ (hbelow.share _ _) (hbelow.closed a ha ak hak)

theorem agrees_patternDefinitionDone : SuccessAgrees patternDefinitionDoneB patternDefinitionDone := by
  intro base k t c sc s fl l q _ hp hn hb
  exact agrees_bind (agrees_copyAll q hp hn hb) fun _ _ _ => agrees_pure _

theorem agrees_patternScopeDone : SuccessAgrees patternScopeDoneB patternScopeDone := by
  intro base k t c sc s fl l q hs hp _ _
  refine agrees_share (q.token t) fun n _ => agrees_bind (agrees_lift _) fun tk s1 h1 => ?_
  obtain ⟨_, rfl⟩ := getTok_ok.mp h1
  refine agrees_if (fun _ => agrees_bind (agrees_lift _) fun rest s2 h2 => ?_) fun _ => agrees_pure _
  obtain ⟨_, rfl⟩ := ofOpt_ok.mp h2
  exact agrees_errorUnder q hs (hp.valid t (hp.roots t (by simp)))

theorem agrees_scriptDone : SuccessAgrees scriptDoneB scriptDone := by
  intro base k t c sc s fl l q hs hp _ _
  have ht := hp.valid t (hp.roots t (by simp))
  have hr : ∀ n, Readable (fun _ => True) (fl.set (.token t) (.shared n)) := fun n => q.readable.share _ _
  refine agrees_share (q.token t) fun n _ => agrees_bind (agrees_lift _) fun tk s1 h1 => ?_
  obtain ⟨_, rfl⟩ := getTok_ok.mp h1
  refine agrees_bind (agrees_findChild (hr _) fun _ _ => trivial) fun a s2 h2 =>
    agrees_bind (agrees_findChild (hr _) fun _ _ => trivial) fun p s3 h3 => ?_
  obtain rfl := findChild_state h2
  obtain rfl := findChild_state h3
  refine agrees_if (fun _ => agrees_bind (agrees_share (hr _ t trivial) fun n' _ => agrees_errorToken ?_ ?_) fun _ _ _ => agrees_pure _)
    fun _ => agrees_pure _
  · rw [Borrows.set_other _ _ (by simp), Borrows.set_other _ _ (by simp)]
    exact q.context
  · rw [Borrows.set_other _ _ (by simp; exact Nat.ne_of_gt ht), Borrows.set_other _ _ (by simp; exact Nat.ne_of_gt ht)]
    exact q.new _ hs

theorem agrees_adextopaScopeDone : SuccessAgrees adextopaScopeDoneB adextopaScopeDone := by
  intro base k t c sc s fl l q hs hp hn hb
  refine agrees_bind (agrees_copyAll q hp hn hb) fun v s1 h1 => ?_
  have hs1 : s1.toks.length = s.toks.length := (copyAllAttributes_touched h1).length
  have ht : t < s1.toks.length := by
    rw [hs1]
    exact hp.valid t (hp.roots t (by simp))
  have hr : ∀ n, Readable (fun _ => True) (fl.set (.token t) (.shared n)) := fun n => q.readable.share _ _
  rw [← hs1] at hs
  refine agrees_share (q.token t) fun n _ => agrees_bind (agrees_lift _) fun tk s2 h2 => ?_
  obtain ⟨_, rfl⟩ := getTok_ok.mp h2
  cases tk.getAttribute "version".toList with
  | none =>
    dsimp only
    refine agrees_bind (agrees_findChild (hr _) fun _ _ => trivial) fun o s3 h3 => ?_
    obtain rfl := findChild_state h3
    cases o with
    | none => exact agrees_bind (agrees_pure _) fun _ s4 h4 => by cases h4; exact agrees_errorUnder q hs ht
    | some p =>
      refine agrees_bind (agrees_getTok (hr _ p trivial)) fun pk s4 h4 => ?_
      obtain ⟨_, rfl⟩ := getTok_ok.mp h4
      exact agrees_errorUnder q hs ht
  | some version =>
    dsimp only
    cases parseUsize version with
    | some _ => exact agrees_pure _
    | none =>
      refine agrees_bind (agrees_lift _) fun v s3 h3 => agrees_share (hr _ v trivial) fun n' _ =>
        agrees_bind (agrees_lift _) fun vk s4 h4 => ?_
      obtain ⟨_, rfl⟩ := ofOpt_ok.mp h3
      obtain ⟨hv, rfl⟩ := getTok_ok.mp h4
      have hvl := (List.getElem?_eq_some_iff.mp hv).1
      refine agrees_bind (agrees_errorToken ?_ ?_) fun _ _ _ => agrees_pure _
      · rw [Borrows.set_other _ _ (by simp), Borrows.set_other _ _ (by simp)]
        exact q.context
      · rw [Borrows.set_other _ _ (by simp; exact Nat.ne_of_gt hvl), Borrows.set_other _ _ (by simp; exact Nat.ne_of_gt ht)]
        exact q.new _ hs

end Script

/-! ### Attributes and names -/

/-- The loop, without flags. -/
def addMissingM (t : TokId) : AMap Str → M Unit
  | [] => pure ()
  | (key, value) :: m => do
    let tk ← getTok t
    if tk.hasAttribute key then addMissingM t m
    else do
      modTok t (·.setAttribute key value)
      addMissingM t m

theorem addMissingM_eq (m : AMap Str) : ∀ {s : State} {tk : Token}, s.toks[t]? = some tk →
    addMissingM t m s = .ok () { s with toks := s.toks.set t (tk.addMissing m) } := by
  induction m with
  | nil =>
    intro s tk hk
    have : s.toks.set t tk = s.toks := by
      obtain ⟨h, rfl⟩ := List.getElem?_eq_some_iff.mp hk
      exact List.set_getElem_self h
    show Res.ok () s = _
    unfold Token.addMissing
    rw [this]
  | cons a m ih =>
    obtain ⟨key, value⟩ := a
    intro s tk hk
    unfold addMissingM Token.addMissing
    rw [bind_run (getTok_ok.mpr ⟨hk, rfl⟩)]
    by_cases h : tk.hasAttribute key = true
    · rw [if_pos h, if_pos h]
      exact ih hk
    · rw [if_neg h, if_neg h, bind_run (modTok_run hk)]
      have hlt := (List.getElem?_eq_some_iff.mp hk).1
      rw [ih (tk := tk.setAttribute key value) (List.getElem?_set_self hlt)]
      simp

theorem agrees_addMissingLoop (ht : fl (.token t) = .shared 0) (m : AMap Str) : ∀ s, Agrees (addMissingB t m) (addMissingM t m) s fl := by
  induction m with
  | nil => exact fun _ => agrees_pure _
  | cons a m ih =>
    obtain ⟨key, value⟩ := a
    intro s
    exact agrees_bind (agrees_getTok (Borrow.free_ne ht)) fun tk s1 _ => agrees_if (fun _ => ih _) fun _ =>
      agrees_bind (agrees_modTok ht) fun _ _ _ => ih _

theorem agrees_addMissing (m : AMap Str) : SuccessAgrees (addMissingAttributesB m) (addMissingAttributes m) := by
  intro base k t c sc s fl l q _ hp _ hb
  have htl := hp.roots t (by simp)
  obtain ⟨tk, hk⟩ : ∃ tk, s.toks[t]? = some tk := ⟨_, List.getElem?_eq_getElem (hp.valid t htl)⟩
  refine agrees_bind (agrees_congr (agrees_addMissingLoop (q.new t (hb t htl)) m s) ?_) fun _ _ _ => agrees_pure _
  rw [addMissingM_eq m hk, modTok_run hk]

theorem agrees_rename (n : Str) : SuccessAgrees (renameTokenB n) (renameToken n) := by
  intro base k t c sc s fl l q _ hp _ hb
  exact agrees_own (q.new t (hb t (hp.roots t (by simp)))) (agrees_bind (agrees_lift _) fun _ _ _ => agrees_pure _)

end Adx
