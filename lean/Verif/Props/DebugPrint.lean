import Verif.Props.Print
import Verif.Proofs.Text
import Verif.Proofs.Render
import Verif.Proofs.Shown
import Verif.Model.DebugPrint
import Verif.Spec.DebugPrint
/-
  C67: what `Debug` prints has an end, and says where the matcher was applied and what came out
  of it.
-/
namespace Adx

section

variable {T : Table} {cfg : Cfg} {m b : MatcherId} {c : Ctx} {sc : SCtxId} {s s' : State} {r : R} {t : TokId} {mode : Nat}
  {quote : Str → Str} {attrs : AMap Str → Str}

theorem excerpt_shows (v : Str) : DebugShows v (excerpt v) := by
  induction v with
  | nil => exact .nil
  | cons c v ih =>
    unfold excerpt
    split
    · rename_i h; cases h
    · rename_i h; cases h; exact .feed ih
    · rename_i h; cases h; exact .ret ih
    · rename_i h; cases h; exact .tab ih
    · rename_i h1 h2 h3 h
      cases h
      exact .plain (by simp; exact ⟨h1, h2, h3⟩) ih

theorem successText_some {toks : List Token} {x : Success}
    (h : ∀ t, x.tok = some t → (debugText attrs toks toks.length toks.length t).isSome) :
    (successText quote attrs toks x).isSome := by
  induction x with
  | token t => simpa [successText, tokenRefText] using h t rfl
  | proxyChildren t => simpa [successText, tokenRefText] using h t rfl
  | brk name d ih => simpa [successText] using ih h
  | cont name d ih => simpa [successText] using ih h
  | _ => rfl

theorem resultText_some {toks : List Token}
    (h : ∀ t, r.tok = some t → (debugText attrs toks toks.length toks.length t).isSome) :
    (resultText quote attrs toks r).isSome := by
  cases r with
  | ok x => simpa [resultText] using successText_some (quote := quote) h
  | err e => rfl

/-- C67: whatever a matcher returns while a grammar runs, it can be printed there and then: all
tokens of the tree that is returned, although the tree that it will belong to is not finished. -/
theorem C67_result {κ : Prop} (hT : ∀ m, (T m).NestsIf κ) (h : Runs T cfg m c sc s r s') (ho : Older s.toks)
    (quote : Str → Str) (attrs : AMap Str → Str) :
    (resultText quote attrs s'.toks r).isSome ∧
    ∀ t u, r.tok = some t → Reach s'.toks t u → (debugText attrs s'.toks s'.toks.length s'.toks.length u).isSome := by
  have hp : ∀ t u, r.tok = some t → Reach s'.toks t u →
      (debugText attrs s'.toks s'.toks.length s'.toks.length u).isSome := by
    intro t u ht hu
    have ho' := C51_older hT h ho
    obtain ⟨n, h⟩ := h
    obtain ⟨l, hl, -⟩ := (Post.of_ok (exec_nest hT n m c sc s) h).2 t ht
    obtain ⟨l', hp'⟩ := hl.grove.pre.rooted u (hl.grove.pre.of_reach hu)
    exact debugText_some ho' (hp'.walk (Nat.le_refl _)) u (by simp)
  exact ⟨resultText_some fun t ht => hp t t ht (.refl t), hp⟩

/-- C67: with all that is printed, a `Debug` matcher does what it does without: what it
prints has an end, so that `C07_debug_transparent` is true of the code that prints. -/
theorem C67_same {κ : Prop} (hT : ∀ m, (T m).NestsIf κ) (ho : Older s.toks) (n : Nat) (m : Option MatcherId) (quote : Str → Str)
    (attrs : AMap Str → Str) :
    match execDebug (exec T cfg n) m mode c sc s with
    | .ok r s' => ∃ text, execDebugOut T (exec T cfg n) quote attrs m mode c sc s = .ok (r, text) s'
    | .panic e => execDebugOut T (exec T cfg n) quote attrs m mode c sc s = .panic e
    | .diverge => execDebugOut T (exec T cfg n) quote attrs m mode c sc s = .diverge := by
  unfold execDebug execDebugOut
  dsimp only
  cases hd : ({ c.withName "Debug".toList with debug := mode } : Ctx).debugRange 10 with
  | none => rfl
  | some shown =>
    cases m with
    | none => exact ⟨_, rfl⟩
    | some m =>
      have h0 : M.ofOpt "debug_range: slice" (some shown) s = .ok shown s := rfl
      rw [bind_run h0, bind_run h0]
      dsimp only
      cases hr : exec T cfg n m { c.withName "Debug".toList with debug := mode } sc s with
      | panic e => exact bind_panic.mpr (.inl hr)
      | diverge =>
        rw [bind_eq]
        unfold M.bind
        rw [hr]
      | ok r s' =>
        obtain ⟨w, hw⟩ := Option.isSome_iff_exists.mp (C67_result hT ⟨n, hr⟩ ho quote attrs).1
        dsimp only
        rw [bind_run hr, bind_run (show M.getState s' = .ok s' s' from rfl), hw]
        exact ⟨_, rfl⟩

theorem execDebugOut_older {f g : ExecFn} (hs : SameOlder f g) (ho : Older s.toks) (m : Option MatcherId) :
    execDebugOut T g quote attrs m mode c sc s = execDebugOut T f quote attrs m mode c sc s := by
  unfold execDebugOut
  dsimp only
  refine bind_same rfl fun shown s1 h1 => ?_
  obtain ⟨-, rfl⟩ := ofOpt_ok.mp h1
  cases m with
  | none => rfl
  | some m => exact bind_same (hs m _ sc _ ho).symm fun _ _ _ => rfl

/-- C67: a whole run in which every `Debug` matcher that is reached makes the text that it
prints is the run without the texts: none of them keeps a run from ending, and none makes
it panic. -/
theorem C67_engine {κ : Prop} (hT : ∀ m, (T m).NestsIf κ) (quote : Str → Str) (attrs : AMap Str → Str) :
    ∀ (n : Nat) (m : MatcherId) (c : Ctx) (sc : SCtxId) (s : State), Older s.toks →
      execShown T cfg quote attrs n m c sc s = exec T cfg n m c sc s := by
  intro n
  induction n with
  | zero => intro m c sc s _; rfl
  | succ n ih =>
    intro m c sc s ho
    have hs : SameOlder (exec T cfg n) (execShown T cfg quote attrs n) := fun m c sc s ho => (ih m c sc s ho).symm
    unfold execShown exec
    refine bind_same rfl fun _ s1 h1 => ?_
    have ho1 : Older s1.toks := by
      unfold beforeExec at h1
      split at h1
      · cases h1; rw [State.bindVar_toks]; exact ho
      · cases h1; exact ho
    cases hn : T m with
    | debug b mode =>
      dsimp only
      have h := C67_same (cfg := cfg) (c := c) (sc := sc) (mode := mode) hT ho1 n b quote attrs
      have he := execDebugOut_older (T := T) (c := c) (sc := sc) (mode := mode) (quote := quote) (attrs := attrs) hs ho1 b
      show _ = execDebug (exec T cfg n) b mode c sc s1
      cases hx : execDebug (exec T cfg n) b mode c sc s1 with
      | ok r s2 =>
        rw [hx] at h
        obtain ⟨text, h⟩ := h
        exact bind_run (he.trans h)
      | panic e =>
        rw [hx] at h
        exact bind_panic.mpr (.inl (he.trans h))
      | diverge =>
        rw [hx] at h
        rw [bind_eq]
        unfold M.bind
        rw [he.trans h]
    | _ => exact (execNode_older (exec_nest hT n) hs _ c sc s1 ho1).symm

theorem debugRange_iff {w : Str} : c.debugRange 10 = some w ↔
    TextAt c.parser.src c.offset.start (min (c.offset.start + 10) c.offset.stop) w := by
  have he : (if c.offset.start + 10 > c.offset.stop then c.offset.stop else c.offset.start + 10) =
      min (c.offset.start + 10) c.offset.stop := by split <;> omega
  unfold Ctx.debugRange
  dsimp only
  rw [he, bslice_iff]

/-- C67: what is printed for a matcher: its name, the text at the place where it was
applied, up to ten bytes of it and on one line, the place, and the result. -/
theorem C67_line {n : Nat} {text : Str} (h : execDebugOut T (exec T cfg n) quote attrs (some b) mode c sc s = .ok (r, text) s') :
    Runs T cfg b { c with debug := mode } sc s r s' ∧
    ∃ w shown result, TextAt c.parser.src c.offset.start (min (c.offset.start + 10) c.offset.stop) w ∧
      DebugShows w shown ∧ resultText quote attrs s'.toks r = some result ∧
      text = (if mode ≤ 2 then [] else "{Debug} ".toList) ++
        ("`".toList ++ (T b).name ++ "` matcher at: -->|".toList ++ shown ++ "|--> @[".toList ++ natStr c.offset.start ++
          "-".toList ++ natStr (min (c.offset.start + 10) c.offset.stop) ++ "]: ".toList ++ result ++ "\n".toList) := by
  unfold execDebugOut at h
  dsimp only at h
  obtain ⟨shown, s1, h1, g1⟩ := bind_ok.mp h
  obtain ⟨h2, rfl⟩ := ofOpt_ok.mp h1
  obtain ⟨r', s2, h3, g2⟩ := bind_ok.mp g1
  obtain ⟨s3, s4, h4, g3⟩ := bind_ok.mp g2
  cases h4
  have hn : Runs T cfg b { c with debug := mode } sc s1 r' s2 := by
    rw [← runs_name "Debug".toList]
    exact ⟨n, h3⟩
  cases hw : resultText quote attrs s2.toks r' with
  | some w =>
    rw [hw] at g3
    cases g3
    refine ⟨hn, shown, excerpt shown, w, ?_, excerpt_shows shown, hw, ?_⟩
    · exact debugRange_iff.mp h2
    · unfold debugLine
      have he : (if mode > 2 then "{Debug} ".toList else []) = if mode ≤ 2 then [] else "{Debug} ".toList := by
        split <;> split <;> first | rfl | omega
      rw [he]
      simp only [List.append_assoc]
      rfl
  | none =>
    rw [hw] at g3
    cases g3

theorem around_text {toks : List Token} {x : Success} (ht : x.tok = some t) :
    ∃ p q, DebugAround quote x p q ∧ successText quote attrs toks x =
      (debugText attrs toks toks.length toks.length t).map fun w => p ++ w ++ q := by
  induction x with
  | token u =>
    cases ht
    refine ⟨_, _, .token t, ?_⟩
    simp only [successText, tokenRefText, Option.map_map]
    congr 1
    funext w
    simp
  | proxyChildren u =>
    cases ht
    refine ⟨_, _, .proxyChildren t, ?_⟩
    simp only [successText, tokenRefText, Option.map_map]
    congr 1
    funext w
    simp
  | brk name d ih =>
    obtain ⟨p, q, h1, h2⟩ := ih ht
    refine ⟨_, _, .brk h1, ?_⟩
    simp only [successText, h2, Option.map_map]
    congr 1
    funext w
    simp
  | cont name d ih =>
    obtain ⟨p, q, h1, h2⟩ := ih ht
    refine ⟨_, _, .cont h1, ?_⟩
    simp only [successText, h2, Option.map_map]
    congr 1
    funext w
    simp
  | _ => cases ht

/-- C67: the result that is printed for a tree without errors shows its root without a
parent, and the tokens below by generations. -/
theorem C67_layout (hT : ∀ m, (T m).Nests) {x : Success} (h : Runs T cfg m c sc s (.ok x) s') (ho : Older s.toks)
    (ht : x.tok = some t) (he : ∀ v, Reach s'.toks t v → isErrorTok s'.toks v = false) (quote : Str → Str)
    (attrs : AMap Str → Str) :
    ∃ k inner p q, s'.toks[t]? = some k ∧ Looks attrs s'.toks 0 k.name k.children inner ∧ DebugAround quote x p q ∧
      resultText quote attrs s'.toks (.ok x) =
        some ("Ok(".toList ++ (p ++ page attrs 0 "None".toList k inner ++ q) ++ ")".toList) := by
  have ho' := C51_older hT h ho
  obtain ⟨h1, h2⟩ := C51_parent hT h (t := t) ht
  obtain ⟨n, h⟩ := h
  obtain ⟨l, hl, -⟩ := (Post.of_ok (exec_nest hT n m c sc s) h).2 t ht
  obtain ⟨k, inner, hk, hi, hd⟩ := layout_tree hl.grove.pre ho' h1 h2 he attrs
  obtain ⟨p, q, hpq, hx⟩ := around_text (quote := quote) (attrs := attrs) (toks := s'.toks) ht
  refine ⟨k, inner, p, q, hk, hi, hpq, ?_⟩
  unfold resultText
  dsimp only
  rw [hx, hd]
  rfl

theorem digits_end {x : Char} (hx : x.isDigit = false) : ∀ {d e u v : Str}, d.all Char.isDigit = true → e.all Char.isDigit = true →
    d ++ x :: u = e ++ x :: v → d = e ∧ u = v := by
  intro d
  induction d with
  | nil =>
    intro e u v _ he h
    cases e with
    | nil => cases h; exact ⟨rfl, rfl⟩
    | cons y e =>
      cases h
      simp [hx] at he
  | cons y d ih =>
    intro e u v hd he h
    cases e with
    | nil =>
      cases h
      simp [hx] at hd
    | cons z e =>
      simp only [List.cons_append, List.cons.injEq] at h
      simp only [List.all_cons, Bool.and_eq_true] at hd he
      obtain ⟨rfl, h⟩ := h
      obtain ⟨rfl, rfl⟩ := ih hd.2 he.2 h
      exact ⟨rfl, rfl⟩

theorem natStr_end {x : Char} (hx : x.isDigit = false) {a b : Nat} {u v : Str} (h : natStr a ++ x :: u = natStr b ++ x :: v) :
    a = b ∧ u = v := by
  obtain ⟨h1, h2⟩ := digits_end hx (numeral_natStr a).digits.2.1 (numeral_natStr b).digits.2.1 h
  exact ⟨(numeral_natStr a).unique (h1 ▸ numeral_natStr b), h2⟩

theorem natStr_minus {a : Nat} {u v : Str} (h : natStr a ++ u = '-' :: v) : False := by
  have := Render.natStr_head a u '-' (by rw [h]; rfl)
  exact absurd this (by decide)

theorem intStr_end {a b : Int} {u v : Str} (h : intStr a ++ ')' :: u = intStr b ++ ')' :: v) : a = b := by
  cases a with
  | ofNat a =>
    cases b with
    | ofNat b => rw [(natStr_end (by decide) h).1]
    | negSucc b => exact (natStr_minus h).elim
  | negSucc a =>
    cases b with
    | ofNat b => exact (natStr_minus h.symm).elim
    | negSucc b =>
      have h := (natStr_end (by decide) (List.cons.inj h).2).1
      rw [Nat.succ.inj h]

theorem rangeText_end {a b : Range} {u v : Str} (h : rangeText a ++ u = rangeText b ++ v) : a = b ∧ u = v := by
  cases a with | mk a1 a2 => cases b with | mk b1 b2 =>
  unfold rangeText at h
  simp only [List.append_assoc, List.append_cancel_left_eq] at h
  obtain ⟨rfl, g1⟩ := natStr_end (x := ',') (by decide) h
  have g2 := List.append_cancel_left (as := " end: ".toList) g1
  obtain ⟨rfl, g3⟩ := natStr_end (x := ' ') (by decide) g2
  exact ⟨rfl, (List.cons.inj g3).2⟩

theorem failureText_fail {e : ParseError} (h : failureText quote (.error e) = failureText quote .fail) : False := by
  unfold failureText at h
  dsimp only at h
  rw [show "Error(ParseError { message: ".toList = 'E' :: "rror(ParseError { message: ".toList from by decide,
    show "Fail".toList = 'F' :: "ail".toList from by decide] at h
  simp only [List.cons_append, List.cons.injEq] at h
  exact absurd h.1 (by decide)

theorem failureText_inj (hq : Delimits quote) {e f : Failure} (h : failureText quote e = failureText quote f) : e = f := by
  cases e with
  | fail =>
    cases f with
    | fail => rfl
    | error f => exact (failureText_fail h.symm).elim
  | error e =>
    cases f with
    | fail => exact (failureText_fail h).elim
    | error f =>
      cases e with | mk a x => cases f with | mk b y =>
      unfold failureText at h
      dsimp only at h
      simp only [List.append_assoc, List.append_cancel_left_eq] at h
      obtain ⟨rfl, g1⟩ := hq _ _ _ _ h
      have g2 := List.append_cancel_left g1
      cases x with
      | none =>
        cases y with
        | none => rfl
        | some y => simp at g2
      | some x =>
        cases y with
        | none => simp at g2
        | some y =>
          dsimp only at g2
          simp only [List.append_assoc, List.append_cancel_left_eq] at g2
          obtain ⟨rfl, -⟩ := rangeText_end g2
          rfl

theorem tokenRefText_inj {toks : List Token} {t u : TokId} {w : Str} (ht : tokenRefText attrs toks t = some w)
    (hu : tokenRefText attrs toks u = some w) :
    debugText attrs toks toks.length toks.length t = debugText attrs toks toks.length toks.length u := by
  unfold tokenRefText at ht hu
  obtain ⟨a, ha, rfl⟩ := Option.map_eq_some_iff.mp ht
  obtain ⟨b, hb, h⟩ := Option.map_eq_some_iff.mp hu
  have h := List.append_cancel_left (List.append_cancel_right h)
  rw [ha, hb, h]

theorem successText_alike (hq : Delimits quote) {toks : List Token} : ∀ {x y : Success} {w : Str},
    successText quote attrs toks x = some w → successText quote attrs toks y = some w →
      AlikeSuccess (fun t u => debugText attrs toks toks.length toks.length t = debugText attrs toks toks.length toks.length u) x y := by
  intro x
  induction x with
  | token t =>
    intro y w hx hy
    unfold successText at hx
    obtain ⟨a, ha, rfl⟩ := Option.map_eq_some_iff.mp hx
    cases y with
    | token u =>
      obtain ⟨b, hb, h⟩ := Option.map_eq_some_iff.mp hy
      have h := List.append_cancel_left (List.append_cancel_right h)
      exact .token (tokenRefText_inj ha (h ▸ hb))
    | _ => simp [successText] at hy
  | proxyChildren t =>
    intro y w hx hy
    unfold successText at hx
    obtain ⟨a, ha, rfl⟩ := Option.map_eq_some_iff.mp hx
    cases y with
    | proxyChildren u =>
      obtain ⟨b, hb, h⟩ := Option.map_eq_some_iff.mp hy
      have h := List.append_cancel_left (List.append_cancel_right h)
      exact .proxyChildren (tokenRefText_inj ha (h ▸ hb))
    | _ => simp [successText] at hy
  | skip n =>
    intro y w hx hy
    cases hx
    cases y with
    | skip k =>
      have h := Option.some.inj hy
      simp only [List.append_assoc, List.append_cancel_left_eq] at h
      rw [intStr_end h]
      exact .skip _
    | _ => simp [successText] at hy
  | brk name d ih =>
    intro y w hx hy
    unfold successText at hx
    obtain ⟨a, ha, rfl⟩ := Option.map_eq_some_iff.mp hx
    cases y with
    | brk name' e =>
      obtain ⟨b, hb, h⟩ := Option.map_eq_some_iff.mp hy
      simp only [List.append_assoc, List.append_cancel_left_eq] at h
      obtain ⟨rfl, g1⟩ := hq _ _ _ _ h
      have h := List.append_cancel_right (List.append_cancel_left g1)
      exact .brk (ih ha (h ▸ hb))
    | _ => simp [successText] at hy
  | cont name d ih =>
    intro y w hx hy
    unfold successText at hx
    obtain ⟨a, ha, rfl⟩ := Option.map_eq_some_iff.mp hx
    cases y with
    | cont name' e =>
      obtain ⟨b, hb, h⟩ := Option.map_eq_some_iff.mp hy
      simp only [List.append_assoc, List.append_cancel_left_eq] at h
      obtain ⟨rfl, g1⟩ := hq _ _ _ _ h
      have h := List.append_cancel_right (List.append_cancel_left g1)
      exact .cont (ih ha (h ▸ hb))
    | _ => simp [successText] at hy
  | none =>
    intro y w hx hy
    cases hx
    cases y with
    | none => exact .none
    | _ => simp [successText] at hy
  | stop =>
    intro y w hx hy
    cases hx
    cases y with
    | stop => exact .stop
    | _ => simp [successText] at hy

/-- C67: what came out can be read in what is printed: results with the same text are the
same, up to tokens whose own texts are the same, if one can see where a quoted string
ends. -/
theorem C67_tells (hq : Delimits quote) {toks : List Token} {r r' : R} {w : Str} (h : resultText quote attrs toks r = some w)
    (h' : resultText quote attrs toks r' = some w) :
    AlikeResult (fun t u => debugText attrs toks toks.length toks.length t = debugText attrs toks toks.length toks.length u) r r' := by
  unfold resultText at h h'
  cases r with
  | ok x =>
    obtain ⟨a, ha, rfl⟩ := Option.map_eq_some_iff.mp h
    cases r' with
    | ok y =>
      obtain ⟨b, hb, h⟩ := Option.map_eq_some_iff.mp h'
      have h := List.append_cancel_left (List.append_cancel_right h)
      exact .ok (successText_alike hq ha (h ▸ hb))
    | err e => simp at h'
  | err e =>
    cases h
    cases r' with
    | ok y => simp at h'
    | err f =>
      have h := List.append_cancel_left (List.append_cancel_right (Option.some.inj h'))
      rw [failureText_inj hq h]
      exact .err _

/-- C67: without a matcher the place itself is printed; here the text is printed as it is, and the
second of the two numbers may lie behind the end of the source. -/
theorem C67_context (f : ExecFn) {text : Str} (h : execDebugOut T f quote attrs none mode c sc s = .ok (r, text) s') :
    r = .ok (.skip 0) ∧ s' = s ∧
    ∃ w, TextAt c.parser.src c.offset.start (min (c.offset.start + 10) c.offset.stop) w ∧
      text = "{Context}: -->|".toList ++ w ++ "|--> @[".toList ++ natStr c.offset.start ++ "-".toList ++
        natStr (c.offset.start + 10) ++ "], start: ".toList ++ natStr c.offset.start ++ ", end: ".toList ++
        natStr c.offset.stop ++ "\n".toList := by
  unfold execDebugOut at h
  dsimp only at h
  obtain ⟨w, s1, g1, g2⟩ := bind_ok.mp h
  obtain ⟨hw, rfl⟩ := ofOpt_ok.mp g1
  cases g2
  exact ⟨rfl, rfl, w, debugRange_iff.mp hw, rfl⟩

/-- C67: a `Debug` matcher runs its matcher and returns its result, if the ten bytes that it
shows begin and end between characters, and panics if they do not. -/
theorem C67_cut (n : Nat) :
    ((∃ w, TextAt c.parser.src c.offset.start (min (c.offset.start + 10) c.offset.stop) w) →
      execDebug (exec T cfg n) (some b) mode c sc s = exec T cfg n b { c with debug := mode } sc s) ∧
    ((¬∃ w, TextAt c.parser.src c.offset.start (min (c.offset.start + 10) c.offset.stop) w) →
      execDebug (exec T cfg n) (some b) mode c sc s = .panic "debug_range: slice") := by
  constructor
  · rintro ⟨w, hw⟩
    unfold execDebug
    dsimp only
    have hd : ({ c.withName "Debug".toList with debug := mode } : Ctx).debugRange 10 = some w := debugRange_iff.mpr hw
    rw [hd, bind_run (show M.ofOpt "debug_range: slice" (some w) s = .ok w s from rfl)]
    exact exec_name (c := { c with debug := mode }) n "Debug".toList
  · intro h
    have hd : ({ c.withName "Debug".toList with debug := mode } : Ctx).debugRange 10 = none := by
      cases hd : ({ c.withName "Debug".toList with debug := mode } : Ctx).debugRange 10 with
      | none => rfl
      | some w => exact absurd ⟨w, debugRange_iff.mp hd⟩ h
    unfold execDebug
    dsimp only
    rw [hd]
    rfl

end

/-! ### Examples -/

namespace DebugPrintExample

/-- A program in which a part is looked at. -/
def T : Table := fun
  | 0 => .program [1] "P".toList false none false
  | 1 => .debug (some 2) 3
  | 2 => .program [3] "Q".toList false none false
  | _ => .equals "E".toList false (.str "a".toList)

def c : Ctx := Ctx.new ⟨"a\nb".toList, []⟩ 0 []

/-- What is printed. -/
example : (∀ m, (T m).Nests) ∧ Older ([] : List Token) ∧
    (execDebugOut T (exec T ⟨true⟩ 9) id (fun _ => "{}".toList) (some 2) 3 c 0 ⟨[], [], [[]]⟩).holds (fun r _ =>
      r == (.ok (.token 0), ("{Debug} `Q` matcher at: -->|a\\nb|--> @[0-3]: Ok(Token(RefCell { value: " ++
        "Q(\n  ValueRange(0, 1),\n  RawRange(0, 1),\n" ++
        "  Value(a),\n  RawValue(a),\n  Parent(None),\n  Attributes {}\n  Children [\n" ++
        "    E(\n      ValueRange(0, 1),\n      RawRange(0, 1),\n" ++
        "      Value(a),\n      RawValue(a),\n      Parent(Q),\n      Attributes {}\n" ++
        "      Children [],\n    ),\n  ], }))\n").toList)) := by
  refine ⟨fun m => ?_, fun i k p h => by simp at h, ?_⟩
  · match m with
    | 0 => trivial
    | 1 => trivial
    | 2 => trivial
    | _ + 3 => trivial
  · decide +kernel

/-- Failures, and results without tokens. -/
example : resultText (fun s => '"' :: s ++ ['"']) (fun _ => []) [] (.ok (.brk "L".toList (.skip (-2)))) =
      some "Ok(Break((\"L\", Skip(-2))))".toList ∧
    resultText (fun s => '"' :: s ++ ['"']) (fun _ => []) [] (.err (.error ⟨"m".toList, some ⟨1, 2⟩⟩)) =
      some "Err(Error(ParseError { message: \"m\", range: Some(SourceRange { start: 1, end: 2 }) }))".toList := by
  decide +kernel

/-- The whole program runs with the text inside of it. -/
example : (execShown T ⟨true⟩ id (fun _ => "{}".toList) 9 0 c 0 ⟨[], [], [[]]⟩).holds (fun r s =>
    r == .ok (.token 0) && s.toks.map (·.name) == ["P".toList, "Q".toList, "E".toList]) = true := by decide +kernel

/-- Without a matcher, near the end of the source. -/
example : (execDebugOut T (exec T ⟨true⟩ 9) id (fun _ => []) none 3 c 0 ⟨[], [], [[]]⟩).holds (fun r _ =>
    r == (.ok (.skip 0), "{Context}: -->|a\nb|--> @[0-10], start: 0, end: 3\n".toList)) = true := by decide +kernel

/-- Skips are told apart. -/
example : resultText (fun s => '"' :: s ++ ['"']) (fun _ => []) [] (.ok (.skip 12)) ≠
    resultText (fun s => '"' :: s ++ ['"']) (fun _ => []) [] (.ok (.skip (-12))) := by decide +kernel

/-- C67, boundary: where a character stands across the tenth byte, looking at a matcher is a
panic, although the matcher is content with the text. -/
theorem C67_cut_counterexample :
    let c := Ctx.new ⟨"aééééé".toList, []⟩ 0 []
    (exec T ⟨true⟩ 9 2 c 0 ⟨[], [], [[]]⟩).holds (fun r _ => r = .ok (.token 0)) ∧
    exec T ⟨true⟩ 9 1 c 0 ⟨[], [], [[]]⟩ = .panic "debug_range: slice" := by
  constructor
  · decide +kernel
  · rfl

end DebugPrintExample

end Adx
