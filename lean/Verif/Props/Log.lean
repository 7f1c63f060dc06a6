import Verif.Proofs.Log
/-
  C60: compiling with `FLAG_LOG_STDERR`.
-/
namespace Adx

theorem errorLines_messages {toks : List Token} {cs : List TokId}
    (h : ∀ c ∈ cs, ∃ k, toks[c]? = some k ∧
      (k.name = "Error".toList → ∃ msg, k.getAttribute "__message".toList = some msg)) :
    ∃ ls, errorLines toks cs = some ls ∧ ErrorMessages toks cs ls := by
  induction cs with
  | nil => exact ⟨[], rfl, .nil⟩
  | cons c cs ih =>
    obtain ⟨k, hk, he⟩ := h c (by simp)
    obtain ⟨ls, h1, h2⟩ := ih fun c hc => h c (by simp [hc])
    unfold errorLines
    rw [hk]
    dsimp only
    by_cases hn : k.name = "Error".toList
    · obtain ⟨msg, hm⟩ := he hn
      rw [if_pos hn, hm, h1]
      exact ⟨msg :: ls, rfl, .error hk hn hm h2⟩
    · rw [if_neg hn, h1]
      exact ⟨ls, rfl, .other hk hn h2⟩

theorem ErrorMessages.transport {toks toks' : List Token} {l cs : List TokId} {ls : List Str} (h : SameOn l toks toks')
    (hcs : ∀ c ∈ cs, c ∈ l) (he : ErrorMessages toks cs ls) : ErrorMessages toks' cs ls := by
  induction he with
  | nil => exact .nil
  | other hk hn _ ih => exact .other (h.at_ (hcs _ (by simp)) hk) hn (ih fun c hc => hcs c (by simp [hc]))
  | error hk hn hm _ ih => exact .error (h.at_ (hcs _ (by simp)) hk) hn hm (ih fun c hc => hcs c (by simp [hc]))

theorem ItemsPrint.imp {env : Env} {fromFile : Option Str} {pr pr' : Str → List Str → Prop} {toks : List Token}
    {l : List TokId} {ls : List Str} (h : ItemsPrint env fromFile pr toks l ls) (hp : ∀ file ls, pr file ls → pr' file ls) :
    ItemsPrint env fromFile pr' toks l ls := by
  induction h with
  | nil => exact .nil
  | cons hi _ ih =>
    refine .cons ?_ ih
    cases hi with
    | other hk hn => exact .other hk hn
    | imported hk hn hq hqk hb hj hc hpr => exact .imported hk hn hq hqk hb hj hc (hp _ _ hpr)

/-- What compiling the text of a script prints when the script is accepted: what its imports
print, in the order of the text, and then the messages of the error tokens right below the root of
its tree.  `pr` says what files print.  The text is parsed by the grammar of scripts, in the
world `w`. -/
def ParsePrints (env : Env) (fuel : Nat) (pr : Str → List Str → Prop) (parser : Parser) (name : Str)
    (fromFile : Option Str) (w : World) (lines : List Str) : Prop :=
  ∃ t k l s ls own, parseScript env fuel parser name w = .ok (.ok t) s ∧ s.toks[t]? = some k ∧ Pre s.toks [t] l ∧
    l.Nodup ∧ ItemsPrint env fromFile pr s.toks l ls ∧ ErrorMessages s.toks k.children own ∧ lines = ls ++ own

/-- The same in some world, with imported files looked up with `env`; the first argument bounds
how deep imports go. -/
def TextPrints (env : Env) : Nat → Parser → Str → Option Str → List Str → Prop
  | 0, _, _, _, _ => False
  | d + 1, parser, name, fromFile, lines =>
    ∃ w, Milds w.nodes ∧ ParsePrints env d
      (fun file ls => ∃ full src, env.canonical file = some full ∧ env.read full = some src ∧
        TextPrints env d ⟨src, full⟩ file (some full) ls) parser name fromFile w lines

@[inherit_doc TextPrints]
def FilePrints (env : Env) (d : Nat) (file : Str) (ls : List Str) : Prop :=
  ∃ full src, env.canonical file = some full ∧ env.read full = some src ∧ TextPrints env d ⟨src, full⟩ file (some full) ls

/-- What compiling a script in the world `w` prints. -/
def TextPrintsIn (env : Env) (w : World) : Nat → Parser → Str → Option Str → List Str → Prop
  | 0, _, _, _, _ => False
  | d + 1, parser, name, fromFile, lines => ParsePrints env d (FilePrints env d) parser name fromFile w lines

section

attribute [local irreducible] Script.switchMatcher Script.programMatcher Script.script tokenize
  buildMatcherFromTokens buildMatcherFromTokensLog String.toList

/-- `compile_script_from_file_internal` with the given fuel. -/
def importFileLog (env : Env) (flag : Bool) (fuel : Nat) (file : Str) (w : World) : Logged :=
  match env.canonical file with
  | none => (.panic "called `Result::unwrap()` on an `Err` value", [])
  | some full =>
    match env.read full with
    | none => (.panic "called `Result::unwrap()` on an `Err` value", [])
    | some src => compileScriptLog env flag fuel ⟨src, full⟩ file (some full) w

theorem compileScriptLog_succ (env : Env) (flag : Bool) (fuel : Nat) (parser : Parser) (name : Str)
    (fromFile : Option Str) (w : World) : compileScriptLog env flag (fuel + 1) parser name fromFile w =
      match tokenize (tableOf (setup env parser name w).nodes) env.cfg fuel (setup env parser name w).ctx
        (setup env parser name w).start (setup env parser name w).st with
      | .ok (.ok t) st =>
        logBuilt flag t (buildMatcherFromTokensLog env (importFileLog env flag fuel) st.toks.length t
          (setup env parser name w).ctx name fromFile ⟨(setup env parser name w).nodes, st⟩)
      | .ok (.error .fail) _ =>
        (.err [⟨"Failed to parse script with an unknown error. This is likely a bug. Please report this issue to the adextopa maintainers.".toList,
          none⟩], if flag then messages [⟨"Failed to parse script with an unknown error. This is likely a bug. Please report this issue to the adextopa maintainers.".toList,
          none⟩] else [])
      | .ok (.error (.error e)) _ => (.err [e], if flag then messages [e] else [])
      | .panic m => (.panic m, [])
      | .diverge => (.diverge, []) := rfl

/-- What a result with printing is, against the one without. -/
structure LogAgrees (flag : Bool) (fromFile : Option Str) (P : List Str → Prop) (x : Logged) (y : BuildRes) : Prop where
  same : x.1 = y
  silent : flag = false → x.2 = []
  accepted : flag = true → ∀ m sc w, x.1 = .ok m sc w → P x.2
  rejected : flag = true → ∀ es, x.1 = .err es → ∃ pre, x.2 = pre ++ messages es ∧ (fromFile = none → pre = [])

theorem build_prints {env : Env} {flag : Bool} {cf : Str → World → Logged} {cf' : Str → World → BuildRes}
    {pr : Str → List Str → Prop} {depth : Nat} {t : TokId} {k : Token} {l : List TokId}
    {ctx : Ctx} {name : Str} {fromFile : Option Str} {w : World}
    (hcf : ∀ file w, Milds w.nodes → ∃ ff, LogAgrees flag ff (pr file) (cf file w) (cf' file w))
    (hsafe : ∀ file w, Milds w.nodes → FileSafe w (cf' file w))
    (hm : Milds w.nodes) (hk : w.st.toks[t]? = some k)
    (hl : Pre w.st.toks [t] l) (hd : w.st.toks.length ≤ depth) :
    LogAgrees flag fromFile (fun ls => ∃ ls1 own, ItemsPrint env fromFile pr w.st.toks l ls1 ∧
        ErrorMessages w.st.toks k.children own ∧ ls = ls1 ++ own)
      (logBuilt flag t (buildMatcherFromTokensLog env cf depth t ctx name fromFile w))
      (buildMatcherFromTokens env cf' depth t ctx name fromFile w) := by
  have h0 : Going w ⟨⟨w.nodes ++ preamble w.nodes.length w.st.sctxs.length name, w.st.newSCtx.2⟩, [], none⟩ := by
    have hat : ∀ i, (w.nodes ++ preamble w.nodes.length w.st.sctxs.length name)[w.nodes.length + i]? =
        (preamble w.nodes.length w.st.sctxs.length name)[i]? := by
      intro i
      rw [List.getElem?_append_right (by omega), Nat.add_sub_cancel_left]
    refine ⟨⟨_, rfl⟩, ⟨[], by simp [State.newSCtx]⟩, hm.append ?_, ⟨_, _, _, _, _, hat 0⟩, ⟨_, _, _, _, _, hat 1⟩,
      OwnScope.start _⟩
    intro nd hnd
    simp only [preamble, List.mem_cons, List.not_mem_nil, or_false] at hnd
    rcases hnd with rfl | rfl | rfl | rfl <;> trivial
  by_cases hn : k.name = "Script".toList
  case neg =>
    have e1 : buildMatcherFromTokensLog env cf depth t ctx name fromFile w =
        (.err [⟨"Expected provided token to be a `Script` token".toList, none⟩], []) := by
      unfold buildMatcherFromTokensLog
      rw [hk]
      dsimp only
      rw [if_pos hn]
    rw [e1, C39_not_script hk hn]
    refine ⟨rfl, ?_, ?_, ?_⟩
    · rintro rfl; rfl
    · rintro rfl m sc w h; cases h
    · rintro rfl es h; cases h; exact ⟨[], rfl, fun _ => rfl⟩
  have hv := callHooks_prints (env := env) (fromFile := fromFile) (cf := cf) (cf' := cf')
    (pr := fun file ls => flag = true → pr file ls) (Q := fun _ => flag = true) (depth := depth) (log := [])
    (fun file w hw => (hcf file w hw).choose_spec.same)
    (fun file w root isc w1 hw h hf => (hcf file w hw).choose_spec.accepted hf root isc w1 h)
    (fun file w hw x hx => by
      cases flag with
      | true => rfl
      | false => rw [(hcf file w hw).choose_spec.silent rfl] at hx; cases hx)
    hsafe hl l (fun _ h => h) h0
  have e1 : buildMatcherFromTokensLog env cf depth t ctx name fromFile w =
      visited ctx w.nodes.length w.st.sctxs.length (callHooks w.st.toks
        (buildHooksLog env cf fromFile depth w.nodes.length (w.nodes.length + 1) w.st.sctxs.length) l
        (⟨⟨w.nodes ++ preamble w.nodes.length w.st.sctxs.length name, w.st.newSCtx.2⟩, [], none⟩, [])) := by
    unfold buildMatcherFromTokensLog
    rw [hk]
    dsimp only
    rw [if_neg (by simpa using hn)]
    rw [← C31_visit_preorder _ _ hl hd]
    rfl
  have e2 : buildMatcherFromTokens env cf' depth t ctx name fromFile w =
      buildResult ctx w.nodes.length w.st.sctxs.length (callHooks w.st.toks
        (buildHooks env cf' fromFile depth w.nodes.length (w.nodes.length + 1) w.st.sctxs.length) l
        ⟨⟨w.nodes ++ preamble w.nodes.length w.st.sctxs.length name, w.st.newSCtx.2⟩, [], none⟩) := by
    unfold buildMatcherFromTokens
    rw [hk]
    dsimp only
    rw [if_neg (by simpa using hn)]
    rw [← C31_visit_preorder _ _ hl hd]
    rfl
  rw [e1, e2]
  generalize callHooks w.st.toks
        (buildHooksLog env cf fromFile depth w.nodes.length (w.nodes.length + 1) w.st.sctxs.length) l
        (⟨⟨w.nodes ++ preamble w.nodes.length w.st.sctxs.length name, w.st.newSCtx.2⟩, [], none⟩, []) = r at hv
  generalize callHooks w.st.toks
        (buildHooks env cf' fromFile depth w.nodes.length (w.nodes.length + 1) w.st.sctxs.length) l
        ⟨⟨w.nodes ++ preamble w.nodes.length w.st.sctxs.length name, w.st.newSCtx.2⟩, [], none⟩ = r' at hv
  cases r with
  | dangling => exact hv.elim
  | diverge => exact hv.elim
  | err e s =>
    obtain ⟨rfl, ls, h1, h2, h3⟩ := hv
    rw [List.nil_append] at h1
    show LogAgrees _ _ _ (logBuilt flag t (buildResult ctx _ _ (.err e s.1), s.2)) (buildResult ctx _ _ (.err e s.1))
    have hne : ∀ m sc w', buildResult ctx w.nodes.length w.st.sctxs.length (.err e s.1) ≠ .ok m sc w' :=
      fun m sc w' h => (buildResult_err h).elim
    have hsil : flag = false → s.2 = [] := by
      rintro rfl
      rw [h1]
      cases ls with
      | nil => rfl
      | cons a ls => exact absurd (h3 a (by simp)) (by simp)
    cases hr : buildResult ctx w.nodes.length w.st.sctxs.length (.err e s.1) with
    | ok m sc w' => exact (hne _ _ _ hr).elim
    | err es =>
      refine ⟨rfl, ?_, ?_, ?_⟩
      · rintro rfl; exact hsil rfl
      · rintro rfl m sc w h; cases h
      · rintro rfl es' h
        cases h
        exact ⟨s.2, rfl, fun hf => by rw [h1, h2 hf]⟩
    | panic m => exact ⟨rfl, hsil, (fun _ _ _ _ h => by cases h), (fun _ _ h => by cases h)⟩
    | diverge => exact ⟨rfl, hsil, (fun _ _ _ _ h => by cases h), (fun _ _ h => by cases h)⟩
  | ok s =>
    obtain ⟨rfl, hg, ⟨ls, h1, h2, h3⟩, h4⟩ := hv
    rw [List.nil_append] at h1
    show LogAgrees _ _ _ (logBuilt flag t (.ok _ _ s.1.w, s.2)) (.ok _ _ s.1.w)
    cases hf : flag with
    | false =>
      refine ⟨rfl, ?_, ?_, ?_⟩
      · intro _
        show s.2 = []
        rw [h1]
        cases ls with
        | nil => rfl
        | cons a ls => exact absurd (hf.symm.trans (h3 a (by simp))) (by simp)
      · intro h; cases h
      · intro h; cases h
    | true =>
      have hsame := SameOn.of_pre hl hg.toks
      have htl : t ∈ l := hl.roots t (by simp)
      have hcl := hl.closed t htl k hk
      obtain ⟨own, ho1, ho2⟩ := errorLines_messages (toks := s.1.w.st.toks) (cs := k.children) fun c hc => by
        have hcv := List.getElem?_eq_getElem (hl.valid c (hcl c hc))
        exact ⟨_, hsame.at_ (hcl c hc) hcv, h4 c (hcl c hc) _ hcv⟩
      have e3 : logBuilt true t (.ok w.nodes.length w.st.sctxs.length s.1.w, s.2) =
          (.ok w.nodes.length w.st.sctxs.length s.1.w, s.2 ++ own) := by
        unfold logBuilt
        dsimp only
        rw [if_pos rfl, hsame.at_ htl hk]
        dsimp only
        rw [ho1]
      rw [e3]
      refine ⟨rfl, fun h => (by cases h), ?_, ?_⟩
      · rintro - m sc w' h
        exact ⟨ls, own, h2.imp fun _ _ h => h hf, ho2.transport hsame.symm hcl, by rw [h1]⟩
      · rintro - es h; cases h

theorem compile_prints (env : Env) (flag : Bool) (fuel : Nat) : ∀ parser name fromFile w, Milds w.nodes →
    LogAgrees flag fromFile (TextPrintsIn env w fuel parser name fromFile) (compileScriptLog env flag fuel parser name fromFile w)
      (compileScript env fuel parser name fromFile w) := by
  induction fuel with
  | zero =>
    exact fun _ _ _ _ _ => ⟨rfl, fun _ => rfl, (fun _ _ _ _ h => by cases h), (fun _ _ h => by cases h)⟩
  | succ fuel ih =>
    intro parser name fromFile w hw
    rw [compileScriptLog_succ, compileScript_succ]
    have hm := setup_milds env parser name hw
    have one : ∀ e : ParseError, LogAgrees flag fromFile (TextPrintsIn env w (fuel + 1) parser name fromFile)
        (.err [e], if flag then messages [e] else []) (.err [e]) := by
      intro e
      refine ⟨rfl, ?_, (fun _ _ _ _ h => by cases h), ?_⟩
      · rintro rfl; rfl
      · rintro rfl es h; cases h; exact ⟨[], rfl, fun _ => rfl⟩
    cases ht : tokenize (tableOf (setup env parser name w).nodes) env.cfg fuel (setup env parser name w).ctx
        (setup env parser name w).start (setup env parser name w).st with
    | panic m => exact ⟨rfl, fun _ => rfl, (fun _ _ _ _ h => by cases h), (fun _ _ h => by cases h)⟩
    | diverge => exact ⟨rfl, fun _ => rfl, (fun _ _ _ _ h => by cases h), (fun _ _ h => by cases h)⟩
    | ok r st =>
      cases r with
      | error f => cases f <;> exact one _
      | ok t =>
        dsimp only
        obtain ⟨l, hp, hn, -, -⟩ := C36_tokenize (fun m => (hm.table m).grafts) ht
        have htl := hp.valid t (hp.roots t (by simp))
        have hk : st.toks[t]? = some st.toks[t] := List.getElem?_eq_getElem htl
        have hcf : ∀ file w, Milds w.nodes → ∃ ff, LogAgrees flag ff (FilePrints env fuel file)
            (importFileLog env flag fuel file w) (importFile env fuel file w) := by
          intro file w hw
          unfold importFileLog importFile
          cases hc : env.canonical file with
          | none => exact ⟨none, rfl, fun _ => rfl, (fun _ _ _ _ h => by cases h), (fun _ _ h => by cases h)⟩
          | some full =>
            dsimp only
            cases hr : env.read full with
            | none => exact ⟨none, rfl, fun _ => rfl, (fun _ _ _ _ h => by cases h), (fun _ _ h => by cases h)⟩
            | some src =>
              obtain ⟨h1, h2, h3, h4⟩ := ih ⟨src, full⟩ file (some full) w hw
              refine ⟨some full, h1, h2, fun hf m sc w' h => ⟨full, src, hc, hr, ?_⟩, h4⟩
              have := h3 hf m sc w' h
              cases fuel with
              | zero => exact this
              | succ d => exact ⟨w, hw, this⟩
        have hsafe : ∀ file w, Milds w.nodes → FileSafe w (importFile env fuel file w) := by
          intro file w hw
          unfold importFile
          cases env.canonical file with
          | none => trivial
          | some full =>
            dsimp only
            cases env.read full with
            | none => trivial
            | some src => exact compile_safe env fuel _ _ _ w hw
        obtain ⟨h1, h2, h3, h4⟩ := build_prints (env := env) (flag := flag) (fromFile := fromFile) (name := name)
          (ctx := (setup env parser name w).ctx)
          (w := ⟨(setup env parser name w).nodes, st⟩) hcf hsafe hm hk hp (Nat.le_refl _)
        refine ⟨h1, h2, fun hf m sc w' h => ?_, h4⟩
        obtain ⟨ls, own, h5, h6, h7⟩ := h3 hf m sc w' h
        exact ⟨t, _, l, st, ls, own, ht, hk, hp, hn, h5, h6, h7⟩

/-! ### What is printed -/

variable {env : Env} {flag : Bool} {fuel : Nat} {parser : Parser} {name src : Str} {fromFile : Option Str} {w w' : World}
  {m : MatcherId} {sc : SCtxId} {es : List ParseError} {lines : List Str}

/-- C60: whether errors are printed makes no difference to what a script is compiled to; in
particular printing never panics. -/
theorem C60_result (hw : Compiled env w) :
    (compileScriptLog env flag fuel parser name fromFile w).1 = compileScript env fuel parser name fromFile w :=
  (compile_prints env flag fuel parser name fromFile w hw.milds).same

/-- C60: without the flag nothing is printed, by no import either. -/
theorem C60_silent (hw : Compiled env w) : (compileScriptLog env false fuel parser name fromFile w).2 = [] :=
  (compile_prints env false fuel parser name fromFile w hw.milds).silent rfl

/-- C60: with the flag, when a script is rejected, the messages of all the errors that are
returned are printed, in their order, and nothing after them. -/
theorem C60_rejected (hw : Compiled env w)
    (h : compileScriptLog env true fuel parser name fromFile w = (.err es, lines)) :
    ∃ pre, lines = pre ++ es.map (·.message) := by
  obtain ⟨pre, h1, -⟩ := (compile_prints env true fuel parser name fromFile w hw.milds).rejected rfl es (by rw [h])
  exact ⟨pre, by rw [h] at h1; exact h1⟩

/-- C60: for a script that is not read from a file this is all. -/
theorem C60_rejected_str (hw : Compiled env w)
    (h : compileScriptFromStrLog env true fuel src name w = (.err es, lines)) : lines = es.map (·.message) := by
  unfold compileScriptFromStrLog at h
  obtain ⟨pre, h1, h2⟩ := (compile_prints env true fuel ⟨src, []⟩ name none w hw.milds).rejected rfl es (by rw [h])
  rw [h2 rfl, h] at h1
  exact h1

/-- C60: something is printed when a script is rejected. -/
theorem C60_rejected_not_silent (hw : Compiled env w)
    (h : compileScriptLog env true fuel parser name fromFile w = (.err es, lines)) : lines ≠ [] := by
  obtain ⟨pre, rfl⟩ := C60_rejected hw h
  have := C45_errors (env := env) (fuel := fuel) (parser := parser) (name := name) (fromFile := fromFile) (es := es) hw
    (by rw [← C60_result (flag := true) hw, h])
  intro h0
  exact this (List.map_eq_nil_iff.mp (List.append_eq_nil_iff.mp h0).2)

/-- C60: with the flag, when a script is accepted although there are errors in it, the messages of
the errors right below the root are printed, after whatever its imports print. -/
theorem C60_accepted (hw : Compiled env w)
    (h : compileScriptLog env true (fuel + 1) parser name fromFile w = (.ok m sc w', lines)) :
    ParsePrints env fuel (FilePrints env fuel) parser name fromFile w lines := by
  have := (compile_prints env true (fuel + 1) parser name fromFile w hw.milds).accepted rfl m sc w' (by rw [h])
  rw [h] at this
  exact this

theorem ItemsPrint.no_file {pr : Str → List Str → Prop} {toks : List Token} {l : List TokId} {ls : List Str}
    (h : ItemsPrint env none pr toks l ls) : ls = [] := by
  induction h with
  | nil => rfl
  | cons hi _ ih =>
    rw [ih]
    cases hi with
    | other => rfl
    | imported _ _ _ _ hf => cases hf

/-- C60: for a script that is not read from a file: exactly the messages of the error tokens right
below the root. -/
theorem C60_accepted_str (hw : Compiled env w)
    (h : compileScriptFromStrLog env true (fuel + 1) src name w = (.ok m sc w', lines)) :
    ∃ t k s, parseScript env fuel ⟨src, []⟩ name w = .ok (.ok t) s ∧ s.toks[t]? = some k ∧
      ErrorMessages s.toks k.children lines := by
  obtain ⟨t, k, l, s, ls, own, h1, h2, -, -, h3, h4, h5⟩ := C60_accepted hw h
  rw [h3.no_file] at h5
  subst h5
  exact ⟨t, k, s, h1, h2, h4⟩

end

/-! ### Examples -/

namespace LogExample
open CompileExample

/-- Files: `a` imports from `b`, in which there is an error that does not count; `c` imports from
`d`, which imports from `e`, which is broken. -/
def logFiles : Env :=
  { files with
    read := fun f =>
      if f = "a".toList then some "<!--[adextopa version='1'] import { _ as Y } from 'b' -->(!?<='v'>)".toList
      else if f = "b".toList then some "(?!<='u'>)".toList
      else if f = "c".toList then some "<!--[adextopa version='1'] import { _ as X } from 'd' --><X>".toList
      else if f = "d".toList then some "<!--[adextopa version='1'] import { _ as X } from 'e' --><X>".toList
      else if f = "e".toList then some "(<=''>)".toList
      else none }

/-- The result and the printed texts. -/
def seen (x : Logged) : Option ((Nat × Nat × Nat) ⊕ List (String × Option Range)) × List String :=
  (view x.1, x.2.map String.ofList)

-- These are evaluated, not proved.
#guard seen (compileScriptFromStrLog logFiles true 45 "(?!<='u'>)".toList [] empty) ==
  (some (.inl (868, 1, 873)),
    ["Error: @[1:2-4]: Can not use ? and ! at the same time in this context. Use one or the other, not both."])
#guard seen (compileScriptFromStrLog logFiles false 45 "(?!<='u'>)".toList [] empty) ==
  (some (.inl (868, 1, 873)), [])
#guard seen (compileScriptFromStrLog logFiles true 45 "(<='u'>)".toList [] empty) ==
  (some (.inl (868, 1, 873)), [])
#guard (seen (compileScriptFromFileLog logFiles true 45 "a".toList empty)).2 ==
  ["Error: b@[1:2-4]: Can not use ? and ! at the same time in this context. Use one or the other, not both.",
    "Error: a@[1:59-61]: Can not use ? and ! at the same time in this context. Use one or the other, not both."]
-- An error in an import is printed once for every file it passes through.
#guard (seen (compileScriptFromFileLog logFiles true 45 "c".toList empty)).2 == List.replicate 3
  "Error: e@[1:1]: Error attempting to create matcher from parsed pattern token: Value can not be empty for an `Equals` pattern definition"
#guard (seen (compileScriptFromFileLog logFiles false 45 "c".toList empty)).2 == []
#guard (seen (compileScriptFromFileLog logFiles true 45 "c".toList empty)).1 ==
  view (compileScriptFromFile logFiles 45 "c".toList empty)

-- The hypotheses hold for the empty world.
example : Compiled logFiles empty := .start

end LogExample

end Adx
