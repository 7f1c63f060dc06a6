import Verif.Model.Log
import Verif.Spec.Log
import Verif.Props.Import
/-
  Compiling with `FLAG_LOG_STDERR`.
-/
namespace Adx

/-- The names of an import statement are read without changing matchers. -/
def importNames (env : Env) (from_ : Str) (t : TokId) : C (List TokId × Str) := do
  let k ← C.tok t
  let ids ← C.ofOpt "called `Option::unwrap()` on a `None` value"
    (← C.findChild k "ImportIdentifiers")
  let ids ← C.tok ids
  let path ← C.ofOpt "called `Option::unwrap()` on a `None` value" (← C.findChild k "Path")
  let path := (← C.tok path).getValue
  let joined ← C.ofOpt "called `Option::unwrap()` on a `None` value" (env.relative from_ path)
  let file ← C.ofOpt "called `Result::unwrap()` on an `Err` value" (env.canonical joined)
  pure (ids.children, file)

theorem importNames_ok {env : Env} {from_ : Str} {t : TokId} {toks : List Token} {ns ns' : List Node}
    {ids : List TokId} {file : Str} (h : importNames env from_ t toks ns = .ok (ids, file) ns') :
    ns' = ns ∧ ∃ k q qk joined, toks[t]? = some k ∧ First toks ["Path"] k.children q ∧ toks[q]? = some qk ∧
      env.relative from_ qk.getValue = some joined ∧ env.canonical joined = some file := by
  have : CPost (importNames env from_ t) toks ns (fun p ns' => ns' = ns ∧ ∃ k q qk joined, toks[t]? = some k ∧
      First toks ["Path"] k.children q ∧ toks[q]? = some qk ∧
      env.relative from_ qk.getValue = some joined ∧ env.canonical joined = some p.2) True True := by
    apply CPost.bind
    refine CPost.tok (fun k hk => ?_) (fun _ => trivial)
    apply CPost.bind
    refine CPost.findChild (fun ids hids => ?_) (fun _ => ?_)
    case refine_2 => trivial
    apply CPost.bind
    refine CPost.ofOpt (fun _ he => ?_) (fun _ => trivial)
    cases he
    apply CPost.bind
    refine CPost.tok (fun idk hidk => ?_) (fun _ => trivial)
    apply CPost.bind
    refine CPost.findChild (fun q hq => ?_) (fun _ => ?_)
    case refine_2 => trivial
    apply CPost.bind
    refine CPost.ofOpt (fun _ he => ?_) (fun _ => trivial)
    cases he
    apply CPost.bind
    refine CPost.tok (fun qk hqk => ?_) (fun _ => trivial)
    apply CPost.bind
    refine CPost.ofOpt (fun joined hj => ?_) (fun _ => trivial)
    apply CPost.bind
    refine CPost.ofOpt (fun file hc => ?_) (fun _ => trivial)
    exact ⟨rfl, k, q, qk, joined, hk, hq, hqk, hj, hc⟩
  unfold CPost at this
  rw [h] at this
  exact this

variable {env : Env} {cf : Str → World → Logged} {cf' : Str → World → BuildRes} {fromFile : Option Str}

/-- What the hook of an import statement prints: nothing if there is no file, or else what
compiling the file prints. -/
def HookPrints (env : Env) (cf : Str → World → Logged) (fromFile : Option Str) (t : TokId) (b : Build) (ls : List Str)
    (good : Bool) : Prop :=
  (good = false ∧ ls = []) ∨ ∃ base k q qk joined file, fromFile = some base ∧ b.w.st.toks[t]? = some k ∧
    First b.w.st.toks ["Path"] k.children q ∧ b.w.st.toks[q]? = some qk ∧
    env.relative base qk.getValue = some joined ∧ env.canonical joined = some file ∧ ls = (cf file b.w).2 ∧
    (good = true → ∃ root isc w1, (cf file b.w).1 = .ok root isc w1)

theorem hookImportLog_spec {sc : SCtxId} {t : TokId} {s : Build × List Str}
    (hcf : ∀ file, (cf file s.1.w).1 = cf' file s.1.w) :
    ∃ ls, hookImportLog env cf fromFile sc t s =
        ((hookImport env cf' fromFile sc t s.1).1, (hookImport env cf' fromFile sc t s.1).2, s.2 ++ ls) ∧
      HookPrints env cf fromFile t s.1 ls
        (match (hookImport env cf' fromFile sc t s.1).1 with | .ok _ => true | .error _ => false) := by
  obtain ⟨b, log⟩ := s
  dsimp only at hcf ⊢
  cases fromFile with
  | none =>
    refine ⟨[], ?_, ?_⟩
    · unfold hookImportLog hookImport Build.step
      dsimp only
      rw [List.append_nil]
      cases C.tok t b.w.st.toks b.w.nodes <;> rfl
    · unfold hookImport Build.step
      dsimp only
      cases C.tok t b.w.st.toks b.w.nodes <;> exact .inl ⟨rfl, rfl⟩
  | some base =>
    have e1 : hookImportLog env cf (some base) sc t (b, log) =
        match importNames env base t b.w.st.toks b.w.nodes with
        | .ok (ids, file) ns =>
          let b := { b with w := { b.w with nodes := ns } }
          match cf file b.w with
          | (.ok root isc w, ls) =>
            let r := importIdentifiers sc isc root file ids { b with w := w }
            (r.1, r.2, log ++ ls)
          | (.err es, ls) => (.error ⟨[], none⟩, { b with errors := b.errors ++ es }, log ++ ls)
          | (.panic m, ls) => (.error ⟨[], none⟩, { b with crash := some (some m) }, log ++ ls)
          | (.diverge, ls) => (.error ⟨[], none⟩, { b with crash := some none }, log ++ ls)
        | .err e => (.error (patternError e), b, log)
        | .panic m => (.error ⟨[], none⟩, { b with crash := some (some m) }, log)
        | .diverge => (.error ⟨[], none⟩, { b with crash := some none }, log) := rfl
    have e2 : hookImport env cf' (some base) sc t b = Build.step (importNames env base t) b
      (fun (ids, file) b =>
        match cf' file b.w with
        | .ok root isc w => importIdentifiers sc isc root file ids { b with w := w }
        | .err es => Build.fail ⟨[], none⟩ { b with errors := b.errors ++ es }
        | .panic m => (.error ⟨[], none⟩, { b with crash := some (some m) })
        | .diverge => (.error ⟨[], none⟩, { b with crash := some none })) patternError := rfl
    rw [e1, e2]
    unfold Build.step
    cases hn : importNames env base t b.w.st.toks b.w.nodes with
    | err e => exact ⟨[], by simp, .inl ⟨rfl, rfl⟩⟩
    | panic m => exact ⟨[], by simp, .inl ⟨rfl, rfl⟩⟩
    | diverge => exact ⟨[], by simp, .inl ⟨rfl, rfl⟩⟩
    | ok p ns =>
      obtain ⟨ids, file⟩ := p
      obtain ⟨rfl, k, q, qk, joined, h1, h2, h3, h4, h5⟩ := importNames_ok hn
      have hc := hcf file
      dsimp only
      rw [← hc]
      refine ⟨(cf file b.w).2, ?_, .inr ⟨base, k, q, qk, joined, file, rfl, h1, h2, h3, h4, h5, rfl, ?_⟩⟩
      · cases hx : cf file b.w with
        | mk r ls => cases r <;> rfl
      · cases hx : cf file b.w with
        | mk r ls =>
          cases r with
          | ok root isc w1 => exact fun _ => ⟨root, isc, w1, rfl⟩
          | err es => intro h; cases h
          | panic m => intro h; cases h
          | diverge => intro h; cases h

theorem hookError_message {t : TokId} {b b' : Build} {u : Unit} {k : Token} (hk : b.w.st.toks[t]? = some k)
    (h : hookError t b = (.ok u, b')) : ∃ msg, k.getAttribute "__message".toList = some msg := by
  cases hm : k.getAttribute "__message".toList with
  | some msg => exact ⟨msg, rfl⟩
  | none =>
    exfalso
    have : CPost (do
      let k ← C.tok t
      let msg ← C.ofOpt "called `Option::unwrap()` on a `None` value"
        (k.getAttribute "__message".toList)
      pure (⟨msg, some k.matched⟩ : ParseError)) b.w.st.toks b.w.nodes (fun _ _ => False) True True := by
      apply CPost.bind
      refine CPost.tok (fun k' hk' => ?_) (fun _ => trivial)
      cases hk.symm.trans hk'
      apply CPost.bind
      refine CPost.ofOpt (fun _ he => ?_) (fun _ => trivial)
      rw [hm] at he
      cases he
    revert h
    unfold hookError
    refine step_spec (P := fun r => r = (.ok u, b') → False) this ?_ ?_ ?_ ?_
    · exact fun _ _ h => h.elim
    · intro _ _ h; cases h
    · intro _ _ h; cases h
    · intro _ h; cases h

/-! ### The visit -/

/-- What a visit with printing has to do with the visit without: the same, and it prints `ls`. -/
def VisitPrints (env : Env) (fromFile : Option Str) (pr : Str → List Str → Prop) (Q : Str → Prop) (w0 : World)
    (l : List TokId) (log : List Str) : VRes (Build × List Str) → VRes Build → Prop
  | .ok s, r => r = .ok s.1 ∧ Going w0 s.1 ∧
      (∃ ls, s.2 = log ++ ls ∧ ItemsPrint env fromFile pr w0.st.toks l ls ∧ ∀ x ∈ ls, Q x) ∧
      ∀ x ∈ l, ∀ k, w0.st.toks[x]? = some k → k.name = "Error".toList → ∃ msg, k.getAttribute "__message".toList = some msg
  | .err e s, r => r = .err e s.1 ∧ ∃ ls, s.2 = log ++ ls ∧ (fromFile = none → ls = []) ∧ ∀ x ∈ ls, Q x
  | _, _ => False

theorem callHooks_prints {pr : Str → List Str → Prop} {Q : Str → Prop} {w0 : World} {ts all : List TokId} {depth : Nat}
    (hcf : ∀ file w, Milds w.nodes → (cf file w).1 = cf' file w)
    (hpr : ∀ file w root isc w1, Milds w.nodes → (cf file w).1 = .ok root isc w1 → pr file (cf file w).2)
    (hq : ∀ file w, Milds w.nodes → ∀ x ∈ (cf file w).2, Q x)
    (hsafe : ∀ file w, Milds w.nodes → FileSafe w (cf' file w))
    (hp : Pre w0.st.toks ts all) (l : List TokId) : ∀ {b : Build} {log : List Str}, (∀ x ∈ l, x ∈ all) → Going w0 b →
    VisitPrints env fromFile pr Q w0 l log
      (callHooks w0.st.toks
        (buildHooksLog env cf fromFile depth w0.nodes.length (w0.nodes.length + 1) w0.st.sctxs.length) l (b, log))
      (callHooks w0.st.toks
        (buildHooks env cf' fromFile depth w0.nodes.length (w0.nodes.length + 1) w0.st.sctxs.length) l b) := by
  induction l with
  | nil => exact fun _ h => ⟨rfl, h, ⟨[], by simp, .nil, by simp⟩, by simp⟩
  | cons x l ih =>
    intro b log hl h
    have hx := hl x (by simp)
    obtain ⟨k, hk⟩ : ∃ k, w0.st.toks[x]? = some k := ⟨_, List.getElem?_eq_getElem (hp.valid x hx)⟩
    have hsame := SameOn.of_pre hp h.toks
    -- the token is done
    have after : ∀ {b1 ls}, Going w0 b1 → ItemPrints env fromFile pr w0.st.toks x ls → (∀ y ∈ ls, Q y) →
        (fromFile = none → ls = []) →
        (k.name = "Error".toList → ∃ msg, k.getAttribute "__message".toList = some msg) →
        VisitPrints env fromFile pr Q w0 (x :: l) log
          (callHooks w0.st.toks
            (buildHooksLog env cf fromFile depth w0.nodes.length (w0.nodes.length + 1) w0.st.sctxs.length) l (b1, log ++ ls))
          (callHooks w0.st.toks
            (buildHooks env cf' fromFile depth w0.nodes.length (w0.nodes.length + 1) w0.st.sctxs.length) l b1) := by
      intro b1 ls hg h1 h2 h0 h3
      have := ih (log := log ++ ls) (fun y hy => hl y (List.mem_cons_of_mem _ hy)) hg
      cases hc : callHooks w0.st.toks
          (buildHooksLog env cf fromFile depth w0.nodes.length (w0.nodes.length + 1) w0.st.sctxs.length) l
          (b1, log ++ ls) with
      | ok s =>
        rw [hc] at this
        obtain ⟨g1, g2, ⟨ls2, g3, g4, g5⟩, g6⟩ := this
        refine ⟨g1, g2, ⟨ls ++ ls2, by rw [g3, List.append_assoc], .cons h1 g4, ?_⟩, ?_⟩
        · intro y hy
          rcases List.mem_append.mp hy with hy | hy
          · exact h2 y hy
          · exact g5 y hy
        · intro y hy ky hky
          rcases List.mem_cons.mp hy with rfl | hy
          · cases hk.symm.trans hky
            exact h3
          · exact g6 y hy ky hky
      | err e s =>
        rw [hc] at this
        obtain ⟨g1, ls2, g2, g3, g4⟩ := this
        refine ⟨g1, ls ++ ls2, by rw [g2, List.append_assoc], fun hf => ?_, ?_⟩
        · rw [h0 hf, g3 hf]; rfl
        · intro y hy
          rcases List.mem_append.mp hy with hy | hy
          · exact h2 y hy
          · exact g4 y hy
      | dangling => rw [hc] at this; exact this.elim
      | diverge => rw [hc] at this; exact this.elim
    -- a hook
    have key : ∀ (hook' : Hook (Build × List Str)) (hook : Hook Build),
        hookFor (buildHooksLog env cf fromFile depth w0.nodes.length (w0.nodes.length + 1) w0.st.sctxs.length)
          k.name = some hook' →
        hookFor (buildHooks env cf' fromFile depth w0.nodes.length (w0.nodes.length + 1) w0.st.sctxs.length)
          k.name = some hook →
        HookSafe w0 (hook x b) →
        (∃ ls, hook' x (b, log) = ((hook x b).1, (hook x b).2, log ++ ls) ∧ (∀ y ∈ ls, Q y) ∧ (fromFile = none → ls = []) ∧
          ∀ u b1, hook x b = (.ok u, b1) → ItemPrints env fromFile pr w0.st.toks x ls ∧
            (k.name = "Error".toList → ∃ msg, k.getAttribute "__message".toList = some msg)) →
        VisitPrints env fromFile pr Q w0 (x :: l) log
          (callHooks w0.st.toks
            (buildHooksLog env cf fromFile depth w0.nodes.length (w0.nodes.length + 1) w0.st.sctxs.length) (x :: l) (b, log))
          (callHooks w0.st.toks
            (buildHooks env cf' fromFile depth w0.nodes.length (w0.nodes.length + 1) w0.st.sctxs.length) (x :: l) b) := by
      intro hook' hook hf' hf hs ⟨ls, he, h2, h0, h3⟩
      unfold callHooks
      rw [show (w0.st.toks[x]?).bind (fun k => hookFor
          (buildHooksLog env cf fromFile depth w0.nodes.length (w0.nodes.length + 1) w0.st.sctxs.length) k.name) =
          some hook' by rw [hk]; exact hf',
        show (w0.st.toks[x]?).bind (fun k => hookFor
          (buildHooks env cf' fromFile depth w0.nodes.length (w0.nodes.length + 1) w0.st.sctxs.length) k.name) =
          some hook by rw [hk]; exact hf]
      dsimp only
      rw [he]
      rcases ho : hook x b with ⟨r, b1⟩
      rw [ho] at hs
      cases r with
      | error e => exact ⟨rfl, ls, rfl, h0, h2⟩
      | ok u =>
        obtain ⟨h4, h5⟩ := h3 u b1 ho
        exact after hs h4 h2 h0 h5
    have quiet : ∀ hook : Hook Build,
        hookFor (buildHooksLog env cf fromFile depth w0.nodes.length (w0.nodes.length + 1) w0.st.sctxs.length)
          k.name = some (quietHook hook) →
        hookFor (buildHooks env cf' fromFile depth w0.nodes.length (w0.nodes.length + 1) w0.st.sctxs.length)
          k.name = some hook →
        HookSafe w0 (hook x b) → k.name ≠ "ImportStatement".toList →
        (∀ u b1, hook x b = (.ok u, b1) →
            (k.name = "Error".toList → ∃ msg, k.getAttribute "__message".toList = some msg)) →
        VisitPrints env fromFile pr Q w0 (x :: l) log
          (callHooks w0.st.toks
            (buildHooksLog env cf fromFile depth w0.nodes.length (w0.nodes.length + 1) w0.st.sctxs.length) (x :: l) (b, log))
          (callHooks w0.st.toks
            (buildHooks env cf' fromFile depth w0.nodes.length (w0.nodes.length + 1) w0.st.sctxs.length) (x :: l) b) := by
      intro hook hf' hf hs hn h5
      exact key _ hook hf' hf hs ⟨[], by rw [List.append_nil]; rfl, by simp, fun _ => rfl,
        fun u b1 ho => ⟨.other hk hn, h5 u b1 ho⟩⟩
    by_cases h1 : k.name = "Error".toList
    · refine quiet hookError (by rw [h1]; exact hookFor_hit (pre := []) rfl (by decide)) (by rw [h1]; exact hookFor_hit (pre := []) rfl (by decide))
        (hookError_safe h x) (by rw [h1]; decide) ?_
      intro u b1 ho _
      exact hookError_message (hsame.at_ hx hk) ho
    by_cases h2 : k.name = "AdextopaScope".toList
    · exact quiet (hookAdextopaScope w0.nodes.length) (by rw [h2]; exact hookFor_hit (pre := [_]) rfl (by simp)) (by rw [h2]; exact hookFor_hit (pre := [_]) rfl (by simp))
        (hookAdextopaScope_safe h x) (by rw [h2]; decide) (fun _ _ _ he => (h1 he).elim)
    by_cases h3 : k.name = "AssignmentExpression".toList
    · exact quiet (hookAssignment env depth w0.st.sctxs.length) (by rw [h3]; exact hookFor_hit (pre := [_, _]) rfl (by simp)) (by rw [h3]; exact hookFor_hit (pre := [_, _]) rfl (by simp))
        (hookAssignment_safe h x) (by rw [h3]; decide) (fun _ _ _ he => (h1 he).elim)
    by_cases h4 : k.name = "ImportStatement".toList
    · refine key (hookImportLog env cf fromFile w0.st.sctxs.length) (hookImport env cf' fromFile w0.st.sctxs.length) (by rw [h4]; exact hookFor_hit (pre := [_, _, _]) rfl (by simp))
        (by rw [h4]; exact hookFor_hit (pre := [_, _, _]) rfl (by simp)) (hookImport_safe hsafe h x) ?_
      obtain ⟨ls, he, hpr'⟩ := hookImportLog_spec (env := env) (cf := cf) (cf' := cf') (fromFile := fromFile)
        (sc := w0.st.sctxs.length) (t := x) (s := (b, log)) (fun file => hcf file b.w h.milds)
      refine ⟨ls, he, ?_, ?_, ?_⟩
      · rcases hpr' with ⟨-, rfl⟩ | ⟨base, k', q, qk, joined, file, -, -, -, -, -, -, rfl, -⟩
        · simp
        · exact hq file b.w h.milds
      · intro hf
        rcases hpr' with ⟨-, h⟩ | ⟨base, k', q, qk, joined, file, hb, -⟩
        · exact h
        · rw [hf] at hb; cases hb
      · intro u b1 ho
        dsimp only at hpr'
        rw [ho] at hpr'
        refine ⟨?_, fun he => (h1 he).elim⟩
        rcases hpr' with ⟨hbad, -⟩ | ⟨base, k', q, qk, joined, file, hb, hk', hfp, hqk, hj, hc, rfl, hgood⟩
        · cases hbad
        · cases (hsame.at_ hx hk).symm.trans hk'
          obtain ⟨root, isc, w1, hok⟩ := hgood rfl
          have hcl := hp.closed x hx k hk
          exact .imported hk h4 (hsame.symm.first hcl hfp) (hsame.symm.at_ (hcl _ hfp.mem) hqk) hb hj hc
            (hpr file b.w root isc w1 h.milds hok)
    by_cases h5 : k.name = "PatternScope".toList
    · exact quiet (hookPatternScope env depth (w0.nodes.length + 1)) (by rw [h5]; exact hookFor_hit (pre := [_, _, _, _]) rfl (by simp))
        (by rw [h5]; exact hookFor_hit (pre := [_, _, _, _]) rfl (by simp))
        (hookPatternScope_safe h x) (by rw [h5]; decide) (fun _ _ _ he => (h1 he).elim)
    have hb : (w0.st.toks[x]?).bind (fun k => hookFor
        (buildHooks env cf' fromFile depth w0.nodes.length (w0.nodes.length + 1) w0.st.sctxs.length) k.name) =
        none := by
      rw [hk]
      refine hookFor_miss ?_ (by simp [buildHooks])
      simp only [buildHooks, List.map_cons, List.map_nil, List.mem_cons, List.not_mem_nil, or_false, not_or]
      exact ⟨h1, h2, h3, h4, h5⟩
    have hb' : (w0.st.toks[x]?).bind (fun k => hookFor
        (buildHooksLog env cf fromFile depth w0.nodes.length (w0.nodes.length + 1) w0.st.sctxs.length) k.name) =
        none := by
      rw [hk]
      refine hookFor_miss ?_ (by simp [buildHooksLog])
      simp only [buildHooksLog, List.map_cons, List.map_nil, List.mem_cons, List.not_mem_nil, or_false, not_or]
      exact ⟨h1, h2, h3, h4, h5⟩
    unfold callHooks
    rw [hb, hb']
    have := after (ls := []) h (.other hk h4) (by simp) (fun _ => rfl) (fun he => (h1 he).elim)
    rw [List.append_nil] at this
    exact this

end Adx
