import Verif.Proofs.Import
import Verif.Props.Compile
import Verif.Props.Proxy
/-
  C46: grammar scripts that import other files.
-/
namespace Adx

/-- What the text of a script means: a name, the patterns that are matched, and the
definitions.  Imported files are looked up with `env`; the first argument bounds how deep
imports go.  The text is parsed by the grammar of scripts, in some world `w`. -/
def TextMeans (env : Env) : Nat → Parser → Str → Option Str → Str → List Gram → List (Str × Thing) → Prop
  | 0, _, _, _, _, _, _ => False
  | d + 1, parser, name, fromFile, n, gs, bs =>
    ∃ w fuel t k l s, Milds w.nodes ∧ ScopesOK w.st ∧ parseScript env fuel parser name w = .ok (.ok t) s ∧ s.toks[t]? = some k ∧
      k.name = "Script".toList ∧ Pre s.toks [t] l ∧ l.Nodup ∧ n = scriptName s.toks l name ∧
      ScriptBrings env fromFile
        (fun file n gs bs => ∃ full src, env.canonical file = some full ∧ env.read full = some src ∧
          TextMeans env d ⟨src, full⟩ file (some full) n gs bs) s.toks 0 l gs bs

section

attribute [local irreducible] Script.switchMatcher Script.programMatcher Script.script tokenize
  buildMatcherFromTokens String.toList

variable {env : Env} {w w' : World} {fuel : Nat} {parser : Parser} {name : Str} {fromFile : Option Str}
  {m : MatcherId} {sc : SCtxId}

theorem compile_brings (env : Env) (fuel : Nat) : ∀ parser name fromFile w m sc w', Milds w.nodes → ScopesOK w.st →
    compileScript env fuel parser name fromFile w = .ok m sc w' →
    ScopesOK w'.st ∧ ∃ n gs bs, TextMeans env fuel parser name fromFile n gs bs ∧
      IsFile w' w.nodes.length w.st.sctxs.length m sc n gs bs ∧ Grafted w' (m + 1) sc w'.st.sctxs.length bs := by
  induction fuel with
  | zero => intro _ _ _ _ _ _ _ _ _ h; cases h
  | succ fuel ih =>
    intro parser name fromFile w m sc w' hw hok h
    rw [compileScript_succ] at h
    have hm := setup_milds env parser name hw
    obtain ⟨ys, hys, -⟩ := setup_nodes env parser name w
    have hle : w.nodes.length ≤ (setup env parser name w).nodes.length := by
      rw [hys]; simp
    cases ht : tokenize (tableOf (setup env parser name w).nodes) env.cfg fuel (setup env parser name w).ctx
        (setup env parser name w).start (setup env parser name w).st with
    | panic m => rw [ht] at h; cases h
    | diverge => rw [ht] at h; cases h
    | ok r st =>
      rw [ht] at h
      cases r with
      | error f => cases f <;> cases h
      | ok t =>
        dsimp only at h
        obtain ⟨l, hp, hn, -, -⟩ := C36_tokenize (fun m => (hm.table m).grafts) ht
        have htl := hp.valid t (hp.roots t (by simp))
        have hk : st.toks[t]? = some st.toks[t] := List.getElem?_eq_getElem htl
        by_cases hname : st.toks[t].name = "Script".toList
        · have hown := parse_own ht
          have hf : FileBrings (fun file n gs bs => ∃ full src, env.canonical file = some full ∧
              env.read full = some src ∧ TextMeans env fuel ⟨src, full⟩ file (some full) n gs bs)
              (importFile env fuel) := by
            intro file w root isc w1 hw hok h
            unfold importFile at h
            cases hc : env.canonical file with
            | none => rw [hc] at h; cases h
            | some full =>
              rw [hc] at h
              dsimp only at h
              cases hr : env.read full with
              | none => rw [hr] at h; cases h
              | some src =>
                rw [hr] at h
                dsimp only at h
                obtain ⟨h1, n, gs, bs, h2, h3⟩ := ih _ _ _ w _ _ _ hw hok h
                exact ⟨h1, n, gs, bs, ⟨full, src, hc, hr, h2⟩, h3⟩
          have hsafe : ∀ file w, Milds w.nodes → FileSafe w (importFile env fuel file w) := by
            intro file w hw
            unfold importFile
            cases env.canonical file with
            | none => trivial
            | some full =>
              dsimp only
              cases env.read full with
              | none => trivial
              | some src => exact compile_safe env fuel _ _ _ w hw
          obtain ⟨h1, gs, bs, h2, h3, h4⟩ := build_brings (env := env) (w := ⟨(setup env parser name w).nodes, st⟩)
            hf hsafe hm (parse_ok hok ht) hk hname hp (Nat.le_refl _) h
          exact ⟨h1, _, gs, bs, ⟨w, fuel, t, _, l, st, hw, hok, ht, hk, hname, hp, hn, rfl, h2⟩,
            h3.lower hle hown.sctxs.length_le, h4⟩
        · rw [C39_not_script (w := ⟨(setup env parser name w).nodes, st⟩) hk hname] at h
          cases h

/-! ### What scripts with imports are compiled to -/

/-- C46: when a script is turned into a matcher, then its text has a meaning, in which the
meanings of all the files it imports are included, and the matcher and its scope are what
the text means: the imported names stand for matchers of the imported definitions, each
in a scope of its own file.  All of it is new. -/
theorem C46_script (hw : Compiled env w) (hok : ScopesOK w.st)
    (h : compileScript env fuel parser name fromFile w = .ok m sc w') :
    ∃ n gs bs, TextMeans env fuel parser name fromFile n gs bs ∧
      IsFile w' w.nodes.length w.st.sctxs.length m sc n gs bs :=
  have ⟨_, n, gs, bs, h1, h2, _⟩ := compile_brings env fuel parser name fromFile w m sc w' hw.milds hok h
  ⟨n, gs, bs, h1, h2⟩

/-- C46: the same for a file. -/
theorem C46_file {file : Str} (hw : Compiled env w) (hok : ScopesOK w.st)
    (h : compileScriptFromFile env fuel file w = .ok m sc w') :
    ∃ full src n gs bs, env.canonical file = some full ∧ env.read full = some src ∧
      TextMeans env fuel ⟨src, full⟩ file (some full) n gs bs ∧
      IsFile w' w.nodes.length w.st.sctxs.length m sc n gs bs := by
  unfold compileScriptFromFile at h
  cases hc : env.canonical file with
  | none => rw [hc] at h; cases h
  | some full =>
    rw [hc] at h
    dsimp only at h
    cases hr : env.read full with
    | none => rw [hr] at h; cases h
    | some src =>
      rw [hr] at h
      obtain ⟨n, gs, bs, h1, h2⟩ := C46_script hw hok h
      exact ⟨full, src, n, gs, bs, rfl, hr, h1, h2⟩

/-- C46: compiling keeps the scopes in order. -/
theorem C46_ok (hw : Compiled env w) (hok : ScopesOK w.st)
    (h : compileScript env fuel parser name fromFile w = .ok m sc w') : ScopesOK w'.st :=
  (compile_brings env fuel parser name fromFile w m sc w' hw.milds hok h).1

theorem ScriptBrings.own {t : Nat} {imp : Str → Str → List Gram → List (Str × Thing) → Prop} {toks : List Token}
    {l : List TokId} {gs : List Gram} {bs : List (Str × Thing)} (h : ScriptBrings env none imp toks t l gs bs) :
    ∀ x th, (x, th) ∈ bs → ∃ g, th = .own g := by
  induction h with
  | nil => intro _ _ h; cases h
  | cons hi _ ih =>
    intro x th hx
    rcases List.mem_append.mp hx with hx | hx
    · cases hi with
      | own hi =>
        obtain ⟨b, -, hb⟩ := List.mem_map.mp hx
        cases hb
        exact ⟨_, rfl⟩
      | imported _ _ _ _ _ _ hb => cases hb
    · exact ih x th hx

/-- C46: text that is not read from a file means nothing if it imports: every token
contributes only what it means by itself. -/
theorem C46_str (hw : Compiled env w) (hok : ScopesOK w.st)
    (h : compileScriptFromStr env fuel src name w = .ok m sc w') :
    ∃ n gs bs, TextMeans env fuel ⟨src, []⟩ name none n gs bs ∧
      (∀ x th, (x, th) ∈ bs → ∃ g, th = .own g) ∧
      IsFile w' w.nodes.length w.st.sctxs.length m sc n gs bs := by
  obtain ⟨n, gs, bs, h1, h2⟩ := C46_script hw hok h
  refine ⟨n, gs, bs, h1, ?_, h2⟩
  cases fuel with
  | zero => exact h1.elim
  | succ d =>
    obtain ⟨_, _, _, _, l, _, _, _, _, _, _, _, _, _, h1⟩ := h1
    exact h1.own

theorem tableOf_of {ns : List Node} {i : MatcherId} {nd : Node} (h : ns[i]? = some nd) : tableOf ns i = nd := by
  unfold tableOf
  rw [h]
  rfl

/-! ### Running imported definitions -/

/-- C46: `SetScope` with a scope of its own runs its body in that scope and is otherwise
not visible. -/
theorem C46_setScope {T : Table} {cfg : Cfg} {k : SCtxId} {b : MatcherId} {c : Ctx} {s s' : State} {r : R}
    (hm : T m = .setScope (some k) b) :
    Runs T cfg m c sc s r s' ↔ Runs T cfg b c k s r s' := by
  have hstep : ∀ f, execNode T cfg f (T m) c sc = (f b (c.withName "SetScope".toList) k >>= fun r => pure r) := by
    intro f
    rw [hm]
    funext s
    show f b _ k s = M.bind (f b _ k) (fun r => pure r) s
    unfold M.bind
    cases f b (c.withName "SetScope".toList) k s <;> rfl
  rw [runs_body hstep, entered_plain (by rw [hm]; rfl)]
  simp only [runs_name]
  constructor
  · rintro ⟨r0, s1, h0, h1⟩
    obtain ⟨rfl, rfl⟩ := pure_ok'.mp h1
    exact h0
  · intro h
    exact ⟨_, _, h, rfl⟩

/-- What an imported definition makes of the outcome `r0` of the definition: a token gets
the name `name`, and is not spliced; everything else is passed on. -/
inductive Renamed (name : Str) : R → State → R → State → Prop
  | token {t k s} (hk : s.toks[t]? = some k) : Renamed name (.ok (.token t)) s (.ok (.token t))
      { s with toks := s.toks.set t { k with name := name } }
  | spliced {t k s} (hk : s.toks[t]? = some k) : Renamed name (.ok (.proxyChildren t)) s (.ok (.token t))
      { s with toks := s.toks.set t { k with name := name } }
  | other {r s} (h1 : ∀ t, r ≠ .ok (.token t)) (h2 : ∀ t, r ≠ .ok (.proxyChildren t)) : Renamed name r s r s

/-- C46: to run an imported definition is to run the definition that the imported file has
for the identifier, in the scope of that file, and to name its token by the name it was
imported under. -/
theorem C46_member {lo slo t : Nat} {bs : List (Str × Thing)} {ident : Str}
    (h : IsThing w lo slo m (.member t bs ident name)) :
    ∃ isc x th, slo ≤ isc ∧ lastDef bs ident = some th ∧ IsThing w lo (isc + 1) x th ∧ InScope w lo isc bs ∧
      w.st.lookup isc ident = some (.matcher x) ∧
      ∀ cfg c sc s r s', Runs (tableOf w.nodes) cfg m c sc s r s' ↔
        ∃ r0 s1, Runs (tableOf w.nodes) cfg x c isc s r0 s1 ∧ Renamed name r0 s1 r s' := by
  cases h with
  | @member _ _ _ _ a x isc _ _ _ hl hla hs hm ha hx hbs =>
    obtain ⟨th, hd⟩ : ∃ th, lastDef bs ident = some th := by
      cases hd : lastDef bs ident with
      | some th => exact ⟨th, rfl⟩
      | none =>
        cases hbs with
        | mk hsc f h1 h2 h3 => rw [h3 _ hd] at hx; cases hx
    have hth : IsThing w lo (isc + 1) x th := by
      cases hbs with
      | mk hsc f h1 h2 h3 =>
        have := h1 _ _ hd
        rw [hx] at this
        cases this
        exact h2 _ _ hd
    refine ⟨isc, x, th, hs, hd, hth, hbs, hx, ?_⟩
    intro cfg c sc s r s'
    rw [C46_setScope (tableOf_of hm), C41_map (tableOf_of ha)]
    constructor
    · rintro (⟨t, s1, h0, h1⟩ | ⟨e, s1, h0, h1⟩ | ⟨h0, ⟨x, rfl⟩, h1, h2⟩)
      · unfold renameToken at h1
        obtain ⟨_, s2, h1, h2⟩ := bind_ok.mp h1
        obtain ⟨k, hk, rfl⟩ := modTok_ok.mp h1
        obtain ⟨rfl, rfl⟩ := pure_ok'.mp h2
        rcases h0 with h0 | h0
        · exact ⟨_, _, h0, .token hk⟩
        · exact ⟨_, _, h0, .spliced hk⟩
      · unfold passFailure at h1
        obtain ⟨rfl, rfl⟩ := pure_ok'.mp h1
        exact ⟨_, _, h0, .other (fun _ h => nomatch h) (fun _ h => nomatch h)⟩
      · exact ⟨_, _, h0, .other h1 h2⟩
    · rintro ⟨r0, s1, h0, h1⟩
      cases h1 with
      | token hk => exact .inl ⟨_, _, .inl h0, bind_ok.mpr ⟨(), _, modTok_ok.mpr ⟨_, hk, rfl⟩, rfl⟩⟩
      | spliced hk => exact .inl ⟨_, _, .inr h0, bind_ok.mpr ⟨(), _, modTok_ok.mpr ⟨_, hk, rfl⟩, rfl⟩⟩
      | other h1 h2 =>
        cases r with
        | ok x => exact .inr (.inr ⟨h0, ⟨x, rfl⟩, h1, h2⟩)
        | err e => exact .inr (.inl ⟨e, _, h0, rfl⟩)

end

/-! ### Examples -/

namespace ImportExample
open CompileExample

/-- A world in which the matcher 3 is the definition `X` of another file, whose scope is 1,
imported as `Y`. -/
def world : World :=
  ⟨[.equals "X".toList true (.str ['u']), .null, .map 0 (renameToken "Y".toList) passFailure, .setScope (some 1) 2],
   ⟨[], [[("X".toList, .matcher 0)]], [[], [0]]⟩⟩

/-- Non-vacuity of `C46_member`: its hypothesis holds, and the token gets the new name. -/
example : IsThing world 0 1 3 (.member 0 [("X".toList, .own (.equals "X".toList true ['u']))] "X".toList "Y".toList) ∧
    (exec (tableOf world.nodes) ⟨true⟩ 9 3 (Ctx.new ⟨['u'], []⟩ 0 []) 0 world.st).holds
      (fun r s => r = .ok (.token 0) ∧ s.toks[0]?.map (·.name) = some "Y".toList) ∧
    (exec (tableOf world.nodes) ⟨true⟩ 9 3 (Ctx.new ⟨['v'], []⟩ 0 []) 0 world.st).holds
      (fun r _ => r = .err .fail) := by
  refine ⟨?_, by decide +kernel, by decide +kernel⟩
  refine .member (a := 2) (x := 0) (sc := 1) (by decide) (by decide) (by decide) rfl rfl rfl
    (.mk (by decide) (fun _ => 0) ?_ ?_ ?_)
  · intro n th h
    by_cases hn : n = "X".toList
    · subst hn; rfl
    · simp [lastDef] at h
      exact (hn h.1.symm).elim
  · intro n th h
    by_cases hn : n = "X".toList
    · subst hn
      cases h
      exact .own (.equals (by decide) rfl)
    · simp [lastDef] at h
      exact (hn h.1.symm).elim
  · intro n h
    by_cases hn : n = "X".toList
    · subst hn; cases h
    · simp [State.lookup, world, lookupStack, AMap.get, show ¬ ['X'] = n from fun h => hn h.symm]

/-- A matcher of a compiled script, as far as it is about imports: the scope and the
definition of an import, the name of a program, or a text to be matched. -/
def show_ (w : World) : Nat → MatcherId → String
  | 0, _ => "..."
  | d + 1, m =>
    match w.nodes[m]? with
    | some (.setScope (some k) a) => s!"in {k} " ++ show_ w d a
    | some (.map x _ _) => "renamed " ++ show_ w d x
    | some (.program ps n _ _ _) => String.ofList n ++ " " ++ toString (ps.map (show_ w d))
    | some (.proxyChildren x _ _) => "flat " ++ show_ w d x
    | some (.equals n _ (.str s)) => String.ofList n ++ "=" ++ String.ofList s
    | some (.ref (.str s) _ _) => "&" ++ String.ofList s
    | some (.setScope none a) => "fresh " ++ show_ w d a
    | some (.discard a) => "discard " ++ show_ w d a
    | some (.optional a) => "optional " ++ show_ w d a
    | some (.not a) => "not " ++ show_ w d a
    | some (.ref _ n _) => "ref " ++ String.ofList n
    | some .null => "null"
    | _ => "?"

/-- The root of a compiled script and what some names stand for in its scope. -/
def names (xs : List String) : BuildRes → Option (String × List (String × Option String))
  | .ok m sc w => some (show_ w 9 m, xs.map fun x => (x, match w.st.lookup sc x.toList with
    | some (.matcher m) => some (show_ w 9 m)
    | _ => none))
  | _ => none

-- Evaluated, not proved, as in `CompileExample`.
#guard names ["X", "Y", "Z", "W"] (compileScriptFromFile files 45 "a".toList empty) ==
  some ("a [in 1 flat Program [discard &Y]]",
    [("X", none), ("Y", some "in 3 renamed X=u"), ("Z", some "Z [in 3 flat Program [discard &X]]"), ("W", none)])

/-- The empty world has its scopes in order. -/
example : ScopesOK empty.st :=
  ⟨fun sc st h => by simp [empty, State.empty] at h, fun sc st h => by simp [empty, State.empty] at h,
   fun sc _ st _ h => by simp [empty, State.empty] at h⟩

end ImportExample

end Adx
