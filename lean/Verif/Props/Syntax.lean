import Verif.Proofs.Complete
import Verif.Proofs.CompileDepth
import Verif.Proofs.ScriptText
import Verif.Spec.Meaning
import Verif.Props.Import
/-
  C49: the texts of the language of scripts are compiled, to what they mean.
-/
namespace Adx

open Syntax (Stmt Brought Defines Text File)

/-! ### The parse -/

section

attribute [local irreducible] Script.switchMatcher Script.programMatcher Script.script tokenize
  buildMatcherFromTokens String.toList

variable {env : Env} {w : World} {parser : Parser} {name : Str}

/-- Gathering errors where there are none. -/
theorem collectTop_clean {s : State} {t : TokId} {l : List TokId} (hp : Pre s.toks [t] l) (hn : l.Nodup)
    (he : ∀ u ∈ l, isErrorTok s.toks u = false) : collectErrorsTop t s = .ok () s := by
  cases hp with
  | @cons _ k _ l1 l2 hk hc hs =>
    cases hs
    rw [List.append_nil] at *
    obtain ⟨es, s', hb, hrun, h1, h2, h3, h4, h5, h6⟩ := C23_gather hk hc hn
    have hes : es = [] := by
      have : ∀ {ts l es}, Buried s.toks ts es → Pre s.toks ts l → (∀ u ∈ l, isErrorTok s.toks u = false) → es = [] := by
        intro ts l es hb
        induction hb generalizing l with
        | nil => intro _ _; rfl
        | @cons t k ts es es' hk hc hs ih1 ih2 =>
          intro hp he
          cases hp with
          | @cons _ k' _ l1 l2 hk' hc' hs' =>
            cases hk.symm.trans hk'
            rw [ih1 hc' (fun u hu => he u (by simp [hu])), ih2 hs' (fun u hu => he u (by simp [hu])), List.nil_append,
              List.append_nil, List.filter_eq_nil_iff]
            intro c hcm
            rw [he c (by simp [hc'.roots c hcm])]
            decide
      exact this hb hc fun u hu => he u (List.mem_cons_of_mem _ hu)
    subst hes
    rw [hrun]
    have htoks : s'.toks = s.toks := by
      apply List.ext_getElem?
      intro i
      by_cases hi : i = t
      · subst hi
        rw [h4, hk, List.append_nil]
      · by_cases hl : i ∈ l1
        · have hlt := hc.valid i hl
          have hj : s.toks[i]? = some s.toks[i] := List.getElem?_eq_getElem hlt
          rw [h5 i hl _ hj, hj, List.filter_eq_self.mpr]
          intro c hcm
          have := hc.closed i hl _ hj c hcm
          rw [he c (by simp [this])]
          rfl
        · exact h6 i hi hl
    cases s
    cases s'
    cases h1
    cases h2
    cases htoks
    rfl

/-- The setting in which the text of a script is read. -/
def scriptSetting (env : Env) (parser : Parser) (name : Str) (w : World) (hm : Milds w.nodes)
    (ha : Ascii parser.src) (hs : blen parser.src ≤ isizeMax) (errs : Bool := false) : Read.Setting where
  T := tableOf (setup env parser name w).nodes
  cfg := env.cfg
  p := parser
  sw := ((Script.switchMatcher env.uni).run w.nodes).1
  pm := ((Script.programMatcher env.uni).run ((Script.switchMatcher env.uni).run w.nodes).2).1
  mild := (setup_milds env parser name hm).table
  small := hs
  ascii := ha
  errs := errs

theorem table_of_prefix {ns ns' : List Node} (h : ns <+: ns') {i : MatcherId} {nd : Node} (hi : ns[i]? = some nd) :
    tableOf ns' i = nd := by
  obtain ⟨y, rfl⟩ := h
  unfold tableOf
  rw [List.getElem?_append_left (List.getElem?_eq_some_iff.mp hi).1, hi]
  rfl

theorem setup_is (hm : Milds w.nodes) (ha : Ascii parser.src) (hs : blen parser.src ≤ isizeMax) {errs : Bool} :
    Read.Scripts (scriptSetting env parser name w hm ha hs errs) env.uni ∧
    Read.Is (scriptSetting env parser name w hm ha hs errs) (Script.script env.uni) (setup env parser name w).start := by
  have hs := local_safe w.nodes.length
  obtain ⟨v1, y1, h1, g1⟩ := hs.switchMatcher env.uni w.nodes (Nat.le_refl _)
  obtain ⟨v2, y2, h2, g2⟩ := hs.programMatcher env.uni ((Script.switchMatcher env.uni).run w.nodes).2
    (by rw [h1]; simp)
  obtain ⟨v3, y3, h3, g3⟩ := hs.script' env.uni
    ((Script.programMatcher env.uni).run ((Script.switchMatcher env.uni).run w.nodes).2).2
    (by rw [h2, h1]; simp)
  have p3 : ((Script.programMatcher env.uni).run ((Script.switchMatcher env.uni).run w.nodes).2).2 <+:
      (setup env parser name w).nodes := ⟨y3, h3.symm⟩
  have p2 : ((Script.switchMatcher env.uni).run w.nodes).2 <+: (setup env parser name w).nodes :=
    List.IsPrefix.trans ⟨y2, h2.symm⟩ p3
  exact ⟨⟨⟨w.nodes, rfl, fun i nd hi => table_of_prefix p2 hi⟩, ⟨_, rfl, fun i nd hi => table_of_prefix p3 hi⟩⟩,
    ⟨_, rfl, fun i nd hi => table_of_prefix List.prefix_rfl hi⟩⟩

theorem setup_scoped (hm : Milds w.nodes) (hok : ScopesOK w.st) (ha : Ascii parser.src) (hs : blen parser.src ≤ isizeMax) {errs : Bool} :
    Read.Scoped (scriptSetting env parser name w hm ha hs errs) none w.st.sctxs.length (setup env parser name w).st := by
  have h0 := hok.newSCtx
  have hl : w.st.sctxs.length < w.st.newSCtx.2.sctxs.length := by simp [State.newSCtx]
  have h1 := h0.bindVar hl "SwitchMatcher".toList (.matcher ((Script.switchMatcher env.uni).run w.nodes).1)
  have hl1 : w.st.sctxs.length < (w.st.newSCtx.2.bindVar w.st.sctxs.length "SwitchMatcher".toList
      (.matcher ((Script.switchMatcher env.uni).run w.nodes).1)).sctxs.length := by rw [bindVar_length h0 hl]; exact hl
  have g0 := C09_set_get _ h0 _ hl "SwitchMatcher".toList (.matcher ((Script.switchMatcher env.uni).run w.nodes).1)
  have g1 := C09_set_get _ h1 _ hl1 "ProgramMatcher".toList
    (.matcher ((Script.programMatcher env.uni).run ((Script.switchMatcher env.uni).run w.nodes).2).1)
  refine ⟨setup_ok env parser name hok, ?_, ?_, g1.1, fun _ h => by cases h⟩
  · show _ < (State.bindVar _ _ _ _).sctxs.length
    rw [bindVar_length h1 hl1]
    exact hl1
  · exact (g1.2.1 _ (Read.toList_ne (by decide))).trans g0.1

/-- C49: the text of a script is parsed, in every world, and its tokens say what the text
says. -/
theorem C49_parse {nm : Option Str} {gs : List Gram} {ss : List Stmt} (hm : Milds w.nodes) (hok : ScopesOK w.st)
    (ha : Ascii parser.src) (hs : blen parser.src ≤ isizeMax) (h : Syntax.Script env parser.src nm gs ss) :
    ∃ N t s k l, (∀ fuel, N ≤ fuel → parseScript env fuel parser name w = .ok (.ok t) s) ∧ s.toks[t]? = some k ∧
      k.name = "Script".toList ∧ Pre s.toks [t] l ∧ l.Nodup ∧ ScriptSays env s.toks l gs ss ∧
      scriptName s.toks l name = nm.getD name := by
  obtain ⟨hS, hI⟩ := setup_is (env := env) (name := name) hm ha hs (errs := false)
  have hsc := setup_scoped (env := env) (name := name) hm hok ha hs (errs := false)
  obtain ⟨w', tr, hr, hn, hb⟩ := hS.script h (List.suffix_rfl : (scriptSetting env parser name w hm ha hs).Has parser.src)
  have hhere : (scriptSetting env parser name w hm ha hs).Here parser.src (setup env parser name w).ctx := by
    refine ⟨rfl, ?_, rfl⟩
    show (⟨0, _⟩ : Range) = ⟨blen parser.src - blen parser.src, _⟩
    rw [Nat.sub_self]
    rfl
  obtain ⟨-, -, r, s, hrun, hshow, -⟩ := hr _ hI _ _ _ List.suffix_rfl hhere hsc
  cases hshow with
  | ok hshow =>
    cases hshow with
    | @tok t _ _ hrep =>
      obtain ⟨l, hp, hnd, -⟩ := C36_tree (fun m => ((scriptSetting env parser name w hm ha hs).mild m).grafts) hrun rfl
      obtain ⟨l', hp', he⟩ := hrep.pre (Or.inl rfl)
      cases hp.unique hp'
      have hclean := collectTop_clean hp hnd he
      obtain ⟨n, hrun⟩ := hrun
      obtain ⟨k, -, hk, -, hinf, -⟩ := hrep.root
      have htok : tokenize (tableOf (setup env parser name w).nodes) env.cfg n (setup env parser name w).ctx
          (setup env parser name w).start (setup env parser name w).st = .ok (.ok t) s := by
        have hrun' : exec (tableOf (setup env parser name w).nodes) env.cfg n (setup env parser name w).start
          (setup env parser name w).ctx (setup env parser name w).ctx.scope (setup env parser name w).st =
          .ok (.ok (.token t)) s := hrun
        unfold tokenize
        rw [bind_run hrun']
        dsimp only
        rw [bind_run hclean]
        rfl
      obtain ⟨b1, b2⟩ := hb _ _ _ _ hrep hp
      refine ⟨n, t, s, k, l, fun fuel hf => ?_, hk, ?_, hp, hnd, b1, b2 name⟩
      · unfold parseScript
        rw [C06_tokenize_depth_independent hf (by rw [htok]; nofun), htok]
      · have : k.name = tr.name := congrArg Read.Info.name hinf
        rw [this, hn]

/-! ### The meaning -/

/-- What the identifiers of an import statement bring. -/
theorem Brought.imports {t : Nat} {toks : List Token} {gs : List Gram} {bs ths : List (Str × Thing)} {n cur : Str} {cs : List TokId}
    {ids : List (Str × Str)} (h : Brought t gs bs n cur ids ths)
    (hc : List.Forall₂ (fun c id => ImportNames toks c id.1 id.2) cs ids) : Imports toks t gs bs n cur cs ths := by
  induction h generalizing cs with
  | nil => cases hc; exact .nil
  | root hn _ ih => cases hc with | cons h hs => exact .root h hn (ih hs)
  | member hn hd _ ih => cases hc with | cons h hs => exact .member h hn hd (ih hs)

section
variable {imp imp' : Str → Str → List Gram → List (Str × Thing) → Prop} {fromFile : Option Str}

theorem Defines.split {ss' ss : List Stmt} : ∀ {t : Nat} {bs : List (Str × Thing)}, Defines env imp fromFile t (ss' ++ ss) bs →
    ∃ bs1 bs2, bs = bs1 ++ bs2 ∧ Defines env imp fromFile t ss' bs1 ∧ Defines env imp fromFile (t + bs1.length) ss bs2 := by
  induction ss' with
  | nil => exact fun {t bs} h => ⟨[], bs, rfl, .nil, h⟩
  | cons x ss' ih =>
    intro t bs h
    cases h with
    | own h =>
      obtain ⟨b1, b2, rfl, h1, h2⟩ := ih h
      exact ⟨_ :: b1, b2, rfl, .own h1, by rw [List.length_cons, Nat.add_comm b1.length, ← Nat.add_assoc]; exact h2⟩
    | imports hj hc hi hb h =>
      obtain ⟨b1, b2, rfl, h1, h2⟩ := ih h
      exact ⟨_ ++ b1, b2, (List.append_assoc ..).symm, .imports hj hc hi hb h1, by rw [List.length_append, ← Nat.add_assoc]; exact h2⟩

theorem Defines.owns {bs : List (Str × Gram)} : ∀ {t : Nat} {bs' : List (Str × Thing)},
    Defines env imp fromFile t (bs.map fun b => .own b.1 b.2) bs' → bs' = bs.map fun b => (b.1, .own b.2) := by
  induction bs with
  | nil => intro t bs' h; cases h; rfl
  | cons b bs ih =>
    intro t bs' h
    cases h with
    | own h => rw [ih h]; rfl

/-- Tokens bring what the statements define. -/
theorem ScriptSays.brings {toks : List Token} {l : List TokId} {gs : List Gram} {ss : List Stmt}
    (h : ScriptSays env toks l gs ss) : ∀ {t : Nat} {bs : List (Str × Thing)}, Defines env imp fromFile t ss bs →
    ScriptBrings env fromFile imp toks t l gs bs := by
  induction h with
  | nil => intro t bs h; cases h; exact .nil
  | cons hi _ ih =>
    intro t bs h
    obtain ⟨b1, b2, rfl, h1, h2⟩ := Defines.split h
    refine .cons ?_ (ih h2)
    cases hi with
    | own hi => rw [Defines.owns h1]; exact .own hi
    | imports hk hn hids hidk hp hpk hf =>
      cases h1 with
      | imports hj hc hi hb hz =>
        cases hz
        rw [List.append_nil]
        exact .imported hk hn hids hidk hp hpk rfl hj hc hi (Brought.imports hb hf)

end

/-! ### Compiling -/

/-- What it is to compile to something: with enough fuel, in every world. -/
def Compiles (f : Nat → World → BuildRes) (n : Str) (gs : List Gram) (bs : List (Str × Thing)) : Prop :=
  ∀ w, Milds w.nodes → ScopesOK w.st → ∃ N m sc w', (∀ fuel, N ≤ fuel → f fuel w = .ok m sc w') ∧ ScopesOK w'.st ∧
    IsFile w' w.nodes.length w.st.sctxs.length m sc n gs bs

/-- To compile to something, with the scopes of all imports. -/
def Plants (f : Nat → World → BuildRes) (n : Str) (gs : List Gram) (bs : List (Str × Thing)) : Prop :=
  ∀ w, Milds w.nodes → ScopesOK w.st → ∃ N m sc w', (∀ fuel, N ≤ fuel → f fuel w = .ok m sc w') ∧ ScopesOK w'.st ∧
    IsFile w' w.nodes.length w.st.sctxs.length m sc n gs bs ∧ Grafted w' (m + 1) sc w'.st.sctxs.length bs

theorem Plants.compiles {f : Nat → World → BuildRes} {n : Str} {gs : List Gram} {bs : List (Str × Thing)} (h : Plants f n gs bs) :
    Compiles f n gs bs := fun w hm hok =>
  have ⟨N, m, sc, w', h1, h2, h3, _⟩ := h w hm hok
  ⟨N, m, sc, w', h1, h2, h3⟩

theorem compile_makes {fromFile : Option Str} {nm : Option Str} {gs : List Gram} {ss : List Stmt} {bs : List (Str × Thing)}
    (ha : Ascii parser.src) (hs : blen parser.src ≤ isizeMax) (h : Syntax.Script env parser.src nm gs ss)
    (hd : Defines env (fun file => Plants (fun fuel => importFile env fuel file)) fromFile 0 ss bs) :
    Plants (fun fuel => compileScript env fuel parser name fromFile) (nm.getD name) gs bs := by
  intro w hm hok
  obtain ⟨N, t, s, k, l, hp, hk, hn, hl, hnd, hsay, hname⟩ := C49_parse (name := name) hm hok ha hs h
  have hsafe : ∀ fuel file w, Milds w.nodes → FileSafe w (importFile env fuel file w) := by
    intro fuel file w hw
    unfold importFile
    cases env.canonical file with
    | none => trivial
    | some full =>
      dsimp only
      cases env.read full with
      | none => trivial
      | some src => exact compile_safe env fuel _ _ _ w hw
  obtain ⟨ys, hys, -⟩ := setup_nodes env parser name w
  have hle : w.nodes.length ≤ (setup env parser name w).nodes.length := by rw [hys]; simp
  have hpN := hp N (Nat.le_refl _)
  unfold parseScript at hpN
  obtain ⟨N', m, sc, w', hb, hok', hfile, hgraft⟩ := build_makes (env := env) (fromFile := fromFile) (name := name)
    (cf := fun fuel => importFile env fuel) (ctx := (setup env parser name w).ctx)
    (w := ⟨(setup env parser name w).nodes, s⟩) (depth := s.toks.length)
    (fun file w n gs bs hw hok h => h w hw hok) hsafe (setup_milds env parser name hm) (parse_ok hok hpN)
    hk hn hl (Nat.le_refl _) (hsay.brings hd)
  refine ⟨max N N' + 1, m, sc, w', fun fuel hf => ?_, hok', ?_, hgraft⟩
  · obtain ⟨fuel, rfl⟩ : ∃ f, fuel = f + 1 := ⟨fuel - 1, by omega⟩
    have h1 := hp fuel (by omega)
    unfold parseScript at h1
    show compileScript env (fuel + 1) parser name fromFile w = _
    rw [compileScript_succ, h1]
    exact hb fuel (by omega)
  · rw [← hname]
    exact hfile.lower hle (parse_own hpN).sctxs.length_le

/-- C49: every text of the language of scripts is compiled, also with imports, and the
matcher and its scope are what the text means; the scopes of all that it imports are a tree. -/
theorem C49_plants {src file : Str} {fromFile : Option Str} {n : Str} {gs : List Gram} {bs : List (Str × Thing)}
    (h : Text env src name fromFile n gs bs) :
    Plants (fun fuel => compileScript env fuel ⟨src, file⟩ name fromFile) n gs bs := by
  suffices ∀ file, Plants (fun fuel => compileScript env fuel ⟨src, file⟩ name fromFile) n gs bs from this file
  refine Text.rec (env := env)
    (motive_1 := fun src name fromFile n gs bs _ => ∀ file, Plants (fun fuel => compileScript env fuel ⟨src, file⟩ name fromFile) n gs bs)
    (motive_2 := fun file n gs bs _ => Plants (fun fuel => importFile env fuel file) n gs bs)
    (motive_3 := fun fromFile t ss bs _ => Defines env (fun file => Plants (fun fuel => importFile env fuel file)) fromFile t ss bs)
    ?_ ?_ ?_ ?_ ?_ h
  · exact fun ha hs h _ hd file => compile_makes (parser := ⟨_, file⟩) ha hs h hd
  · intro file full src n gs bs hc hr _ ih
    have := ih full
    unfold importFile
    simp only [hc, hr]
    exact this
  · exact .nil
  · exact fun _ ih => .own ih
  · exact fun hj hc _ hb _ ih ih' => .imports hj hc ih hb ih'

/-- C49: every text of the language of scripts is compiled, also with imports, and the
matcher and its scope are what the text means. -/
theorem C49_compiles {src file : Str} {fromFile : Option Str} {n : Str} {gs : List Gram} {bs : List (Str × Thing)}
    (h : Text env src name fromFile n gs bs) :
    Compiles (fun fuel => compileScript env fuel ⟨src, file⟩ name fromFile) n gs bs := (C49_plants h).compiles

/-- C49: and so are files. -/
theorem C49_file {file : Str} {n : Str} {gs : List Gram} {bs : List (Str × Thing)} (h : File env file n gs bs) :
    Compiles (fun fuel => compileScriptFromFile env fuel file) n gs bs := by
  cases h with
  | @mk _ full src _ _ _ hc hr h =>
    have := C49_compiles (file := full) h
    unfold compileScriptFromFile
    simp only [hc, hr]
    exact this

/-- C49: a text that is not from a file. -/
theorem C49_str {src : Str} {nm : Option Str} {gs : List Gram} {bs : List (Str × Gram)} (ha : Ascii src)
    (hs : blen src ≤ isizeMax) (h : Syntax.Script env src nm gs (bs.map fun b => .own b.1 b.2)) :
    Compiles (fun fuel => compileScriptFromStr env fuel src name) (nm.getD name) gs (bs.map fun b => (b.1, .own b.2)) := by
  refine C49_compiles (file := []) (.mk ha hs h ?_)
  clear h
  generalize 0 = t
  induction bs generalizing t with
  | nil => exact .nil
  | cons b bs ih => exact .own (ih _)

/-- C49: whatever comes out when a text of the language is compiled, unless it runs out of
fuel, is what the text means. -/
theorem C49_result {src file : Str} {fromFile : Option Str} {n : Str} {gs : List Gram} {bs : List (Str × Thing)} {fuel : Nat}
    (h : Text env src name fromFile n gs bs) (hm : Compiled env w) (hok : ScopesOK w.st)
    (hd : compileScript env fuel ⟨src, file⟩ name fromFile w ≠ .diverge) :
    ∃ m sc w', compileScript env fuel ⟨src, file⟩ name fromFile w = .ok m sc w' ∧ ScopesOK w'.st ∧
      IsFile w' w.nodes.length w.st.sctxs.length m sc n gs bs := by
  obtain ⟨N, m, sc, w', h1, h2, h3⟩ := C49_compiles (file := file) h w hm.milds hok
  refine ⟨m, sc, w', ?_, h2, h3⟩
  rw [← compile_depth (Nat.le_max_left fuel N) hd]
  exact h1 _ (Nat.le_max_right ..)

/-! ### One meaning -/

theorem ItemSays.unique {toks : List Token} {x : TokId} {gs gs' : List Gram} {ss ss' : List Stmt}
    (h : ItemSays env toks x gs ss) (h' : ItemSays env toks x gs' ss') : gs = gs' ∧ ss = ss' := by
  have no : ∀ {k : Token} {gs : List Gram} {bs : List (Str × Gram)}, toks[x]? = some k → k.name = "ImportStatement".toList →
      ¬ ItemMeans env toks x gs bs := by
    intro k gs bs hk hn hi
    cases hi with
    | error hk' hn' => cases hk.symm.trans hk'; exact name_ne hn (by decide) hn'
    | scope hk' hn' => cases hk.symm.trans hk'; exact name_ne hn (by decide) hn'
    | «alias» hk' hn' => cases hk.symm.trans hk'; exact name_ne hn (by decide) hn'
    | definition hk' hn' => cases hk.symm.trans hk'; exact name_ne hn (by decide) hn'
    | otherValue hk' hn' => cases hk.symm.trans hk'; exact name_ne hn (by decide) hn'
    | other hk' _ _ _ hn' => cases hk.symm.trans hk'; exact hn' hn
  cases h with
  | own h =>
    cases h' with
    | own h' =>
      obtain ⟨rfl, rfl⟩ := h.unique h'
      exact ⟨rfl, rfl⟩
    | imports hk hn => exact (no hk hn h).elim
  | imports hk hn hids hidk hp hpk hf =>
    cases h' with
    | own h' => exact (no hk hn h').elim
    | imports hk' hn' hids' hidk' hp' hpk' hf' =>
      cases hk.symm.trans hk'
      cases hids.unique hids'
      cases hidk.symm.trans hidk'
      cases hp.unique hp'
      cases hpk.symm.trans hpk'
      refine ⟨rfl, ?_⟩
      congr 2
      clear hidk hidk'
      generalize Token.children _ = cs at hf hf'
      induction hf generalizing ‹List (Str × Str)› with
      | nil => cases hf'; rfl
      | cons a _ ih =>
        cases hf' with
        | cons a' b' =>
          obtain ⟨e1, e2⟩ := a.unique a'
          rw [ih b', Prod.ext e1 e2]

theorem ScriptSays.unique {toks : List Token} {l : List TokId} {gs gs' : List Gram} {ss ss' : List Stmt}
    (h : ScriptSays env toks l gs ss) (h' : ScriptSays env toks l gs' ss') : gs = gs' ∧ ss = ss' := by
  induction h generalizing gs' ss' with
  | nil => cases h'; exact ⟨rfl, rfl⟩
  | cons hi _ ih =>
    cases h' with
    | cons hi' hs' =>
      obtain ⟨rfl, rfl⟩ := hi.unique hi'
      obtain ⟨rfl, rfl⟩ := ih hs'
      exact ⟨rfl, rfl⟩

/-- C49: the language of scripts is not ambiguous. -/
theorem C49_unambiguous {src : Str} {nm nm' : Option Str} {gs gs' : List Gram} {ss ss' : List Stmt} (ha : Ascii src)
    (hs : blen src ≤ isizeMax) (h : Syntax.Script env src nm gs ss) (h' : Syntax.Script env src nm' gs' ss') :
    nm = nm' ∧ gs = gs' ∧ ss = ss' := by
  have hm : Milds ([] : List Node) := fun _ h => nomatch h
  have hok : ScopesOK State.empty := ⟨fun sc st h => by simp [State.empty] at h, fun sc st h => by simp [State.empty] at h,
    fun sc _ st _ h => by simp [State.empty] at h⟩
  have key : ∀ name, nm.getD name = nm'.getD name ∧ gs = gs' ∧ ss = ss' := by
    intro name
    obtain ⟨N, t, s, k, l, hp, hk, hn, hl, hnd, hsay, hname⟩ :=
      C49_parse (w := ⟨[], State.empty⟩) (parser := ⟨src, []⟩) (name := name) hm hok ha hs h
    obtain ⟨N', t', s', k', l', hp', hk', hn', hl', hnd', hsay', hname'⟩ :=
      C49_parse (w := ⟨[], State.empty⟩) (parser := ⟨src, []⟩) (name := name) hm hok ha hs h'
    have e := (hp (max N N') (by omega)).symm.trans (hp' (max N N') (by omega))
    cases e
    cases hl.unique hl'
    obtain ⟨e1, e2⟩ := hsay.unique hsay'
    exact ⟨hname.symm.trans hname', e1, e2⟩
  refine ⟨?_, (key []).2⟩
  have k1 := (key []).1
  have k2 := (key ['x']).1
  cases nm with
  | none =>
    cases nm' with
    | none => rfl
    | some a' => exact (List.cons_ne_nil _ _ (k2.trans k1.symm)).elim
  | some a =>
    cases nm' with
    | none => exact (List.cons_ne_nil _ _ (k2.symm.trans k1)).elim
    | some a' => exact congrArg some k1

theorem Brought.unique {t : Nat} {gs : List Gram} {bs ths ths' : List (Str × Thing)} {n n' cur : Str} {ids : List (Str × Str)}
    (h : Brought t gs bs n cur ids ths) (h' : Brought t gs bs n' cur ids ths') : n = n' ∧ ths = ths' := by
  induction h generalizing ths' with
  | nil => cases h'; exact ⟨rfl, rfl⟩
  | root hn _ ih =>
    cases h' with
    | root hn' h' => obtain ⟨rfl, rfl⟩ := ih h'; exact ⟨rfl, rfl⟩
    | member hn' => exact (hn' rfl).elim
  | member hn _ _ ih =>
    cases h' with
    | root hn' h' => exact (hn rfl).elim
    | member hn' _ h' => obtain ⟨rfl, rfl⟩ := ih h'; exact ⟨rfl, rfl⟩

/-- C49: a text means at most one thing, whatever files it imports. -/
theorem C49_one_meaning {src : Str} {fromFile : Option Str} {n n' : Str} {gs gs' : List Gram} {bs bs' : List (Str × Thing)}
    (h : Text env src name fromFile n gs bs) (h' : Text env src name fromFile n' gs' bs') : n = n' ∧ gs = gs' ∧ bs = bs' := by
  refine Text.rec (env := env)
    (motive_1 := fun src name fromFile n gs bs _ => ∀ n' gs' bs', Text env src name fromFile n' gs' bs' → n = n' ∧ gs = gs' ∧ bs = bs')
    (motive_2 := fun file n gs bs _ => ∀ n' gs' bs', File env file n' gs' bs' → n = n' ∧ gs = gs' ∧ bs = bs')
    (motive_3 := fun fromFile t ss bs _ => ∀ bs', Defines env (File env) fromFile t ss bs' → bs = bs')
    ?_ ?_ ?_ ?_ ?_ h n' gs' bs' h'
  · rintro src name fromFile nm gs ss bs ha hs h _ ih n' gs' bs' ⟨_, _, h', hd'⟩
    obtain ⟨rfl, rfl, rfl⟩ := C49_unambiguous ha hs h h'
    exact ⟨rfl, rfl, ih _ hd'⟩
  · rintro file full src n gs bs hc hr _ ih n' gs' bs' ⟨hc', hr', h'⟩
    cases hc.symm.trans hc'
    cases hr.symm.trans hr'
    exact ih _ _ _ h'
  · rintro fromFile t bs' ⟨⟩
    rfl
  · rintro fromFile t name g ss bs _ ih bs' ⟨⟩
    rename_i h
    rw [ih _ h]
  · rintro base t path joined file ids n0 n gs fbs ths ss bs hj hc _ hb _ ih ih' bs' h
    cases h with
    | imports hj' hc' hi' hb' h' =>
      cases hj.symm.trans hj'
      cases hc.symm.trans hc'
      obtain ⟨rfl, rfl, rfl⟩ := ih _ _ _ hi'
      obtain ⟨rfl, rfl⟩ := Brought.unique hb hb'
      rw [ih' _ h']

end

/-! ### Examples -/

namespace SyntaxExample
open CompileExample Syntax

theorem munch (p : Char → Bool) (w u rest : Str) (h : (w == u ++ rest && u.all p && rest.head?.all (! p ·)) = true) :
    Munch p w u rest := by
  simp only [Bool.and_eq_true, List.all_eq_true, beq_iff_eq] at h
  refine ⟨h.1.1, h.1.2, fun c hc => ?_⟩
  have := h.2
  rw [hc] at this
  simpa using this

theorem gap (w u rest : Str) (h : (w == u ++ rest && u.all space && rest.head?.all (! space ·)) = true) : Gap w rest :=
  ⟨u, munch _ _ _ _ h⟩

theorem blanks (w u rest : Str) (h : (w == u ++ rest && u.all blank && rest.head?.all (! blank ·)) = true) : Blanks w rest :=
  ⟨u, munch _ _ _ _ h⟩

theorem identifier (w n rest : Str) (h : (w == n ++ rest && n.all idChar && rest.head?.all (! idChar ·)) = true)
    (h' : n.head?.any idStart = true) : Identifier w n rest := by
  refine ⟨munch _ _ _ _ h, ?_⟩
  cases n with
  | nil => cases h'
  | cons c cs => exact ⟨c, cs, rfl, h'⟩

/-- The text of the file `b`. -/
theorem script_b : Syntax.Script files "<!--[adextopa version='1'] X = <='u'> --><X>".toList none
    [.discard (.ref "Ref".toList false "X".toList)] [.own "X".toList (.equals "X".toList true ['u'])] := by
  refine .headed (w1 := "<!--[adextopa version='1'] X = <='u'> --><X>".toList) (w2 := "<X>".toList) (name := none)
    (.done (gap _ [] _ rfl) (by decide)) ?_ ?_
  · refine Header.mk (w := " version='1'] X = <='u'> --><X>".toList) (w1 := "version='1'] X = <='u'> --><X>".toList)
      (w2 := " X = <='u'> --><X>".toList) (v := ['1']) (as := [⟨"version".toList, ['1'], ['1']⟩]) (n := 1)
      (blanks _ [' '] _ rfl) ?_ rfl (.digit (ch := '1') rfl) (by decide) ?_ ?_
    · exact .cons (n := "version".toList) (w1 := "='1'] X = <='u'> --><X>".toList) (w2 := "'1'] X = <='u'> --><X>".toList)
        (w3 := "'1'] X = <='u'> --><X>".toList) (w4 := "] X = <='u'> --><X>".toList) (w5 := "] X = <='u'> --><X>".toList)
        (munch _ _ _ _ rfl) (by decide) (by decide) (blanks _ [] _ rfl) (blanks _ [] _ rfl)
        (.mk (.plain (by decide) (by decide) (.done _))) (gap _ [] _ rfl) (.nil (by simp [attrChar]))
    · refine .definition (w1 := "X = <='u'> --><X>".toList) (n := "X".toList) (w2 := " = <='u'> --><X>".toList)
        (w3 := " <='u'> --><X>".toList) (w4 := "<='u'> --><X>".toList) (w5 := " --><X>".toList)
        (gap _ [' '] _ rfl) (identifier _ _ _ rfl rfl) (gap _ [' '] _ rfl) (gap _ [' '] _ rfl) ?_ (.done (gap _ [' '] _ rfl))
      exact Definition.mk (outer := .none) (inner := .none) (w1 := "='u'> --><X>".toList) (w2 := "='u'> --><X>".toList)
        (w3 := "> --><X>".toList) (w4 := "> --><X>".toList) (as := []) (r := none) (gap _ [] _ rfl)
        (.equals (.mk (.plain (by decide) (by decide) (.done _))) (by decide)) (gap _ [] _ rfl)
        (.nil (by simp [attrChar])) (.once (by decide))
    · rintro w3 ⟨u, hu⟩
      have h1 := (Munch.unique hu (munch space _ [' '] "X = <='u'> --><X>".toList rfl)).2
      cases h1
  · refine .pattern (w1 := "<X>".toList) (w2 := []) (gap _ [] _ rfl) (.plain ?_) (.done (gap _ [] _ rfl))
    exact Definition.mk (outer := .none) (inner := .none) (w1 := "X>".toList) (w2 := "X>".toList)
        (w3 := ">".toList) (w4 := ">".toList) (as := []) (r := none) (gap _ [] _ rfl)
        (.custom (identifier _ _ _ rfl rfl)) (gap _ [] _ rfl) (.nil (by simp [attrChar])) (.once (by simp))

/-- The text of the file `a`. -/
theorem script_a : Syntax.Script files "<!--[adextopa version='1'] import { X as Y, _ as Z } from 'b' --><Y>".toList none
    [.discard (.ref "Ref".toList false "Y".toList)]
    [.imports "b".toList [("X".toList, "Y".toList), ("_".toList, "Z".toList)]] := by
  refine .headed (w1 := "<!--[adextopa version='1'] import { X as Y, _ as Z } from 'b' --><Y>".toList) (w2 := "<Y>".toList)
    (name := none) (.done (gap _ [] _ rfl) (by decide)) ?_ ?_
  · refine Header.mk (w := " version='1'] import { X as Y, _ as Z } from 'b' --><Y>".toList)
      (w1 := "version='1'] import { X as Y, _ as Z } from 'b' --><Y>".toList)
      (w2 := " import { X as Y, _ as Z } from 'b' --><Y>".toList) (v := ['1']) (as := [⟨"version".toList, ['1'], ['1']⟩]) (n := 1)
      (blanks _ [' '] _ rfl) ?_ rfl (.digit (ch := '1') rfl) (by decide) ?_ ?_
    · exact .cons (n := "version".toList) (w1 := "='1'] import { X as Y, _ as Z } from 'b' --><Y>".toList)
        (w2 := "'1'] import { X as Y, _ as Z } from 'b' --><Y>".toList)
        (w3 := "'1'] import { X as Y, _ as Z } from 'b' --><Y>".toList) (w4 := "] import { X as Y, _ as Z } from 'b' --><Y>".toList)
        (w5 := "] import { X as Y, _ as Z } from 'b' --><Y>".toList)
        (munch _ _ _ _ rfl) (by decide) (by decide) (blanks _ [] _ rfl) (blanks _ [] _ rfl)
        (.mk (.plain (by decide) (by decide) (.done _))) (gap _ [] _ rfl) (.nil (by simp [attrChar]))
    · refine .imports (w1 := " { X as Y, _ as Z } from 'b' --><Y>".toList) (w2 := " X as Y, _ as Z } from 'b' --><Y>".toList)
        (w3 := " from 'b' --><Y>".toList) (w4 := " 'b' --><Y>".toList) (w5 := "'b' --><Y>".toList) (w6 := " --><Y>".toList)
        (gap _ [' '] _ rfl) (blanks _ [' '] _ rfl) ?_ (blanks _ [' '] _ rfl) (blanks _ [' '] _ rfl)
        (.mk (.plain (by decide) (by decide) (.done _))) (.done (gap _ [' '] _ rfl))
      refine .more (w1 := "X as Y, _ as Z } from 'b' --><Y>".toList) (w2 := " _ as Z } from 'b' --><Y>".toList)
        (gap _ [' '] _ rfl) ?_ (.last (w1 := "_ as Z } from 'b' --><Y>".toList) (w2 := " } from 'b' --><Y>".toList)
        (gap _ [' '] _ rfl) ?_ (gap _ [' '] _ rfl))
      · exact .renamed (w1 := " as Y, _ as Z } from 'b' --><Y>".toList) (w2 := "Y, _ as Z } from 'b' --><Y>".toList)
          (w3 := ", _ as Z } from 'b' --><Y>".toList) (identifier _ _ _ rfl rfl)
          ⟨[' '], [' '], " Y, _ as Z } from 'b' --><Y>".toList, munch _ _ _ _ rfl, by decide, munch _ _ _ _ rfl, by decide⟩
          (identifier _ _ _ rfl rfl) .comma
      · exact .renamed (w1 := " as Z } from 'b' --><Y>".toList) (w2 := "Z } from 'b' --><Y>".toList)
          (w3 := " } from 'b' --><Y>".toList) (identifier _ _ _ rfl rfl)
          ⟨[' '], [' '], " Z } from 'b' --><Y>".toList, munch _ _ _ _ rfl, by decide, munch _ _ _ _ rfl, by decide⟩
          (identifier _ _ _ rfl rfl) (.nothing (by decide))
    · rintro w3 ⟨u, hu⟩
      have h1 := (Munch.unique hu (munch space _ [' '] "import { X as Y, _ as Z } from 'b' --><Y>".toList rfl)).2
      cases h1
  · refine .pattern (w1 := "<Y>".toList) (w2 := []) (gap _ [] _ rfl) (.plain ?_) (.done (gap _ [] _ rfl))
    exact Definition.mk (outer := .none) (inner := .none) (w1 := "Y>".toList) (w2 := "Y>".toList)
        (w3 := ">".toList) (w4 := ">".toList) (as := []) (r := none) (gap _ [] _ rfl)
        (.custom (identifier _ _ _ rfl rfl)) (gap _ [] _ rfl) (.nil (by simp [attrChar])) (.once (by simp))

/-- What the file `b` means, and what `a` means, which imports it. -/
example : let X : List (Str × Thing) := [("X".toList, .own (.equals "X".toList true ['u']))]
    let refTo : String → List Gram := fun n => [.discard (.ref "Ref".toList false n.toList)]
    File files "b".toList "b".toList (refTo "X") X ∧
    File files "a".toList "a".toList (refTo "Y")
      [("Y".toList, .member 0 X "X".toList "Y".toList), ("Z".toList, .file 0 "Z".toList (refTo "X") X)] := by
  have hb : File files "b".toList "b".toList [.discard (.ref "Ref".toList false "X".toList)]
      [("X".toList, .own (.equals "X".toList true ['u']))] :=
    .mk (full := "b".toList) rfl rfl (.mk (nm := none) (by unfold Ascii; decide) (by decide) script_b (.own .nil))
  refine ⟨hb, .mk (full := "a".toList) rfl rfl (.mk (nm := none) (by unfold Ascii; decide) (by decide) script_a ?_)⟩
  exact .imports (joined := "b".toList) (file := "b".toList) rfl rfl hb
    (.member (by decide) rfl (.root (by decide) .nil)) .nil

end SyntaxExample

end Adx
