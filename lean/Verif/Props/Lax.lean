import Verif.Proofs.LaxTop
import Verif.Props.Total
/-
  C54: whatever is compiled is a text of the language with liberties, and means what the text
  says there.
-/
namespace Adx

open Syntax (Stmt Brought Defines)

/-! ### The language without liberties -/

namespace Lax

variable {env : Env}

theorem AttrList.of {w rest : Str} {as : List Syntax.Attr} (h : Syntax.AttrList w as rest) : AttrList w as rest := by
  induction h with
  | nil => exact .nil
  | cons h1 h2 _ h4 h5 h6 h7 _ ih => exact .cons h1 h2 h4 h5 h6 h7 ih

mutual

theorem Matcher.of {w rest : Str} {g : Gram} : Syntax.Matcher env w g rest → Matcher env w g rest
  | .equals h hv => .equals h hv
  | .regex h ht hf hr => .regex h ht hf hr
  | .sequence h1 h2 h3 h4 h5 h6 ha hb => .sequence h1 h2 h3 h4 h5 h6 ha hb
  | .custom h => .custom h
  | .switch h => .switch (Choices.of h)
  | .program h => .program (Patterns.of h)

theorem Choices.of {w rest : Str} {gs : List Gram} : Syntax.Choices env w gs rest → Choices env w gs rest
  | .last h1 h2 h3 => .last h1 (Pattern.of h2) (.closed h3)
  | .lastBar h1 h2 h3 h4 => .lastBar h1 (Pattern.of h2) h3 (.closed h4)
  | .more h1 h2 h3 h4 => .more h1 (Pattern.of h2) h3 (Choices.of h4)

theorem Patterns.of {w rest : Str} {gs : List Gram} : Syntax.Patterns env w gs rest → Patterns env w gs rest
  | .last h1 h2 h3 => .last h1 (Pattern.of h2) (.closed h3)
  | .more h1 h2 h3 h4 => .more h1 (Pattern.of h2) h3 (Patterns.of h4)

theorem Definition.of {n w rest : Str} {g : Gram} : Syntax.Definition env n w g rest → Definition env n w g rest
  | .mk h1 h2 h3 h4 h5 => .mk .mk .mk h1 (Matcher.of h2) h3 (AttrList.of h4) (.strict h5)

theorem Pattern.of {w rest : Str} {g : Gram} : Syntax.Pattern env w g rest → Pattern env w g rest
  | .plain h => .plain (Definition.of h)
  | .captured h1 h2 h3 => .captured h1 (Definition.of h2) h3
  | .named h1 h2 h3 h4 h5 => .named h1 h2 h3 (Definition.of h4) h5

end

theorem Items.of {w : Str} {gs : List Gram} (h : Syntax.Items env w gs) : Items env w gs := by
  induction h with
  | done h => exact .done h
  | comment h1 h2 _ ih => exact .comment h1 h2 ih
  | pattern h1 h2 _ ih => exact .pattern h1 (Pattern.of h2) ih

theorem Statements.of {w rest : Str} {ss : List Stmt} (h : Syntax.Statements env w ss rest) : Statements env w ss rest := by
  induction h with
  | done h => exact .done h
  | comment h1 h2 _ ih => exact .comment h1 h2 ih
  | imports h1 h2 h3 h4 h5 h6 _ ih => exact .imports h1 h2 h3 h4 h5 h6 ih
  | definition h1 h2 h3 h4 h5 _ ih => exact .definition h1 h2 h3 h4 (Definition.of h5) ih
  | «alias» h1 h2 h3 h4 h5 _ ih => exact .alias h1 h2 h3 h4 h5 ih

theorem Header.of {w rest : Str} {nm : Option Str} {ss : List Stmt} (h : Syntax.Header env w nm ss rest) : Header env w nm ss rest := by
  cases h with
  | mk h1 h2 h3 h4 h5 h6 h7 => exact .mk h1 (AttrList.of h2) h3 ⟨_, h5, Or.inl h4⟩ (Statements.of h6) h7

end Lax

/-- C54: a script of the language is one of the language with liberties. -/
theorem C54_strict {env : Env} {w : Str} {nm : Option Str} {gs : List Gram} {ss : List Stmt} (h : Syntax.Script env w nm gs ss) :
    Lax.Script env w nm gs ss := by
  cases h with
  | headed h1 h2 h3 => exact .headed h1 (Lax.Header.of h2) (Lax.Items.of h3)
  | bare h1 h2 h3 => exact .bare h1 (Lax.Pattern.of h2) (Lax.Items.of h3)

/-! ### The parse -/

section

attribute [local irreducible] Script.switchMatcher Script.programMatcher Script.script tokenize
  buildMatcherFromTokens String.toList

variable {env : Env} {w : World} {parser : Parser} {name : Str} {fuel : Nat}

/-- C54: what the tokens of any text say, the text says, if it was parsed as a script. -/
theorem C54_parse {t : TokId} {s : State} {k : Token} {l : List TokId} {gs : List Gram} {ss : List Stmt}
    (hm : Milds w.nodes) (hok : ScopesOK w.st) (ha : Ascii parser.src) (hs : blen parser.src ≤ isizeMax)
    (h : parseScript env fuel parser name w = .ok (.ok t) s) (hk : s.toks[t]? = some k) (hn : k.name = "Script".toList)
    (hp : Pre s.toks [t] l) (hsay : ScriptSays env s.toks l gs ss) :
    ∃ nm, scriptName s.toks l name = nm.getD name ∧ Lax.Script env parser.src nm gs ss := by
  by_cases hstrict : ∃ nm gs ss, Syntax.Script env parser.src nm gs ss
  · obtain ⟨nm, gs', ss', hst⟩ := hstrict
    obtain ⟨N, t', s', k', l', hp', hk', hn', hl', hnd', hsay', hname'⟩ := C49_parse (name := name) hm hok ha hs hst
    have h2 := hp' (max N fuel) (Nat.le_max_left ..)
    have h1 : parseScript env (max N fuel) parser name w = .ok (.ok t) s := by
      unfold parseScript at h ⊢
      rw [C06_tokenize_depth_independent (Nat.le_max_right N fuel) (by rw [h]; nofun), h]
    rw [h1] at h2
    cases h2
    cases hp.unique hl'
    obtain ⟨rfl, rfl⟩ := hsay.unique hsay'
    exact ⟨nm, hname', C54_strict hst⟩
  · have hno : ∀ nm gs ss, ¬ Syntax.Script env parser.src nm gs ss := fun nm gs ss h => hstrict ⟨nm, gs, ss, h⟩
    obtain ⟨hS, hI⟩ := setup_is (env := env) (name := name) hm ha hs (errs := true)
    have hsc := setup_scoped (env := env) (name := name) hm hok ha hs (errs := true)
    have hhere : (scriptSetting env parser name w hm ha hs true).Here parser.src (setup env parser name w).ctx := by
      refine ⟨rfl, ?_, rfl⟩
      show (⟨0, _⟩ : Range) = ⟨blen parser.src - blen parser.src, _⟩
      rw [Nat.sub_self]
      rfl
    obtain ⟨r, s0, hrun, -, hr⟩ := Read.script_comes (env := env) rfl hS
      (List.suffix_rfl : (scriptSetting env parser name w hm ha hs true).Has parser.src) hhere hsc hI
    obtain ⟨n, hrun'⟩ := id hrun
    have hrun' : exec (tableOf (setup env parser name w).nodes) env.cfg n (setup env parser name w).start
      (setup env parser name w).ctx (setup env parser name w).ctx.scope (setup env parser name w).st = .ok r s0 := hrun'
    have same : ∀ {q s1}, tokenize (tableOf (setup env parser name w).nodes) env.cfg n (setup env parser name w).ctx
        (setup env parser name w).start (setup env parser name w).st = .ok q s1 → q = .ok t ∧ s1 = s := by
      intro q s1 h'
      have a1 := C06_tokenize_depth_independent (Nat.le_max_left n fuel) (by rw [h']; nofun)
      unfold parseScript at h
      have a2 := C06_tokenize_depth_independent (Nat.le_max_right n fuel) (by rw [h]; nofun)
      rw [h'] at a1
      rw [h, a1] at a2
      cases a2
      exact ⟨rfl, rfl⟩
    rcases hr with rfl | ⟨e, rfl⟩ | ⟨t', tree, rfl, hrep, hname⟩
    · obtain ⟨h1, -⟩ := same (q := .error .fail) (s1 := s0) (by
        unfold tokenize
        rw [bind_run hrun']
        rfl)
      cases h1
    · obtain ⟨h1, -⟩ := same (q := .error (.error e)) (s1 := s0) (by
        unfold tokenize
        rw [bind_run hrun']
        rfl)
      cases h1
    · obtain ⟨l0, hp0, hnd0, -⟩ := C36_tree (fun m => ((scriptSetting env parser name w hm ha hs true).mild m).grafts) hrun rfl
      rcases hname with ⟨n1, n2, n3⟩ | n1
      · obtain ⟨s', es, c1, c2, c3⟩ := hrep.collected n2 hp0 hnd0
        obtain ⟨h1, rfl⟩ := same (q := .ok t') (s1 := s') (by
          unfold tokenize
          rw [bind_run hrun']
          dsimp only
          rw [bind_run c1]
          rfl)
        cases h1
        have htold := Read.Told.over (t := .node tree.info (tree.kids.map Read.Tr.purge ++ es)) (n := "Script") n1 (by decide)
          (n3.told c3 hno)
        obtain ⟨nm, m1, m2⟩ := htold _ _ _ _ _ _ c2 hp hsay
        exact ⟨nm, m1 name, m2⟩
      · exfalso
        obtain ⟨k0, -, hk0, -, hi, -⟩ := hrep.root
        cases hp0 with
        | @cons _ k1 _ l1 l2 hk1 hc1 hs1 =>
          cases hs1
          rw [List.append_nil] at *
          cases hk0.symm.trans hk1
          obtain ⟨es, s', hb, c1, -, -, -, g4, -, -⟩ := C23_gather hk1 hc1 hnd0
          obtain ⟨h1, rfl⟩ := same (q := .ok t') (s1 := s') (by
            unfold tokenize
            rw [bind_run hrun']
            dsimp only
            rw [bind_run c1]
            rfl)
          cases h1
          cases hk.symm.trans g4
          have e1 : k0.name = tree.name := congrArg Read.Info.name hi
          have e2 : k0.name = "Script".toList := hn
          have e3 : "Script".toList = "Error".toList := e2.symm.trans (e1.trans n1)
          exact Read.toList_ne (by decide) e3

/-! ### The meaning -/

section
variable {imp imp' : Str → Str → List Gram → List (Str × Thing) → Prop} {fromFile : Option Str}

theorem Imports.brought {t : Nat} {toks : List Token} {gs : List Gram} {bs ths : List (Str × Thing)} {n cur : Str} {cs : List TokId}
    (h : Imports toks t gs bs n cur cs ths) : ∃ ids, List.Forall₂ (fun c id => ImportNames toks c id.1 id.2) cs ids ∧
      Brought t gs bs n cur ids ths := by
  induction h with
  | nil => exact ⟨[], .nil, .nil⟩
  | root h hn _ ih =>
    obtain ⟨ids, h1, h2⟩ := ih
    exact ⟨(_, _) :: ids, .cons h h1, .root hn h2⟩
  | member h hn hd _ ih =>
    obtain ⟨ids, h1, h2⟩ := ih
    exact ⟨(_, _) :: ids, .cons h h1, .member hn hd h2⟩

theorem Defines.join {t : Nat} {ss ss' : List Stmt} {bs bs' : List (Str × Thing)} (h : Defines env imp fromFile t ss bs)
    (h' : Defines env imp fromFile (t + bs.length) ss' bs') : Defines env imp fromFile t (ss ++ ss') (bs ++ bs') := by
  induction h with
  | nil => exact h'
  | own _ ih =>
    rw [List.length_cons, Nat.add_comm _ 1, ← Nat.add_assoc] at h'
    exact .own (ih h')
  | imports hj hc hi hb _ ih =>
    rw [List.length_append, ← Nat.add_assoc] at h'
    rw [List.cons_append, List.append_assoc]
    exact .imports hj hc hi hb (ih h')

theorem Defines.of_owns (t : Nat) (bs : List (Str × Gram)) :
    Defines env imp fromFile t (bs.map fun b => .own b.1 b.2) (bs.map fun b => (b.1, .own b.2)) := by
  induction bs generalizing t with
  | nil => exact .nil
  | cons b bs ih => exact .own (ih _)

/-- What tokens bring, is what the statements define that they say. -/
theorem ScriptBrings.says {t : Nat} {toks : List Token} {l : List TokId} {gs : List Gram} {bs : List (Str × Thing)}
    (h : ScriptBrings env fromFile imp toks t l gs bs) :
    ∃ ss, ScriptSays env toks l gs ss ∧ Defines env imp fromFile t ss bs := by
  induction h with
  | nil => exact ⟨[], .nil, .nil⟩
  | cons hi _ ih =>
    obtain ⟨ss, h1, h2⟩ := ih
    cases hi with
    | own hi => exact ⟨_, .cons (.own hi) h1, Defines.join (Defines.of_owns _ _) h2⟩
    | imported hk hn hids hidk hp hpk hf hj hc himp h =>
      obtain ⟨ids, i1, i2⟩ := h.brought
      subst hf
      refine ⟨_, .cons (.imports hk hn hids hidk hp hpk i1) h1, ?_⟩
      exact .imports hj hc himp i2 h2

theorem Defines.change {t : Nat} {ss : List Stmt} {bs : List (Str × Thing)} (h : Defines env imp fromFile t ss bs)
    (hi : ∀ file n gs bs, imp file n gs bs → imp' file n gs bs) : Defines env imp' fromFile t ss bs := by
  induction h with
  | nil => exact .nil
  | own _ ih => exact .own ih
  | imports hj hc h hb _ ih => exact .imports hj hc (hi _ _ _ _ h) hb ih

end

/-- Texts have the meaning that is in them. -/
theorem TextMeans.lax (hread : ∀ full src, env.read full = some src → Ascii src ∧ blen src ≤ isizeMax) :
    ∀ {fuel : Nat} {parser : Parser} {name : Str} {fromFile : Option Str} {n : Str} {gs : List Gram} {bs : List (Str × Thing)},
    Ascii parser.src → blen parser.src ≤ isizeMax → TextMeans env fuel parser name fromFile n gs bs →
    Lax.Text env parser.src name fromFile n gs bs := by
  intro fuel
  induction fuel with
  | zero => intro _ _ _ _ _ _ _ _ h; exact h.elim
  | succ fuel ih =>
    intro parser name fromFile n gs bs ha hs h
    obtain ⟨w, f, t, k, l, s, hm, hok, h1, h2, h3, h4, -, rfl, h5⟩ := h
    obtain ⟨ss, h6, h7⟩ := h5.says
    obtain ⟨nm, h8, h9⟩ := C54_parse hm hok ha hs h1 h2 h3 h4 h6
    rw [h8]
    refine .mk h9 (Defines.change h7 ?_)
    rintro file n gs bs ⟨full, src, c1, c2, c3⟩
    exact .mk c1 c2 (ih (hread _ _ c2).1 (hread _ _ c2).2 c3)

variable {w' : World} {m : MatcherId} {sc : SCtxId} {fromFile : Option Str}

/-- C54: **what is compiled is in the text.**  If a text is turned into a matcher, then it is a
text of the language with liberties, and the matcher and its scope are what it means
there.  No text outside of that language is ever compiled. -/
theorem C54_compiled (hread : ∀ full src, env.read full = some src → Ascii src ∧ blen src ≤ isizeMax)
    (ha : Ascii parser.src) (hs : blen parser.src ≤ isizeMax) (hw : Compiled env w) (hok : ScopesOK w.st)
    (h : compileScript env fuel parser name fromFile w = .ok m sc w') :
    ∃ n gs bs, Lax.Text env parser.src name fromFile n gs bs ∧ IsFile w' w.nodes.length w.st.sctxs.length m sc n gs bs := by
  obtain ⟨n, gs, bs, h1, h2⟩ := C46_script hw hok h
  exact ⟨n, gs, bs, h1.lax hread ha hs, h2⟩

/-- C54: the same for a file. -/
theorem C54_file {file : Str} (hread : ∀ full src, env.read full = some src → Ascii src ∧ blen src ≤ isizeMax)
    (hw : Compiled env w) (hok : ScopesOK w.st) (h : compileScriptFromFile env fuel file w = .ok m sc w') :
    ∃ n gs bs, Lax.File env file n gs bs ∧ IsFile w' w.nodes.length w.st.sctxs.length m sc n gs bs := by
  obtain ⟨full, src, n, gs, bs, h1, h2, h3, h4⟩ := C46_file hw hok h
  exact ⟨n, gs, bs, .mk h1 h2 (h3.lax hread (hread _ _ h2).1 (hread _ _ h2).2), h4⟩

theorem Defines.none_owns {imp : Str → Str → List Gram → List (Str × Thing) → Prop} {t : Nat} {ss : List Stmt} {bs : List (Str × Thing)}
    (h : Defines env imp none t ss bs) :
    ∃ ds : List (Str × Gram), ss = ds.map (fun b => .own b.1 b.2) ∧ bs = ds.map fun b => (b.1, .own b.2) := by
  generalize hf : (none : Option Str) = o at h
  induction h with
  | nil => exact ⟨[], rfl, rfl⟩
  | @own _ _ n g _ _ _ ih =>
    obtain ⟨ds, rfl, rfl⟩ := ih hf
    exact ⟨(n, g) :: ds, rfl, rfl⟩
  | imports => cases hf

/-- C54: the same for a text that is not from a file: it has no imports, and the definitions
are those that are written in it. -/
theorem C54_str {src : Str} (ha : Ascii src) (hs : blen src ≤ isizeMax) (hw : Compiled env w) (hok : ScopesOK w.st)
    (h : compileScriptFromStr env fuel src name w = .ok m sc w') :
    ∃ (nm : Option Str) (gs : List Gram) (ds : List (Str × Gram)), Lax.Script env src nm gs (ds.map fun b => .own b.1 b.2) ∧
      IsFile w' w.nodes.length w.st.sctxs.length m sc (nm.getD name) gs (ds.map fun b => (b.1, .own b.2)) := by
  obtain ⟨n, gs, bs, h1, h2⟩ := C46_script hw hok h
  cases fuel with
  | zero => exact h1.elim
  | succ fuel =>
    obtain ⟨w0, f, t, k, l, s, hm, hok, g1, g2, g3, g4, -, rfl, g5⟩ := h1
    obtain ⟨ss, g6, g7⟩ := g5.says
    obtain ⟨nm, g8, g9⟩ := C54_parse hm hok ha hs g1 g2 g3 g4 g6
    obtain ⟨ds, rfl, rfl⟩ := Defines.none_owns g7
    exact ⟨nm, gs, ds, g9, by rw [← g8]; exact h2⟩

/-- C54: what is not in the language with liberties is rejected: compiling comes to an end, with
at least one error, or with a panic for which there is a reason in the text. -/
theorem C54_rejected {src : Str} (ha : Ascii src) (hs : blen src ≤ isizeMax) (hw : Compiled env w) (hok : ScopesOK w.st)
    (hno : ∀ nm gs (ds : List (Str × Gram)), ¬ Lax.Script env src nm gs (ds.map fun b => .own b.1 b.2)) :
    ∃ N r, (∀ fuel, N ≤ fuel → compileScriptFromStr env fuel src name w = r) ∧
      ((∃ es, es ≠ [] ∧ r = .err es) ∨ ∃ msg toks l, ParsesTo env ⟨src, []⟩ toks l ∧ Cause env toks l msg ∧ r = .panic msg) := by
  obtain ⟨N, r, hrun, hr⟩ := C52_str (env := env) (name := name) ha hs hw.milds hok
  refine ⟨N, r, hrun, hr.resolve_left ?_⟩
  rintro ⟨m, sc, w', rfl⟩
  obtain ⟨nm, gs, ds, h, -⟩ := C54_str ha hs hw hok (hrun N (Nat.le_refl _))
  exact hno nm gs ds h

theorem Lax.Definition.starts {n v rest : Str} {g : Gram} (h : Lax.Definition env n v g rest) :
    ∃ c, v.head? = some c ∧ c ∈ ['<', '?', '!'] := by
  cases h with
  | @mk _ _ _ _ _ _ _ _ _ outer _ _ _ _ ho =>
    cases ho with
    | mk => cases outer <;> exact ⟨_, rfl, by decide⟩
    | optNot => exact ⟨_, rfl, by decide⟩
    | notOpt => exact ⟨_, rfl, by decide⟩

theorem Lax.Pattern.starts {v rest : Str} {g : Gram} (h : Lax.Pattern env v g rest) :
    ∃ c, v.head? = some c ∧ c ∈ ['<', '?', '!', '('] := by
  cases h with
  | plain h =>
    obtain ⟨c, h1, h2⟩ := h.starts
    exact ⟨c, h1, by revert h2; simp; tauto⟩
  | captured => exact ⟨_, rfl, by decide⟩
  | named => exact ⟨_, rfl, by decide⟩

/-- C54: a text is compiled only if what comes first in it, behind white space and comments,
is one of four characters. -/
theorem C54_starts {src : Str} (ha : Ascii src) (hs : blen src ≤ isizeMax) (hw : Compiled env w) (hok : ScopesOK w.st)
    (h : compileScriptFromStr env fuel src name w = .ok m sc w') :
    ∃ c v, Syntax.Comments src (c :: v) ∧ c ∈ ['<', '?', '!', '('] := by
  obtain ⟨nm, gs, ds, h, -⟩ := C54_str ha hs hw hok h
  have key : ∀ {v : Str}, Syntax.Comments src v → (∃ c, v.head? = some c ∧ c ∈ ['<', '?', '!', '(']) →
      ∃ c v, Syntax.Comments src (c :: v) ∧ c ∈ ['<', '?', '!', '('] := by
    rintro v hv ⟨c, h1, h2⟩
    cases v with
    | nil => cases h1
    | cons d v => cases h1; exact ⟨_, _, hv, h2⟩
  have hd : ∀ v : Str, ("<!--[adextopa".toList ++ v).head? = some '<' := fun v => by
    rw [show "<!--[adextopa".toList = '<' :: "!--[adextopa".toList by decide +kernel]
    rfl
  generalize hss : ds.map (fun b => Stmt.own b.1 b.2) = ss at h
  cases h with
  | headed h1 h2 _ => cases h2; exact key h1 ⟨_, hd _, by decide⟩
  | bare h1 h2 _ => exact key h1 h2.starts
  | junk h1 h2 _ => cases h2; exact key h1 ⟨_, hd _, by decide⟩
  | noVersion h1 => exact key h1 ⟨_, hd _, by decide⟩

end

/-! ### Examples -/

namespace LaxExample
open CompileExample TotalExample SyntaxExample
open Syntax (Gap)

-- Every liberty is one that is taken: these texts are compiled, although they are no texts of
-- the language of `Spec/Syntax.lean`.
#guard fateOf "<[<='a'>>" == .ok
#guard fateOf "(<{<='a'>>)" == .ok
#guard fateOf "<='a'>{2 3}" == .ok
#guard fateOf "?!<='a'>" == .ok
#guard fateOf "<='a' _x='1'>" == .ok
#guard fate (compileScriptFromStr { files with regex := fun r => if r = "//".toList then some ⟨r, fun _ => none⟩ else none } 50 "<//>".toList [] empty) == .ok
#guard fateOf "(?'' <='a'>)" == .ok
#guard fateOf "<!--[adextopa version='+1']--><='a'>" == .ok
#guard fateOf "<!--[adextopa version='1']--><='a'> garbage" == .ok
#guard fateOf "<!--[adextopa name='n'] X = <='a'> --><='a'>" == .ok
-- And these are not compiled.
#guard fateOf "garbage" != .ok
#guard fateOf "<='a'> garbage" != .ok
#guard fateOf "(<='a'>" != .ok
#guard fateOf "<='a'" != .ok
#guard fateOf "<=''>" != .ok
#guard fateOf "<='a'>{2,1}" != .ok
#guard fateOf "# c" != .ok
#guard fateOf "<!--[adextopa version='x']--><='a'>" != .ok

-- An unclosed group, and what it says.
example : Lax.Script files "<[<='a'>>".toList none
    [.discard (.group "Switch".toList false true [.discard (.equals "Equals".toList false ['a'])])] [] := by
  refine .bare (w1 := "<[<='a'>>".toList) (w2 := []) (.done (gap _ [] _ rfl) (by decide)) (.plain ?_) (.done (gap _ [] _ rfl))
  refine Lax.Definition.mk (outer := .none) (inner := .none) (w0 := "[<='a'>>".toList) (w1 := "[<='a'>>".toList) (w2 := "[<='a'>>".toList)
    (w3 := ['>']) (w4 := ['>']) (w5 := []) (as := []) (r := none) (.mk (m := .none)) (.mk (m := .none)) (gap _ [] _ rfl) (.switch (.last (w1 := "<='a'>>".toList)
    (w2 := ['>']) (gap _ [] _ rfl) (.plain ?_) (.missing (gap _ [] _ rfl)))) (gap _ [] _ rfl) .nil (.strict (.once nofun))
  exact Lax.Definition.mk (outer := .none) (inner := .none) (w0 := "='a'>>".toList) (w1 := "='a'>>".toList) (w2 := "='a'>>".toList)
    (w3 := ">>".toList) (w4 := ">>".toList) (w5 := ['>']) (as := []) (r := none) (.mk (m := .none)) (.mk (m := .none)) (gap _ [] _ rfl)
    (.equals (.mk (.plain (by decide) (by decide) (.done _))) (by decide)) (gap _ [] _ rfl) .nil (.strict (.once (by decide)))

-- Nothing is ever made of a text that starts with something else.
example (fuel : Nat) (m : MatcherId) (sc : SCtxId) (w' : World) :
    compileScriptFromStr files fuel " garbage".toList [] empty ≠ .ok m sc w' := by
  intro h
  obtain ⟨c, v, h1, h2⟩ := C54_starts (by unfold Ascii; decide) (by decide +kernel) .start
    (by constructor <;> simp [State.empty]) h
  have hg : Gap " garbage".toList "garbage".toList := ⟨[' '], by decide +kernel, by decide, by decide⟩
  cases h1 with
  | done h _ =>
    have := h.unique hg
    cases this
    revert h2
    decide
  | more h1 h2 _ =>
    cases h1.unique hg
    cases h2

end LaxExample

end Adx
