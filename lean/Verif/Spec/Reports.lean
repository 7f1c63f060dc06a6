import Verif.Spec.Import
/-
  Which errors are reported for a script that imports others.
-/
namespace Adx

/-- One identifier of an import statement: the token of its name in the imported file, and
the name here. -/
inductive ImportOf (toks : List Token) (c : TokId) : Token → Str → Prop
  | plain {k i ik} (hk : toks[c]? = some k) (hi : First toks ["ImportName"] k.children i)
      (hik : toks[i]? = some ik) (ha : Absent toks ["ImportAsName"] k.children) :
      ImportOf toks c ik ik.getValue
  | renamed {k i ik a ak} (hk : toks[c]? = some k) (hi : First toks ["ImportName"] k.children i)
      (hik : toks[i]? = some ik) (ha : First toks ["ImportAsName"] k.children a)
      (hak : toks[a]? = some ak) : ImportOf toks c ik ak.getValue

/-- The identifier can be imported from a file with the definitions `bs`. -/
def Importable (toks : List Token) (bs : List (Str × Thing)) (c : TokId) : Prop :=
  ∃ ik name, ImportOf toks c ik name ∧
    (ik.getValue = "_".toList ∧ name ≠ "_".toList ∨
      ik.getValue ≠ "_".toList ∧ ∃ th, lastDef bs ik.getValue = some th)

/-- The identifier cannot be imported from `file`, and what is said about it. -/
inductive NotImportable (toks : List Token) (file : Str) (bs : List (Str × Thing)) (c : TokId) : ParseError → Prop
  | unnamed {ik} (h : ImportOf toks c ik "_".toList) (hi : ik.getValue = "_".toList) :
      NotImportable toks file bs c
        ⟨"Error root import '_' must be named using 'import {{ _ as Name }}'".toList, some ik.matched⟩
  | missing {ik name} (h : ImportOf toks c ik name) (hi : ik.getValue ≠ "_".toList)
      (hd : lastDef bs ik.getValue = none) :
      NotImportable toks file bs c
        ⟨"Failed to import `".toList ++ ik.getValue ++ "` from '".toList ++ file ++ "': Not found".toList,
          some ik.matched⟩

/-- The import statement `x` of a script that was read from a file: the identifiers, and the
file. -/
inductive ImportsFrom (env : Env) (fromFile : Option Str) (toks : List Token) (x : TokId) : List TokId → Str → Prop
  | mk {k ids idk p pk base joined file} (hk : toks[x]? = some k)
      (hn : k.name = "ImportStatement".toList) (hids : First toks ["ImportIdentifiers"] k.children ids)
      (hidk : toks[ids]? = some idk) (hp : First toks ["Path"] k.children p)
      (hpk : toks[p]? = some pk) (hf : fromFile = some base)
      (hj : env.relative base pk.getValue = some joined) (hc : env.canonical joined = some file) :
      ImportsFrom env fromFile toks x idk.children file

/-- Why the token `x` stops the build: the errors of an imported file, and one error that is
said about `x` itself, if any.  `imp` says what files mean, `rep` which errors are reported
for them. -/
inductive Stops (env : Env) (fromFile : Option Str) (imp : Str → Str → List Gram → List (Str × Thing) → Prop)
    (rep : Str → List ParseError → Prop) (toks : List Token) (x : TokId) : List ParseError → Option ParseError → Prop
  /-- A definition or pattern that cannot be built. -/
  | pattern {k m} (hk : toks[x]? = some k)
      (hn : k.name = "AssignmentExpression".toList ∨ k.name = "PatternScope".toList)
      (h : ∀ gs bs, ¬ ItemMeans env toks x gs bs) :
      Stops env fromFile imp rep toks x []
        (some ⟨"Error attempting to create matcher from parsed pattern token: ".toList ++ m, none⟩)
  /-- An import in a text that was not read from a file. -/
  | forbidden {k} (hk : toks[x]? = some k) (hn : k.name = "ImportStatement".toList) (hf : fromFile = none) :
      Stops env fromFile imp rep toks x []
        (some ⟨"Found import statement, but it is forbidden to use imports when not parsing from a file".toList,
          some k.matched⟩)
  /-- The imported file has errors: these are reported, and nothing about the statement. -/
  | file {ids file es} (h : ImportsFrom env fromFile toks x ids file) (hr : rep file es) :
      Stops env fromFile imp rep toks x es none
  /-- The file can be imported, and so can the identifiers up to one. -/
  | identifier {pre c post file n gs bs e} (h : ImportsFrom env fromFile toks x (pre ++ c :: post) file)
      (hi : imp file n gs bs) (hpre : ∀ c' ∈ pre, Importable toks bs c') (hc : NotImportable toks file bs c e) :
      Stops env fromFile imp rep toks x [] (some e)

/-- The last error of a report, with the position in the text of the script. -/
inductive LastReport (parser : Parser) : Option ParseError → List ParseError → Prop
  | none : LastReport parser none []
  | some {e text} (h : (Ctx.new parser 0 []).errorString e.message (e.range.getD ⟨0, 0⟩) = some text) :
      LastReport parser (some e) [⟨text, some (e.range.getD ⟨0, 0⟩)⟩]

/-- The errors that are reported for a script, given the result of its parse. -/
inductive Reported (env : Env) (parser : Parser) (fromFile : Option Str)
    (imp : Str → Str → List Gram → List (Str × Thing) → Prop) (rep : Str → List ParseError → Prop) :
    Res (Except Failure TokId) → List ParseError → Prop
  /-- The grammar of scripts does not match. -/
  | fail {s : State} : Reported env parser fromFile imp rep (.ok (.error .fail) s)
      [⟨"Failed to parse script with an unknown error. This is likely a bug. Please report this issue to the adextopa maintainers.".toList,
        none⟩]
  /-- The grammar of scripts reports a fatal error. -/
  | fatal {s : State} {e : ParseError} : Reported env parser fromFile imp rep (.ok (.error (.error e)) s) [e]
  /-- The parse does not give a script. -/
  | notScript {s : State} {t : TokId} {k : Token} (hk : s.toks[t]? = some k) (hn : k.name ≠ "Script".toList) :
      Reported env parser fromFile imp rep (.ok (.ok t) s)
        [⟨"Expected provided token to be a `Script` token".toList, none⟩]
  /-- All tokens of the script up to `x`, in the order of the text, bring something, and `x`
  stops the build: the reports of the error tokens before `x` come first, then the errors of
  the file that `x` imports, then what is said about `x`. -/
  | item {s : State} {t x : TokId} {l1 l2 : List TokId} {gs : List Gram} {bs : List (Str × Thing)}
      {more last : List ParseError} {o : Option ParseError}
      (hp : Pre s.toks [t] (l1 ++ x :: l2)) (hn : (l1 ++ x :: l2).Nodup)
      (h1 : ScriptBrings env fromFile imp s.toks 0 l1 gs bs) (h2 : Stops env fromFile imp rep s.toks x more o)
      (h3 : LastReport parser o last) :
      Reported env parser fromFile imp rep (.ok (.ok t) s) (errorReports s.toks l1 ++ more ++ last)

end Adx
