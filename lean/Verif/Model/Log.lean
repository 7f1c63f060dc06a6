import Verif.Model.Script
/-
  Compiling scripts with `FLAG_LOG_STDERR`: what is printed while scripts are compiled.
-/
namespace Adx

/-- A result, and the texts that were printed on the way, each by one `eprintln!`.  Of a run
that panics or does not end only the result counts. -/
abbrev Logged := BuildRes × List Str

/-- `log_errors_to_stdout` for the children of a token (`src/script/v1/parser.rs:464-476`); `none`
is the panic of `unwrap`. -/
def errorLines (toks : List Token) : List TokId → Option (List Str)
  | [] => some []
  | c :: cs =>
    match toks[c]? with
    | none => none
    | some k =>
      if k.name = "Error".toList then
        match k.getAttribute "__message".toList with
        | none => none
        | some msg => (errorLines toks cs).map (msg :: ·)
      else errorLines toks cs

/-- `log_errors_to_stdout` for a list of errors (`src/script/v1/parser.rs:477-485`). -/
def messages (es : List ParseError) : List Str := es.map (·.message)

/-- A hook that prints nothing. -/
def quietHook (h : Hook Build) : Hook (Build × List Str) := fun t s => ((h t s.1).1, (h t s.1).2, s.2)

/-- The hook `"ImportStatement"` (`src/script/v1/parser.rs:335-410`): `hookImport`, and what is
printed while the file is compiled. -/
def hookImportLog (env : Env) (compileFile : Str → World → Logged) (fromFile : Option Str)
    (sc : SCtxId) (t : TokId) (s : Build × List Str) : Except ParseError Unit × Build × List Str :=
  let b := s.1
  match fromFile with
  | none =>
    match C.tok t b.w.st.toks b.w.nodes with
    | .ok k ns => (.error ⟨"Found import statement, but it is forbidden to use imports when not parsing from a file".toList,
        some k.matched⟩, { b with w := { b.w with nodes := ns } }, s.2)
    | .err e => (.error (patternError e), b, s.2)
    | .panic m => (.error ⟨[], none⟩, { b with crash := some (some m) }, s.2)
    | .diverge => (.error ⟨[], none⟩, { b with crash := some none }, s.2)
  | some from_ =>
    let names : C (List TokId × Str) := do
      let k ← C.tok t
      let ids ← C.ofOpt "called `Option::unwrap()` on a `None` value"
        (← C.findChild k "ImportIdentifiers")
      let ids ← C.tok ids
      let path ← C.ofOpt "called `Option::unwrap()` on a `None` value" (← C.findChild k "Path")
      let path := (← C.tok path).getValue
      let joined ← C.ofOpt "called `Option::unwrap()` on a `None` value" (env.relative from_ path)
      let file ← C.ofOpt "called `Result::unwrap()` on an `Err` value" (env.canonical joined)
      pure (ids.children, file)
    match names b.w.st.toks b.w.nodes with
    | .ok (ids, file) ns =>
      let b := { b with w := { b.w with nodes := ns } }
      match compileFile file b.w with
      | (.ok root isc w, ls) =>
        let r := importIdentifiers sc isc root file ids { b with w := w }
        (r.1, r.2, s.2 ++ ls)
      | (.err es, ls) => (.error ⟨[], none⟩, { b with errors := b.errors ++ es }, s.2 ++ ls)
      | (.panic m, ls) => (.error ⟨[], none⟩, { b with crash := some (some m) }, s.2 ++ ls)
      | (.diverge, ls) => (.error ⟨[], none⟩, { b with crash := some none }, s.2 ++ ls)
    | .err e => (.error (patternError e), b, s.2)
    | .panic m => (.error ⟨[], none⟩, { b with crash := some (some m) }, s.2)
    | .diverge => (.error ⟨[], none⟩, { b with crash := some none }, s.2)

/-- The hooks of `build_matcher_from_tokens` (`src/script/v1/parser.rs:286-433`). -/
def buildHooksLog (env : Env) (compileFile : Str → World → Logged) (fromFile : Option Str)
    (depth : Nat) (root inScope : MatcherId) (sc : SCtxId) : List (Str × Hook (Build × List Str)) :=
  [("Error".toList, quietHook hookError),
   ("AdextopaScope".toList, quietHook (hookAdextopaScope root)),
   ("AssignmentExpression".toList, quietHook (hookAssignment env depth sc)),
   ("ImportStatement".toList, hookImportLog env compileFile fromFile sc),
   ("PatternScope".toList, quietHook (hookPatternScope env depth inScope))]

/-- What was printed during a visit, and its result. -/
def visited (ctx : Ctx) (root : MatcherId) (sc : SCtxId) : VRes (Build × List Str) → Logged
  | .ok s => (buildResult ctx root sc (.ok s.1), s.2)
  | .err e s => (buildResult ctx root sc (.err e s.1), s.2)
  | .dangling => (buildResult ctx root sc .dangling, [])
  | .diverge => (buildResult ctx root sc .diverge, [])

/-- `build_matcher_from_tokens` (`src/script/v1/parser.rs:263-456`). -/
def buildMatcherFromTokensLog (env : Env) (compileFile : Str → World → Logged) (depth : Nat)
    (t : TokId) (ctx : Ctx) (name : Str) (fromFile : Option Str) (w : World) : Logged :=
  match w.st.toks[t]? with
  | none => (.panic "dangling token reference", [])
  | some k =>
    if k.name ≠ "Script".toList then
      (.err [⟨"Expected provided token to be a `Script` token".toList, none⟩], [])
    else
      let root := w.nodes.length
      let inScope := root + 1
      let (sc, st) := w.st.newSCtx
      let nodes := w.nodes ++
        [.program [root + 3] name true none false,
         .program [] "Program".toList false none false,
         .proxyChildren inScope "Flatten".toList false,
         .setScope (some sc) (root + 2)]
      visited ctx root sc
        (visit st.toks (buildHooksLog env compileFile fromFile depth root inScope sc) depth t
          (⟨⟨nodes, st⟩, [], none⟩, []))

/-- The end of `compile_script` when there is a token tree (`src/script/v1/parser.rs:505-528`). -/
def logBuilt (flag : Bool) (t : TokId) : Logged → Logged
  | (.ok m sc w, ls) =>
    if flag then
      match w.st.toks[t]? with
      | none => (.panic "dangling token reference", ls)
      | some k =>
        match errorLines w.st.toks k.children with
        | none => (.panic "called `Option::unwrap()` on a `None` value", ls)
        | some own => (.ok m sc w, ls ++ own)
    else (.ok m sc w, ls)
  | (.err es, ls) => (.err es, if flag then ls ++ messages es else ls)
  | r => r

/-- `compile_script` (`src/script/v1/parser.rs:489-551`); `flag` says whether `flags` has
`FLAG_LOG_STDERR`, which is also handed to the imports. -/
def compileScriptLog (env : Env) (flag : Bool) : Nat → Parser → Str → Option Str → World → Logged
  | 0, _, _, _, _ => (.diverge, [])
  | fuel + 1, parser, name, fromFile, w =>
    let (sc, st) := w.st.newSCtx
    let ctx := Ctx.new parser sc name
    let (sw, nodes) := (Script.switchMatcher env.uni).run w.nodes
    let (pm, nodes) := (Script.programMatcher env.uni).run nodes
    let st := st.bindVar sc "SwitchMatcher".toList (.matcher sw)
    let st := st.bindVar sc "ProgramMatcher".toList (.matcher pm)
    let (m, nodes) := (Script.script env.uni).run nodes
    match tokenize (tableOf nodes) env.cfg fuel ctx m st with
    | .ok (.ok t) st =>
      logBuilt flag t (buildMatcherFromTokensLog env
        (fun file w =>
          match env.canonical file with
          | none => (.panic "called `Result::unwrap()` on an `Err` value", [])
          | some full =>
            match env.read full with
            | none => (.panic "called `Result::unwrap()` on an `Err` value", [])
            | some src => compileScriptLog env flag fuel ⟨src, full⟩ file (some full) w)
        st.toks.length t ctx name fromFile ⟨nodes, st⟩)
    | .ok (.error .fail) _ =>
      let es : List ParseError :=
        [⟨"Failed to parse script with an unknown error. This is likely a bug. Please report this issue to the adextopa maintainers.".toList,
          none⟩]
      (.err es, if flag then messages es else [])
    | .ok (.error (.error e)) _ => (.err [e], if flag then messages [e] else [])
    | .panic m => (.panic m, [])
    | .diverge => (.diverge, [])

/-- `compile_script_from_file` (`src/script/v1/parser.rs:576-588`) and
`compile_script_from_file_internal` (lines 565-574). -/
def compileScriptFromFileLog (env : Env) (flag : Bool) (fuel : Nat) (file : Str) (w : World) : Logged :=
  match env.canonical file with
  | none => (.panic "called `Result::unwrap()` on an `Err` value", [])
  | some full =>
    match env.read full with
    | none => (.panic "called `Result::unwrap()` on an `Err` value", [])
    | some src => compileScriptLog env flag fuel ⟨src, full⟩ file (some full) w

/-- `compile_script_from_str` (`src/script/v1/parser.rs:553-563`). -/
def compileScriptFromStrLog (env : Env) (flag : Bool) (fuel : Nat) (src name : Str) (w : World) : Logged :=
  compileScriptLog env flag fuel ⟨src, []⟩ name none w

end Adx
