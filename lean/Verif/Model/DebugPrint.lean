import Verif.Model.Exec
import Verif.Model.Print
/-
  What the matcher `Debug` prints (`src/matchers/debug.rs:31-87`).

  `Model/Exec` has `execDebug` without the printing.  Here it is again with the text that goes
  to the standard output.  `quote` stands for the text that `{:?}` makes of a string, and
  `attrs` for the one it makes of the attributes of a token (as in `Model/Print`).  No token is
  borrowed mutably while it is printed (C56), so a `RefCell` is printed with what is in it.
-/
namespace Adx

/-- `{}` of an `isize` (std). -/
def intStr : Int → Str
  | .ofNat n => natStr n
  | .negSucc n => '-' :: natStr (n + 1)

/-- `{:?}` of a `SourceRange` (derived, `src/source_range.rs:5-9`). -/
def rangeText (r : Range) : Str :=
  "SourceRange { start: ".toList ++ natStr r.start ++ ", end: ".toList ++ natStr r.stop ++ " }".toList

/-- `{:?}` of a `TokenRef`: the token in its `RefCell` (std). -/
def tokenRefText (attrs : AMap Str → Str) (toks : List Token) (t : TokId) : Option Str :=
  (debugText attrs toks toks.length toks.length t).map fun w => "RefCell { value: ".toList ++ w ++ " }".toList

/-- `{:?}` of a `MatcherSuccess` (derived, `src/matcher.rs:10-19`). -/
def successText (quote : Str → Str) (attrs : AMap Str → Str) (toks : List Token) : Success → Option Str
  | .token t => (tokenRefText attrs toks t).map fun w => "Token(".toList ++ w ++ ")".toList
  | .proxyChildren t => (tokenRefText attrs toks t).map fun w => "ProxyChildren(".toList ++ w ++ ")".toList
  | .skip n => some ("Skip(".toList ++ intStr n ++ ")".toList)
  | .brk name d => (successText quote attrs toks d).map fun w => "Break((".toList ++ quote name ++ ", ".toList ++ w ++ "))".toList
  | .cont name d =>
    (successText quote attrs toks d).map fun w => "Continue((".toList ++ quote name ++ ", ".toList ++ w ++ "))".toList
  | .none => some "None".toList
  | .stop => some "Stop".toList

/-- `{:?}` of a `MatcherFailure` and the `ParseError` in it (derived, `src/matcher.rs:21-25`,
`src/parse_error.rs:3-7`). -/
def failureText (quote : Str → Str) : Failure → Str
  | .fail => "Fail".toList
  | .error e => "Error(ParseError { message: ".toList ++ quote e.message ++ ", range: ".toList ++
      (match e.range with
       | some r => "Some(".toList ++ rangeText r ++ ")".toList
       | none => "None".toList) ++ " })".toList

/-- `{:?}` of the result of a matcher (derived). -/
def resultText (quote : Str → Str) (attrs : AMap Str → Str) (toks : List Token) : R → Option Str
  | .ok x => (successText quote attrs toks x).map fun w => "Ok(".toList ++ w ++ ")".toList
  | .err e => some ("Err(".toList ++ failureText quote e ++ ")".toList)

/-- The three calls of `replace` (`src/matchers/debug.rs:61-65`).  None of them makes something
that a later one replaces. -/
def excerpt : Str → Str
  | [] => []
  | '\n' :: cs => '\\' :: 'n' :: excerpt cs
  | '\r' :: cs => '\\' :: 'r' :: excerpt cs
  | '\t' :: cs => '\\' :: 't' :: excerpt cs
  | c :: cs => c :: excerpt cs

/-- The text that is printed for a matcher (`src/matchers/debug.rs:54-69`). -/
def debugLine (name shown : Str) (mode : Nat) (w : Range) (result : Str) : Str :=
  (if mode > 2 then "{Debug} ".toList else []) ++ "`".toList ++ name ++ "` matcher at: -->|".toList ++ excerpt shown ++
    "|--> @[".toList ++ natStr w.start ++ "-".toList ++ natStr (min (w.start + 10) w.stop) ++ "]: ".toList ++ result ++
    "\n".toList

/-- The text that is printed without a matcher (`src/matchers/debug.rs:75-82`). -/
def contextLine (shown : Str) (w : Range) : Str :=
  "{Context}: -->|".toList ++ shown ++ "|--> @[".toList ++ natStr w.start ++ "-".toList ++ natStr (w.start + 10) ++
    "], start: ".toList ++ natStr w.start ++ ", end: ".toList ++ natStr w.stop ++ "\n".toList

/-- `DebugPattern::_exec` (`src/matchers/debug.rs:31-87`), and what it prints itself; what is
printed by the matcher that it runs is not part of it.  A text that has no end is `diverge`. -/
def execDebugOut (T : Table) (rec_ : ExecFn) (quote : Str → Str) (attrs : AMap Str → Str) (m : Option MatcherId) (mode : Nat)
    (ctx : Ctx) (sc : SCtxId) : M (R × Str) := do
  let c := { ctx.withName "Debug".toList with debug := mode }
  let shown ← M.ofOpt "debug_range: slice" (c.debugRange 10)
  match m with
  | some m => do
    let r ← rec_ m c sc
    let s ← M.getState
    match resultText quote attrs s.toks r with
    | some w => pure (r, debugLine (T m).name shown mode c.offset w)
    | none => M.diverge
  | none => pure (.ok (.skip 0), contextLine shown ctx.offset)

/-- `Matcher::exec` (`src/matcher.rs:46-51`) where every `Debug` matcher that is reached makes the text
that it prints. -/
def execShown (T : Table) (cfg : Cfg) (quote : Str → Str) (attrs : AMap Str → Str) : Nat → ExecFn
  | 0 => fun _ _ _ => M.diverge
  | n + 1 => fun m ctx sc => do
    beforeExec (T m) m sc
    match T m with
    | .debug b mode => do
      let (r, _) ← execDebugOut T (execShown T cfg quote attrs n) quote attrs b mode ctx sc
      pure r
    | nd => execNode T cfg (execShown T cfg quote attrs n) nd ctx sc

end Adx
