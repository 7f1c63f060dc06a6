import Verif.Model.Core
/-
  `ParserContext` (`src/parser_context.rs`): the reading window, string and regex
  matching, line/column computation, error messages.
-/
namespace Adx

/-- Build profile: whether integer overflow panics (`debug` profile) or wraps
(`release` profile).  Neither `Cargo.toml` sets `overflow-checks`. -/
structure Cfg where
  overflowChecks : Bool
deriving DecidableEq, Repr

/-- A compiled `regex::Regex` (crate `regex`), seen through the only method the
matchers call: `find`, giving the byte range of the leftmost match in the
haystack.  `Regex.Ok` (in `Verif/Spec`) is the contract assumed of it. -/
structure Regex where
  pattern : Str
  find : Str → Option (Nat × Nat)

/-- `ParserContext` (`src/parser_context.rs:18-26`).  A context is never shared
between two running matchers: each `exec` works on its own clone
(`clone_with_name`, lines 51-55; `src/matchers/program.rs:194`), so it is modelled
as a plain value.  The head of `stack` is the top of `token_stack`. -/
structure Ctx where
  debug : Nat
  scope : SCtxId
  stack : List TokId
  offset : Range
  parser : Parser
  name : Str
deriving DecidableEq, Repr

namespace Ctx

/-- `ParserContext::new` (`src/parser_context.rs:29-38`), the scope context
having been allocated by the caller (`ScopeContext::new()` on line 31). -/
def new (p : Parser) (sc : SCtxId) (name : Str) : Ctx :=
  { debug := 0, scope := sc, stack := [], offset := ⟨0, blen p.src⟩, parser := p, name }

/-- `clone_with_name` (`src/parser_context.rs:51-55`). -/
def withName (c : Ctx) (n : Str) : Ctx := { c with name := n }

/-- `set_start` (`src/parser_context.rs:73-75`). -/
def setStart (c : Ctx) (n : Nat) : Ctx := { c with offset := { c.offset with start := n } }

/-- `&source[offset.start..offset.end]` (`src/parser_context.rs:102,126`). -/
def chunk (c : Ctx) : Option Str := bslice c.parser.src c.offset.start c.offset.stop

/-- `matches_str` (`src/parser_context.rs:97-109`); the outer `none` is a panic. -/
def matchesStr (c : Ctx) (pat : Str) : Option (Option Range) :=
  if pat = [] then some none
  else
    match c.chunk with
    | none => none
    | some chunk =>
      if pat.isPrefixOf chunk then some (some (c.offset.cloneWithLen (blen pat)))
      else some none

/-- `matches_str_at_offset` (`src/parser_context.rs:111-123`); the outer `none` is
a panic. -/
def matchesStrAt (c : Ctx) (pat : Str) (off : Nat) : Option (Option Range) :=
  if off ≥ c.offset.stop ∨ pat = [] then some none
  else
    match bslice c.parser.src off c.offset.stop with
    | none => none
    | some chunk =>
      if pat.isPrefixOf chunk then some (some ⟨off, off + blen pat⟩)
      else some none

/-- `matches_regexp` (`src/parser_context.rs:125-141`); the outer `none` is a
panic. -/
def matchesRegexp (c : Ctx) (re : Regex) : Option (Option Range) :=
  match c.chunk with
  | none => none
  | some chunk =>
    match re.find chunk with
    | some (a, b) =>
      if a + c.offset.start ≠ c.offset.start then some none
      else some (some ⟨a + c.offset.start, b + c.offset.start⟩)
    | none => some none

/-- `debug_range` (`src/parser_context.rs:143-152`); `none` is a panic.  The
addition on line 145 cannot overflow without the slice on line 151 being out of
bounds, so a panic results either way. -/
def debugRange (c : Ctx) (maxLen : Nat) : Option Str :=
  let e := c.offset.start + maxLen
  let e := if e > c.offset.stop then c.offset.stop else e
  bslice c.parser.src c.offset.start e

/-- End offsets of the matches of `NEWLINES.find_iter` (`(\r\n|\n|\r)`,
`src/parser_context.rs:14-16`) in a string, `pos` being the offset at which the
string starts. -/
def newlineEnds (pos : Nat) : Str → List Nat
  | [] => []
  | '\r' :: '\n' :: cs => (pos + 2) :: newlineEnds (pos + 2) cs
  | '\n' :: cs => (pos + 1) :: newlineEnds (pos + 1) cs
  | '\r' :: cs => (pos + 1) :: newlineEnds (pos + 1) cs
  | c :: cs => newlineEnds (pos + c.utf8Size) cs

/-- `get_lines` (`src/parser_context.rs:170-178`); `none` is a panic. -/
def getLines (c : Ctx) (r : Range) : Option (Nat × Nat) :=
  match bslice c.parser.src 0 r.start, bslice c.parser.src 0 r.stop with
  | some a, some b => some ((newlineEnds 0 a).length + 1, (newlineEnds 0 b).length + 1)
  | _, _ => none

/-- Loop state of `get_columns`: `last_newline`, `first_column`, `last_column`. -/
structure ColSt where
  lastNewline : Nat
  firstColumn : Nat
  lastColumn : Nat

/-- The `for` loop of `get_columns` (`src/parser_context.rs:187-200`).  `none` is
an integer underflow. -/
def colLoop (r : Range) : List Nat → ColSt → Option ColSt
  | [], st => some st
  | e :: es, st =>
    let st1 : Option ColSt :=
      if st.firstColumn = 0 ∧ e > r.start then
        if st.lastNewline ≤ r.start then
          some { st with firstColumn := (r.start - st.lastNewline) + 1 }
        else none
      else some st
    match st1 with
    | none => none
    | some st =>
      if e > r.stop then
        if st.lastNewline ≤ r.stop then
          some { st with lastColumn := (r.stop - st.lastNewline) + 1 }
        else none
      else colLoop r es { st with lastNewline := e }

/-- `get_columns` (`src/parser_context.rs:180-223`); `none` is a panic (slice out
of bounds or integer underflow; the model does not distinguish the build profile
here because the underflow is proved impossible). -/
def getColumns (c : Ctx) (r : Range) : Option (Nat × Nat) :=
  match bslice c.parser.src 0 r.stop with
  | none => none
  | some s =>
    match colLoop r (newlineEnds 0 s) ⟨0, 0, 0⟩ with
    | none => none
    | some st =>
      let first : Option Nat :=
        if st.firstColumn = 0 then
          if st.lastNewline ≠ 0 then
            if st.lastNewline ≤ r.start then some ((r.start - st.lastNewline) + 1) else none
          else some (r.start + 1)
        else some st.firstColumn
      let last : Option Nat :=
        if st.lastColumn = 0 then
          if st.lastNewline ≠ 0 then
            if st.lastNewline ≤ r.stop then some ((r.stop - st.lastNewline) + 1) else none
          else some (r.stop + 1)
        else some st.lastColumn
      match first, last with
      | some f, some l => some (f, if f > l then f else l)
      | _, _ => none

/-- `"a"` or `"a-b"` (`src/parser_context.rs:234-244`). -/
def spanStr (p : Nat × Nat) : Str :=
  if p.1 = p.2 then natStr p.1 else natStr p.1 ++ ['-'] ++ natStr p.2

/-- `get_error_as_string` (`src/parser_context.rs:229-250`); `none` is a panic. -/
def errorString (c : Ctx) (msg : Str) (r : Range) : Option Str :=
  match c.getLines r, c.getColumns r with
  | some ls, some cs =>
    some ("Error: ".toList ++ c.parser.filename ++ "@[".toList ++ spanStr ls ++ [':'] ++
      spanStr cs ++ "]: ".toList ++ msg)
  | _, _ => none

end Ctx

/-- `new_error_token_with_range` (`src/matchers/error.rs:27-45`). -/
def newErrorTokenWithRange (c : Ctx) (msg : Str) (r : Range) : M TokId := do
  let m ← M.ofOpt "get_error_as_string: slice" (c.errorString msg r)
  newTok (((Token.mk' c.parser "Error".toList r).setAttribute "__message".toList m).enableFlags
    IS_ERROR)

/-- `new_error_token` (`src/matchers/error.rs:10-25`). -/
def newErrorToken (c : Ctx) (msg : Str) : M TokId :=
  newErrorTokenWithRange c msg ⟨c.offset.start, c.offset.start⟩

end Adx
