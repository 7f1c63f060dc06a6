import Verif.Model.Build
import Verif.Model.Regex
import Verif.Model.Visitor
import Verif.Spec.Tree
/-
  The repository's own unit tests, replayed on the model.  These are *tests* of the
  transcription (evaluated with `#guard`), not proofs of anything.
-/
namespace Adx.Tests

/-- Show a tree: `Name[captured](matched)"value"{children}`. -/
def shw : Nat → Tree → String
  | 0, _ => "..."
  | d + 1, .node n c m v mv msg cs =>
    String.ofList n ++ s!"[{c.start},{c.stop}]({m.start},{m.stop})" ++
      "\"" ++ String.ofList v ++ "\"" ++
      (if v = mv then "" else "~\"" ++ String.ofList mv ++ "\"") ++
      (match msg with | some e => "!" ++ String.ofList e | none => "") ++
      (if cs.isEmpty then "" else "{" ++ String.intercalate ", " (cs.map (shw d)) ++ "}")

/-- Scope context 0 is the context's own, scope context 1 is a free one. -/
def s0 : State := ⟨[], [], [[], []]⟩

def run (b : B MatcherId) (src : String) : Res (Except Failure TokId) :=
  let (m, ns) := b.run []
  tokenize (tableOf ns) ⟨true⟩ 100 (Ctx.new ⟨src.toList, []⟩ 0 "Test".toList) m s0

def tok (b : B MatcherId) (src : String) : String :=
  match run b src with
  | .ok (.ok t) s => match treeOf s.toks 50 t with | some t => shw 50 t | none => "not a tree"
  | .ok (.error .fail) _ => "Fail"
  | .ok (.error (.error e)) _ => "Error: " ++ String.ofList e.message ++
      (match e.range with | some r => s!" @{r.start},{r.stop}" | none => "")
  | .panic m => "panic: " ++ m
  | .diverge => "diverge"

def exe (b : B MatcherId) (src : String) : Option R :=
  let (m, ns) := b.run []
  match exec (tableOf ns) ⟨true⟩ 100 m (Ctx.new ⟨src.toList, []⟩ 0 "Test".toList) 0 s0 with
  | .ok r _ => some r
  | _ => none

open Rx in
def rDigits := mkRx "\\d+" [plus isDigit]
open Rx in
def rWords := mkRx "\\w+" [plus isWord]
open Rx in
def rWord := mkRx "\\w" [[.one isWord]]
open Rx in
def rSpaces := mkRx "\\s+" [plus isSpace]
open Rx in
def rSpace := mkRx "\\s" [[.one isSpace]]
open Rx in
def rIdent := mkRx "[a-zA-Z_]\\w+" [.one (fun c => c.isAlpha || c == '_') :: plus isWord]

open B

-- equals.rs, matches.rs
#guard tok (equals "Testing") "Testing 1234" == "Equals[0,7](0,7)\"Testing\""
#guard tok (equals "testing") "Testing 1234" == "Fail"
#guard tok (regex rWords) "Testing 1234" == "Matches[0,7](0,7)\"Testing\""
#guard tok (regex rDigits) "Testing 1234" == "Fail"

-- program.rs
#guard tok (program [equals "Testing", equals " ", regex rDigits]) "Testing 1234" ==
  "Program[0,12](0,12)\"Testing 1234\"{Equals[0,7](0,7)\"Testing\", Equals[7,8](7,8)\" \", Matches[8,12](8,12)\"1234\"}"
#guard tok (program [equals "Testing", regex rDigits]) "Testing 1234" == "Fail"
#guard tok (switch [equals " ", regex rDigits, equals "Testing"]) "Testing 1234" ==
  "Equals[0,7](0,7)\"Testing\""
#guard tok (loop [regex rWord, equals " "]) "A B " ==
  "Loop[0,4](0,4)\"A B \"{Matches[0,1](0,1)\"A\", Equals[1,2](1,2)\" \", Matches[2,3](2,3)\"B\", Equals[3,4](3,4)\" \"}"
#guard tok (loop [program [regex rWord, equals " "]]) "A B " ==
  "Loop[0,4](0,4)\"A B \"{Program[0,2](0,2)\"A \"{Matches[0,1](0,1)\"A\", Equals[1,2](1,2)\" \"}, Program[2,4](2,4)\"B \"{Matches[2,3](2,3)\"B\", Equals[3,4](3,4)\" \"}}"
#guard tok (loopN "Loop" [optional (program [equals "break", brk]),
    program [regex rWord, equals " "]] (.included 0) (.excluded 10)) "A B C break D E F " ==
  "Loop[0,11](0,11)\"A B C break\"{Program[0,2](0,2)\"A \"{Matches[0,1](0,1)\"A\", Equals[1,2](1,2)\" \"}, Program[2,4](2,4)\"B \"{Matches[2,3](2,3)\"B\", Equals[3,4](3,4)\" \"}, Program[4,6](4,6)\"C \"{Matches[4,5](4,5)\"C\", Equals[5,6](5,6)\" \"}, Program[6,11](6,11)\"break\"{Equals[6,11](6,11)\"break\"}}"

-- break.rs, null.rs, not.rs, optional.rs, discard.rs
#guard exe (brk "Test") "Testing 1234" == some (.ok (.brk "Test".toList .none))
#guard exe null "Testing 1234" == some (.ok (.skip 0))
#guard tok (B.not (equals "Testing")) "Testing 1234" == "Fail"
#guard exe (B.not (equals "testing")) "Testing 1234" == some (.ok (.skip 0))
#guard tok (optional (equals "Testing")) "Testing 1234" == "Equals[0,7](0,7)\"Testing\""
#guard exe (optional (equals "testing")) "Testing 1234" == some (.ok (.skip 0))
#guard exe (discard (equals "Testing")) "Testing 1234" == some (.ok (.skip 7))
#guard tok (discard (equals "testing")) "Testing 1234" == "Fail"
#guard tok (discard (program [equals "Testing", error "This is an error"])) "Testing 1234" ==
  "Error[0,7](0,7)\"Testing\"{Error[0,7](0,7)\"Testing\"!Error: @[1:8]: This is an error}"

-- catch.rs, debug.rs
def catchErr (c : Ctx) (_ : Failure) : M R :=
  pure (.err (.error ⟨"There was a big fat error!".toList, some c.offset⟩))
#guard tok (catch_ (equals "Testing") catchErr) "Testing 1234" == "Equals[0,7](0,7)\"Testing\""
#guard tok (catch_ (equals "Derp") catchErr) "Testing 1234" ==
  "Error: There was a big fat error! @0,12"
#guard tok (catch_ (B.panic "Holy malarky! I failed!") (fun _ f => pure (.err f))) "Testing 1234" ==
  "Error: Error: @[1:1]: Holy malarky! I failed! @0,0"
#guard tok (debug (equals "Testing")) "Testing 1234" == "Equals[0,7](0,7)\"Testing\""

-- error.rs, panic.rs
#guard tok (program [regex rWords, error "There was an error!", discard (regex rSpaces), regex rDigits])
    "Testing 1234" ==
  "Program[0,12](0,12)\"Testing 1234\"{Matches[0,7](0,7)\"Testing\", Error[0,7](0,7)\"Testing\"!Error: @[1:8]: There was an error!, Matches[8,12](8,12)\"1234\"}"
#guard tok (program [regex rWords, B.panic "There was an error!", discard (regex rSpaces), regex rDigits])
    "Testing 1234" ==
  "Error: Error: @[1:1-8]: There was an error! @0,7"

-- expand_range.rs
#guard tok (expandRange (sequence "'" "'" "\\")) "'Testing' 1234" ==
  "ExpandRange[0,9](0,9)\"'Testing'\"{Sequence[1,8](0,9)\"Testing\"~\"'Testing'\"}"
#guard tok (expandRange (B.panic "Holy malarky! I failed!")) "Testing 1234" ==
  "Error: Error: @[1:1]: Holy malarky! I failed! @0,0"

-- fetch.rs
#guard tok (switch [storeStr "test" "Testing", equalsFetch "test"]) "Testing 1234" ==
  "Equals[0,7](0,7)\"Testing\""
#guard tok (program [store "test" (regex rWords), discard (regex rSpaces),
    equalsFetch "test.captured_value"]) "Testing Testing" ==
  "Program[0,15](0,15)\"Testing Testing\"{Matches[0,7](0,7)\"Testing\", Equals[8,15](8,15)\"Testing\"}"

-- map.rs
def mapWow (t : TokId) (_ : Ctx) (_ : SCtxId) : M R := do
  modTok t (fun k => ((k.setName "WOW".toList).setCaptured
    ⟨k.captured.start + 1, k.captured.stop - 1⟩).setAttribute "was_mapped".toList "true".toList)
  pure (.ok (.token t))
#guard tok (map (equals "Testing") mapWow) "Testing 1234" ==
  "WOW[1,6](0,7)\"estin\"~\"Testing\""
#guard tok (map (equals "Testing") (fun t c _ => do
    let k ← getTok t
    let e ← newErrorTokenWithRange c "There was a big fat error!".toList k.matched
    pure (.ok (.token e)))) "Testing 1234" ==
  "Error[0,7](0,7)\"Testing\"!Error: @[1:1-8]: There was a big fat error!"
#guard tok (map (equals "testing") (fun t _ _ => pure (.ok (.token t)))) "Testing 1234" == "Fail"

-- pin.rs
#guard tok (pinN "Pin" (.str "8".toList) (equals "1234")) "Testing 1234" ==
  "Equals[8,12](8,12)\"1234\""
#guard tok (program [store "stored_offset" pin, equals "Testing",
    pinN "Pin" (.fetch "stored_offset.range".toList) (equals "Testing"), discard (regex rSpaces),
    regex rDigits]) "Testing 1234" ==
  "Program[0,12](0,12)\"Testing 1234\"{Equals[0,7](0,7)\"Testing\", Equals[0,7](0,7)\"Testing\", Matches[8,12](8,12)\"1234\"}"
#guard tok (pinN "Pin" (.str "+8".toList) (equals "1234")) "Testing 1234" ==
  "Equals[8,12](8,12)\"1234\""
#guard tok (program [equals "Testing", pinN "Pin" (.str "-7".toList) (equals "Testing")])
    "Testing 1234" ==
  "Program[0,7](0,7)\"Testing\"{Equals[0,7](0,7)\"Testing\", Equals[0,7](0,7)\"Testing\"}"
#guard tok (pinN "Pin" (.str "0..4".toList) (equals "Testing")) "Testing 1234" == "Fail"

-- proxy_children.rs
#guard tok (loopN "Loop" [proxyChildren (loop [switch [regexN "Whitespace" rSpaces,
    regexN "Word" rIdent, regexN "Number" rDigits]])]) "Testing 1234" ==
  "Loop[0,12](0,12)\"Testing 1234\"{Word[0,7](0,7)\"Testing\", Whitespace[7,8](7,8)\" \", Number[8,12](8,12)\"1234\"}"

-- ref.rs, register.rs
#guard tok (program [regexN "Word" rWords, regex rSpaces, ref "Word"]) "Hello World" ==
  "Program[0,11](0,11)\"Hello World\"{Word[0,5](0,5)\"Hello\", Matches[5,6](5,6)\" \", Word[6,11](6,11)\"World\"}"
#guard tok (program [register [regexN "Word" rWords], ref "Word", regex rSpaces, ref "Word"])
    "Hello World" ==
  "Program[0,11](0,11)\"Hello World\"{Word[0,5](0,5)\"Hello\", Matches[5,6](5,6)\" \", Word[6,11](6,11)\"World\"}"

-- sequence.rs
#guard tok (sequence "\"" "\"" "\\")
    "\"This is a \\\"cool\\\\beans\\\" string!\" stuff after string" ==
  "Sequence[1,34](0,35)\"This is a \"cool\\beans\" string!\"~\"\"This is a \\\"cool\\\\beans\\\" string!\"\""
#guard tok (sequence "\"" "\"" "\\") "\"Testing 1234" == "Fail"

-- set_scope.rs, store.rs
#guard tok (setScopeTo 1 (store "StoredValue" (equals "Testing"))) "Testing 1234" ==
  "Equals[0,7](0,7)\"Testing\""
#guard match run (setScopeTo 1 (store "StoredValue" (equals "Testing"))) "Testing 1234" with
  | .ok (.ok t) s => s.lookup 1 "StoredValue".toList == some (.token t) &&
      s.lookup 0 "StoredValue".toList == none
  | _ => false
#guard match run (store "test" (equals "Testing")) "Testing 1234" with
  | .ok (.ok t) s => s.lookup 0 "test".toList == some (.token t)
  | _ => false
#guard match run (switch [storeStr "test" "This is a test!", equals "Testing"]) "Testing 1234" with
  | .ok (.ok _) s => s.lookup 0 "test".toList == some (.str "This is a test!".toList)
  | _ => false

-- parser_context.rs
def nl : Ctx := Ctx.new ⟨"Test 1\nTest 2\r\nTest 3\rTest 4".toList, []⟩ 0 []
#guard nl.getLines ⟨4, 6⟩ == some (1, 1)
#guard nl.getLines ⟨8, 9⟩ == some (2, 2)
#guard nl.getLines ⟨14, 15⟩ == some (3, 3)
#guard nl.getLines ⟨23, 24⟩ == some (4, 4)
#guard nl.getColumns ⟨0, 2⟩ == some (1, 3)
#guard nl.getColumns ⟨8, 9⟩ == some (2, 3)
#guard nl.getColumns ⟨13, 15⟩ == some (7, 7)
#guard nl.getLines ⟨15, 17⟩ == some (3, 3) && nl.getColumns ⟨15, 17⟩ == some (1, 3)
#guard nl.getLines ⟨0, 19⟩ == some (1, 3) && nl.getColumns ⟨0, 19⟩ == some (1, 5)

-- token_visitor.rs
def visited : List String :=
  match run (program [program [equals "Testing", equals " ", regex rDigits],
      loop [regex rSpace, regex rWords]]) "Testing 1234 one two three" with
  | .ok (.ok t) s =>
    let text (t : TokId) : String :=
      match s.toks[t]? with | some k => String.ofList k.getValue | none => "?"
    let nm (t : TokId) : String :=
      match s.toks[t]? with | some k => String.ofList k.name | none => "?"
    match visit (σ := List String) s.toks
        [("Equals".toList, fun t l => (.ok (), l ++ ["Equals = " ++ text t])),
         (['*'], fun t l => (.ok (), l ++ [nm t ++ ": " ++ text t]))] 100 t [] with
    | .ok l => l
    | _ => []
  | _ => []
#guard visited == ["Program: Testing 1234 one two three", "Program: Testing 1234",
  "Equals = Testing", "Equals =  ", "Matches: 1234", "Loop:  one two three", "Matches:  ",
  "Matches: one", "Matches:  ", "Matches: two", "Matches:  ", "Matches: three"]

end Adx.Tests
