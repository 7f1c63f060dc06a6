import Verif.Spec.Meaning
/-
  What scripts may look like and still compile.  The phrases are those of `Spec/Syntax.lean`
  with some liberties, each of which is a rule of its own here.
-/
namespace Adx.Lax

open Syntax (Munch Gap Blanks Identifier Number Quoted Comment Regular flagged Comma Mod repeated Attr attributed Comments
  ImportIds Stmt attrOf attrChar flagChar)

/-- A modifier.  Both modifiers together, in front of it, are an error token that nobody
looks at. -/
inductive Mods : Str → Mod → Str → Prop
  | mk {m : Mod} {rest : Str} : Mods (m.text ++ rest) m rest
  | optNot {m : Mod} {rest : Str} : Mods ('?' :: '!' :: (m.text ++ rest)) m rest
  | notOpt {m : Mod} {rest : Str} : Mods ('!' :: '?' :: (m.text ++ rest)) m rest

/-- How often. -/
inductive Repeat : Str → Option (Nat × Nat) → Str → Prop
  | strict {w rest : Str} {r : Option (Nat × Nat)} (h : Syntax.Repeat w r rest) : Repeat w r rest
  /-- A brace that starts no range belongs to what follows. -/
  | brace {w : Str} : Repeat ('{' :: w) none ('{' :: w)
  /-- `{n m}`: the second number is ignored. -/
  | noComma {w w1 w2 w3 ds w4 rest : Str} {n : Nat} (h1 : Blanks w w1) (h2 : Number w1 n w2) (h3 : Blanks w2 w3)
      (h4 : Munch Char.isDigit w3 ds w4) (h5 : ds ≠ []) (h6 : Blanks w4 ('}' :: rest)) : Repeat ('{' :: w) (some (0, n)) rest

/-- Attributes.  Names may start with an underscore: there is an error token for it, but
nobody looks at it. -/
inductive AttrList : Str → List Attr → Str → Prop
  | nil {w : Str} : AttrList w [] w
  | cons {w n w1 w2 w3 raw val w4 w5 rest : Str} {as : List Attr} (h1 : Munch attrChar w n w1) (h2 : n ≠ [])
      (h4 : Blanks w1 ('=' :: w2)) (h5 : Blanks w2 w3) (h6 : Quoted w3 raw val w4) (h7 : Gap w4 w5) (h : AttrList w5 as rest) :
      AttrList w (⟨n, raw, val⟩ :: as) rest

/-- The end of a group: `c`, or nothing at all. -/
inductive Ends (c : Char) : Str → Str → Prop
  | closed {w rest : Str} (h : Gap w (c :: rest)) : Ends c w rest
  | missing {w rest : Str} (h : Gap w rest) : Ends c w rest

mutual

/-- What is between `<` and `>`. -/
inductive Matcher (env : Env) : Str → Gram → Str → Prop
  | equals {w raw val rest : Str} (h : Quoted w raw val rest) (hv : val ≠ []) :
      Matcher env ('=' :: w) (.equals "Equals".toList false val) rest
  | regex {w text w1 flags rest : Str} {re : Regex} (h : Regular w text w1) (ht : text ≠ []) (hf : Munch flagChar w1 flags rest)
      (hr : env.regex (flagged flags text) = some re) : Matcher env ('/' :: w) (.regex "Matches".toList false re) rest
  /-- An empty expression stands for its own slashes and flags. -/
  | slashes {w flags rest : Str} {re : Regex} (hf : Munch flagChar w flags rest)
      (hr : env.regex (flagged flags ('/' :: '/' :: flags)) = some re) : Matcher env ('/' :: '/' :: w) (.regex "Matches".toList false re) rest
  | sequence {w w1 raw1 a w2 w3 raw2 b w4 w5 raw3 e rest : Str} (h1 : Gap w w1) (h2 : Quoted w1 raw1 a w2) (h3 : Comma w2 w3)
      (h4 : Quoted w3 raw2 b w4) (h5 : Comma w4 w5) (h6 : Quoted w5 raw3 e rest) (ha : a ≠ []) (hb : b ≠ []) :
      Matcher env ('%' :: w) (.sequence "Sequence".toList false a b e) rest
  | custom {w n rest : Str} (h : Identifier w n rest) : Matcher env w (.ref "Ref".toList false n) rest
  | switch {w rest : Str} {gs : List Gram} (h : Choices env w gs rest) :
      Matcher env ('[' :: w) (.group "Switch".toList false true gs) rest
  | program {w rest : Str} {gs : List Gram} (h : Patterns env w gs rest) :
      Matcher env ('{' :: w) (.group "Program".toList false false gs) rest

/-- Patterns with bars between them.  The bracket behind them may be missing. -/
inductive Choices (env : Env) : Str → List Gram → Str → Prop
  | last {w w1 w2 rest : Str} {g : Gram} (h1 : Gap w w1) (h2 : Pattern env w1 g w2) (h3 : Ends ']' w2 rest) : Choices env w [g] rest
  | lastBar {w w1 w2 w3 rest : Str} {g : Gram} (h1 : Gap w w1) (h2 : Pattern env w1 g w2) (h3 : Gap w2 ('|' :: w3))
      (h4 : Ends ']' w3 rest) : Choices env w [g] rest
  | more {w w1 w2 w3 rest : Str} {g : Gram} {gs : List Gram} (h1 : Gap w w1) (h2 : Pattern env w1 g w2) (h3 : Gap w2 ('|' :: w3))
      (h4 : Choices env w3 gs rest) : Choices env w (g :: gs) rest

/-- Patterns.  The brace behind them may be missing. -/
inductive Patterns (env : Env) : Str → List Gram → Str → Prop
  | last {w w1 w2 rest : Str} {g : Gram} (h1 : Gap w w1) (h2 : Pattern env w1 g w2) (h3 : Ends '}' w2 rest) : Patterns env w [g] rest
  | more {w w1 w2 w3 rest : Str} {g : Gram} {gs : List Gram} (h1 : Gap w w1) (h2 : Pattern env w1 g w2) (h3 : Gap w2 w3)
      (h4 : Patterns env w3 gs rest) : Patterns env w (g :: gs) rest

/-- A definition `<..>`, of something called `name`. -/
inductive Definition (env : Env) : Str → Str → Gram → Str → Prop
  | mk {name w w0 w1 w2 w3 w4 w5 rest : Str} {outer inner : Mod} {g : Gram} {as : List Attr} {r : Option (Nat × Nat)}
      (ho : Mods w outer ('<' :: w0)) (hi : Mods w0 inner w1)
      (h1 : Gap w1 w2) (h2 : Matcher env w2 g w3) (h3 : Gap w3 w4) (h4 : AttrList w4 as ('>' :: w5)) (h5 : Repeat w5 r rest) :
      Definition env name w (outer.wrap (repeated r (inner.wrap (attributed as (g.called name))))) rest

/-- A pattern. -/
inductive Pattern (env : Env) : Str → Gram → Str → Prop
  | plain {w rest : Str} {g : Gram} (h : Definition env [] w g rest) : Pattern env w (.discard g) rest
  | captured {w w1 w2 rest : Str} {g : Gram} (h1 : Gap w w1) (h2 : Definition env [] w1 g w2) (h3 : Gap w2 (')' :: rest)) :
      Pattern env ('(' :: w) g rest
  | named {w w1 raw val w2 w3 w4 rest : Str} {g : Gram} (h1 : Gap w ('?' :: w1)) (h2 : Quoted w1 raw val w2) (h3 : Gap w2 w3)
      (h4 : Definition env "Name".toList w3 g w4) (h5 : Gap w4 (')' :: rest)) : Pattern env ('(' :: w) g rest

end

/-- Patterns and comments, to the end of the text. -/
inductive Items (env : Env) : Str → List Gram → Prop
  | done {w : Str} (h : Gap w []) : Items env w []
  | comment {w w1 w2 : Str} {gs : List Gram} (h1 : Gap w w1) (h2 : Comment w1 w2) (h : Items env w2 gs) : Items env w gs
  | pattern {w w1 w2 : Str} {g : Gram} {gs : List Gram} (h1 : Gap w w1) (h2 : Pattern env w1 g w2) (h : Items env w2 gs) :
      Items env w (g :: gs)

/-- Statements: imports, definitions, aliases and comments. -/
inductive Statements (env : Env) : Str → List Stmt → Str → Prop
  | done {w rest : Str} (h : Gap w ("-->".toList ++ rest)) : Statements env w [] rest
  | comment {w w1 w2 rest : Str} {ss : List Stmt} (h1 : Gap w w1) (h2 : Comment w1 w2) (h : Statements env w2 ss rest) :
      Statements env w ss rest
  | imports {w w1 w2 w3 w4 raw path w5 w6 rest : Str} {ids : List (Str × Str)} {ss : List Stmt} (h1 : Gap w ("import".toList ++ w1))
      (h2 : Blanks w1 ('{' :: w2)) (h3 : ImportIds w2 ids w3) (h4 : Blanks w3 ("from".toList ++ w4)) (h5 : Blanks w4 w5)
      (h6 : Quoted w5 raw path w6) (h : Statements env w6 ss rest) : Statements env w (.imports path ids :: ss) rest
  | definition {w w1 n w2 w3 w4 w5 rest : Str} {g : Gram} {ss : List Stmt} (h1 : Gap w w1) (h2 : Identifier w1 n w2)
      (h3 : Gap w2 ('=' :: w3)) (h4 : Gap w3 w4) (h5 : Definition env n w4 g w5) (h : Statements env w5 ss rest) :
      Statements env w (.own n g :: ss) rest
  | alias {w text n w2 w3 w4 m w5 rest : Str} {ss : List Stmt} (h1 : Gap w (text ++ w5)) (h2 : Identifier (text ++ w5) n w2)
      (h3 : Gap w2 ('=' :: w3)) (h4 : Gap w3 w4) (h5 : Identifier w4 m w5) (h : Statements env w5 ss rest) :
      Statements env w (.own n (.ref "Ref".toList false text) :: ss) rest

/-- A version: a number, perhaps with a plus in front. -/
def Version (v : Str) : Prop := ∃ n, n < 2 ^ 64 ∧ (Numeral v n ∨ ∃ ds, v = '+' :: ds ∧ Numeral ds n)

/-- A header: the name, if any, and the statements. -/
inductive Header (env : Env) : Str → Option Str → List Stmt → Str → Prop
  | mk {w w1 w2 rest v : Str} {as : List Attr} {ss : List Stmt} (h1 : Blanks w w1) (h2 : AttrList w1 as (']' :: w2))
      (h3 : attrOf as "version" = some v) (h4 : Version v) (h6 : Statements env w2 ss rest)
      (h7 : ∀ w3, Gap w2 ("-->".toList ++ w3) → w2 = "-->".toList ++ w3) :
      Header env ("<!--[adextopa".toList ++ w) (attrOf as "name") ss rest

/-- A script: its name, if it has one, its patterns and its statements. -/
inductive Script (env : Env) : Str → Option Str → List Gram → List Stmt → Prop
  | headed {w w1 w2 : Str} {name : Option Str} {gs : List Gram} {ss : List Stmt} (h1 : Comments w w1)
      (h2 : Header env w1 name ss w2) (h3 : Items env w2 gs) : Script env w name gs ss
  | bare {w w1 w2 : Str} {g : Gram} {gs : List Gram} (h1 : Comments w w1) (h2 : Pattern env w1 g w2) (h3 : Items env w2 gs) :
      Script env w none (g :: gs) []
  /-- If what follows the header is no list of patterns, it is ignored, with all patterns. -/
  | junk {w w1 w2 : Str} {name : Option Str} {ss : List Stmt} (h1 : Comments w w1) (h2 : Header env w1 name ss w2)
      (hn : ∀ nm gs ss, ¬ Syntax.Script env w nm gs ss) : Script env w name [] ss
  /-- A header without a version is ignored, with all that it says. -/
  | noVersion {w w1 w2 w3 u w4 : Str} {as : List Attr} {gs : List Gram} (h1 : Comments w ("<!--[adextopa".toList ++ w1))
      (h2 : Blanks w1 w2) (h3 : AttrList w2 as (']' :: w3)) (h4 : attrOf as "version" = none)
      (h5 : w3 = u ++ "-->".toList ++ w4) (h6 : Items env w4 gs) : Script env w none gs []

mutual

/-- The text `src`, from the file `fromFile`, is a script called `n`, if it would else be
called `name`, with the patterns `gs` and the definitions `bs`. -/
inductive Text (env : Env) : Str → Str → Option Str → Str → List Gram → List (Str × Thing) → Prop
  | mk {src name fromFile nm gs ss bs} (h : Script env src nm gs ss)
      (hd : Syntax.Defines env (File env) fromFile 0 ss bs) : Text env src name fromFile (nm.getD name) gs bs

/-- What a file means. -/
inductive File (env : Env) : Str → Str → List Gram → List (Str × Thing) → Prop
  | mk {file full src n gs bs} (hc : env.canonical file = some full) (hr : env.read full = some src)
      (h : Text env src file (some full) n gs bs) : File env file n gs bs

end

end Adx.Lax
