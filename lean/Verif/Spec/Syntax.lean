import Verif.Spec.Script
import Verif.Spec.Sequence
import Verif.Spec.Offset
/-
  The language of grammar scripts on plain ASCII strings, and what its texts describe.
  All relations say that a text `w` starts with some phrase and goes on with `rest`.
-/
namespace Adx.Syntax

/-! ### Words -/

/-- White space: tab, line feed, vertical tab, form feed, carriage return, blank. -/
def space (c : Char) : Bool := (decide (9 ≤ c.toNat) && decide (c.toNat ≤ 13)) || c == ' '

/-- White space within a line. -/
def blank (c : Char) : Bool := space c && c != '\n' && c != '\r'

/-- The first character of an identifier. -/
def idStart (c : Char) : Bool := c.isAlpha || c == '$' || c == '_'

/-- The other characters of an identifier. -/
def idChar (c : Char) : Bool := idStart c || c.isDigit

/-- The characters of the name of an attribute. -/
def attrChar (c : Char) : Bool := c.isAlphanum || c == '_' || c == '+'

/-- The flags of a regular expression. -/
def flagChar (c : Char) : Bool := c == 'i' || c == 'm' || c == 's' || c == 'U'

/-- The characters of a line. -/
def lineChar (c : Char) : Bool := c != '\r' && c != '\n'

/-- `u` is the longest beginning of `w` whose characters are all in `p`. -/
structure Munch (p : Char → Bool) (w u rest : Str) : Prop where
  split : w = u ++ rest
  all : ∀ c ∈ u, p c = true
  most : ∀ c, rest.head? = some c → p c = false

/-- White space, possibly none. -/
def Gap (w rest : Str) : Prop := ∃ u, Munch space w u rest

/-- White space within the line, possibly none. -/
def Blanks (w rest : Str) : Prop := ∃ u, Munch blank w u rest

/-- An identifier `n`. -/
structure Identifier (w n rest : Str) : Prop where
  munch : Munch idChar w n rest
  start : ∃ c cs, n = c :: cs ∧ idStart c = true

/-- A number, in decimal digits. -/
def Number (w : Str) (n : Nat) (rest : Str) : Prop :=
  ∃ ds, Munch Char.isDigit w ds rest ∧ Numeral ds n ∧ n < 2 ^ 64

/-- A text in single quotes: as written, and what it stands for. -/
inductive Quoted : (w raw val rest : Str) → Prop
  | mk {w raw val rest : Str} (h : Body ['\''] ['\\'] w raw val rest) : Quoted ('\'' :: w) raw val rest

/-- A line of comment, up to its end. -/
inductive Comment : (w rest : Str) → Prop
  | mk {w u rest : Str} (h : Munch lineChar w u rest) : Comment ('#' :: w) rest

/-- The text of a regular expression, up to the slash behind it.  There is no end inside of
brackets or behind a backslash. -/
inductive Regular : (w text rest : Str) → Prop
  | done {rest : Str} : Regular ('/' :: rest) [] rest
  | char {c : Char} {w t rest : Str} (hc : c ≠ '/' ∧ c ≠ '\\' ∧ c ≠ '[') (h : Regular w t rest) :
      Regular (c :: w) (c :: t) rest
  | escape {c : Char} {w t rest : Str} (hc : c ≠ '\n') (h : Regular w t rest) :
      Regular ('\\' :: c :: w) ('\\' :: c :: t) rest
  | bracket {w raw val w' t rest : Str} (hb : Body [']'] ['\\'] w raw val w') (h : Regular w' t rest) :
      Regular ('[' :: w) ('[' :: raw ++ ']' :: t) rest

/-- A regular expression with its flags in front. -/
def flagged (flags text : Str) : Str := if flags = [] then text else "(?".toList ++ flags ++ ")".toList ++ text

/-- A comma, with white space around it. -/
def Comma (w rest : Str) : Prop := ∃ w1, Gap w (',' :: w1) ∧ Gap w1 rest

/-! ### Parts of definitions -/

/-- A modifier. -/
inductive Mod
  | none
  | opt
  | not

def Mod.text : Mod → Str
  | none => []
  | opt => ['?']
  | not => ['!']

def Mod.wrap : Mod → Gram → Gram
  | none, g => g
  | opt, g => .opt g
  | not, g => .not g

/-- How often. -/
inductive Repeat : Str → Option (Nat × Nat) → Str → Prop
  | once {w : Str} (h : ∀ c, w.head? = some c → c ≠ '*' ∧ c ≠ '+' ∧ c ≠ '{') : Repeat w none w
  | any {rest : Str} : Repeat ('*' :: rest) (some (0, usizeMax)) rest
  | some {rest : Str} : Repeat ('+' :: rest) (some (1, usizeMax)) rest
  /-- `{n}`: up to `n` times. -/
  | upTo {w w1 w2 rest : Str} {n : Nat} (h1 : Blanks w w1) (h2 : Number w1 n w2) (h3 : Blanks w2 ('}' :: rest)) :
      Repeat ('{' :: w) (some (0, n)) rest
  /-- `{n,}` -/
  | atLeast {w w1 w2 w3 rest : Str} {n : Nat} (h1 : Blanks w w1) (h2 : Number w1 n w2) (h3 : Blanks w2 (',' :: w3))
      (h4 : Blanks w3 ('}' :: rest)) : Repeat ('{' :: w) (some (n, usizeMax)) rest
  /-- `{n,m}` -/
  | between {w w1 w2 w3 w4 w5 rest : Str} {n m : Nat} (h1 : Blanks w w1) (h2 : Number w1 n w2) (h3 : Blanks w2 (',' :: w3))
      (h4 : Blanks w3 w4) (h5 : Number w4 m w5) (h6 : Blanks w5 ('}' :: rest)) (hle : n ≤ m) :
      Repeat ('{' :: w) (some (n, m)) rest

def repeated : Option (Nat × Nat) → Gram → Gram
  | none, g => g
  | some r, g => .loop r.1 r.2 g

/-- An attribute: its name, its value as written, and what the value stands for. -/
structure Attr where
  name : Str
  raw : Str
  val : Str

/-- Attributes.  A name of more than one character does not start with an underscore. -/
inductive AttrList : Str → List Attr → Str → Prop
  | nil {w : Str} (h : ∀ c, w.head? = some c → attrChar c = false) : AttrList w [] w
  | cons {w n w1 w2 w3 raw val w4 w5 rest : Str} {as : List Attr} (h1 : Munch attrChar w n w1) (h2 : n ≠ [])
      (h3 : n.head? = some '_' → n = ['_']) (h4 : Blanks w1 ('=' :: w2)) (h5 : Blanks w2 w3) (h6 : Quoted w3 raw val w4)
      (h7 : Gap w4 w5) (h : AttrList w5 as rest) : AttrList w (⟨n, raw, val⟩ :: as) rest

/-- A definition gives its attributes, as they are written, to tokens. -/
def attributed (as : List Attr) (g : Gram) : Gram :=
  if as = [] then g else .attrs (as.foldl (fun m a => m.insert a.name a.raw) []) g

/-! ### Patterns -/

mutual

/-- What is between `<` and `>`. -/
inductive Matcher (env : Env) : Str → Gram → Str → Prop
  /-- `='..'` -/
  | equals {w raw val rest : Str} (h : Quoted w raw val rest) (hv : val ≠ []) :
      Matcher env ('=' :: w) (.equals "Equals".toList false val) rest
  /-- `/../` -/
  | regex {w text w1 flags rest : Str} {re : Regex} (h : Regular w text w1) (ht : text ≠ []) (hf : Munch flagChar w1 flags rest)
      (hr : env.regex (flagged flags text) = some re) : Matcher env ('/' :: w) (.regex "Matches".toList false re) rest
  /-- `%'..', '..', '..'` -/
  | sequence {w w1 raw1 a w2 w3 raw2 b w4 w5 raw3 e rest : Str} (h1 : Gap w w1) (h2 : Quoted w1 raw1 a w2) (h3 : Comma w2 w3)
      (h4 : Quoted w3 raw2 b w4) (h5 : Comma w4 w5) (h6 : Quoted w5 raw3 e rest) (ha : a ≠ []) (hb : b ≠ []) :
      Matcher env ('%' :: w) (.sequence "Sequence".toList false a b e) rest
  /-- The name of another matcher. -/
  | custom {w n rest : Str} (h : Identifier w n rest) : Matcher env w (.ref "Ref".toList false n) rest
  /-- `[ .. | .. ]` -/
  | switch {w rest : Str} {gs : List Gram} (h : Choices env w gs rest) :
      Matcher env ('[' :: w) (.group "Switch".toList false true gs) rest
  /-- `{ .. .. }` -/
  | program {w rest : Str} {gs : List Gram} (h : Patterns env w gs rest) :
      Matcher env ('{' :: w) (.group "Program".toList false false gs) rest

/-- Patterns with bars between them, and a bracket behind them.  There may be a bar behind
the last one. -/
inductive Choices (env : Env) : Str → List Gram → Str → Prop
  | last {w w1 w2 rest : Str} {g : Gram} (h1 : Gap w w1) (h2 : Pattern env w1 g w2) (h3 : Gap w2 (']' :: rest)) :
      Choices env w [g] rest
  | lastBar {w w1 w2 w3 rest : Str} {g : Gram} (h1 : Gap w w1) (h2 : Pattern env w1 g w2) (h3 : Gap w2 ('|' :: w3))
      (h4 : Gap w3 (']' :: rest)) : Choices env w [g] rest
  | more {w w1 w2 w3 rest : Str} {g : Gram} {gs : List Gram} (h1 : Gap w w1) (h2 : Pattern env w1 g w2) (h3 : Gap w2 ('|' :: w3))
      (h4 : Choices env w3 gs rest) : Choices env w (g :: gs) rest

/-- Patterns, and a brace behind them. -/
inductive Patterns (env : Env) : Str → List Gram → Str → Prop
  | last {w w1 w2 rest : Str} {g : Gram} (h1 : Gap w w1) (h2 : Pattern env w1 g w2) (h3 : Gap w2 ('}' :: rest)) :
      Patterns env w [g] rest
  | more {w w1 w2 w3 rest : Str} {g : Gram} {gs : List Gram} (h1 : Gap w w1) (h2 : Pattern env w1 g w2) (h3 : Gap w2 w3)
      (h4 : Patterns env w3 gs rest) : Patterns env w (g :: gs) rest

/-- A definition `<..>`, of something called `name`. -/
inductive Definition (env : Env) : Str → Str → Gram → Str → Prop
  | mk {name w1 w2 w3 w4 w5 rest : Str} {outer inner : Mod} {g : Gram} {as : List Attr} {r : Option (Nat × Nat)}
      (h1 : Gap w1 w2) (h2 : Matcher env w2 g w3) (h3 : Gap w3 w4) (h4 : AttrList w4 as ('>' :: w5)) (h5 : Repeat w5 r rest) :
      Definition env name (outer.text ++ '<' :: (inner.text ++ w1))
        (outer.wrap (repeated r (inner.wrap (attributed as (g.called name))))) rest

/-- A pattern.  A captured one with a name is always called `Name`. -/
inductive Pattern (env : Env) : Str → Gram → Str → Prop
  | plain {w rest : Str} {g : Gram} (h : Definition env [] w g rest) : Pattern env w (.discard g) rest
  /-- `( <..> )` -/
  | captured {w w1 w2 rest : Str} {g : Gram} (h1 : Gap w w1) (h2 : Definition env [] w1 g w2) (h3 : Gap w2 (')' :: rest)) :
      Pattern env ('(' :: w) g rest
  /-- `(?'..' <..> )` -/
  | named {w w1 raw val w2 w3 w4 rest : Str} {g : Gram} (h1 : Gap w ('?' :: w1)) (h2 : Quoted w1 raw val w2) (h3 : Gap w2 w3)
      (h4 : Definition env "Name".toList w3 g w4) (h5 : Gap w4 (')' :: rest)) : Pattern env ('(' :: w) g rest

end

/-! ### Scripts -/

/-- Patterns and comments, to the end of the text. -/
inductive Items (env : Env) : Str → List Gram → Prop
  | done {w : Str} (h : Gap w []) : Items env w []
  | comment {w w1 w2 : Str} {gs : List Gram} (h1 : Gap w w1) (h2 : Comment w1 w2) (h : Items env w2 gs) : Items env w gs
  | pattern {w w1 w2 : Str} {g : Gram} {gs : List Gram} (h1 : Gap w w1) (h2 : Pattern env w1 g w2) (h : Items env w2 gs) :
      Items env w (g :: gs)

/-- Comments; behind them something else follows. -/
inductive Comments : Str → Str → Prop
  | done {w rest : Str} (h : Gap w rest) (hn : rest.head? ≠ some '#') : Comments w rest
  | more {w w1 w2 rest : Str} (h1 : Gap w w1) (h2 : Comment w1 w2) (h : Comments w2 rest) : Comments w rest

/-- `as`, with white space on both sides. -/
def As (w rest : Str) : Prop :=
  ∃ u v w1, Munch space w u ("as".toList ++ w1) ∧ u ≠ [] ∧ Munch space w1 v rest ∧ v ≠ []

/-- A comma, or nothing. -/
inductive MayComma : Str → Str → Prop
  | comma {rest : Str} : MayComma (',' :: rest) rest
  | nothing {w : Str} (h : w.head? ≠ some ',') : MayComma w w

/-- One identifier of an import, and the name that it gets. -/
inductive ImportId : Str → Str → Str → Str → Prop
  | plain {w n w1 rest : Str} (h1 : Identifier w n w1) (h2 : ∀ w2, As w1 w2 → ∀ c, w2.head? = some c → idStart c = false)
      (h3 : MayComma w1 rest) : ImportId w n n rest
  | renamed {w n w1 w2 m w3 rest : Str} (h1 : Identifier w n w1) (h2 : As w1 w2) (h3 : Identifier w2 m w3)
      (h4 : MayComma w3 rest) : ImportId w n m rest

/-- The identifiers of an import, at least one, up to the brace. -/
inductive ImportIds : Str → List (Str × Str) → Str → Prop
  | last {w w1 n m w2 rest : Str} (h1 : Gap w w1) (h2 : ImportId w1 n m w2) (h3 : Gap w2 ('}' :: rest)) :
      ImportIds w [(n, m)] rest
  | more {w w1 n m w2 rest : Str} {ids : List (Str × Str)} (h1 : Gap w w1) (h2 : ImportId w1 n m w2) (h3 : ImportIds w2 ids rest) :
      ImportIds w ((n, m) :: ids) rest

/-- What a statement says: a definition, or the path and the identifiers of an import. -/
inductive Stmt
  | own (name : Str) (g : Gram)
  | imports (path : Str) (ids : List (Str × Str))

/-- Statements: imports, definitions, aliases and comments.  An alias `A = B` refers to the
matcher that is named like the *whole* expression. -/
inductive Statements (env : Env) : Str → List Stmt → Str → Prop
  | done {w rest : Str} (h : Gap w ("-->".toList ++ rest)) : Statements env w [] rest
  | comment {w w1 w2 rest : Str} {ss : List Stmt} (h1 : Gap w w1) (h2 : Comment w1 w2) (h : Statements env w2 ss rest) :
      Statements env w ss rest
  | imports {w w1 w2 w3 w4 raw path w5 w6 rest : Str} {ids : List (Str × Str)} {ss : List Stmt} (h1 : Gap w ("import".toList ++ w1))
      (h2 : Blanks w1 ('{' :: w2)) (h3 : ImportIds w2 ids w3) (h4 : Blanks w3 ("from".toList ++ w4)) (h5 : Blanks w4 w5)
      (h6 : Quoted w5 raw path w6) (h : Statements env w6 ss rest) : Statements env w (.imports path ids :: ss) rest
  | definition {w w1 n w2 w3 w4 w5 rest : Str} {g : Gram} {ss : List Stmt} (h1 : Gap w w1) (h2 : Identifier w1 n w2)
      (h3 : Gap w2 ('=' :: w3)) (h4 : Gap w3 w4) (h5 : Definition env n w4 g w5) (h : Statements env w5 ss rest) :
      Statements env w (.own n g :: ss) rest
  | alias {w text n w2 w3 w4 m w5 rest : Str} {ss : List Stmt} (h1 : Gap w (text ++ w5)) (h2 : Identifier (text ++ w5) n w2)
      (h3 : Gap w2 ('=' :: w3)) (h4 : Gap w3 w4) (h5 : Identifier w4 m w5) (h : Statements env w5 ss rest) :
      Statements env w (.own n (.ref "Ref".toList false text) :: ss) rest

/-- The value of the last attribute of a name. -/
def attrOf (as : List Attr) (n : String) : Option Str := lastDef (as.map fun a => (a.name, a.val)) n.toList

/-- A header `<!--[adextopa version='..' name='..'] .. -->`: the name, if any, and the
statements.  Without statements or comments there is nothing between `]` and `-->`. -/
inductive Header (env : Env) : Str → Option Str → List Stmt → Str → Prop
  | mk {w w1 w2 rest v : Str} {as : List Attr} {n : Nat} {ss : List Stmt} (h1 : Blanks w w1) (h2 : AttrList w1 as (']' :: w2))
      (h3 : attrOf as "version" = some v) (h4 : Numeral v n) (h5 : n < 2 ^ 64) (h6 : Statements env w2 ss rest)
      (h7 : ∀ w3, Gap w2 ("-->".toList ++ w3) → w2 = "-->".toList ++ w3) :
      Header env ("<!--[adextopa".toList ++ w) (attrOf as "name") ss rest

/-- A script: its name, if it has one, its patterns and its statements. -/
inductive Script (env : Env) : Str → Option Str → List Gram → List Stmt → Prop
  | headed {w w1 w2 : Str} {name : Option Str} {gs : List Gram} {ss : List Stmt} (h1 : Comments w w1)
      (h2 : Header env w1 name ss w2) (h3 : Items env w2 gs) : Script env w name gs ss
  | bare {w w1 w2 : Str} {g : Gram} {gs : List Gram} (h1 : Comments w w1) (h2 : Pattern env w1 g w2) (h3 : Items env w2 gs) :
      Script env w none (g :: gs) []

end Adx.Syntax
