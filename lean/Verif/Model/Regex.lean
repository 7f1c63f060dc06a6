import Verif.Model.Context
/-
  The regular expressions that the crate itself uses (its grammar in
  `src/script/v1/matchers/*.rs`, and its unit tests) are all sequences of character
  classes, each once, starred or plussed, possibly with alternatives.  This file
  gives a small leftmost-first backtracking matcher for exactly those, so that the
  model can be run.  Everywhere else a `Regex` is an arbitrary `find` function.
  Simplification: `\w`, `\d` are ASCII classes here (Unicode in the crate `regex`).
-/
namespace Adx

/-- One item of a simple regular expression. -/
inductive RxItem
  | one (p : Char → Bool)
  | star (p : Char → Bool)

/-- Greedy `[p]*` followed by `k`, with backtracking; the result is the number of
bytes matched. -/
def rxStar (p : Char → Bool) (k : Str → Option Nat) : Str → Option Nat
  | [] => k []
  | c :: cs =>
    if p c then
      match rxStar p k cs with
      | some n => some (c.utf8Size + n)
      | none => k (c :: cs)
    else k (c :: cs)

/-- Match a sequence of items at the beginning of a string. -/
def rxSeq : List RxItem → Str → Option Nat
  | [], _ => some 0
  | .one p :: is, s =>
    match s with
    | [] => none
    | c :: cs => if p c then (rxSeq is cs).map (c.utf8Size + ·) else none
  | .star p :: is, s => rxStar p (rxSeq is) s

/-- Match one of several alternatives, the first that matches. -/
def rxAlt : List (List RxItem) → Str → Option Nat
  | [], _ => none
  | a :: as, s =>
    match rxSeq a s with
    | some n => some n
    | none => rxAlt as s

/-- `Regex::find`: the leftmost position at which an alternative matches. -/
def rxFind (alts : List (List RxItem)) (pos : Nat) : Str → Option (Nat × Nat)
  | [] => (rxAlt alts []).map fun n => (pos, pos + n)
  | c :: cs =>
    match rxAlt alts (c :: cs) with
    | some n => some (pos, pos + n)
    | none => rxFind alts (pos + c.utf8Size) cs

/-- A regular expression with the given source text and meaning. -/
def mkRx (pattern : String) (alts : List (List RxItem)) : Regex :=
  { pattern := pattern.toList, find := rxFind alts 0 }

namespace Rx

/-- `\s` (Unicode `White_Space`). -/
def isSpace (c : Char) : Bool :=
  let n := c.toNat
  (9 ≤ n && n ≤ 13) || n == 32 || n == 0x85 || n == 0xA0 || n == 0x1680 ||
  (0x2000 ≤ n && n ≤ 0x200A) || n == 0x2028 || n == 0x2029 || n == 0x202F || n == 0x205F ||
  n == 0x3000

/-- `\d`, ASCII only. -/
def isDigit (c : Char) : Bool := c.isDigit

/-- `\w`, ASCII only. -/
def isWord (c : Char) : Bool := c.isAlphanum || c == '_'

/-- A literal character. -/
def lit (c : Char) : RxItem := .one (· == c)

/-- A literal string. -/
def lits (s : String) : List RxItem := s.toList.map lit

/-- `[p]+`. -/
def plus (p : Char → Bool) : List RxItem := [.one p, .star p]

end Rx

end Adx
