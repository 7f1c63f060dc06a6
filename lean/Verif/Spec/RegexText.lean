import Verif.Model.ScriptGrammar
/-
  What the text of a regular expression means (crate `regex`), for the part of the syntax
  that the grammar of scripts uses: characters, classes, `*`, `+` and `|`.
-/
namespace Adx

/-- A set of characters. -/
inductive Cls
  /-- `.`: anything but a line feed. -/
  | dot
  | lit (c : Char)
  | range (a b : Char)
  /-- `\s` -/
  | space
  /-- `\d` -/
  | digit
  /-- `\w` -/
  | word
  /-- `[^…]`, and `\S`. -/
  | not (c : Cls)
  /-- `[…]` -/
  | any (cs : List Cls)
deriving Repr

/-- The code points with the Unicode property `White_Space`. -/
def whiteSpace : List Nat :=
  [0x9, 0xA, 0xB, 0xC, 0xD, 0x20, 0x85, 0xA0, 0x1680, 0x2000, 0x2001, 0x2002, 0x2003, 0x2004, 0x2005, 0x2006, 0x2007,
   0x2008, 0x2009, 0x200A, 0x2028, 0x2029, 0x202F, 0x205F, 0x3000]

/-- The character is in the set. -/
inductive InCls (u : Uni) (c : Char) : Cls → Prop
  | dot (h : c ≠ '\n') : InCls u c .dot
  | lit : InCls u c (.lit c)
  | range {a b} (h1 : a ≤ c) (h2 : c ≤ b) : InCls u c (.range a b)
  | space (h : c.toNat ∈ whiteSpace) : InCls u c .space
  | digit (h : u.digit c = true) : InCls u c .digit
  | word (h : u.word c = true) : InCls u c .word
  | any {x cs} (hx : x ∈ cs) (h : InCls u c x) : InCls u c (.any cs)
  | notDot (h : c = '\n') : InCls u c (.not .dot)
  | notLit {d} (h : c ≠ d) : InCls u c (.not (.lit d))
  | notRange {a b} (h : ¬ (a ≤ c ∧ c ≤ b)) : InCls u c (.not (.range a b))
  | notSpace (h : c.toNat ∉ whiteSpace) : InCls u c (.not .space)
  | notDigit (h : u.digit c = false) : InCls u c (.not .digit)
  | notWord (h : u.word c = false) : InCls u c (.not .word)
  | notNot {x} (h : InCls u c x) : InCls u c (.not (.not x))
  | notAny {cs} (h : ∀ x ∈ cs, InCls u c (.not x)) : InCls u c (.not (.any cs))

/-- How often. -/
inductive Often
  | once | star | plus
deriving Repr

/-- Alternatives of sequences of sets of characters. -/
abbrev RxText := List (List (Cls × Often))

namespace RxText

/-- What a backslash and a character stand for. -/
def escape : Char → Option Cls
  | 's' => some .space
  | 'S' => some (.not .space)
  | 'd' => some .digit
  | 'w' => some .word
  | 'n' => some (.lit '\n')
  | 'r' => some (.lit '\r')
  | c => if c.isAlphanum then none else some (.lit c)

/-- The items of a class up to its bracket, and what follows. -/
def classItems : Nat → Str → Option (List Cls × Str)
  | 0, _ => none
  | _ + 1, ']' :: cs => some ([], cs)
  | n + 1, '\\' :: c :: cs => do
    let x ← escape c
    let (xs, cs) ← classItems n cs
    pure (x :: xs, cs)
  | n + 1, a :: '-' :: b :: cs => do
    let (xs, cs) ← classItems n cs
    pure (.range a b :: xs, cs)
  | n + 1, c :: cs => do
    let (xs, cs) ← classItems n cs
    pure (.lit c :: xs, cs)
  | _, [] => none

/-- One set of characters, and what follows. -/
def cls : Str → Option (Cls × Str)
  | '\\' :: c :: cs => do pure (← escape c, cs)
  | '[' :: '^' :: cs => do
    let (xs, cs) ← classItems (cs.length + 1) cs
    pure (.not (.any xs), cs)
  | '[' :: cs => do
    let (xs, cs) ← classItems (cs.length + 1) cs
    pure (.any xs, cs)
  | '.' :: cs => some (.dot, cs)
  | c :: cs => if c ∈ "\\[](){}*+?|^$".toList then none else some (.lit c, cs)
  | [] => none

/-- `*` and `+`. -/
def often : Str → Often × Str
  | '*' :: cs => (.star, cs)
  | '+' :: cs => (.plus, cs)
  | cs => (.once, cs)

/-- The text of a regular expression; nothing if it has other syntax. -/
def read : Nat → Str → Option RxText
  | 0, _ => none
  | _ + 1, [] => some [[]]
  | n + 1, '|' :: cs => do pure ([] :: (← read n cs))
  | n + 1, cs => do
    let (x, cs) ← cls cs
    let (k, cs) := often cs
    match ← read n cs with
    | [] => none
    | xs :: rest => pure (((x, k) :: xs) :: rest)

end RxText

/-- The text `s` can begin with a match of the items, and the rest is `r`. -/
inductive RxBegins (u : Uni) : List (Cls × Often) → Str → Str → Prop
  | nil {s} : RxBegins u [] s s
  | once {x is c s r} (hc : InCls u c x) (h : RxBegins u is s r) : RxBegins u ((x, .once) :: is) (c :: s) r
  | star {x is t s r} (ht : ∀ c ∈ t, InCls u c x) (h : RxBegins u is s r) : RxBegins u ((x, .star) :: is) (t ++ s) r
  | plus {x is t s r} (h0 : t ≠ []) (ht : ∀ c ∈ t, InCls u c x) (h : RxBegins u is s r) :
      RxBegins u ((x, .plus) :: is) (t ++ s) r

/-- The preferred one of these matches: every repetition takes as much as it can, the first
ones first. -/
inductive RxPrefers (u : Uni) : List (Cls × Often) → Str → Str → Prop
  | nil {s} : RxPrefers u [] s s
  | once {x is c s r} (hc : InCls u c x) (h : RxPrefers u is s r) : RxPrefers u ((x, .once) :: is) (c :: s) r
  | star {x is t s r} (ht : ∀ c ∈ t, InCls u c x) (h : RxPrefers u is s r)
      (hm : ∀ t' s', t ++ s = t' ++ s' → t.length < t'.length → (∀ c ∈ t', InCls u c x) → ∀ r', ¬ RxBegins u is s' r') :
      RxPrefers u ((x, .star) :: is) (t ++ s) r
  | plus {x is t s r} (h0 : t ≠ []) (ht : ∀ c ∈ t, InCls u c x) (h : RxPrefers u is s r)
      (hm : ∀ t' s', t ++ s = t' ++ s' → t.length < t'.length → (∀ c ∈ t', InCls u c x) → ∀ r', ¬ RxBegins u is s' r') :
      RxPrefers u ((x, .plus) :: is) (t ++ s) r

/-- The match at the beginning of `s` is the preferred one of the first alternative that has
one. -/
def RxMatched (u : Uni) (x : RxText) (s r : Str) : Prop :=
  ∃ before is after, x = before ++ is :: after ∧ (∀ b ∈ before, ∀ r', ¬ RxBegins u b s r') ∧ RxPrefers u is s r

/-- There is a match at the beginning of `s`. -/
def RxMatchable (u : Uni) (x : RxText) (s : Str) : Prop := ∃ is ∈ x, ∃ r, RxBegins u is s r

/-- The leftmost match in `s` is between the bytes `a` and `b`. -/
def RxFound (u : Uni) (x : RxText) (s : Str) (a b : Nat) : Prop :=
  ∃ pre mid rest, s = pre ++ mid ++ rest ∧ a = blen pre ∧ b = blen pre + blen mid ∧
    RxMatched u x (mid ++ rest) rest ∧
    ∀ p q, s = p ++ q → p.length < pre.length → ¬ RxMatchable u x q

/-- The regular expression does what its text says. -/
def Regex.Faithful (u : Uni) (re : Regex) : Prop :=
  ∃ x, RxText.read (re.pattern.length + 1) re.pattern = some x ∧
    ∀ s a b, re.find s = some (a, b) ↔ RxFound u x s a b

/-- The names and texts of the regular expressions in `src/script/v1/matchers/*.rs` that the
grammar of scripts uses; those without a name are called `Matches`. -/
def sourcePatterns : List (String × String) :=
  [("Whitespace", "[^\\S\\n\\r]*"), ("Whitespace", "\\s*"), ("Identifier", "[a-zA-Z$_][a-zA-Z0-9$_]*"),
   ("ImportName", "[a-zA-Z$_][a-zA-Z0-9$_]*"), ("ImportAsName", "[a-zA-Z$_][a-zA-Z0-9$_]*"),
   ("Comment", "#[^\\r\\n]*"), ("Minimum", "\\d+"), ("Maximum", "\\d+"), ("Name", "[\\w+_]+"), ("Matches", "_[\\w+_]+"),
   ("Matches", "[^'\\s]+"), ("Matches", "\\?!|!\\?"), ("Part", "[^/\\\\\\[]*"), ("Part", "\\\\."), ("Flags", "[imsU]*"),
   ("Matches", "%\\s*"), ("Matches", "\\s*,\\s*"), ("Matches", "\\s+as\\s+"), ("Matches", "<!--\\[adextopa")]

end Adx
