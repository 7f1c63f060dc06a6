import Verif.Spec.Text
/-
  Delimited sequences, on plain strings.
-/
namespace Adx

/-- `Body stop esc w raw val rest`: the text `w` consists of a body `raw`, the first
unescaped terminator `stop`, and `rest`; `val` is the body with every escape marker
dropped and the character after it kept.  A terminator takes precedence over an
escape marker at the same place; an empty escape marker means there is none. -/
inductive Body (stop esc : Str) : (w raw val rest : Str) → Prop
  | done (rest) : Body stop esc (stop ++ rest) [] [] rest
  | escaped {ch w raw val rest} (h1 : ¬ stop <+: esc ++ ch :: w) (h2 : esc ≠ [])
      (h : Body stop esc w raw val rest) :
      Body stop esc (esc ++ ch :: w) (esc ++ ch :: raw) (ch :: val) rest
  | plain {ch w raw val rest} (h1 : ¬ stop <+: ch :: w) (h2 : esc = [] ∨ ¬ esc <+: ch :: w)
      (h : Body stop esc w raw val rest) :
      Body stop esc (ch :: w) (ch :: raw) (ch :: val) rest

/-- `Skims stop esc w val rest`: looking for `stop`, a part of `w` is passed over, and `rest` is
left; `val` is what was passed over, without escape markers. -/
inductive Skims (stop esc : Str) : (w val rest : Str) → Prop
  | here (w) : Skims stop esc w [] w
  | escaped {ch w val rest} (h1 : ¬ stop <+: esc ++ ch :: w) (h2 : esc ≠ [])
      (h : Skims stop esc w val rest) : Skims stop esc (esc ++ ch :: w) (ch :: val) rest
  | plain {ch w val rest} (h1 : ¬ stop <+: ch :: w) (h2 : esc = [] ∨ ¬ esc <+: ch :: w)
      (h : Skims stop esc w val rest) : Skims stop esc (ch :: w) (ch :: val) rest

/-- Between delimiters there are only ASCII characters: whatever is passed over behind any
`start` in `src`, in any window, is ASCII. -/
def AsciiBetween (src start stop esc : Str) : Prop :=
  ∀ before w after val rest, src = before ++ start ++ w ++ after → Skims stop esc w val rest → Ascii val

/-- Delimiters and escape markers: `start`, `stop`, `esc`. -/
abbrev Quotes := Str → Str → Str → Prop

/-- None of them. -/
def Quotes.none : Quotes := fun _ _ _ => False

/-- All of them. -/
def Quotes.any : Quotes := fun _ _ _ => True

/-- Between all of these delimiters there are only ASCII characters. -/
def Suits (d : Quotes) (src : Str) : Prop := ∀ start stop esc, d start stop esc → AsciiBetween src start stop esc

/-- Escape a text for use between quotes: the quote and the escape character get the
escape character in front. -/
def escapeText (q e : Char) : Str → Str
  | [] => []
  | ch :: cs => if ch = q ∨ ch = e then e :: ch :: escapeText q e cs else ch :: escapeText q e cs

/-- A quoted text. -/
def quoteText (q e : Char) (body : Str) : Str := q :: escapeText q e body ++ [q]

end Adx
