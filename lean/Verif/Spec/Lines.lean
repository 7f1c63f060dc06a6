import Verif.Spec.Text
/-
  Lines and columns, by the positions of line ends.
-/
namespace Adx

/-- A line ends at byte offset `e` of `s`: behind a line feed, or behind a carriage
return that no line feed follows. -/
def LineEnd (s : Str) (e : Nat) : Prop :=
  (∃ pre post, s = pre ++ '\n' :: post ∧ e = blen pre + 1) ∨
  (∃ pre post, s = pre ++ '\r' :: post ∧ (∀ t, post ≠ '\n' :: t) ∧ e = blen pre + 1)

/-- `n` lies between the two characters of a CRLF. -/
def InsideCRLF (s : Str) (n : Nat) : Prop :=
  ∃ pre post, s = pre ++ '\r' :: '\n' :: post ∧ n = blen pre + 1

/-- `l` is the line number of position `n`: one more than the number of line ends at or
before it. -/
def LineNumber (s : Str) (n l : Nat) : Prop :=
  ∃ ends : List Nat, ends.Pairwise (· < ·) ∧ (∀ e, e ∈ ends ↔ LineEnd s e ∧ e ≤ n) ∧
    l = ends.length + 1

/-- The line of position `n` starts at `e`: the last line end at or before it, or the
start of the source. -/
def LineStart (s : Str) (n e : Nat) : Prop :=
  e ≤ n ∧ (e = 0 ∨ LineEnd s e) ∧ ∀ e', LineEnd s e' → e' ≤ n → e' ≤ e

/-- `k` is the column of position `n`: one more than the distance from the start of its
line. -/
def ColumnNumber (s : Str) (n k : Nat) : Prop := ∃ e, LineStart s n e ∧ k = n - e + 1

end Adx
