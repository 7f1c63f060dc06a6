import Verif.Model.Context
/-
  Text, independently of slicing: a window onto a source is a way of writing the
  source as something before, the window, and something after.
-/
namespace Adx

/-- `w` is the text of `src` between the byte offsets `a` and `e`. -/
def TextAt (src : Str) (a e : Nat) (w : Str) : Prop :=
  ∃ pre post, src = pre ++ w ++ post ∧ a = blen pre ∧ e = blen pre + blen w

/-- The unread text of a context. -/
def Ctx.Unread (c : Ctx) (w : Str) : Prop := TextAt c.parser.src c.offset.start c.offset.stop w

/-- Only ASCII characters. -/
def Ascii (s : Str) : Prop := ∀ ch ∈ s, ch.toNat < 128

/-- The byte offset `n` is at the start of a character of `src`, or at its end. -/
def OnChar (src : Str) (n : Nat) : Prop := ∃ u v, src = u ++ v ∧ blen u = n

end Adx
