import Verif.Model.Build
import Verif.Spec.Offset
/-
  The texts of repeat specifiers.
-/
namespace Adx

/-- Blanks of ASCII texts: spaces, tabs, vertical tabs and form feeds. -/
def Blanks (w : Str) : Prop := ∀ c ∈ w, c.toNat = 32 ∨ c.toNat = 9 ∨ c.toNat = 11 ∨ c.toNat = 12

/-- The text of a repeat specifier and the iteration range that it is given. -/
inductive RepeatText : Str → Nat → Nat → Prop
  | any : RepeatText ['*'] 0 usizeMax
  | some : RepeatText ['+'] 1 usizeMax
  /-- `{n,}` -/
  | atLeast {b1 ds b2 b3 : Str} {n : Nat} (h1 : Blanks b1) (hn : Numeral ds n) (hb : n ≤ usizeMax) (h2 : Blanks b2)
      (h3 : Blanks b3) : RepeatText ('{' :: (b1 ++ ds ++ b2 ++ ',' :: (b3 ++ ['}']))) n usizeMax
  /-- `{n,m}` -/
  | between {b1 ds b2 b3 es b4 : Str} {n m : Nat} (h1 : Blanks b1) (hn : Numeral ds n) (h2 : Blanks b2) (h3 : Blanks b3)
      (hm : Numeral es m) (hb : m ≤ usizeMax) (h4 : Blanks b4) (hle : n ≤ m) :
      RepeatText ('{' :: (b1 ++ ds ++ b2 ++ ',' :: (b3 ++ es ++ b4 ++ ['}']))) n m
  /-- `{n}`.  *Sic*: up to `n` times. -/
  | upTo {b1 ds b2 : Str} {n : Nat} (h1 : Blanks b1) (hn : Numeral ds n) (hb : n ≤ usizeMax) (h2 : Blanks b2) :
      RepeatText ('{' :: (b1 ++ ds ++ b2 ++ ['}'])) 0 n
  /-- `{n m}`.  *Sic*: the second number is ignored. -/
  | sloppy {b1 ds b2 es b3 : Str} {n m : Nat} (h1 : Blanks b1) (hn : Numeral ds n) (hb : n ≤ usizeMax) (h2 : Blanks b2)
      (hne : b2 ≠ []) (hm : Numeral es m) (h3 : Blanks b3) :
      RepeatText ('{' :: (b1 ++ ds ++ b2 ++ es ++ b3 ++ ['}'])) 0 n

/-- `m` is what the builder made in the table `T`. -/
def Made (T : Table) (x : B MatcherId) (m : MatcherId) : Prop :=
  ∃ ns0 ns1, x ns0 = (m, ns1) ∧ ∀ (i : Nat) n, ns0.length ≤ i → ns1[i]? = some n → T i = n

end Adx
