import Verif.Model.Context
/-
  What an offset text of a `Pin` means.
-/
namespace Adx

/-- The value of one digit. -/
def digitOf (ch : Char) : Nat := ch.toNat - 48

/-- `ds` is a decimal numeral (leading zeros allowed) for `n`. -/
inductive Numeral : Str → Nat → Prop
  | digit {ch : Char} : ch.isDigit = true → Numeral [ch] (digitOf ch)
  | more {ds : Str} {n : Nat} {ch : Char} : Numeral ds n → ch.isDigit = true →
      Numeral (ds ++ [ch]) (10 * n + digitOf ch)

/-- One bound of a window. -/
inductive Off
  /-- left as it is -/
  | same
  /-- this offset -/
  | abs (n : Nat)
  /-- so much after -/
  | plus (n : Nat)
  /-- so much before -/
  | minus (n : Nat)

/-- How bounds are written.  `+0` and `-0` leave the bound as it is (for the end of a
window this is not the same as nothing after its start).  A number that follows a sign
may have another plus sign. -/
inductive Spells : Str → Off → Prop
  | empty : Spells [] .same
  | plusOnly : Spells ['+'] .same
  | minusOnly : Spells ['-'] .same
  | plusZero : Spells ['+', '0'] .same
  | minusZero : Spells ['-', '0'] .same
  | abs {ds : Str} {n : Nat} : Numeral ds n → Spells ds (.abs n)
  | plus {ds : Str} {n : Nat} : Numeral ds n → ds ≠ ['0'] → Spells ('+' :: ds) (.plus n)
  | minus {ds : Str} {n : Nat} : Numeral ds n → ds ≠ ['0'] → Spells ('-' :: ds) (.minus n)
  | plusPlus {ds : Str} {n : Nat} : Numeral ds n → Spells ('+' :: '+' :: ds) (.plus n)
  | minusPlus {ds : Str} {n : Nat} : Numeral ds n → Spells ('-' :: '+' :: ds) (.minus n)

/-- The offset that a bound denotes: `base` is what it is relative to, `old` the bound
to be kept.  Without overflow checks, arithmetic wraps around. -/
inductive Off.Denotes (cfg : Cfg) (base old : Nat) : Off → Nat → Prop
  | same : Denotes cfg base old .same old
  | abs {n : Nat} : n < 2 ^ 64 → Denotes cfg base old (.abs n) n
  | plus {n v : Nat} : n < 2 ^ 64 → v < 2 ^ 64 → v = base + n → Denotes cfg base old (.plus n) v
  | minus {n v : Nat} : n < 2 ^ 64 → v + n = base → Denotes cfg base old (.minus n) v
  | plusWraps {n v : Nat} : cfg.overflowChecks = false → n < 2 ^ 64 → 2 ^ 64 ≤ base + n →
      v + 2 ^ 64 = base + n → Denotes cfg base old (.plus n) v
  | minusWraps {n v : Nat} : cfg.overflowChecks = false → n < 2 ^ 64 → base < n →
      v + n = base + 2 ^ 64 → Denotes cfg base old (.minus n) v

/-- The text of a `Pin` offset: a start, or a start and an end separated by `..`. -/
inductive PinText : Str → Off → Off → Prop
  | start {a : Str} {oa : Off} : Spells a oa → PinText a oa .same
  | both {a b : Str} {oa ob : Off} : Spells a oa → Spells b ob →
      PinText (a ++ "..".toList ++ b) oa ob

/-- The window that a start and an end select from an old window.  A relative end
counts from the new start. -/
def Selects (cfg : Cfg) (oa ob : Off) (old new : Range) : Prop :=
  oa.Denotes cfg old.start old.start new.start ∧ ob.Denotes cfg new.start old.stop new.stop

end Adx
