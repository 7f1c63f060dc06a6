import Verif.Spec.Heap
import Verif.Spec.Sequence
import Verif.Model.Matcher
/-
  The shape of token trees: where matched ranges start, that they are not empty, that
  children lie in order inside their parent.
-/
namespace Adx

/-- The tokens `ts` have non-empty matched ranges that follow each other without
overlapping, none before `a`, none behind `b`. -/
inductive InOrder (toks : List Token) : (a : Nat) → (ts : List TokId) → (b : Nat) → Prop
  | nil {a b : Nat} (h : a ≤ b) : InOrder toks a [] b
  | cons {a b : Nat} {t : TokId} {k : Token} {ts : List TokId} (hk : toks[t]? = some k)
      (ha : a ≤ k.matched.start) (hn : k.matched.start < k.matched.stop)
      (hs : InOrder toks k.matched.stop ts b) : InOrder toks a (t :: ts) b

/-- A token of a tidy heap: neither a pin nor an error, inside the source, the captured
range inside the matched range, the children in order inside it, all ends of ranges between
characters. -/
structure Token.Tidy (src : Str) (toks : List Token) (k : Token) : Prop where
  standard : k.kind = .standard
  noError : k.flags &&& IS_ERROR = 0
  start_le : k.matched.start ≤ k.captured.start
  captured_le : k.captured.start ≤ k.captured.stop
  stop_le : k.captured.stop ≤ k.matched.stop
  inside : k.matched.stop ≤ blen src
  kids : InOrder toks k.matched.start k.children k.matched.stop
  chars : (OnChar src k.matched.start ∧ OnChar src k.matched.stop) ∧ OnChar src k.captured.start ∧ OnChar src k.captured.stop

/-- All tokens are tidy. -/
def State.Tidy (src : Str) (s : State) : Prop := ∀ (t : TokId) (k : Token), s.toks[t]? = some k → k.Tidy src s.toks

/-- The token's matched range starts at `a`, is not empty and ends at most at `e`. -/
def TokenAt (a e : Nat) (s : State) (t : TokId) : Prop :=
  ∃ k, s.toks[t]? = some k ∧ k.matched.start = a ∧ a < k.matched.stop ∧ k.matched.stop ≤ e

/-- What a `Break` or `Continue` may carry when it was raised at `a` in a window that
ends at `e`. -/
def Success.Carries (src : Str) (a e : Nat) (s : State) : Success → Prop
  | .token t => TokenAt a e s t
  | .proxyChildren t => TokenAt a e s t
  | .skip n => 0 ≤ n ∧ a + n ≤ e ∧ OnChar src (a + n).toNat
  | .brk _ _ => False
  | .cont _ _ => False
  | .none => True
  | .stop => True

/-- What a matcher may return when it was applied at `a` in a window that ends at `e`. -/
def R.Placed (src : Str) (a e : Nat) (s : State) : R → Prop
  | .ok (.token t) => TokenAt a e s t
  | .ok (.proxyChildren t) => TokenAt a e s t
  | .ok (.skip n) => 0 ≤ n ∧ a + n ≤ e ∧ OnChar src (a + n).toNat
  | .ok (.brk _ d) => d.Carries src a e s
  | .ok (.cont _ d) => d.Carries src a e s
  | .ok .none => False
  | .ok .stop => True
  | .err _ => True

/-- A context for the given source, its window inside the source and between characters, its
stack without dangling references.  If panics are not wanted (`¬ p`), either the source is
ASCII or nothing is printed. -/
structure Ctx.Fits (p : Prop) (P : Parser) (s : State) (c : Ctx) : Prop where
  parser : c.parser = P
  start_le : c.offset.start ≤ c.offset.stop
  stop_le : c.offset.stop ≤ blen P.src
  stack : ∀ t ∈ c.stack, t < s.toks.length
  chars : OnChar P.src c.offset.start ∧ OnChar P.src c.offset.stop
  quiet : p ∨ Ascii P.src ∨ c.debug = 0

/-- Tokens keep their matched ranges. -/
def KeepsRanges (n : Nat) (s s' : State) : Prop :=
  s.toks.length ≤ s'.toks.length ∧ ∀ i, i < n → ∀ k, s.toks[i]? = some k →
    ∃ k', s'.toks[i]? = some k' ∧ k'.matched = k.matched

/-- The contract of the crate `regex`: a match is a piece of the haystack. -/
def Regex.Ok (re : Regex) : Prop :=
  ∀ w a b, re.find w = some (a, b) → ∃ x, TextAt w a b x

/-- Not a variable. -/
def Fetchable.Literal : Fetchable → Prop
  | .fetch _ => False
  | _ => True

/-- A literal string other than the empty one. -/
def Fetchable.NonEmpty : Fetchable → Prop
  | .str s => s ≠ []
  | .fetch _ => False
  | .matcher _ => True

/-- What running a callback may do: a panic only if `p`; otherwise the heap stays tidy,
tokens keep their matched ranges, and the result is as that of a matcher. -/
def Disciplined (p : Prop) (P : Parser) (c : Ctx) (m : M R) : Prop :=
  ∀ s, c.Fits p P s → s.Tidy P.src →
    match m s with
    | .ok r s' => s'.Tidy P.src ∧ KeepsRanges s.toks.length s s' ∧ r.Placed P.src c.offset.start c.offset.stop s'
    | .panic _ => p
    | .diverge => True

/-- Matchers without `Pin` and `Error`.  If panics are not wanted (`¬ p`), arguments are
literals and delimiters are not empty, there are only ASCII characters between them, and
nothing is printed unless the source is ASCII. -/
def Node.Plain (p : Prop) (P : Parser) : Node → Prop
  | .equals _ _ pat => p ∨ pat.Literal
  | .regex _ _ re => re.Ok
  | .sequence _ _ a b e => p ∨ a.NonEmpty ∧ b.NonEmpty ∧ e.Literal ∧
      ∀ start stop esc, a = .str start → b = .str stop → e = .str esc → AsciiBetween P.src start stop esc
  | .debug _ _ => p ∨ Ascii P.src
  | .ref target _ _ => p ∨ target.Literal
  | .catch_ _ f => ∀ c e, Disciplined p P c (f c e)
  | .map _ sf ff => (∀ t c sc s, c.Fits p P s → s.Tidy P.src → TokenAt c.offset.start c.offset.stop s t →
      match sf t c sc s with
      | .ok r s' => s'.Tidy P.src ∧ KeepsRanges s.toks.length s s' ∧
          r.Placed P.src c.offset.start c.offset.stop s'
      | .panic _ => p
      | .diverge => True) ∧ ∀ e c sc, Disciplined p P c (ff e c sc)
  | .pin _ _ _ _ => False
  | .error _ => False
  | _ => True

end Adx
