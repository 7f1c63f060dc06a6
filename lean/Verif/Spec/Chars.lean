import Verif.Model.Exec
/-
  The text of a range, character by character, and well-behaved user callbacks.
-/
namespace Adx

/-- The characters whose first byte lies in `a ..< b`, for a text that starts at byte
`pos`. -/
def charsIn (a b : Nat) : Nat → Str → Str
  | _, [] => []
  | pos, c :: cs =>
    if a ≤ pos ∧ pos < b then c :: charsIn a b (pos + c.utf8Size) cs
    else charsIn a b (pos + c.utf8Size) cs

/-- What a user reads as the text of a token is the text of the source at its ranges. -/
def Token.Faithful (p : Parser) (k : Token) : Prop :=
  k.parser = p ∧
  k.getCapturedValue = charsIn k.captured.start k.captured.stop 0 p.src ∧
  k.getMatchedValue = charsIn k.matched.start k.matched.stop 0 p.src

/-- `w` consists of the characters number `r.start` up to `r.stop` (not included) of `src`, as
far as there are any.  Characters are counted from 0, whatever their size. -/
def CharsNumbered (src : Str) (r : Range) (w : Str) : Prop :=
  ∀ i, w[i]? = if r.start + i < r.stop then src[r.start + i]? else none

/-- The text of a token is cut by counting characters up to the byte offsets of its ranges. -/
def Token.Counted (p : Parser) (k : Token) : Prop :=
  k.parser = p ∧ CharsNumbered p.src k.captured k.getCapturedValue ∧
  CharsNumbered p.src k.matched k.getMatchedValue

/-- A change of a token through its setters (`adextopa_macros/src/lib.rs`), leaving
the text setters and the `__value` attributes of `Pin` tokens out. -/
inductive Edit
  | captured (r : Range)
  | matched (r : Range)
  | name (n : Str)
  | attribute (k v : Str)
  | flags (f : Flags)
  | enableFlags (f : Flags)
  | disableFlags (f : Flags)
  | value (v : Str)
  | parent (p : Option TokId)
  | children (l : List TokId)

/-- Carry out the change. -/
def Edit.apply : Edit → Token → Token
  | .captured r, k => k.setCaptured r
  | .matched r, k => k.setMatched r
  | .name n, k => k.setName n
  | .attribute a v, k => k.setAttribute a v
  | .flags f, k => k.setFlags f
  | .enableFlags f, k => k.enableFlags f
  | .disableFlags f, k => k.disableFlags f
  | .value v, k => k.setValue v
  | .parent p, k => { k with parent := p }
  | .children l, k => { k with children := l }

/-- Callbacks that read tokens and variables, create standard tokens of the source `p`,
change standard tokens through their setters, and bind variables. -/
inductive Polite (p : Parser) : {α : Type} → M α → Prop
  | pure {α : Type} (a : α) : Polite p (pure a : M α)
  | bind {α β : Type} {x : M α} {f : α → M β} : Polite p x → (∀ a, Polite p (f a)) → Polite p (x >>= f)
  | panic {α : Type} (e : String) : Polite p (M.panic e : M α)
  | read (t : TokId) : Polite p (getTok t)
  | new (name : Str) (c m : Range) (es : List Edit) :
      Polite p (newTok (es.foldl (fun k e => e.apply k) (Token.mkMatched p name c m)))
  | edit (t : TokId) (e : Edit) :
      Polite p (modTok t (fun k => if k.kind = .standard then e.apply k else k))
  | lookup (sc : SCtxId) (k : Str) : Polite p (lookupVar sc k)
  | set (sc : SCtxId) (k : Str) (v : Var) : Polite p (bindVar sc k v)

/-- All callbacks of a matcher are of this kind. -/
def Node.Polite (p : Parser) : Node → Prop
  | .catch_ _ f => ∀ c e, c.parser = p → Adx.Polite p (f c e)
  | .map _ sf ff => (∀ t c sc, c.parser = p → Adx.Polite p (sf t c sc)) ∧
      (∀ e c sc, c.parser = p → Adx.Polite p (ff e c sc))
  | _ => True

end Adx
