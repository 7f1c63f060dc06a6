/-
  Strings, byte offsets, number parsing.

  A Rust `String` / `&str` is modelled by its list of Unicode scalar values
  (`Str := List Char`); every byte offset that the Rust code uses is kept as a
  byte offset, computed from the UTF-8 width of the characters.  A byte slice
  `&s[a..b]` that Rust would refuse (out of bounds, or cutting a character in
  two) is `none`.
-/
namespace Adx

/-- Rust `String`/`&str` (std): a sequence of Unicode scalar values. -/
abbrev Str := List Char

/-- `str::len()` (std): the length in *bytes* of the UTF-8 encoding. -/
def blen : Str → Nat
  | [] => 0
  | c :: cs => c.utf8Size + blen cs

/-- `&s[n..]` (std slicing): the suffix after `n` bytes; `none` where Rust
panics, i.e. `n` is past the end or is not a char boundary. -/
def bdrop : Nat → Str → Option Str
  | 0, s => some s
  | _ + 1, [] => none
  | n + 1, c :: cs =>
    if c.utf8Size ≤ n + 1 then bdrop (n + 1 - c.utf8Size) cs else none
  termination_by structural _ s => s

/-- `&s[..n]` (std slicing); `none` where Rust panics. -/
def btake : Nat → Str → Option Str
  | 0, _ => some []
  | _ + 1, [] => none
  | n + 1, c :: cs =>
    if c.utf8Size ≤ n + 1 then (btake (n + 1 - c.utf8Size) cs).map (c :: ·) else none
  termination_by structural _ s => s

/-- `&s[a..b]` (std slicing); `none` where Rust panics (`a > b`, out of bounds,
not on char boundaries). -/
def bslice (s : Str) (a b : Nat) : Option Str :=
  if a ≤ b then (bdrop a s).bind (btake (b - a)) else none

/-- `substring::Substring::substring` (crate `substring` 1.4.5), used by
`src/source_range.rs:20-26`.  Note: it counts *characters*, not bytes, clamps at
the end of the string, and is empty when `b <= a`. -/
def substring (s : Str) (a b : Nat) : Str :=
  if b ≤ a then [] else (s.drop a).take (b - a)

/-- `usize::MAX` on a 64-bit target (std). -/
def usizeMax : Nat := 18446744073709551615

/-- `isize::MAX` on a 64-bit target (std). -/
def isizeMax : Nat := 9223372036854775807

/-- Value of a run of ASCII digits, most significant first. -/
def digitsVal (ds : Str) : Nat :=
  ds.foldl (fun n c => 10 * n + (c.toNat - '0'.toNat)) 0

/-- `str::parse::<usize>()` (std `from_str_radix` with radix 10): an optional
leading `+`, then at least one ASCII digit and nothing else; `none` on overflow. -/
def parseUsize (s : Str) : Option Nat :=
  let ds := match s with
    | '+' :: t => t
    | _ => s
  if ds = [] then none
  else if ds.all Char.isDigit then
    let n := digitsVal ds
    if n ≤ usizeMax then some n else none
  else none

/-- `format!("{}", n)` for a `usize` (std). -/
def natStr (n : Nat) : Str := Nat.toDigits 10 n

/-- `s.split(".").collect()` (std), used at `src/matchers/fetch.rs:18`. -/
def splitDot : Str → List Str
  | [] => [[]]
  | '.' :: cs => [] :: splitDot cs
  | c :: cs =>
    match splitDot cs with
    | [] => [[c]]
    | p :: ps => (c :: p) :: ps

/-- `s.split("..").collect()` (std), used at `src/matchers/pin.rs:333`. -/
def splitDotDot : Str → List Str
  | [] => [[]]
  | '.' :: '.' :: cs => [] :: splitDotDot cs
  | c :: cs =>
    match splitDotDot cs with
    | [] => [[c]]
    | p :: ps => (c :: p) :: ps

/-- `HashMap<String, V>` (std) as an association list without duplicate keys.
Iteration order of the real map is unspecified; the model only iterates where
the result does not depend on it. -/
abbrev AMap (V : Type) := List (Str × V)

namespace AMap
variable {V : Type}

/-- `HashMap::get` (std). -/
def get (m : AMap V) (k : Str) : Option V :=
  match m with
  | [] => none
  | (k', v) :: m => if k' = k then some v else get m k

/-- `HashMap::insert` (std), the new map. -/
def insert (m : AMap V) (k : Str) (v : V) : AMap V :=
  match m with
  | [] => [(k, v)]
  | (k', v') :: m => if k' = k then (k, v) :: m else (k', v') :: insert m k v

end AMap

end Adx
