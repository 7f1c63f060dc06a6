import Verif.Model.Matcher
/-
  How matchers are put together: which matcher takes a name, and what a matcher is when
  one of its parts is replaced.
-/
namespace Adx

/-- `nd` only changes what the matcher `x` does; it has no name of its own. -/
inductive Wraps (x : MatcherId) : Node → Prop
  | optional : Wraps x (.optional x)
  | not : Wraps x (.not x)
  | discard : Wraps x (.discard x)
  | expandRange : Wraps x (.expandRange x)
  | catch_ {f} : Wraps x (.catch_ x f)
  | map {sf ff} : Wraps x (.map x sf ff)
  | setScope {sc} : Wraps x (.setScope sc x)
  | debug {d} : Wraps x (.debug (some x) d)

/-- The matchers whose names are fixed, and these names.  Two of them are not what one
would expect. -/
inductive KnownAs : Node → String → Prop
  | optional {x} : KnownAs (.optional x) "Optional"
  | not {x} : KnownAs (.not x) "Not"
  | discard {x} : KnownAs (.discard x) "Discard"
  | expandRange {x} : KnownAs (.expandRange x) "Catch"
  | catch_ {x f} : KnownAs (.catch_ x f) "Catch"
  | map {x sf ff} : KnownAs (.map x sf ff) "Map"
  | register {ps} : KnownAs (.register ps) "Register"
  | setScope {sc x} : KnownAs (.setScope sc x) "SetScope"
  | debug {x d} : KnownAs (.debug x d) "Debug"
  | brk {n} : KnownAs (.brk n) "Break"
  | null : KnownAs .null "Null"
  | panic {e} : KnownAs (.panic e) "Error"
  | error {e} : KnownAs (.error e) "Error"

/-- The innermost matcher of `m` below all wrappers is `i`. -/
inductive Innermost (ns : List Node) : MatcherId → MatcherId → Prop
  | here {m nd} (h : ns[m]? = some nd) (hn : ∀ x, ¬ Wraps x nd) : Innermost ns m m
  | wrap {m nd x i} (h : ns[m]? = some nd) (hw : Wraps x nd) (hi : Innermost ns x i) : Innermost ns m i

/-- `nd'` is `nd` with the name `n`.  A name that is the one of the type of matcher does
not count as a name that was given. -/
inductive Called (n : Str) : Node → Node → Prop
  | equals {n0 c0 p c} (hc : c = true ↔ n ≠ "Equals".toList) : Called n (.equals n0 c0 p) (.equals n c p)
  | regex {n0 c0 r c} (hc : c = true ↔ n ≠ "Matches".toList) : Called n (.regex n0 c0 r) (.regex n c r)
  | sequence {n0 c0 a b e c} (hc : c = true ↔ n ≠ "Sequence".toList) :
      Called n (.sequence n0 c0 a b e) (.sequence n c a b e)
  | pin {m o n0 c0 c} (hc : c = true ↔ n ≠ "Pin".toList) : Called n (.pin m o n0 c0) (.pin m o n c)
  | program {ps n0 c0 i f} : Called n (.program ps n0 c0 i f) (.program ps n true i f)
  | proxyChildren {m n0 c0} : Called n (.proxyChildren m n0 c0) (.proxyChildren m n true)
  | store {m n0 c0} : Called n (.store m n0 c0) (.store m n true)
  | storeStr {v n0 c0} : Called n (.storeStr v n0 c0) (.storeStr v n true)
  | ref {t n0 c0} : Called n (.ref t n0 c0) (.ref t n true)
  | fetch {n0} : Called n (.fetch n0) (.fetch n)
  /-- These have no name. -/
  | register {ps} : Called n (.register ps) (.register ps)
  | debug {d} : Called n (.debug none d) (.debug none d)
  | brk {l} : Called n (.brk l) (.brk l)
  | null : Called n .null .null
  | panic {msg} : Called n (.panic msg) (.panic msg)
  | error {msg} : Called n (.error msg) (.error msg)

/-- `nd'` is `nd` with `x` in place of the part of number `i`. -/
inductive Replaced (x : MatcherId) : Nat → Node → Node → Prop
  | program {ps qs y n c it f} :
      Replaced x ps.length (.program (ps ++ y :: qs) n c it f) (.program (ps ++ x :: qs) n c it f)
  | proxyChildren {m n c} : Replaced x 0 (.proxyChildren m n c) (.proxyChildren x n c)
  | debug {m d} : Replaced x 0 (.debug m d) (.debug (some x) d)
  | optional {m} : Replaced x 0 (.optional m) (.optional x)
  | not {m} : Replaced x 0 (.not m) (.not x)
  | discard {m} : Replaced x 0 (.discard m) (.discard x)
  | expandRange {m} : Replaced x 0 (.expandRange m) (.expandRange x)
  | catch_ {m f} : Replaced x 0 (.catch_ m f) (.catch_ x f)
  | map {m sf ff} : Replaced x 0 (.map m sf ff) (.map x sf ff)
  | setScope {sc m} : Replaced x 0 (.setScope sc m) (.setScope sc x)

/-- `nd` is made of the matchers `ps`, in this order. -/
inductive MadeOf : List MatcherId → Node → Prop
  | program {ps n c it f} : MadeOf ps (.program ps n c it f)
  | register {ps} : MadeOf ps (.register ps)
  | wraps {x nd} (h : Wraps x nd) : MadeOf [x] nd
  | proxyChildren {m n c} : MadeOf [m] (.proxyChildren m n c)
  | store {m n c} : MadeOf [m] (.store m n c)
  | pin {m o n c} : MadeOf [m] (.pin (some m) o n c)

end Adx
