import Verif.Model.Matcher
/-
  A big-step semantics of programs, switches and loops over arbitrary behaviours of
  their parts.  It knows nothing of contexts; a program remembers where it reads, which
  children it has, and the lists of the ranges it has to cover.
-/
namespace Adx

/-- Behaviour of the parts: part, read position, heap before, result, heap after. -/
abbrev Behav := MatcherId → Nat → State → R → State → Prop

/-- What a program has collected so far: read position, children, and the ranges that
its captured and matched range have to cover. -/
structure Acc where
  pos : Nat
  kids : List TokId
  caps : List Range
  mats : List Range
deriving DecidableEq, Repr

/-- Smallest start of the ranges (the largest machine word if there is none). -/
def lowest : List Range → Nat
  | [] => usizeMax
  | r :: rs => min r.start (lowest rs)

/-- Largest end of the ranges (zero if there is none). -/
def highest : List Range → Nat
  | [] => 0
  | r :: rs => max r.stop (highest rs)

/-- The range spanned by a list of ranges. -/
def span (l : List Range) : Range := ⟨lowest l, highest l⟩

/-- Replace a token of the heap. -/
def State.put (s : State) (t : TokId) (k : Token) : State := { s with toks := s.toks.set t k }

/-- The token as a child of `prog`.  An error token of width zero is stretched back to
the start `lo` of what the program has matched. -/
def Token.adopted (k : Token) (prog : TokId) (lo : Nat) : Token :=
  if k.flags &&& IS_ERROR ≠ 0 ∧ k.matched.start = k.matched.stop then
    { (k.setCaptured ⟨lo, k.matched.stop⟩).setMatched ⟨lo, k.matched.stop⟩ with parent := some prog }
  else { k with parent := some prog }

namespace Acc

/-- Cover a token and continue reading behind it. -/
def cover (a : Acc) (k : Token) : Acc :=
  { a with pos := k.matched.stop, caps := a.caps ++ [k.captured], mats := a.mats ++ [k.matched] }

/-- Add a child; only a consuming part also moves the read position and the ranges. -/
def add (a : Acc) (con : Bool) (t : TokId) (k : Token) : Acc :=
  let a := if con then a.cover k else a
  { a with kids := a.kids ++ [t] }

/-- Continue reading at `n`; the program matches everything from its own start. -/
def jump (a : Acc) (start n : Nat) : Acc :=
  { a with pos := n, mats := a.mats ++ [⟨start, n⟩] }

end Acc

/-- Moving the read position by `n` in machine words. -/
def Moves (cfg : Cfg) (pos : Nat) (n : Int) (pos' : Nat) : Prop :=
  (pos' : Int) = (pos + n) % 2 ^ 64 ∧ (cfg.overflowChecks → (pos : Int) + n % 2 ^ 64 < 2 ^ 64)

/-- Splicing a list of tokens: those that are not pins are added one by one. -/
inductive Splices (prog : TokId) (con : Bool) : List TokId → Acc → State → Acc → State → Prop
  | nil {a s} : Splices prog con [] a s a s
  | pin {t ts k a s a' s'} (hk : s.toks[t]? = some k) (hp : k.kind = .pin)
      (h : Splices prog con ts a s a' s') : Splices prog con (t :: ts) a s a' s'
  | kid {t ts k a s a' s'} (hk : s.toks[t]? = some k) (hp : k.kind = .standard)
      (h : Splices prog con ts (a.add con t (k.adopted prog (lowest a.mats)))
        (s.put t (k.adopted prog (lowest a.mats))) a' s') : Splices prog con (t :: ts) a s a' s'

/-- Taking up the success of a part. -/
inductive Takes (cfg : Cfg) (prog : TokId) (start : Nat) (con : Bool) :
    Success → Acc → State → Acc → State → Prop
  /-- A token becomes a child.  A consuming part must have moved forward. -/
  | token {t k a s} (hk : s.toks[t]? = some k) (hp : k.kind = .standard)
      (hf : con = true → k.flags &&& IS_ERROR = 0 → k.matched.stop ≠ a.pos) :
      Takes cfg prog start con (.token t) a s (a.add con t (k.adopted prog (lowest a.mats)))
        (s.put t (k.adopted prog (lowest a.mats)))
  /-- A pin is dropped. -/
  | pin {t k a s x} (hx : x = .token t ∨ x = .proxyChildren t) (hk : s.toks[t]? = some k)
      (hp : k.kind = .pin) : Takes cfg prog start con x a s a s
  /-- The children of a proxied token are spliced in. -/
  | proxy {t k a s a' s'} (hk : s.toks[t]? = some k) (hp : k.kind = .standard)
      (h : Splices prog con k.children (if con then a.cover k else a) s a' s') :
      Takes cfg prog start con (.proxyChildren t) a s a' s'
  /-- A consuming part skipped text. -/
  | skip {n pos' a s} (hc : con = true) (h : Moves cfg a.pos n pos') :
      Takes cfg prog start con (.skip n) a s (a.jump start pos') s
  /-- A skip of a part that does not consume is ignored. -/
  | idle {n a s} (hc : con = false) : Takes cfg prog start con (.skip n) a s a s

/-- Taking up the payload of a `Break` or `Continue`: as from a consuming part, but it
need not move forward, and pins are not dropped. -/
inductive TakesPayload (cfg : Cfg) (prog : TokId) (start : Nat) :
    Success → Acc → State → Acc → State → Prop
  | token {t k a s} (hk : s.toks[t]? = some k) :
      TakesPayload cfg prog start (.token t) a s
        (a.add (k.kind == .standard) t (k.adopted prog (lowest a.mats)))
        (s.put t (k.adopted prog (lowest a.mats)))
  | proxy {t k a s a' s'} (hk : s.toks[t]? = some k)
      (h : Splices prog (k.kind == .standard) k.children
        (if k.kind == .standard then a.cover k else a) s a' s') :
      TakesPayload cfg prog start (.proxyChildren t) a s a' s'
  | skip {n pos' a s} (h : Moves cfg a.pos n pos') :
      TakesPayload cfg prog start (.skip n) a s (a.jump start pos') s
  | other {x a s} (h : (∀ t, x ≠ .token t) ∧ (∀ t, x ≠ .proxyChildren t) ∧ (∀ n, x ≠ .skip n)) :
      TakesPayload cfg prog start x a s a s

/-- How one pass over the parts ends. -/
inductive Out
  /-- All parts were run. -/
  | done (a : Acc)
  /-- A part failed (not in a switch). -/
  | fails (a : Acc)
  /-- A part raised an error. -/
  | raises (e : ParseError)
  /-- A part returned a control action. -/
  | acts (x : Success) (a : Acc)
  /-- A switch found its alternative. -/
  | picks (x : Success)

/-- The successes that end a switch. -/
inductive Chosen : Success → State → Prop
  | token {t k s} (hk : s.toks[t]? = some k) (hp : k.kind = .standard) : Chosen (.token t) s
  | proxy {t k s} (hk : s.toks[t]? = some k) (hp : k.kind = .standard) : Chosen (.proxyChildren t) s
  | skip {n s} (h : 0 < n) : Chosen (.skip n) s

/-- Control actions. -/
inductive Control : Success → Prop
  | brk {n d} : Control (.brk n d)
  | cont {n d} : Control (.cont n d)
  | none : Control .none
  | stop : Control .stop

/-- One pass over the parts; `first` says that it is a switch. -/
inductive Pass (T : Table) (cfg : Cfg) (B : Behav) (prog : TokId) (start : Nat) (first : Bool) :
    List MatcherId → Acc → State → Out → State → Prop
  | nil {a s} : Pass T cfg B prog start first [] a s (.done a) s
  | takes {p ps x a a1 s s1 s2 o s'} (h : B p a.pos s (.ok x) s1)
      (hn : first = true → ¬ Chosen x s1)
      (ht : Takes cfg prog start (T p).isConsuming x a s1 a1 s2)
      (hr : Pass T cfg B prog start first ps a1 s2 o s') :
      Pass T cfg B prog start first (p :: ps) a s o s'
  | picks {p ps x a s s1} (hf : first = true) (h : B p a.pos s (.ok x) s1) (hc : Chosen x s1) :
      Pass T cfg B prog start first (p :: ps) a s (.picks x) s1
  | misses {p ps a s s1 o s'} (hf : first = true) (h : B p a.pos s (.err .fail) s1)
      (hr : Pass T cfg B prog start first ps a s1 o s') :
      Pass T cfg B prog start first (p :: ps) a s o s'
  | fails {p ps a s s1} (hf : first = false) (h : B p a.pos s (.err .fail) s1) :
      Pass T cfg B prog start first (p :: ps) a s (.fails a) s1
  | raises {p ps a s s1 e} (h : B p a.pos s (.err (.error e)) s1) :
      Pass T cfg B prog start first (p :: ps) a s (.raises e) s1
  | acts {p ps a s s1 x} (h : B p a.pos s (.ok x) s1) (hc : Control x) :
      Pass T cfg B prog start first (p :: ps) a s (.acts x a) s1

/-- Handing over what has been collected: nothing is a failure, something becomes the
program's token. -/
inductive Completes (prog : TokId) (a : Acc) (s : State) : R → State → Prop
  | nothing (h : a.kids = [] ∨ lowest a.caps = usizeMax ∨ lowest a.mats = usizeMax) :
      Completes prog a s (.err .fail) s
  | token {k} (h1 : a.kids ≠ []) (h2 : lowest a.caps ≠ usizeMax) (h3 : lowest a.mats ≠ usizeMax)
      (hk : s.toks[prog]? = some k) :
      Completes prog a s (.ok (.token prog)) (s.put prog
        (({ k with children := a.kids }.setCaptured (span a.caps)).setMatched (span a.mats)))

/-- The same at the regular end, where a loop checks its minimum. -/
inductive Ends (prog : TokId) (iter : Option (Nat × Nat)) (count : Nat) (a : Acc) (s : State) :
    R → State → Prop
  | skips {hi} (hi : iter = some (0, hi)) (hc : count = 0) (hk : a.kids = []) :
      Ends prog iter count a s (.ok (.skip 0)) s
  | short {lo hi} (hi : iter = some (lo, hi)) (hc : count < lo) : Ends prog iter count a s (.err .fail) s
  | completes {r s'} (h : ∀ lo hi, iter = some (lo, hi) → lo ≤ count ∧ ¬ (lo = 0 ∧ count = 0 ∧ a.kids = []))
      (hr : Completes prog a s r s') : Ends prog iter count a s r s'

/-- Does a loop of the given name answer to a `Break`/`Continue` of the other name? -/
def Answers (iter : Option (Nat × Nat)) (self called : Str) : Prop :=
  iter ≠ none ∧ (called = self ∨ called = [])

/-- Iterations: `left` may still be started, `count` were completed. -/
inductive Loops (T : Table) (cfg : Cfg) (B : Behav) (prog : TokId) (start : Nat) (self : Str)
    (ps : List MatcherId) (iter : Option (Nat × Nat)) (first : Bool) :
    (left count : Nat) → Acc → State → R → State → Prop
  | over {n a s r s'} (h : Ends prog iter n a s r s') :
      Loops T cfg B prog start self ps iter first 0 n a s r s'
  | next {k n a s a1 s1 r s'} (hp : Pass T cfg B prog start first ps a s (.done a1) s1)
      (hr : Loops T cfg B prog start self ps iter first k (n + 1) a1 s1 r s') :
      Loops T cfg B prog start self ps iter first (k + 1) n a s r s'
  | failsProgram {k n a s a1 s1} (hi : iter = none)
      (hp : Pass T cfg B prog start first ps a s (.fails a1) s1) :
      Loops T cfg B prog start self ps iter first (k + 1) n a s (.err .fail) s1
  | failsLoop {k n a s a1 s1 r s'} (hi : iter ≠ none)
      (hp : Pass T cfg B prog start first ps a s (.fails a1) s1)
      (hc : Completes prog a1 s1 r s') :
      Loops T cfg B prog start self ps iter first (k + 1) n a s r s'
  | raises {k n a s s1 e} (hp : Pass T cfg B prog start first ps a s (.raises e) s1) :
      Loops T cfg B prog start self ps iter first (k + 1) n a s (.err (.error e)) s1
  | picks {k n a s s1 x} (hp : Pass T cfg B prog start first ps a s (.picks x) s1) :
      Loops T cfg B prog start self ps iter first (k + 1) n a s (.ok x) s1
  | stops {k n a s a1 s1 r s'} (hp : Pass T cfg B prog start first ps a s (.acts .stop a1) s1)
      (hc : Ends prog iter n a1 s1 r s') :
      Loops T cfg B prog start self ps iter first (k + 1) n a s r s'
  | switchBreak {k n a s a1 s1 m d} (hf : first = true)
      (hp : Pass T cfg B prog start first ps a s (.acts (.brk m d) a1) s1) :
      Loops T cfg B prog start self ps iter first (k + 1) n a s (.ok (.brk m d)) s1
  | switchContinue {k n a s a1 s1 m d} (hf : first = true)
      (hp : Pass T cfg B prog start first ps a s (.acts (.cont m d) a1) s1) :
      Loops T cfg B prog start self ps iter first (k + 1) n a s (.ok (.brk m d)) s1
  | breakHere {k n a s a1 s1 m d a2 s2 r s'} (hf : first = false)
      (hp : Pass T cfg B prog start first ps a s (.acts (.brk m d) a1) s1)
      (ht : TakesPayload cfg prog start d a1 s1 a2 s2) (hm : Answers iter self m)
      (hc : Completes prog a2 s2 r s') :
      Loops T cfg B prog start self ps iter first (k + 1) n a s r s'
  | breakOut {k n a s a1 s1 m d a2 s2 x s'} (hf : first = false)
      (hp : Pass T cfg B prog start first ps a s (.acts (.brk m d) a1) s1)
      (ht : TakesPayload cfg prog start d a1 s1 a2 s2) (hm : ¬ Answers iter self m)
      (hc : Completes prog a2 s2 (.ok x) s') :
      Loops T cfg B prog start self ps iter first (k + 1) n a s (.ok (.brk m x)) s'
  | breakNothing {k n a s a1 s1 m d a2 s2 e s'} (hf : first = false)
      (hp : Pass T cfg B prog start first ps a s (.acts (.brk m d) a1) s1)
      (ht : TakesPayload cfg prog start d a1 s1 a2 s2) (hm : ¬ Answers iter self m)
      (hc : Completes prog a2 s2 (.err e) s') :
      Loops T cfg B prog start self ps iter first (k + 1) n a s (.err e) s'
  | continueHere {k n a s a1 s1 m d a2 s2 r s'} (hf : first = false)
      (hp : Pass T cfg B prog start first ps a s (.acts (.cont m d) a1) s1)
      (ht : TakesPayload cfg prog start d a1 s1 a2 s2) (hm : Answers iter self m)
      (hr : Loops T cfg B prog start self ps iter first k (n + 1) a2 s2 r s') :
      Loops T cfg B prog start self ps iter first (k + 1) n a s r s'
  | continueElse {k n a s a1 s1 m d a2 s2 r s'} (hf : first = false)
      (hp : Pass T cfg B prog start first ps a s (.acts (.cont m d) a1) s1)
      (ht : TakesPayload cfg prog start d a1 s1 a2 s2) (hm : ¬ Answers iter self m)
      (hc : Completes prog a2 s2 r s') :
      Loops T cfg B prog start self ps iter first (k + 1) n a s r s'

/-- How often the parts may be run. -/
def maxPasses : Option (Nat × Nat) → Nat
  | none => 1
  | some (lo, hi) => hi - lo

/-- Nothing collected yet, reading at `n`. -/
def Acc.start (n : Nat) : Acc := ⟨n, [], [], []⟩

/-- The heap with the new token of a program. -/
def State.withProgram (s : State) (p : Parser) (name : Str) : State :=
  { s with toks := s.toks ++ [Token.mk' p name ⟨0, 0⟩] }

/-- A program, switch or loop as a whole: it allocates its token `prog`, then iterates. -/
def ProgramRuns (T : Table) (cfg : Cfg) (B : TokId → Behav) (parser : Parser) (start : Nat)
    (self : Str) (ps : List MatcherId) (iter : Option (Nat × Nat)) (first : Bool)
    (s : State) (r : R) (s' : State) : Prop :=
  Loops T cfg (B s.toks.length) s.toks.length start self ps iter first (maxPasses iter) 0
    (.start start) (s.withProgram parser self) r s'

/-- Alternatives that all fail, each tried at the same position. -/
inductive AllFail (B : Behav) (pos : Nat) : List MatcherId → State → State → Prop
  | nil {s} : AllFail B pos [] s s
  | cons {p ps s s1 s'} (h : B p pos s (.err .fail) s1) (hr : AllFail B pos ps s1 s') :
      AllFail B pos (p :: ps) s s'

/-- `n` completed rounds of a loop: passes that ran all parts, or ended in a `Continue`
addressed to this loop. -/
inductive Rounds (T : Table) (cfg : Cfg) (B : Behav) (prog : TokId) (start : Nat) (self : Str)
    (ps : List MatcherId) (iter : Option (Nat × Nat)) : Nat → Acc → State → Acc → State → Prop
  | zero {a s} : Rounds T cfg B prog start self ps iter 0 a s a s
  | next {n a s a1 s1 a' s'} (hp : Pass T cfg B prog start false ps a s (.done a1) s1)
      (hr : Rounds T cfg B prog start self ps iter n a1 s1 a' s') :
      Rounds T cfg B prog start self ps iter (n + 1) a s a' s'
  | cont {n a s b d a1 s1 a2 s2 a' s'} (hp : Pass T cfg B prog start false ps a s (.acts (.cont b d) a1) s1)
      (ht : TakesPayload cfg prog start d a1 s1 a2 s2) (hm : Answers iter self b)
      (hr : Rounds T cfg B prog start self ps iter n a2 s2 a' s') :
      Rounds T cfg B prog start self ps iter (n + 1) a s a' s'

/-- How a loop ends in a round that is not completed. -/
inductive LastRound (T : Table) (cfg : Cfg) (B : Behav) (prog : TokId) (start : Nat) (self : Str)
    (ps : List MatcherId) (iter : Option (Nat × Nat)) (n : Nat) (a : Acc) (s : State) : R → State → Prop
  /-- A part failed: what has been collected is handed over. -/
  | fails {a1 s1 r s'} (hp : Pass T cfg B prog start false ps a s (.fails a1) s1)
      (hc : Completes prog a1 s1 r s') : LastRound T cfg B prog start self ps iter n a s r s'
  | raises {e s1} (hp : Pass T cfg B prog start false ps a s (.raises e) s1) :
      LastRound T cfg B prog start self ps iter n a s (.err (.error e)) s1
  | stops {a1 s1 r s'} (hp : Pass T cfg B prog start false ps a s (.acts .stop a1) s1)
      (hc : Ends prog iter n a1 s1 r s') : LastRound T cfg B prog start self ps iter n a s r s'
  /-- A `Break` for this loop. -/
  | breakHere {b d a1 s1 a2 s2 r s'} (hp : Pass T cfg B prog start false ps a s (.acts (.brk b d) a1) s1)
      (ht : TakesPayload cfg prog start d a1 s1 a2 s2) (hm : Answers iter self b)
      (hc : Completes prog a2 s2 r s') : LastRound T cfg B prog start self ps iter n a s r s'
  /-- A `Break` for another loop: handed on, with what has been collected. -/
  | breakOut {b d a1 s1 a2 s2 r s'} (hp : Pass T cfg B prog start false ps a s (.acts (.brk b d) a1) s1)
      (ht : TakesPayload cfg prog start d a1 s1 a2 s2) (hm : ¬ Answers iter self b)
      (hc : Completes prog a2 s2 r s') : LastRound T cfg B prog start self ps iter n a s
        (match r with | .ok y => .ok (.brk b y) | .err e => .err e) s'
  /-- A `Continue` for another loop: it is dropped. -/
  | contElse {b d a1 s1 a2 s2 r s'} (hp : Pass T cfg B prog start false ps a s (.acts (.cont b d) a1) s1)
      (ht : TakesPayload cfg prog start d a1 s1 a2 s2) (hm : ¬ Answers iter self b)
      (hc : Completes prog a2 s2 r s') : LastRound T cfg B prog start self ps iter n a s r s'

end Adx
