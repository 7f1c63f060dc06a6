import Verif.Model.Matcher
/-
  Execution: `Matcher::exec` of every matcher (`src/matchers/*.rs`), and
  `ParserContext::tokenize`.
-/
namespace Adx

/-- `Fetchable::fetch_value` (`src/matchers/fetch.rs:15-99`). -/
def fetchValue (f : Fetchable) (sc : SCtxId) : M (Str ⊕ MatcherId) :=
  match f with
  | .str s => pure (.inl s)
  | .matcher m => pure (.inr m)
  | .fetch name => do
    let path := splitDot name
    let v ← lookupVar sc (path.headD [])
    match v with
    | none => M.panic "Invalid variable reference: Not found"
    | some (.matcher m) => pure (.inr m)
    | some (.str s) =>
      if path.length > 1 then M.panic "Invalid variable reference on a String reference"
      else pure (.inl s)
    | some (.token t) =>
      match path with
      | [_, sub] => do
        let tk ← getTok t
        if sub = "captured_value".toList then pure (.inl tk.getValue)
        else if sub = "matched_value".toList then pure (.inl tk.getMatchedValue)
        else if sub = "start".toList then pure (.inl (natStr tk.matched.start))
        else if sub = "end".toList then pure (.inl (natStr tk.matched.stop))
        else if sub = "captured_start".toList then pure (.inl (natStr tk.captured.start))
        else if sub = "captured_end".toList then pure (.inl (natStr tk.captured.stop))
        else if sub = "range".toList then
          pure (.inl (natStr tk.matched.start ++ "..".toList ++ natStr tk.matched.stop))
        else if sub = "captured_range".toList then
          pure (.inl (natStr tk.captured.start ++ "..".toList ++ natStr tk.captured.stop))
        else M.panic "Invalid variable reference on a Token reference"
      | _ => M.panic "Invalid variable reference on a Token reference"

/-- Evaluation of `debug_range` for a debug print: in debug mode the slice is
computed, and may panic. -/
def dbg (c : Ctx) (len : Nat) : M Unit :=
  if c.debug > 0 then
    match c.debugRange len with
    | some _ => pure ()
    | none => M.panic "debug_range: slice"
  else pure ()

/-- `EqualsPattern::_exec` (`src/matchers/equals.rs:59-122`). -/
def execEquals (name : Str) (pat : Fetchable) (ctx : Ctx) (sc : SCtxId) : M R := do
  let c := ctx.withName name
  match ← fetchValue pat sc with
  | .inl s => do
    match ← M.ofOpt "matches_str: slice" (c.matchesStr s) with
    | some r => do
      dbg c 10
      let t ← newTok (Token.mk' c.parser name r)
      pure (.ok (.token t))
    | none => do
      dbg c 10
      pure (.err .fail)
  | .inr _ =>
    pure (.err (.error ⟨"`Equals` (".toList ++ name ++
      ") matcher received another matcher as a pattern... this makes no sense... aborting...".toList,
      none⟩))

/-- `MatchesPattern::_exec` (`src/matchers/matches.rs:35-104`). -/
def execMatches (name : Str) (re : Regex) (ctx : Ctx) : M R := do
  let c := ctx.withName name
  match ← M.ofOpt "matches_regexp: slice" (c.matchesRegexp re) with
  | some r =>
    if r.start = r.stop then do
      dbg c 10
      pure (.ok (.skip 0))
    else do
      let t ← newTok (Token.mk' c.parser name r)
      pure (.ok (.token t))
  | none => do
    dbg c 10
    pure (.err .fail)

/-- What the scanning loop of `Sequence` finds. -/
inductive SeqOut
  /-- The terminator was found; `index` is the offset just after it. -/
  | found (index : Nat) (parts : List Str)
  /-- End of the window reached. -/
  | fail
  /-- A slice panicked. -/
  | panic
deriving DecidableEq, Repr

/-- `if previous_index < index { parts.push(&source[previous_index..index]) }`
(`src/matchers/sequence.rs:172-174,214-216`); `none` is a panic. -/
def seqPush (src : Str) (previous index : Nat) (parts : List Str) : Option (List Str) :=
  if previous < index then
    match bslice src previous index with
    | some p => some (parts ++ [p])
    | none => none
  else some parts

/-- The scanning loop of `SequencePattern::_exec`
(`src/matchers/sequence.rs:147-227`).  The first argument is a bound on the
number of iterations: called with `offset.end - scan_start` it never runs out,
since every iteration advances `index` (`Verif/Proofs/Sequence.lean`). -/
def seqLoop (c : Ctx) (endP escP : Str) : Nat → (index previous : Nat) → List Str → SeqOut
  | 0, _, _, _ => .fail
  | k + 1, index, previous, parts =>
    if index ≥ c.offset.stop then .fail
    else
      match c.matchesStrAt endP index with
      | none => .panic
      | some (some r) =>
        match seqPush c.parser.src previous index parts with
        | none => .panic
        | some parts => .found r.stop parts
      | some none =>
        match c.matchesStrAt escP index with
        | none => .panic
        | some (some r) =>
          match seqPush c.parser.src previous index parts with
          | none => .panic
          | some parts => seqLoop c endP escP k (r.stop + 1) r.stop parts
        | some none => seqLoop c endP escP k (index + 1) previous parts

/-- Message of the three `Sequence` argument errors
(`src/matchers/sequence.rs:87-89,99-101,110-112`; the third one also says
`end_pattern`). -/
def seqErr (name which : Str) : R :=
  .err (.error ⟨"`Sequence` (".toList ++ name ++ ") matcher received another matcher as a `".toList ++
    which ++ "`... this makes no sense... aborting...".toList, none⟩)

/-- `SequencePattern::_exec` (`src/matchers/sequence.rs:68-228`). -/
def execSequence (name : Str) (startF stopF escapeF : Fetchable) (ctx : Ctx) (sc : SCtxId) :
    M R := do
  let c := ctx.withName name
  match ← fetchValue startF sc with
  | .inr _ => pure (seqErr name "start_pattern".toList)
  | .inl startP =>
    if startP = [] then M.panic "Sequence `start` pattern of \"\" makes no sense"
    else do
      match ← fetchValue stopF sc with
      | .inr _ => pure (seqErr name "end_pattern".toList)
      | .inl endP =>
        if endP = [] then M.panic "Sequence `end` pattern of \"\" makes no sense"
        else do
          match ← fetchValue escapeF sc with
          | .inr _ => pure (seqErr name "end_pattern".toList)
          | .inl escP => do
            match ← M.ofOpt "matches_str: slice" (c.matchesStr startP) with
            | none => do
              dbg c 10
              pure (.err .fail)
            | some r =>
              match seqLoop c endP escP (c.offset.stop - r.stop) r.stop r.stop [] with
              | .panic => M.panic "sequence: slice"
              | .fail => do
                dbg c 10
                pure (.err .fail)
              | .found index parts => do
                let t ← newTok ((Token.mkMatched c.parser name
                  ⟨c.offset.start + blen startP, index - blen endP⟩
                  ⟨c.offset.start, index⟩).setAttribute "__value".toList parts.flatten)
                dbg c (index - c.offset.start)
                pure (.ok (.token t))

/-- `new_offset = context.offset.start + offset as usize`
(`src/matchers/program.rs:848`): `offset as usize` of a negative `isize` is
`2^64 + offset`; the sum panics or wraps on overflow. -/
def addOffset (cfg : Cfg) (start : Nat) (k : Int) : M Nat :=
  let u : Nat := (k % ((usizeMax : Int) + 1)).toNat
  if start + u ≤ usizeMax then pure (start + u)
  else if cfg.overflowChecks then M.panic "attempt to add with overflow"
  else pure ((start + u) % (usizeMax + 1))

/-- The local variables of `ProgramPattern::_exec` that change while it runs
(`src/matchers/program.rs:159-168`): `sub_context`, `children`, `captured_range`,
`matched_range`. -/
structure PS where
  ctx : Ctx
  children : List TokId
  captured : Range
  matched : Range
deriving DecidableEq, Repr

/-- Grow the ranges of the program over a token and continue after it
(`src/matchers/program.rs:661-666,679-684,688-692` and `783-790`). -/
def PS.cover (ps : PS) (tk : Token) : PS :=
  { ps with
    captured := ps.captured.contain tk.captured
    matched := ps.matched.contain tk.matched
    ctx := ps.ctx.setStart tk.matched.stop }

/-- First part of `add_token_to_children` (`src/matchers/program.rs:641-686`): a
zero-width error token gets its range; for any other token the program must be
moving forward. -/
def prepToken (ps : PS) (t : TokId) (assertFwd update : Bool) : M Unit := do
  let tk ← getTok t
  if tk.flagsEnabled IS_ERROR then
    if tk.matched.start = tk.matched.stop then
      modTok t (fun k => (k.setCaptured ⟨ps.matched.start, tk.matched.stop⟩).setMatched
        ⟨ps.matched.start, tk.matched.stop⟩)
    else pure ()
  else if assertFwd && update && tk.matched.stop == ps.ctx.offset.start then
    M.panic "assertion failed: not moving forward"
  else pure ()

/-- `add_token_to_children` (`src/matchers/program.rs:630-700`). -/
def addToken (prog : TokId) (ps : PS) (t : TokId) (assertFwd update : Bool) : M PS := do
  prepToken ps t assertFwd update
  let tk ← getTok t
  modTok t (fun k => { k with parent := some prog })
  let ps := if update then ps.cover tk else ps
  pure { ps with children := ps.children ++ [t] }

/-- `handle_token` (`src/matchers/program.rs:702-754`). -/
def handleToken (prog : TokId) (ps : PS) (t : TokId) (assertFwd update : Bool) : M PS := do
  let tk ← getTok t
  addToken prog ps t assertFwd (update && !tk.shouldDiscard)

/-- The `for child in target_children` loop of `handle_extract_token`
(`src/matchers/program.rs:806-837`). -/
def extractLoop (prog : TokId) (update : Bool) : List TokId → PS → M PS
  | [], ps => pure ps
  | ch :: rest, ps => do
    let tk ← getTok ch
    if tk.shouldDiscard then extractLoop prog update rest ps
    else do
      let ps ← addToken prog ps ch false update
      extractLoop prog update rest ps

/-- `handle_extract_token` (`src/matchers/program.rs:756-838`). -/
def handleExtract (prog : TokId) (ps : PS) (t : TokId) (update : Bool) : M PS := do
  let tk ← getTok t
  let update := update && !tk.shouldDiscard
  extractLoop prog update tk.children (if update then ps.cover tk else ps)

/-- `handle_skip` (`src/matchers/program.rs:840-869`). -/
def handleSkip (cfg : Cfg) (ps : PS) (startOffset : Nat) (k : Int) : M PS := do
  let n ← addOffset cfg ps.ctx.offset.start k
  pure { ps with
    ctx := ps.ctx.setStart n
    matched := ps.matched.contain ⟨startOffset, n⟩ }

/-- `finalize_program_token` (`src/matchers/program.rs:584-628`). -/
def finalizeProgram (prog : TokId) (ps : PS) (iter : Option (Nat × Nat)) (loopCount : Nat)
    (failOnMismatch : Bool) : M R :=
  let finish : M R :=
    if ps.captured.start = usizeMax ∨ ps.matched.start = usizeMax then pure (.err .fail)
    else if ps.children = [] then pure (.err .fail)
    else do
      modTok prog (fun k =>
        ((({ k with children := ps.children } : Token).setCaptured ps.captured).setMatched
          ps.matched))
      pure (.ok (.token prog))
  if failOnMismatch then
    match iter with
    | some (lo, _) =>
      if lo = 0 ∧ loopCount = 0 ∧ ps.children = [] then pure (.ok (.skip 0))
      else if loopCount < lo then pure (.err .fail)
      else finish
    | none => finish
  else finish

/-- How one pass over the patterns of a program ends. -/
inductive Flow
  /-- All patterns were run. -/
  | next (ps : PS)
  /-- `iteration_result = Some(action); break` (`src/matchers/program.rs:297-300`). -/
  | action (a : Success) (ps : PS)
  /-- `return r`. -/
  | ret (r : R)
deriving DecidableEq, Repr

/-- `for pattern in &self.patterns` (`src/matchers/program.rs:187-352`). -/
def runPatterns (T : Table) (cfg : Cfg) (rec_ : ExecFn) (prog : TokId) (sc : SCtxId)
    (startOffset : Nat) (iter : Option (Nat × Nat)) (firstStop : Bool) (loopCount : Nat) :
    List MatcherId → PS → M Flow
  | [], ps => pure (.next ps)
  | p :: rest, ps => do
    let next := runPatterns T cfg rec_ prog sc startOffset iter firstStop loopCount rest
    let consuming := (T p).isConsuming
    match ← rec_ p { ps.ctx with stack := prog :: ps.ctx.stack } sc with
    | .ok (.token t) => do
      let tk ← getTok t
      if tk.shouldDiscard then next ps
      else if firstStop then pure (.ret (.ok (.token t)))
      else do
        let ps ← handleToken prog ps t consuming consuming
        next ps
    | .ok (.proxyChildren t) => do
      let tk ← getTok t
      if tk.shouldDiscard then next ps
      else if firstStop then pure (.ret (.ok (.proxyChildren t)))
      else do
        let ps ← handleExtract prog ps t consuming
        next ps
    | .ok (.skip k) =>
      if k > 0 ∧ firstStop then pure (.ret (.ok (.skip k)))
      else if consuming then do
        let ps ← handleSkip cfg ps startOffset k
        next ps
      else next ps
    | .ok a => pure (.action a ps)
    | .err f => do
      dbg ps.ctx 10
      match f with
      | .fail =>
        if firstStop then next ps
        else if iter.isSome then do
          let r ← finalizeProgram prog ps iter loopCount false
          pure (.ret r)
        else pure (.ret (.err .fail))
      | .error e => pure (.ret (.err (.error e)))

/-- Add the payload of a `Break`/`Continue` (`src/matchers/program.rs:371-414` and
`477-520`). -/
def handlePayload (cfg : Cfg) (prog : TokId) (ps : PS) (startOffset : Nat) (data : Success) :
    M PS :=
  match data with
  | .token t => handleToken prog ps t false true
  | .proxyChildren t => handleExtract prog ps t true
  | .skip k => handleSkip cfg ps startOffset k
  | _ => pure ps

/-- Is this the loop that a `Break`/`Continue` of the given name addresses
(`src/matchers/program.rs:416,523`)? -/
def isTargetLoop (iter : Option (Nat × Nat)) (self loopName : Str) : Bool :=
  iter.isSome && (loopName == self || loopName == [])

/-- `for _ in iterate_range` and what follows it
(`src/matchers/program.rs:180-570`); the first argument is the number of
iterations left. -/
def runIterations (T : Table) (cfg : Cfg) (rec_ : ExecFn) (prog : TokId) (sc : SCtxId)
    (startOffset : Nat) (self : Str) (patterns : List MatcherId) (iter : Option (Nat × Nat))
    (firstStop : Bool) : Nat → Nat → PS → M R
  | 0, loopCount, ps => finalizeProgram prog ps iter loopCount true
  | k + 1, loopCount, ps => do
    let again := runIterations T cfg rec_ prog sc startOffset self patterns iter firstStop k
    match ← runPatterns T cfg rec_ prog sc startOffset iter firstStop loopCount patterns ps with
    | .ret r => pure r
    | .next ps => again (loopCount + 1) ps
    | .action (.brk name data) ps =>
      if firstStop then pure (.ok (.brk name data))
      else do
        let ps ← handlePayload cfg prog ps startOffset data
        let r ← finalizeProgram prog ps iter loopCount false
        if isTargetLoop iter self name then pure r
        else
          match r with
          | .ok t => pure (.ok (.brk name t))
          | .err e => pure (.err e)
    | .action (.cont name data) ps =>
      if firstStop then pure (.ok (.brk name data))
      else do
        let ps ← handlePayload cfg prog ps startOffset data
        if isTargetLoop iter self name then again (loopCount + 1) ps
        else finalizeProgram prog ps iter loopCount false
    | .action .stop ps => finalizeProgram prog ps iter loopCount true
    | .action _ _ => M.panic "internal error: entered unreachable code"

/-- Number of iterations of `for _ in iterate_range`
(`src/matchers/program.rs:173-180`). -/
def iterCount (iter : Option (Nat × Nat)) : Nat :=
  match iter with
  | some (lo, hi) => hi - lo
  | none => 1

/-- `ProgramPattern::_exec` (`src/matchers/program.rs:153-571`). -/
def execProgram (T : Table) (cfg : Cfg) (rec_ : ExecFn) (patterns : List MatcherId) (name : Str)
    (iter : Option (Nat × Nat)) (firstStop : Bool) (ctx : Ctx) (sc : SCtxId) : M R := do
  let c := ctx.withName name
  let prog ← newTok (Token.mk' c.parser name Range.blank)
  runIterations T cfg rec_ prog sc c.offset.start name patterns iter firstStop (iterCount iter) 0
    ⟨c, [], ⟨usizeMax, 0⟩, ⟨usizeMax, 0⟩⟩

/-- Recursion of `collect_errors` of `Discard` over the children, with `rec_` for
one child (`src/matchers/discard.rs:126-132`). -/
def forEach (f : TokId → M Unit) : List TokId → M Unit
  | [] => pure ()
  | c :: cs => do
    f c
    forEach f cs

/-- Record one error token in the error token of a `Discard`
(`src/matchers/discard.rs:99-125`). -/
def discardRecord (errTok walk : TokId) (w : Token) : M Unit :=
  if w.flagsEnabled IS_ERROR then
    modTok errTok (fun e =>
      let e := { e with children := e.children ++ [walk] }
      let s := if e.matched.start > w.matched.start then w.matched.start else e.matched.start
      let t := if e.matched.stop < w.matched.stop then w.matched.stop else e.matched.stop
      if s ≠ e.matched.start ∨ t ≠ e.matched.stop then e.setMatched ⟨s, t⟩ else e)
  else pure ()

/-- `collect_errors` of `Discard` (`src/matchers/discard.rs:99-133`).  The first
argument bounds the depth of the token tree; it is the number of tokens in the
heap plus one, so it is exhausted only if the tree is cyclic (where the Rust code
would recurse forever). -/
def discardCollect : Nat → TokId → TokId → M Unit
  | 0, _, _ => M.diverge
  | n + 1, errTok, walk => do
    let w ← getTok walk
    discardRecord errTok walk w
    forEach (discardCollect n errTok) w.children

/-- `n as isize` (std). -/
def asIsize (n : Nat) : Int := if n ≤ isizeMax then n else (n : Int) - ((usizeMax : Int) + 1)

/-- `end_offset as isize - start_offset as isize` (`src/matchers/discard.rs:151`). -/
def subOffset (cfg : Cfg) (stop start : Nat) : M Int :=
  let d := asIsize stop - asIsize start
  if -((isizeMax : Int) + 1) ≤ d ∧ d ≤ isizeMax then pure d
  else if cfg.overflowChecks then M.panic "attempt to subtract with overflow"
  else pure ((d + ((isizeMax : Int) + 1)) % ((usizeMax : Int) + 1) - ((isizeMax : Int) + 1))

/-- `skip_token` of `Discard` (`src/matchers/discard.rs:135-153`). -/
def skipToken (cfg : Cfg) (c : Ctx) (startOffset : Nat) (t : TokId) : M Success := do
  let tk ← getTok t
  let e ← newTok (Token.mk' c.parser "Error".toList ⟨startOffset, tk.matched.stop⟩)
  let s ← M.getState
  discardCollect (s.toks.length + 1) e t
  let ek ← getTok e
  if ek.children ≠ [] then pure (.token e)
  else do
    let d ← subOffset cfg tk.matched.stop startOffset
    pure (.skip d)

/-- `DiscardPattern::_exec` (`src/matchers/discard.rs:20-96`). -/
def execDiscard (cfg : Cfg) (rec_ : ExecFn) (m : MatcherId) (ctx : Ctx) (sc : SCtxId) : M R := do
  let c := ctx.withName "Discard".toList
  let skip (t : TokId) : M Success := skipToken cfg c ctx.offset.start t
  match ← rec_ m c sc with
  | .ok (.token t) => do
    let s ← skip t
    pure (.ok s)
  | .ok (.proxyChildren t) => do
    let s ← skip t
    pure (.ok s)
  | .ok (.brk n d) =>
    match d with
    | .token t => do
      let s ← skip t
      pure (.ok (.brk n s))
    | .proxyChildren t => do
      let s ← skip t
      pure (.ok (.brk n s))
    | .brk _ _ => M.panic "internal error: entered unreachable code"
    | .cont _ _ => M.panic "internal error: entered unreachable code"
    | d => pure (.ok (.brk n d))
  | .ok (.cont n d) =>
    match d with
    | .token t => do
      let s ← skip t
      pure (.ok (.cont n s))
    | .proxyChildren t => do
      let s ← skip t
      pure (.ok (.cont n s))
    | .brk _ _ => M.panic "internal error: entered unreachable code"
    | .cont _ _ => M.panic "internal error: entered unreachable code"
    | d => pure (.ok (.cont n d))
  | r => pure r

/-- `OptionalPattern::_exec` (`src/matchers/optional.rs:17-33`). -/
def execOptional (rec_ : ExecFn) (m : MatcherId) (ctx : Ctx) (sc : SCtxId) : M R := do
  match ← rec_ m (ctx.withName "Optional".toList) sc with
  | .err .fail => pure (.ok (.skip 0))
  | r => pure r

/-- `NotPattern::_exec` (`src/matchers/not.rs:18-49`). -/
def execNot (rec_ : ExecFn) (m : MatcherId) (ctx : Ctx) (sc : SCtxId) : M R := do
  match ← rec_ m (ctx.withName "Not".toList) sc with
  | .ok (.token _) => pure (.err .fail)
  | .ok (.proxyChildren _) => pure (.err .fail)
  | .ok (.skip k) => if k ≠ 0 then pure (.err .fail) else pure (.ok (.skip k))
  | .err .fail => pure (.ok (.skip 0))
  | r => pure r

/-- `ProxyChildrenPattern::_exec` (`src/matchers/proxy_children.rs:31-60`). -/
def execProxyChildren (rec_ : ExecFn) (m : MatcherId) (name : Str) (ctx : Ctx) (sc : SCtxId) :
    M R := do
  match ← rec_ m (ctx.withName name) sc with
  | .ok (.token t) => pure (.ok (.proxyChildren t))
  | .ok (.brk n (.token t)) => pure (.ok (.brk n (.proxyChildren t)))
  | .ok (.cont n (.token t)) => pure (.ok (.cont n (.proxyChildren t)))
  | r => pure r

/-- `ExpandRange::_exec` (`src/matchers/expand_range.rs:25-63`). -/
def execExpandRange (rec_ : ExecFn) (m : MatcherId) (ctx : Ctx) (sc : SCtxId) : M R := do
  let c := ctx.withName "Catch".toList
  match ← rec_ m c sc with
  | .ok (.token t) => do
    let tk ← getTok t
    let w ← newTok (Token.mkMatched c.parser "ExpandRange".toList tk.matched tk.matched)
    modTok w (fun k => { k with children := k.children ++ [t] })
    pure (.ok (.proxyChildren w))
  | .ok (.proxyChildren t) => do
    modTok t (fun k => k.setCaptured k.matched)
    pure (.ok (.proxyChildren t))
  | r => pure r

/-- `CatchPattern::_exec` (`src/matchers/catch.rs:38-54`). -/
def execCatch (rec_ : ExecFn) (m : MatcherId) (f : Ctx → Failure → M R) (ctx : Ctx)
    (sc : SCtxId) : M R := do
  let c := ctx.withName "Catch".toList
  match ← rec_ m c sc with
  | .ok s => pure (.ok s)
  | .err e => f c e

/-- `MapPattern::_exec` (`src/matchers/map.rs:48-94`). -/
def execMap (rec_ : ExecFn) (m : MatcherId) (sf : TokId → Ctx → SCtxId → M R)
    (ff : Failure → Ctx → SCtxId → M R) (ctx : Ctx) (sc : SCtxId) : M R := do
  let c := ctx.withName "Map".toList
  match ← rec_ m c sc with
  | .ok (.token t) => sf t c sc
  | .ok (.proxyChildren t) => sf t c sc
  | .ok s => pure (.ok s)
  | .err e => ff e c sc

/-- `StorePattern::_exec`, matcher case (`src/matchers/store.rs:52-69`). -/
def execStore (rec_ : ExecFn) (m : MatcherId) (name : Str) (ctx : Ctx) (sc : SCtxId) : M R := do
  match ← rec_ m (ctx.withName name) sc with
  | .ok (.token t) => do
    bindVar sc name (.token t)
    pure (.ok (.token t))
  | r => pure r

/-- `StorePattern::_exec`, string case (`src/matchers/store.rs:70-76`). -/
def execStoreStr (value name : Str) (sc : SCtxId) : M R := do
  bindVar sc name (.str value)
  pure (.ok (.skip 0))

/-- `RefPattern::_exec` (`src/matchers/ref.rs:58-87`). -/
def execRef (rec_ : ExecFn) (target : Fetchable) (name : Str) (ctx : Ctx) (sc : SCtxId) : M R := do
  let c := ctx.withName name
  match ← fetchValue target sc with
  | .inl n => do
    match ← lookupVar sc n with
    | some (.matcher m) => rec_ m c sc
    | _ => pure (.err (.error ⟨"`Ref` matcher unable to locate target reference `".toList ++ n ++
        "`".toList, none⟩))
  | .inr m => rec_ m c sc

/-- `RegisterPattern::_exec` (`src/matchers/register.rs:21-36`). -/
def execRegister (T : Table) (sc : SCtxId) : List MatcherId → M R
  | [] => pure (.ok (.skip 0))
  | p :: ps => do
    bindVar sc (T p).name (.matcher p)
    execRegister T sc ps

/-- `SetScopePattern::_exec` (`src/matchers/set_scope.rs:29-57`). -/
def execSetScope (rec_ : ExecFn) (scope : Option SCtxId) (m : MatcherId) (ctx : Ctx) : M R :=
  let c := ctx.withName "SetScope".toList
  match scope with
  | some k => rec_ m c k
  | none => do
    pushScope ctx.scope
    let r ← rec_ m c ctx.scope
    popScope ctx.scope
    pure r

/-- `is_empty_offset` (`src/matchers/pin.rs:18-27`), `EMPTY_OFFSET` being
`^(\+|-|\+0|-0)$` (lines 14-16). -/
def isEmptyOffset (s : Str) : Bool :=
  s == [] || s == ['+'] || s == ['-'] || s == ['+', '0'] || s == ['-', '0']

/-- `parse_offset` (`src/matchers/pin.rs:29-64`). -/
def parseOffset (cfg : Cfg) (start stop : Nat) (s : Str) : M Nat :=
  if isEmptyOffset s then pure stop
  else
    match bslice s 0 1 with
    | none => M.panic "parse_offset: slice"
    | some pre =>
      let hasPrefix := pre = ['+'] ∨ pre = ['-']
      let part := if hasPrefix then s.tail else s
      match parseUsize part with
      | none => M.panic "Error while attempting to parse `Pin` start offset"
      | some n =>
        if hasPrefix then
          if pre = ['-'] then
            if n ≤ start then pure (start - n)
            else if cfg.overflowChecks then M.panic "attempt to subtract with overflow"
            else pure (start + (usizeMax + 1) - n)
          else if start + n ≤ usizeMax then pure (start + n)
          else if cfg.overflowChecks then M.panic "attempt to add with overflow"
          else pure ((start + n) % (usizeMax + 1))
        else pure n

/-- The end of the window of a `Pin` (`src/matchers/pin.rs:342-348`). -/
def pinEnd (cfg : Cfg) (start stop : Nat) (parts : List Str) : M Nat :=
  match parts with
  | _ :: p :: _ => parseOffset cfg start stop p
  | _ => pure stop

/-- `PinPattern::_exec` (`src/matchers/pin.rs:319-364`). -/
def execPin (cfg : Cfg) (rec_ : ExecFn) (m : Option MatcherId) (offset : Fetchable) (name : Str)
    (ctx : Ctx) (sc : SCtxId) : M R := do
  let c := ctx.withName name
  match ← fetchValue offset sc with
  | .inr _ => pure (.err (.error
      ⟨"`Pin` matcher received another matcher as an offset... this makes no sense... aborting...".toList,
        none⟩))
  | .inl v => do
    let parts := splitDotDot v
    let s ← parseOffset cfg c.offset.start c.offset.start (parts.headD [])
    let e ← pinEnd cfg s c.offset.stop parts
    let c := { c with offset := ⟨s, e⟩ }
    match m with
    | some m => rec_ m c sc
    | none => do
      let t ← newTok (Token.mkPin c.parser name ⟨s, e⟩ ⟨s, e⟩)
      pure (.ok (.token t))

/-- `DebugPattern::_exec` (`src/matchers/debug.rs:31-87`).  The printed text is not
modelled, the slices it takes are. -/
def execDebug (rec_ : ExecFn) (m : Option MatcherId) (mode : Nat) (ctx : Ctx) (sc : SCtxId) :
    M R := do
  let c := { ctx.withName "Debug".toList with debug := mode }
  let _ ← M.ofOpt "debug_range: slice" (c.debugRange 10)
  match m with
  | some m => rec_ m c sc
  | none => pure (.ok (.skip 0))

/-- The range reported by `Panic` (`src/matchers/panic.rs:22-35`). -/
def panicRange (ctx : Ctx) : M Range :=
  match ctx.stack with
  | top :: _ => do
    let tk ← getTok top
    pure ⟨tk.matched.start, ctx.offset.start⟩
  | [] => pure ⟨ctx.offset.start, ctx.offset.start⟩

/-- `PanicPattern::_exec` (`src/matchers/panic.rs:22-42`). -/
def execPanic (msg : Str) (ctx : Ctx) : M R := do
  let r ← panicRange ctx
  let m ← M.ofOpt "get_error_as_string: slice" (ctx.errorString msg r)
  pure (.err (.error ⟨m, some r⟩))

/-- `ErrorPattern::_exec` (`src/matchers/error.rs:59-66`). -/
def execError (msg : Str) (ctx : Ctx) : M R := do
  let t ← newErrorToken ctx msg
  pure (.ok (.token t))

/-- `_exec` of each matcher, `rec_` being used to run other matchers. -/
def execNode (T : Table) (cfg : Cfg) (rec_ : ExecFn) (n : Node) (ctx : Ctx) (sc : SCtxId) : M R :=
  match n with
  | .equals name _ pat => execEquals name pat ctx sc
  | .regex name _ re => execMatches name re ctx
  | .sequence name _ a b e => execSequence name a b e ctx sc
  | .program ps name _ iter firstStop => execProgram T cfg rec_ ps name iter firstStop ctx sc
  | .optional m => execOptional rec_ m ctx sc
  | .not m => execNot rec_ m ctx sc
  | .discard m => execDiscard cfg rec_ m ctx sc
  | .proxyChildren m name _ => execProxyChildren rec_ m name ctx sc
  | .expandRange m => execExpandRange rec_ m ctx sc
  | .catch_ m f => execCatch rec_ m f ctx sc
  | .map m sf ff => execMap rec_ m sf ff ctx sc
  | .store m name _ => execStore rec_ m name ctx sc
  | .storeStr v name _ => execStoreStr v name sc
  | .fetch _ => pure (.ok (.skip 0))
  | .ref target name _ => execRef rec_ target name ctx sc
  | .register ps => execRegister T sc ps
  | .setScope scope m => execSetScope rec_ scope m ctx
  | .pin m offset name _ => execPin cfg rec_ m offset name ctx sc
  | .debug m mode => execDebug rec_ m mode ctx sc
  | .brk name => pure (.ok (.brk name .none))
  | .null => pure (.ok (.skip 0))
  | .panic msg => execPanic msg ctx
  | .error msg => execError msg ctx

/-- `before_exec` (`src/matcher.rs:36-42`). -/
def beforeExec (n : Node) (self : MatcherId) (sc : SCtxId) : M Unit :=
  if n.hasCustomName then bindVar sc n.name (.matcher self) else pure ()

/-- `Matcher::exec`: `before_exec`, `_exec`, `after_exec` (a no-op,
`src/matcher.rs:44`).  The first argument bounds the depth of matcher recursion;
running out of it is `diverge`. -/
def exec (T : Table) (cfg : Cfg) : Nat → ExecFn
  | 0 => fun _ _ _ => M.diverge
  | n + 1 => fun m ctx sc => do
    beforeExec (T m) m sc
    execNode T cfg (exec T cfg n) (T m) ctx sc

/-- `retain` of `collect_errors` (`src/parser_context.rs:324-337`): partition the
children into those kept and the error tokens, in order. -/
def splitErrors : List TokId → M (List TokId × List TokId)
  | [] => pure ([], [])
  | c :: cs => do
    let k ← getTok c
    let (keep, errs) ← splitErrors cs
    pure (if k.flagsEnabled IS_ERROR then (keep, c :: errs) else (c :: keep, errs))

/-- `collect_errors` (`src/parser_context.rs:299-340`).  The first argument bounds
the depth of the token tree, as in `discardCollect`.  The `retain` closure pushes
each error onto the root as it goes; the model pushes them together, which is the
same when the token is not its own root. -/
def collectErrors : Nat → TokId → TokId → Bool → M Unit
  | 0, _, _, _ => M.diverge
  | n + 1, root, t, isRoot => do
    let tk ← getTok t
    forEach (fun c => collectErrors n root c false) tk.children
    if isRoot then pure ()
    else do
      let tk ← getTok t
      let (keep, errs) ← splitErrors tk.children
      modTok t (fun k => { k with children := keep })
      modTok root (fun k => { k with children := k.children ++ errs })

/-- `collect_errors(token, token, true)` with enough depth for any acyclic tree. -/
def collectErrorsTop (t : TokId) : M Unit := do
  let s ← M.getState
  collectErrors (s.toks.length + 1) t t true

/-- `ParserContext::tokenize` (`src/parser_context.rs:342-381`). -/
def tokenize (T : Table) (cfg : Cfg) (fuel : Nat) (ctx : Ctx) (m : MatcherId) :
    M (Except Failure TokId) := do
  match ← exec T cfg fuel m ctx ctx.scope with
  | .ok (.token t) => do
    collectErrorsTop t
    pure (.ok t)
  | .ok (.proxyChildren t) => do
    collectErrorsTop t
    pure (.ok t)
  | .ok (.brk _ (.token t)) => do
    collectErrorsTop t
    pure (.ok t)
  | .ok (.cont _ (.token t)) => do
    collectErrorsTop t
    pure (.ok t)
  | .ok _ => pure (.error .fail)
  | .err f => pure (.error f)

end Adx
