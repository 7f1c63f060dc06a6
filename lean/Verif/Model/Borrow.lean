import Verif.Model.Exec
/-
  The engine once more, now with the borrow flags of `RefCell`: which cells are borrowed, and
  for how long.  Borrowing a cell that is borrowed already, unless both borrows are shared,
  is a `conflict` (the panics `already borrowed` and `already mutably borrowed`).

  What is done to the heap is as in `Model/Exec`.  Left out are: the `RefCell` of the parser,
  which is never borrowed mutably, and formatting with `{:?}`, which does not panic on a
  borrowed cell.  Callbacks are run as they are: no token and no scope is borrowed when they
  are called (what they borrow themselves is in `Model/BorrowCallback`).
-/
namespace Adx

/-- What is behind an `Rc<RefCell<_>>`.  Contexts are numbered along the stack of calls: a new
one has the number behind that of the context it is made from.  The context of a call that has
returned is not borrowed any more. -/
inductive Cell
  | token (t : TokId)
  | matcher (m : MatcherId)
  | context (k : Nat)
  /-- A `ScopeContext`. -/
  | names (sc : SCtxId)
  | scope (i : ScopeId)
  /-- Hook number `i` of the visitor of a script that is compiled inside `d` imports. -/
  | hook (d i : Nat)
  /-- `parse_errors` of that script. -/
  | errors (d : Nat)
deriving DecidableEq, Repr

/-- The borrow flag of a `RefCell`: the number of shared borrows, or one exclusive borrow. -/
inductive Borrow
  | shared (n : Nat)
  | exclusive
deriving DecidableEq, Repr

/-- The flags of all cells. -/
abbrev Borrows := Cell → Borrow

/-- No cell is borrowed. -/
def Borrows.free : Borrows := fun _ => .shared 0

def Borrows.set (fl : Borrows) (c : Cell) (b : Borrow) : Borrows := fun d => if d = c then b else fl d

/-- What running code can do, with borrow flags. -/
inductive BRes (α : Type)
  | ok (a : α) (s : State) (fl : Borrows)
  | panic (msg : String)
  | diverge
  /-- `already borrowed`, `already mutably borrowed` -/
  | conflict (c : Cell)

/-- Computations with borrow flags. -/
def Held (α : Type) := State → Borrows → BRes α

namespace Held

protected def bind {α β : Type} (x : Held α) (f : α → Held β) : Held β := fun s fl =>
  match x s fl with
  | .ok a s' fl' => f a s' fl'
  | .panic m => .panic m
  | .diverge => .diverge
  | .conflict c => .conflict c

protected def pure {α : Type} (a : α) : Held α := fun s fl => .ok a s fl

instance : Monad Held where
  pure := Held.pure
  bind := Held.bind

/-- Something that borrows nothing. -/
def lift {α : Type} (x : M α) : Held α := fun s fl =>
  match x s with
  | .ok a s' => .ok a s' fl
  | .panic m => .panic m
  | .diverge => .diverge

/-- Run `x` while `c.borrow()` is alive. -/
def share {α : Type} (c : Cell) (x : Held α) : Held α := fun s fl =>
  match fl c with
  | .exclusive => .conflict c
  | .shared n =>
    match x s (fl.set c (.shared (n + 1))) with
    | .ok a s' fl' =>
      -- the reference is dropped
      match fl' c with
      | .shared k => .ok a s' (fl'.set c (.shared (k - 1)))
      | .exclusive => .ok a s' fl'
    | r => r

/-- Run `x` while `c.borrow_mut()` is alive. -/
def own {α : Type} (c : Cell) (x : Held α) : Held α := fun s fl =>
  match fl c with
  | .shared 0 =>
    match x s (fl.set c .exclusive) with
    | .ok a s' fl' => .ok a s' (fl'.set c (.shared 0))
    | r => r
  | _ => .conflict c

/-- `c.borrow()` for a moment. -/
def touch (c : Cell) : Held Unit := share c (pure ())

/-- `c.borrow_mut()` for a moment. -/
def touchMut (c : Cell) : Held Unit := own c (pure ())

end Held

open Held

/-- `token.borrow()`, for a moment. -/
def getTokB (t : TokId) : Held Token := share (.token t) (lift (getTok t))

/-- `token.borrow_mut()`, for a moment. -/
def modTokB (t : TokId) (f : Token → Token) : Held Unit := own (.token t) (lift (modTok t f))

/-- The scopes of a scope context are looked at one after the other
(`src/scope_context.rs:30-39`).  (The code stops where the name is found; here all of them are
looked at.) -/
def touchScopes : List ScopeId → Held Unit
  | [] => pure ()
  | i :: is => do
    touch (.scope i)
    touchScopes is

/-- `scope.get(name)` on a borrowed scope context (`src/scope_context.rs:25-42`). -/
def lookupVarB (sc : SCtxId) (k : Str) : Held (Option Var) := do
  let s ← lift M.getState
  touchScopes (s.sctxs[sc]?.getD [])
  lift (lookupVar sc k)

/-- `scope.set(name, value)` on a borrowed scope context (`src/scope_context.rs:44-52`). -/
def setVarB (sc : SCtxId) (k : Str) (v : Var) : Held Unit := do
  let s ← lift M.getState
  match s.sctxs[sc]?.getD [] with
  | [] => lift (bindVar sc k v)
  | top :: _ => own (.scope top) (lift (bindVar sc k v))

/-- `scope.borrow_mut().set(name, value)`. -/
def bindVarB (sc : SCtxId) (k : Str) (v : Var) : Held Unit := own (.names sc) (setVarB sc k v)

/-- `Fetchable::fetch_value` (`src/matchers/fetch.rs:15-99`): the scope is borrowed as long as
its value is looked at. -/
def fetchValueB (f : Fetchable) (sc : SCtxId) : Held (Str ⊕ MatcherId) :=
  match f with
  | .str s => pure (.inl s)
  | .matcher m => pure (.inr m)
  | .fetch name => share (.names sc) do
    let path := splitDot name
    let v ← lookupVarB sc (path.headD [])
    match v with
    | none => lift (M.panic "Invalid variable reference: Not found")
    | some (.matcher m) => pure (.inr m)
    | some (.str s) =>
      if path.length > 1 then lift (M.panic "Invalid variable reference on a String reference")
      else pure (.inl s)
    | some (.token t) =>
      match path with
      | [_, sub] => share (.token t) do
        let tk ← lift (getTok t)
        if sub = "captured_value".toList then pure (.inl tk.getValue)
        else if sub = "matched_value".toList then pure (.inl tk.getMatchedValue)
        else if sub = "start".toList then pure (.inl (natStr tk.matched.start))
        else if sub = "end".toList then pure (.inl (natStr tk.matched.stop))
        else if sub = "captured_start".toList then pure (.inl (natStr tk.captured.start))
        else if sub = "captured_end".toList then pure (.inl (natStr tk.captured.stop))
        else if sub = "range".toList then
          pure (.inl (natStr tk.matched.start ++ "..".toList ++ natStr tk.matched.stop))
        else if sub = "captured_range".toList then
          pure (.inl (natStr tk.captured.start ++ "..".toList ++ natStr tk.captured.stop))
        else lift (M.panic "Invalid variable reference on a Token reference")
      | _ => lift (M.panic "Invalid variable reference on a Token reference")

/-- What follows `fetch_value` in `EqualsPattern::_exec`, with `sub_context` borrowed
(`src/matchers/equals.rs:74-113`); it borrows nothing else. -/
def equalsRest (name : Str) (c : Ctx) (s : Str) : M R := do
  match ← M.ofOpt "matches_str: slice" (c.matchesStr s) with
  | some r => do
    dbg c 10
    let t ← newTok (Token.mk' c.parser name r)
    pure (.ok (.token t))
  | none => do
    dbg c 10
    pure (.err .fail)

/-- `EqualsPattern::_exec` (`src/matchers/equals.rs:59-122`). -/
def execEqualsB (name : Str) (pat : Fetchable) (k : Nat) (ctx : Ctx) (sc : SCtxId) : Held R := do
  touch (.context k)
  let c := ctx.withName name
  let v ← fetchValueB pat sc
  touch (.context (k + 1))
  match v with
  | .inl s => share (.context (k + 1)) (lift (equalsRest name c s))
  | .inr _ =>
    pure (.err (.error ⟨"`Equals` (".toList ++ name ++
      ") matcher received another matcher as a pattern... this makes no sense... aborting...".toList,
      none⟩))

/-- `MatchesPattern::_exec` (`src/matchers/matches.rs:35-104`): apart from the contexts only
the new token is borrowed, for a debug print. -/
def execMatchesB (name : Str) (re : Regex) (k : Nat) (ctx : Ctx) : Held R := do
  touch (.context k)
  touch (.context (k + 1))
  share (.context (k + 1)) do
    let r ← lift (execMatches name re ctx)
    match r with
    | .ok (.token t) => do
      touch (.token t)
      pure r
    | _ => pure r

/-- What follows the three `fetch_value` in `SequencePattern::_exec`
(`src/matchers/sequence.rs:118-227`).  The new token is borrowed when its attribute is set
(line 185), and for a debug print (line 188). -/
def sequenceRest (name : Str) (c : Ctx) (startP endP escP : Str) : Held R := do
  match ← lift (M.ofOpt "matches_str: slice" (c.matchesStr startP)) with
  | none => do
    lift (dbg c 10)
    pure (.err .fail)
  | some r =>
    match seqLoop c endP escP (c.offset.stop - r.stop) r.stop r.stop [] with
    | .panic => lift (M.panic "sequence: slice")
    | .fail => do
      lift (dbg c 10)
      pure (.err .fail)
    | .found index parts => do
      let t ← lift (newTok ((Token.mkMatched c.parser name
        ⟨c.offset.start + blen startP, index - blen endP⟩
        ⟨c.offset.start, index⟩).setAttribute "__value".toList parts.flatten))
      touchMut (.token t)
      touch (.token t)
      lift (dbg c (index - c.offset.start))
      pure (.ok (.token t))

/-- `SequencePattern::_exec` (`src/matchers/sequence.rs:68-228`). -/
def execSequenceB (name : Str) (startF stopF escapeF : Fetchable) (k : Nat) (ctx : Ctx) (sc : SCtxId) :
    Held R := do
  touch (.context k)
  let c := ctx.withName name
  share (.context (k + 1)) do
    match ← fetchValueB startF sc with
    | .inr _ => pure (seqErr name "start_pattern".toList)
    | .inl startP =>
      if startP = [] then lift (M.panic "Sequence `start` pattern of \"\" makes no sense")
      else do
        match ← fetchValueB stopF sc with
        | .inr _ => pure (seqErr name "end_pattern".toList)
        | .inl endP =>
          if endP = [] then lift (M.panic "Sequence `end` pattern of \"\" makes no sense")
          else do
            match ← fetchValueB escapeF sc with
            | .inr _ => pure (seqErr name "end_pattern".toList)
            | .inl escP => sequenceRest name c startP endP escP

/-! ### Programs -/

/-- First part of `add_token_to_children` (`src/matchers/program.rs:641-686`). -/
def prepTokenB (k : Nat) (prog : TokId) (ps : PS) (t : TokId) (assertFwd update : Bool) : Held Unit := do
  let tk ← getTokB t
  if tk.flagsEnabled IS_ERROR then
    own (.token t)
      (if tk.matched.start = tk.matched.stop then
        lift (modTok t (fun k => (k.setCaptured ⟨ps.matched.start, tk.matched.stop⟩).setMatched
          ⟨ps.matched.start, tk.matched.stop⟩))
      else pure ())
  else
    share (.token t) do
      touch (.context k)
      if assertFwd && update && tk.matched.stop == ps.ctx.offset.start then do
        touch (.token prog)
        lift (M.panic "assertion failed: not moving forward")
      else pure ()

/-- `add_token_to_children` (`src/matchers/program.rs:630-700`). -/
def addTokenB (k : Nat) (prog : TokId) (ps : PS) (t : TokId) (assertFwd update : Bool) : Held PS := do
  prepTokenB k prog ps t assertFwd update
  let tk ← getTokB t
  if update then own (.context k) (touch (.token t)) else pure ()
  modTokB t (fun k => { k with parent := some prog })
  let ps := if update then ps.cover tk else ps
  pure { ps with children := ps.children ++ [t] }

/-- `handle_token` (`src/matchers/program.rs:702-754`). -/
def handleTokenB (k : Nat) (prog : TokId) (ps : PS) (t : TokId) (assertFwd update : Bool) : Held PS := do
  touch (.context k)
  let tk ← getTokB t
  let ps ← addTokenB k prog ps t assertFwd (update && !tk.shouldDiscard)
  touch (.context k)
  touch (.token t)
  pure ps

/-- The `for child in target_children` loop of `handle_extract_token`
(`src/matchers/program.rs:806-837`). -/
def extractLoopB (k : Nat) (prog : TokId) (update : Bool) : List TokId → PS → Held PS
  | [], ps => pure ps
  | ch :: rest, ps => do
    let tk ← getTokB ch
    if tk.shouldDiscard then extractLoopB k prog update rest ps
    else do
      touch (.context k)
      let ps ← addTokenB k prog ps ch false update
      extractLoopB k prog update rest ps

/-- `handle_extract_token` (`src/matchers/program.rs:756-838`): the token is borrowed while its
children are moved, and they are borrowed mutably. -/
def handleExtractB (k : Nat) (prog : TokId) (ps : PS) (t : TokId) (update : Bool) : Held PS :=
  share (.token t) do
    let tk ← lift (getTok t)
    touch (.context k)
    let update := update && !tk.shouldDiscard
    (if update then touchMut (.context k) else pure ())
    extractLoopB k prog update tk.children (if update then ps.cover tk else ps)

/-- `handle_skip` (`src/matchers/program.rs:840-869`). -/
def handleSkipB (cfg : Cfg) (k : Nat) (ps : PS) (startOffset : Nat) (x : Int) : Held PS := do
  touch (.context k)
  let ps ← lift (handleSkip cfg ps startOffset x)
  touchMut (.context k)
  pure ps

/-- `finalize_program_token` (`src/matchers/program.rs:584-628`). -/
def finalizeProgramB (prog : TokId) (ps : PS) (iter : Option (Nat × Nat)) (loopCount : Nat)
    (failOnMismatch : Bool) : Held R :=
  let finish : Held R :=
    if ps.captured.start = usizeMax ∨ ps.matched.start = usizeMax then pure (.err .fail)
    else if ps.children = [] then pure (.err .fail)
    else do
      modTokB prog (fun k =>
        ((({ k with children := ps.children } : Token).setCaptured ps.captured).setMatched
          ps.matched))
      pure (.ok (.token prog))
  if failOnMismatch then
    match iter with
    | some (lo, _) =>
      if lo = 0 ∧ loopCount = 0 ∧ ps.children = [] then pure (.ok (.skip 0))
      else if loopCount < lo then pure (.err .fail)
      else finish
    | none => finish
  else finish

/-- `exec` of a matcher, with the number of the context. -/
abbrev ExecFnB := MatcherId → Nat → Ctx → SCtxId → Held R

/-- `matcher.borrow().exec(matcher.clone(), context, scope)`. -/
def runB (rec_ : ExecFnB) (m : MatcherId) (k : Nat) (c : Ctx) (sc : SCtxId) : Held R :=
  share (.matcher m) (rec_ m k c sc)

/-- `for pattern in &self.patterns` (`src/matchers/program.rs:187-352`); `k` is the number of
`sub_context`.  The context is borrowed while a pattern runs on a copy of it (lines 192-196),
and in the branch for failures (line 303). -/
def runPatternsB (T : Table) (cfg : Cfg) (rec_ : ExecFnB) (prog : TokId) (sc : SCtxId)
    (startOffset : Nat) (iter : Option (Nat × Nat)) (firstStop : Bool) (loopCount : Nat) (k : Nat) :
    List MatcherId → PS → Held Flow
  | [], ps => pure (.next ps)
  | p :: rest, ps => do
    let next := runPatternsB T cfg rec_ prog sc startOffset iter firstStop loopCount k rest
    let consuming := (T p).isConsuming
    touchMut (.context k)
    let r ← share (.matcher p) (share (.context k) (rec_ p (k + 1) { ps.ctx with stack := prog :: ps.ctx.stack } sc))
    touchMut (.context k)
    match r with
    | .ok (.token t) => do
      let tk ← getTokB t
      if tk.shouldDiscard then next ps
      else if firstStop then do
        touch (.context k)
        touch (.token prog)
        pure (.ret (.ok (.token t)))
      else do
        touch (.matcher p)
        let ps ← handleTokenB k prog ps t consuming consuming
        next ps
    | .ok (.proxyChildren t) => do
      let tk ← getTokB t
      if tk.shouldDiscard then next ps
      else if firstStop then do
        touch (.context k)
        touch (.token prog)
        pure (.ret (.ok (.proxyChildren t)))
      else do
        touch (.matcher p)
        let ps ← handleExtractB k prog ps t consuming
        next ps
    | .ok (.skip x) =>
      if x > 0 ∧ firstStop then do
        touch (.context k)
        touch (.token prog)
        pure (.ret (.ok (.skip x)))
      else do
        touch (.matcher p)
        if consuming then do
          let ps ← handleSkipB cfg k ps startOffset x
          next ps
        else next ps
    | .ok a => pure (.action a ps)
    | .err f => do
      let stop ← share (.context k) do
        touch (.token prog)
        lift (dbg ps.ctx 10)
        match f with
        | .fail =>
          if firstStop then pure none
          else if iter.isSome then do
            let r ← finalizeProgramB prog ps iter loopCount false
            pure (some (Flow.ret r))
          else pure (some (.ret (.err .fail)))
        | .error e => pure (some (.ret (.err (.error e))))
      match stop with
      | none => next ps
      | some flow => pure flow

/-- Add the payload of a `Break`/`Continue` (`src/matchers/program.rs:371-414` and
`477-520`). -/
def handlePayloadB (cfg : Cfg) (k : Nat) (prog : TokId) (ps : PS) (startOffset : Nat) (data : Success) :
    Held PS :=
  match data with
  | .token t => handleTokenB k prog ps t false true
  | .proxyChildren t => handleExtractB k prog ps t true
  | .skip x => handleSkipB cfg k ps startOffset x
  | _ => pure ps

/-- `for _ in iterate_range` and what follows it
(`src/matchers/program.rs:180-570`). -/
def runIterationsB (T : Table) (cfg : Cfg) (rec_ : ExecFnB) (prog : TokId) (sc : SCtxId)
    (startOffset : Nat) (self : Str) (patterns : List MatcherId) (iter : Option (Nat × Nat))
    (firstStop : Bool) (k : Nat) : Nat → Nat → PS → Held R
  | 0, loopCount, ps => finalizeProgramB prog ps iter loopCount true
  | i + 1, loopCount, ps => do
    let again := runIterationsB T cfg rec_ prog sc startOffset self patterns iter firstStop k i
    touch (.context k)
    touch (.token prog)
    match ← runPatternsB T cfg rec_ prog sc startOffset iter firstStop loopCount k patterns ps with
    | .ret r => pure r
    | .next ps => again (loopCount + 1) ps
    | .action (.brk name data) ps => do
      touch (.context k)
      touch (.token prog)
      if firstStop then pure (.ok (.brk name data))
      else do
        let ps ← handlePayloadB cfg k prog ps startOffset data
        touch (.context k)
        touch (.token prog)
        let r ← finalizeProgramB prog ps iter loopCount false
        if isTargetLoop iter self name then pure r
        else
          match r with
          | .ok t => pure (.ok (.brk name t))
          | .err e => pure (.err e)
    | .action (.cont name data) ps => do
      touch (.context k)
      touch (.token prog)
      if firstStop then pure (.ok (.brk name data))
      else do
        let ps ← handlePayloadB cfg k prog ps startOffset data
        if isTargetLoop iter self name then again (loopCount + 1) ps
        else do
          touch (.context k)
          touch (.token prog)
          finalizeProgramB prog ps iter loopCount false
    | .action .stop ps => finalizeProgramB prog ps iter loopCount true
    | .action _ _ => lift (M.panic "internal error: entered unreachable code")

/-- `ProgramPattern::_exec` (`src/matchers/program.rs:153-571`): the context is borrowed until
it returns (line 158). -/
def execProgramB (T : Table) (cfg : Cfg) (rec_ : ExecFnB) (patterns : List MatcherId) (name : Str)
    (iter : Option (Nat × Nat)) (firstStop : Bool) (k : Nat) (ctx : Ctx) (sc : SCtxId) : Held R :=
  share (.context k) do
    let c := ctx.withName name
    touch (.context (k + 1))
    let prog ← lift (newTok (Token.mk' c.parser name Range.blank))
    runIterationsB T cfg rec_ prog sc c.offset.start name patterns iter firstStop (k + 1) (iterCount iter) 0
      ⟨c, [], ⟨usizeMax, 0⟩, ⟨usizeMax, 0⟩⟩

/-! ### Other matchers -/

/-- Recursion over children. -/
def forEachB (f : TokId → Held Unit) : List TokId → Held Unit
  | [] => pure ()
  | c :: cs => do
    f c
    forEachB f cs

/-- Record one error token in the error token of a `Discard` (`src/matchers/discard.rs:100-125`):
the error token is borrowed mutably while the other one is borrowed. -/
def discardRecordB (errTok walk : TokId) (w : Token) : Held Unit :=
  if w.flagsEnabled IS_ERROR then
    own (.token errTok) (share (.token walk) (lift (discardRecord errTok walk w)))
  else pure ()

/-- `collect_errors` of `Discard` (`src/matchers/discard.rs:99-133`): the token is borrowed
while its children are walked. -/
def discardCollectB : Nat → TokId → TokId → Held Unit
  | 0, _, _ => lift M.diverge
  | n + 1, errTok, walk => do
    let w ← getTokB walk
    discardRecordB errTok walk w
    share (.token walk) (forEachB (discardCollectB n errTok) w.children)

/-- `skip_token` of `Discard` (`src/matchers/discard.rs:135-153`); `k` is the number of
`sub_context`. -/
def skipTokenB (cfg : Cfg) (k : Nat) (c : Ctx) (startOffset : Nat) (t : TokId) : Held Success := do
  let tk ← getTokB t
  touch (.context k)
  let e ← lift (newTok (Token.mk' c.parser "Error".toList ⟨startOffset, tk.matched.stop⟩))
  let s ← lift M.getState
  discardCollectB (s.toks.length + 1) e t
  let ek ← getTokB e
  if ek.children ≠ [] then pure (.token e)
  else do
    let d ← lift (subOffset cfg tk.matched.stop startOffset)
    pure (.skip d)

/-- `DiscardPattern::_exec` (`src/matchers/discard.rs:20-96`): context and matcher are
borrowed until it returns. -/
def execDiscardB (cfg : Cfg) (rec_ : ExecFnB) (m : MatcherId) (k : Nat) (ctx : Ctx) (sc : SCtxId) : Held R :=
  share (.context k) do
    let c := ctx.withName "Discard".toList
    let skip (t : TokId) : Held Success := skipTokenB cfg (k + 1) c ctx.offset.start t
    share (.matcher m) do
      match ← rec_ m (k + 1) c sc with
      | .ok (.token t) => do
        let s ← skip t
        pure (.ok s)
      | .ok (.proxyChildren t) => do
        let s ← skip t
        pure (.ok s)
      | .ok (.brk n d) =>
        match d with
        | .token t => do
          let s ← skip t
          pure (.ok (.brk n s))
        | .proxyChildren t => do
          let s ← skip t
          pure (.ok (.brk n s))
        | .brk _ _ => lift (M.panic "internal error: entered unreachable code")
        | .cont _ _ => lift (M.panic "internal error: entered unreachable code")
        | d => pure (.ok (.brk n d))
      | .ok (.cont n d) =>
        match d with
        | .token t => do
          let s ← skip t
          pure (.ok (.cont n s))
        | .proxyChildren t => do
          let s ← skip t
          pure (.ok (.cont n s))
        | .brk _ _ => lift (M.panic "internal error: entered unreachable code")
        | .cont _ _ => lift (M.panic "internal error: entered unreachable code")
        | d => pure (.ok (.cont n d))
      | r => pure r

/-- `OptionalPattern::_exec` (`src/matchers/optional.rs:17-33`): matcher and context are
borrowed to the end of the `match`. -/
def execOptionalB (rec_ : ExecFnB) (m : MatcherId) (k : Nat) (ctx : Ctx) (sc : SCtxId) : Held R :=
  share (.matcher m) (share (.context k) do
    match ← rec_ m (k + 1) (ctx.withName "Optional".toList) sc with
    | .err .fail => pure (.ok (.skip 0))
    | r => pure r)

/-- `NotPattern::_exec` (`src/matchers/not.rs:18-49`). -/
def execNotB (rec_ : ExecFnB) (m : MatcherId) (k : Nat) (ctx : Ctx) (sc : SCtxId) : Held R :=
  share (.matcher m) (share (.context k) do
    match ← rec_ m (k + 1) (ctx.withName "Not".toList) sc with
    | .ok (.token _) => pure (.err .fail)
    | .ok (.proxyChildren _) => pure (.err .fail)
    | .ok (.skip x) => if x ≠ 0 then pure (.err .fail) else pure (.ok (.skip x))
    | .err .fail => pure (.ok (.skip 0))
    | r => pure r)

/-- `ProxyChildrenPattern::_exec` (`src/matchers/proxy_children.rs:31-60`). -/
def execProxyChildrenB (rec_ : ExecFnB) (m : MatcherId) (name : Str) (k : Nat) (ctx : Ctx) (sc : SCtxId) :
    Held R := do
  match ← share (.matcher m) (share (.context k) (rec_ m (k + 1) (ctx.withName name) sc)) with
  | .ok (.token t) => pure (.ok (.proxyChildren t))
  | .ok (.brk n (.token t)) => pure (.ok (.brk n (.proxyChildren t)))
  | .ok (.cont n (.token t)) => pure (.ok (.cont n (.proxyChildren t)))
  | r => pure r

/-- `ExpandRange::_exec` (`src/matchers/expand_range.rs:25-63`). -/
def execExpandRangeB (rec_ : ExecFnB) (m : MatcherId) (k : Nat) (ctx : Ctx) (sc : SCtxId) : Held R := do
  touch (.context k)
  let c := ctx.withName "Catch".toList
  match ← runB rec_ m (k + 1) c sc with
  | .ok (.token t) => do
    let tk ← getTokB t
    touch (.context (k + 1))
    let w ← lift (newTok (Token.mkMatched c.parser "ExpandRange".toList tk.matched tk.matched))
    modTokB w (fun k => { k with children := k.children ++ [t] })
    pure (.ok (.proxyChildren w))
  | .ok (.proxyChildren t) => do
    touch (.token t)
    modTokB t (fun k => k.setCaptured k.matched)
    pure (.ok (.proxyChildren t))
  | r => pure r

/-- `CatchPattern::_exec` (`src/matchers/catch.rs:38-54`). -/
def execCatchB (rec_ : ExecFnB) (m : MatcherId) (f : Ctx → Failure → M R) (k : Nat) (ctx : Ctx)
    (sc : SCtxId) : Held R := do
  touch (.context k)
  let c := ctx.withName "Catch".toList
  match ← runB rec_ m (k + 1) c sc with
  | .ok s => pure (.ok s)
  | .err e => lift (f c e)

/-- `MapPattern::_exec` (`src/matchers/map.rs:48-94`). -/
def execMapB (rec_ : ExecFnB) (m : MatcherId) (sf : TokId → Ctx → SCtxId → M R)
    (ff : Failure → Ctx → SCtxId → M R) (k : Nat) (ctx : Ctx) (sc : SCtxId) : Held R := do
  touch (.context k)
  let c := ctx.withName "Map".toList
  match ← runB rec_ m (k + 1) c sc with
  | .ok (.token t) => lift (sf t c sc)
  | .ok (.proxyChildren t) => lift (sf t c sc)
  | .ok s => pure (.ok s)
  | .err e => lift (ff e c sc)

/-- `StorePattern::_exec`, matcher case (`src/matchers/store.rs:52-69`). -/
def execStoreB (rec_ : ExecFnB) (m : MatcherId) (name : Str) (k : Nat) (ctx : Ctx) (sc : SCtxId) : Held R := do
  touch (.context k)
  match ← runB rec_ m (k + 1) (ctx.withName name) sc with
  | .ok (.token t) => do
    bindVarB sc name (.token t)
    pure (.ok (.token t))
  | r => pure r

/-- `StorePattern::_exec`, string case (`src/matchers/store.rs:70-76`). -/
def execStoreStrB (value name : Str) (sc : SCtxId) : Held R := do
  bindVarB sc name (.str value)
  pure (.ok (.skip 0))

/-- `RefPattern::_exec` (`src/matchers/ref.rs:58-87`): the scope is not borrowed any more when
the target runs. -/
def execRefB (rec_ : ExecFnB) (target : Fetchable) (name : Str) (k : Nat) (ctx : Ctx) (sc : SCtxId) : Held R := do
  touch (.context k)
  let c := ctx.withName name
  match ← fetchValueB target sc with
  | .inl n => do
    match ← share (.names sc) (lookupVarB sc n) with
    | some (.matcher m) => runB rec_ m (k + 1) c sc
    | _ => pure (.err (.error ⟨"`Ref` matcher unable to locate target reference `".toList ++ n ++
        "`".toList, none⟩))
  | .inr m => runB rec_ m (k + 1) c sc

/-- The loop of `RegisterPattern::_exec` (`src/matchers/register.rs:27-33`): the scope context
stays borrowed mutably. -/
def registerLoopB (T : Table) (sc : SCtxId) : List MatcherId → Held R
  | [] => pure (.ok (.skip 0))
  | p :: ps => do
    share (.matcher p) (setVarB sc (T p).name (.matcher p))
    registerLoopB T sc ps

/-- `RegisterPattern::_exec` (`src/matchers/register.rs:21-36`). -/
def execRegisterB (T : Table) (sc : SCtxId) (ps : List MatcherId) : Held R := own (.names sc) (registerLoopB T sc ps)

/-- `SetScopePattern::_exec` (`src/matchers/set_scope.rs:29-57`). -/
def execSetScopeB (rec_ : ExecFnB) (scope : Option SCtxId) (m : MatcherId) (k : Nat) (ctx : Ctx) : Held R :=
  let c := ctx.withName "SetScope".toList
  match scope with
  | some x => share (.matcher m) (share (.context k) (rec_ m (k + 1) c x))
  | none => do
    share (.context k) (own (.names ctx.scope) (lift (pushScope ctx.scope)))
    touch (.context k)
    let r ← share (.matcher m) (share (.context k) (rec_ m (k + 1) c ctx.scope))
    share (.context k) (own (.names ctx.scope) (lift (popScope ctx.scope)))
    pure r

/-- `PinPattern::_exec` (`src/matchers/pin.rs:319-364`). -/
def execPinB (cfg : Cfg) (rec_ : ExecFnB) (m : Option MatcherId) (offset : Fetchable) (name : Str)
    (k : Nat) (ctx : Ctx) (sc : SCtxId) : Held R := do
  touch (.context k)
  let c := ctx.withName name
  match ← fetchValueB offset sc with
  | .inr _ => pure (.err (.error
      ⟨"`Pin` matcher received another matcher as an offset... this makes no sense... aborting...".toList,
        none⟩))
  | .inl v => do
    let parts := splitDotDot v
    touch (.context (k + 1))
    let s ← lift (parseOffset cfg c.offset.start c.offset.start (parts.headD []))
    touchMut (.context (k + 1))
    touch (.context (k + 1))
    let e ← lift (pinEnd cfg s c.offset.stop parts)
    touchMut (.context (k + 1))
    touch (.context (k + 1))
    let c := { c with offset := ⟨s, e⟩ }
    match m with
    | some m => runB rec_ m (k + 1) c sc
    | none => do
      touch (.context (k + 1))
      let t ← lift (newTok (Token.mkPin c.parser name ⟨s, e⟩ ⟨s, e⟩))
      pure (.ok (.token t))

/-- `DebugPattern::_exec` (`src/matchers/debug.rs:31-87`): the context is borrowed until it
returns. -/
def execDebugB (rec_ : ExecFnB) (m : Option MatcherId) (mode : Nat) (k : Nat) (ctx : Ctx) (sc : SCtxId) :
    Held R :=
  share (.context k) do
    let c := { ctx.withName "Debug".toList with debug := mode }
    touchMut (.context (k + 1))
    touch (.context (k + 1))
    let _ ← lift (M.ofOpt "debug_range: slice" (c.debugRange 10))
    match m with
    | some m => do
      let r ← runB rec_ m (k + 1) c sc
      touch (.matcher m)
      pure r
    | none => pure (.ok (.skip 0))

/-- The range reported by `Panic` (`src/matchers/panic.rs:22-35`): the context is borrowed
twice. -/
def panicRangeB (k : Nat) (ctx : Ctx) : Held Range :=
  share (.context k)
    (match ctx.stack with
    | top :: _ => do
      let tk ← getTokB top
      touch (.context k)
      pure ⟨tk.matched.start, ctx.offset.start⟩
    | [] => do
      touch (.context k)
      pure ⟨ctx.offset.start, ctx.offset.start⟩)

/-- `PanicPattern::_exec` (`src/matchers/panic.rs:22-42`). -/
def execPanicB (msg : Str) (k : Nat) (ctx : Ctx) : Held R := do
  let r ← panicRangeB k ctx
  let m ← share (.context k) (lift (M.ofOpt "get_error_as_string: slice" (ctx.errorString msg r)))
  pure (.err (.error ⟨m, some r⟩))

/-- `ErrorPattern::_exec` (`src/matchers/error.rs:10-25,59-66`): the new token is borrowed
mutably while its attribute and flag are set. -/
def execErrorB (msg : Str) (k : Nat) (ctx : Ctx) : Held R :=
  share (.context k) do
    let t ← lift (newErrorToken ctx msg)
    touchMut (.token t)
    pure (.ok (.token t))

/-- `_exec` of each matcher. -/
def execNodeB (T : Table) (cfg : Cfg) (rec_ : ExecFnB) (n : Node) (k : Nat) (ctx : Ctx) (sc : SCtxId) : Held R :=
  match n with
  | .equals name _ pat => execEqualsB name pat k ctx sc
  | .regex name _ re => execMatchesB name re k ctx
  | .sequence name _ a b e => execSequenceB name a b e k ctx sc
  | .program ps name _ iter firstStop => execProgramB T cfg rec_ ps name iter firstStop k ctx sc
  | .optional m => execOptionalB rec_ m k ctx sc
  | .not m => execNotB rec_ m k ctx sc
  | .discard m => execDiscardB cfg rec_ m k ctx sc
  | .proxyChildren m name _ => execProxyChildrenB rec_ m name k ctx sc
  | .expandRange m => execExpandRangeB rec_ m k ctx sc
  | .catch_ m f => execCatchB rec_ m f k ctx sc
  | .map m sf ff => execMapB rec_ m sf ff k ctx sc
  | .store m name _ => execStoreB rec_ m name k ctx sc
  | .storeStr v name _ => execStoreStrB v name sc
  | .fetch _ => pure (.ok (.skip 0))
  | .ref target name _ => execRefB rec_ target name k ctx sc
  | .register ps => execRegisterB T sc ps
  | .setScope scope m => execSetScopeB rec_ scope m k ctx
  | .pin m offset name _ => execPinB cfg rec_ m offset name k ctx sc
  | .debug m mode => execDebugB rec_ m mode k ctx sc
  | .brk name => pure (.ok (.brk name .none))
  | .null => pure (.ok (.skip 0))
  | .panic msg => execPanicB msg k ctx
  | .error msg => execErrorB msg k ctx

/-- `before_exec` (`src/matcher.rs:36-42`). -/
def beforeExecB (n : Node) (self : MatcherId) (sc : SCtxId) : Held Unit :=
  if n.hasCustomName then bindVarB sc n.name (.matcher self) else pure ()

/-- `Matcher::exec`; the caller has borrowed the matcher. -/
def execB (T : Table) (cfg : Cfg) : Nat → ExecFnB
  | 0 => fun _ _ _ _ => lift M.diverge
  | n + 1 => fun m k ctx sc => do
    beforeExecB (T m) m sc
    execNodeB T cfg (execB T cfg n) (T m) k ctx sc

/-! ### `tokenize` -/

/-- `retain` of `collect_errors` (`src/parser_context.rs:324-337`), with `push` to the root as
it goes; returns what is kept. -/
def retainB (root : TokId) : List TokId → Held (List TokId)
  | [] => pure []
  | c :: cs => do
    let k ← getTokB c
    if k.flagsEnabled IS_ERROR then do
      modTokB root (fun r => { r with children := r.children ++ [c] })
      retainB root cs
    else do
      let keep ← retainB root cs
      pure (c :: keep)

/-- The first part of `collect_errors` (`src/parser_context.rs:300-317`), with `f` for one child:
a token other than the root is borrowed while the errors of its children are gathered. -/
def gatherBelowB (f : TokId → Held Unit) (t : TokId) (isRoot : Bool) : Held Unit :=
  if isRoot then do
    let tk ← getTokB t
    forEachB f tk.children
  else
    share (.token t) do
      let tk ← lift (getTok t)
      forEachB f tk.children

/-- `collect_errors` (`src/parser_context.rs:299-340`): in the end a token is borrowed mutably
while the root is. -/
def collectErrorsB : Nat → TokId → TokId → Bool → Held Unit
  | 0, _, _, _ => lift M.diverge
  | n + 1, root, t, isRoot => do
    gatherBelowB (fun c => collectErrorsB n root c false) t isRoot
    let tk ← getTokB t
    if tk.children = [] then pure ()
    else if isRoot then pure ()
    else
      own (.token t) do
        let keep ← retainB root tk.children
        lift (modTok t (fun k => { k with children := keep }))

/-- `collect_errors(token, token, true)`. -/
def collectErrorsTopB (t : TokId) : Held Unit := do
  let s ← lift M.getState
  collectErrorsB (s.toks.length + 1) t t true

/-- `ParserContext::tokenize` (`src/parser_context.rs:342-381`); `k` is the number of the
context.  The matcher is borrowed until it returns. -/
def tokenizeB (T : Table) (cfg : Cfg) (fuel : Nat) (k : Nat) (ctx : Ctx) (m : MatcherId) :
    Held (Except Failure TokId) := do
  touch (.context k)
  share (.matcher m) do
    match ← execB T cfg fuel m k ctx ctx.scope with
    | .ok (.token t) => do
      collectErrorsTopB t
      pure (.ok t)
    | .ok (.proxyChildren t) => do
      collectErrorsTopB t
      pure (.ok t)
    | .ok (.brk _ (.token t)) => do
      collectErrorsTopB t
      pure (.ok t)
    | .ok (.cont _ (.token t)) => do
      collectErrorsTopB t
      pure (.ok t)
    | .ok _ => pure (.error .fail)
    | .err f => pure (.error f)

end Adx
