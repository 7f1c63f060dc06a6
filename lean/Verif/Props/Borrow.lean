import Verif.Proofs.Borrow
import Verif.Props.Compile
/-
  C56: no `RefCell` is borrowed twice.
-/
namespace Adx

/-- What running gives without borrow flags, with flags that are as before. -/
def Res.flagged {α : Type} (r : Res α) (fl : Borrows) : BRes α :=
  match r with
  | .ok a s => .ok a s fl
  | .panic e => .panic e
  | .diverge => .diverge

/-- Nothing is borrowed, or matchers, contexts and the first `base` tokens only, and only
shared; the contexts behind `k` are not there yet. -/
def Idle (base k : Nat) (fl : Borrows) : Prop :=
  ∀ c : Cell, match c with
    | .token t => (t < base → ∃ n, fl c = .shared n) ∧ (base ≤ t → fl c = .shared 0)
    | .matcher _ => ∃ n, fl c = .shared n
    | .context j => (j ≤ k → ∃ n, fl c = .shared n) ∧ (k < j → fl c = .shared 0)
    | .names _ | .scope _ => fl c = .shared 0
    | .hook .. | .errors _ => True

theorem Idle.quiet {base k : Nat} {fl : Borrows} (h : Idle base k fl) : Quiet base k fl where
  token t := by
    intro hx
    by_cases ht : t < base
    · obtain ⟨n, hn⟩ := (h (.token t)).1 ht
      rw [hn] at hx
      cases hx
    · rw [(h (.token t)).2 (Nat.le_of_not_lt ht)] at hx
      cases hx
  new t ht := (h (.token t)).2 ht
  names sc := h (.names sc)
  scope i := h (.scope i)
  matcher m := by
    obtain ⟨n, hn⟩ := h (.matcher m)
    rw [hn]
    intro hx
    cases hx
  behind j hj := (h (.context j)).2 hj
  context := by
    obtain ⟨n, hn⟩ := (h (.context k)).1 (Nat.le_refl _)
    rw [hn]
    intro hx
    cases hx

theorem Idle.free (base k : Nat) : Idle base k Borrows.free := by
  intro c
  cases c with
  | token t => exact ⟨fun _ => ⟨0, rfl⟩, fun _ => rfl⟩
  | matcher m => exact ⟨0, rfl⟩
  | context j => exact ⟨fun _ => ⟨0, rfl⟩, fun _ => rfl⟩
  | names _ | scope _ => rfl
  | hook _ _ | errors _ => trivial

attribute [local irreducible] Script.switchMatcher Script.programMatcher Script.script tokenize tokenizeB
  buildMatcherFromTokens String.toList

section

variable {T : Table} {cfg : Cfg} {n k : Nat} {m : MatcherId} {c : Ctx} {sc : SCtxId} {s : State} {fl : Borrows}

/-- C56: running a matcher borrows no cell that is borrowed already: with the flags it does
exactly what it does without, and in the end all flags are as they were.  Tokens that were
there before may be borrowed meanwhile. -/
theorem C56_exec (hT : ∀ m, (T m).Grafts) (h : Idle s.toks.length k fl) :
    execB T cfg n m k c sc s fl = (exec T cfg n m c sc s).flagged fl :=
  agrees_exec hT n m k c sc s fl h.quiet (Nat.le_refl _)

/-- C56: the same for `tokenize`, with the gathering of errors. -/
theorem C56_tokenize (hT : ∀ m, (T m).Grafts) (h : Idle s.toks.length k fl) :
    tokenizeB T cfg n k c m s fl = (tokenize T cfg n c m s).flagged fl :=
  agrees_tokenize hT h.quiet (Nat.le_refl _)

/-- C56: there is never the panic for a borrowed cell. -/
theorem C56_no_conflict (hT : ∀ m, (T m).Grafts) (x : Cell) :
    tokenizeB T cfg n k c m s Borrows.free ≠ .conflict x := by
  rw [C56_tokenize hT (Idle.free _ k)]
  cases tokenize T cfg n c m s <;> (intro h; cases h)

/-- C56: a text is parsed with a matcher made from a script without such a panic. -/
theorem C56_compiled {env : Env} {w w' : World} {fuel : Nat} {parser : Parser} {name : Str} {fromFile : Option Str}
    (hw : Compiled env w) (h : compileScript env fuel parser name fromFile w = .ok m sc w') (m' : MatcherId) (x : Cell) :
    tokenizeB (tableOf w'.nodes) cfg n k c m' s Borrows.free ≠ .conflict x :=
  C56_no_conflict (fun i => ((Compiled.script hw h).milds.table i).grafts) x

/-- C56: a script is parsed without such a panic. -/
theorem C56_script {env : Env} {w : World} {parser : Parser} {name : Str} (hw : Compiled env w) (x : Cell) :
    tokenizeB (tableOf (setup env parser name w).nodes) env.cfg n k (setup env parser name w).ctx
      (setup env parser name w).start (setup env parser name w).st Borrows.free ≠ .conflict x :=
  C56_no_conflict (fun i => ((setup_milds env parser name hw.milds).table i).grafts) x

/-- C56: `retain` with a push to the root for each error does what taking the errors out
and appending them to the root together does, for tokens that are not the root. -/
theorem C56_retain {root : TokId} {cs : List TokId} {kr : Token} (hr : s.toks[root]? = some kr)
    (hc : ∀ c ∈ cs, c < s.toks.length ∧ c ≠ root) (h : ∀ t, fl (.token t) = .shared 0) :
    retainB root cs s fl = .ok (cs.filter (fun c => ! isErrorTok s.toks c))
      { s with toks := s.toks.set root { kr with children := kr.children ++ cs.filter (isErrorTok s.toks) } } fl := by
  have := agrees_retain (h root) cs s fun c _ => Borrow.free_ne (h c)
  unfold Agrees Held.lift at this
  rw [this, retainM_eq cs s kr hr hc]

end

/-! ### Examples -/

namespace BorrowExample

def BRes.holds {α : Type} (r : BRes α) (p : α → State → Bool) : Bool :=
  match r with
  | .ok a s _ => p a s
  | _ => false

def conflictAt {α : Type} (r : BRes α) : Option Cell :=
  match r with
  | .conflict c => some c
  | _ => none

/-- A loop with discarded errors. -/
def T : Table := fun
  | 0 => .program [1] "P".toList false (some (0, 2)) false
  | 1 => .discard 2
  | 2 => .program [3, 4] "Q".toList true none false
  | 3 => .store 5 "s".toList false
  | 4 => .map 3 successIsFine (assertIfNotErr "m".toList)
  | _ => .equals "E".toList false (.str "a".toList)

theorem T_grafts : ∀ m, (T m).Grafts := by
  intro m
  match m with
  | 0 => trivial
  | 1 => trivial
  | 2 => trivial
  | 3 => trivial
  | 4 => exact grafts_assertIfNot
  | _ + 5 => trivial

def ctx : Ctx := Ctx.new ⟨"ab".toList, []⟩ 0 []

example : BRes.holds (tokenizeB T ⟨true⟩ 9 0 ctx 0 ⟨[], [], [[]]⟩ Borrows.free) (fun r s =>
      (match r with | .ok t => t == 0 | .error _ => false) && s.toks.map Token.children == [[4, 3], [2, 3], [], [], [], []]) := by
  decide +kernel

/-- With a token borrowed from outside, a run can fail. -/
example : conflictAt (tokenizeB T ⟨true⟩ 9 0 ctx 0 ⟨[], [], [[]]⟩ (Borrows.free.set (.names 0) (.shared 1))) =
    some (.names 0) := by
  decide +kernel

/-- Parsing while tokens of another tree are borrowed. -/
example : BRes.holds (tokenizeB T ⟨true⟩ 9 0 ctx 0 ⟨[Token.mk' ⟨[], []⟩ [] ⟨0, 0⟩], [], [[]]⟩
      (Borrows.free.set (.token 0) (.shared 2))) (fun r s =>
        (match r with | .ok t => t == 1 | .error _ => false) && s.toks.map Token.children == [[], [5, 4], [3, 4], [], [], [], []]) := by
  decide +kernel

/-- A program keeps its context borrowed: it cannot be changed meanwhile. -/
example (s : State) : conflictAt (Held.share (.context 0) (Held.touchMut (.context 0)) s Borrows.free) = some (.context 0) := rfl

/-- A callback may make a token its own child, and extracting the children of that token
borrows it mutably while it is borrowed. -/
theorem callback_conflict :
    let T : Table := fun
      | 0 => .program [1] "P".toList false none false
      | 1 => .map 2 (fun t _ _ => do modTok t (fun k => { k with children := [t] }); pure (.ok (.proxyChildren t))) passFailure
      | _ => .equals "E".toList false (.str "a".toList)
    conflictAt (tokenizeB T ⟨true⟩ 9 0 ctx 0 ⟨[], [], [[]]⟩ Borrows.free) = some (.token 1) ∧
    (exec T ⟨true⟩ 9 0 ctx 0 ⟨[], [], [[]]⟩).holds (fun r _ => r == .ok (.token 0)) := by
  decide +kernel

/-- A token with one child that has an error below it. -/
def heap : State :=
  let k (c : List TokId) : Token := { Token.mk' ⟨[], []⟩ [] ⟨0, 0⟩ with children := c }
  ⟨[k [1], k [2], (k []).enableFlags IS_ERROR], [], []⟩

/-- The copy that `collect_errors` makes of the children of the root is needed: holding the
root as the other tokens are held, the error could not be pushed. -/
theorem copy_needed :
    conflictAt (collectErrorsB 9 0 0 false heap Borrows.free) = some (.token 0) ∧
    BRes.holds (collectErrorsB 9 0 0 true heap Borrows.free)
      (fun _ s => s.toks.map Token.children == [[1, 2], [], []]) := by
  decide +kernel

end BorrowExample

end Adx
