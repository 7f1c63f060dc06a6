import Verif.Spec.Program
import Verif.Spec.Runs
/-
  A `Break` on its way through nested programs, switches and optionals.
-/
namespace Adx

/-- The context in which a program that reads at `pos` runs its parts. -/
def Ctx.inside (c : Ctx) (prog : TokId) (pos : Nat) : Ctx :=
  { c with offset := ⟨pos, c.offset.stop⟩, stack := prog :: c.stack }

/-- Alternatives that all fail at the position of the switch. -/
inductive Missed (T : Table) (cfg : Cfg) (c : Ctx) (sc : SCtxId) : List MatcherId → State → State → Prop
  | nil {s} : Missed T cfg c sc [] s s
  | cons {p ps s s1 s'} (h : Runs T cfg p c sc s (.err .fail) s1) (hr : Missed T cfg c sc ps s1 s') :
      Missed T cfg c sc (p :: ps) s s'

/-- Matcher `m` leaves with a `Break` called `n`, carrying what was collected. -/
inductive Unwinds (T : Table) (cfg : Cfg) (n : Str) :
    MatcherId → Ctx → SCtxId → State → Success → State → Prop
  /-- The `Break` itself carries nothing. -/
  | brk {m c sc s} (hm : T m = .brk n) : Unwinds T cfg n m c sc s .none s
  /-- An optional matcher lets it through. -/
  | optional {m b c sc s d s'} (hm : T m = .optional b) (h : Unwinds T cfg n b c sc s d s') :
      Unwinds T cfg n m c sc s d s'
  /-- A switch, whose earlier alternatives failed, lets it through. -/
  | switch {m c sc s d s' pre p post name cu s1}
      (hm : T m = .program (pre ++ p :: post) name cu none true)
      (hpre : Missed T cfg (c.inside s.toks.length c.offset.start) sc pre
        ((entered T m sc s).withProgram c.parser name) s1)
      (h : Unwinds T cfg n p (c.inside s.toks.length c.offset.start) sc s1 d s') :
      Unwinds T cfg n m c sc s d s'
  /-- A program, or a loop of another name, whose earlier parts were taken up, adds
  the payload to what it has collected and passes the `Break` on with its own token. -/
  | program {m c sc s pre p post name cu iter a1 s1 d s2 a2 s3 x s' j a0 s0}
      (hm : T m = .program (pre ++ p :: post) name cu iter false)
      (hna : ¬ Answers iter name n)
      (hj : j < maxPasses iter)
      (hr : Rounds T cfg (fun p pos => Runs T cfg p (c.inside s.toks.length pos) sc)
        s.toks.length c.offset.start name (pre ++ p :: post) iter j (.start c.offset.start)
        ((entered T m sc s).withProgram c.parser name) a0 s0)
      (hpre : Pass T cfg (fun p pos => Runs T cfg p (c.inside s.toks.length pos) sc)
        s.toks.length c.offset.start false pre a0 s0 (.done a1) s1)
      (h : Unwinds T cfg n p (c.inside s.toks.length a1.pos) sc s1 d s2)
      (ht : TakesPayload cfg s.toks.length c.offset.start d a1 s2 a2 s3)
      (hc : Completes s.toks.length a2 s3 (.ok x) s') :
      Unwinds T cfg n m c sc s x s'

end Adx
