import Verif.Props.Program
import Verif.Props.Leaf
import Verif.Props.Vars
import Verif.Props.Depth
import Verif.Props.Gather
/-
  C65: nothing is remembered between alternatives, so that parses can take exponential time.
-/
namespace Adx

namespace Cost

/-- The grammar `S = a S b / a S c / a`. -/
def table : Table := fun
  | 0 => .program [1, 2, 3] "Switch".toList false none true
  | 1 => .program [3, 4, 5] "Program".toList false none false
  | 2 => .program [3, 4, 6] "Program".toList false none false
  | 3 => .equals "Equals".toList false (.str ['a'])
  | 4 => .ref (.str ['S']) "Ref".toList false
  | 5 => .equals "Equals".toList false (.str ['b'])
  | 6 => .equals "Equals".toList false (.str ['c'])
  | _ => .null

/-- As many `a`s. -/
def text (n : Nat) : Str := List.replicate n 'a'

/-- Only tokens are different, and there are not fewer. -/
structure Grows (s s' : State) : Prop where
  scopes : s'.scopes = s.scopes
  sctxs : s'.sctxs = s.sctxs
  toks : s.toks.length ≤ s'.toks.length

theorem Grows.refl (s : State) : Grows s s := ⟨rfl, rfl, Nat.le_refl _⟩

theorem Grows.trans {s s1 s' : State} (h : Grows s s1) (h' : Grows s1 s') : Grows s s' :=
  ⟨h'.scopes.trans h.scopes, h'.sctxs.trans h.sctxs, Nat.le_trans h.toks h'.toks⟩

theorem Grows.lookup {s s' : State} (h : Grows s s') (sc : SCtxId) (k : Str) : s'.lookup sc k = s.lookup sc k := by
  unfold State.lookup
  rw [h.scopes, h.sctxs]

theorem Grows.put (s : State) (t : TokId) (k : Token) : Grows s (s.put t k) :=
  ⟨rfl, rfl, by simp [State.put]⟩

theorem Grows.program (s : State) (p : Parser) (n : Str) : Grows s (s.withProgram p n) :=
  ⟨rfl, rfl, by simp [State.withProgram]⟩

/-- A token of one character. -/
structure One (pos : Nat) (k : Token) : Prop where
  kind : k.kind = .standard
  flags : k.flags = 0
  matched : k.matched = ⟨pos, pos + 1⟩
  children : k.children = []

variable {cfg : Cfg} {c : Ctx} {sc : SCtxId} {s s' : State}

theorem enters (m : MatcherId) : entered table m sc s = s := by
  unfold entered
  rw [if_neg]
  match m with
  | 0 | 1 | 2 | 3 | 4 | 5 | 6 => decide
  | _ + 7 => exact Bool.false_ne_true

theorem hit {w : Str} (hd : c.debug = 0) (hw : c.Unread ('a' :: w)) :
    ∃ k, One c.offset.start k ∧
      Runs table cfg 3 c sc s (.ok (.token s.toks.length)) { s with toks := s.toks ++ [k] } := by
  obtain ⟨⟨r, s', h⟩, -⟩ := C10_equals_total (T := table) (cfg := cfg) (sc := sc) (s := s) (m := 3) rfl hw hd
  rcases C10_equals_sound rfl hw h with ⟨-, -, k, hk, -, rfl, rfl⟩ | ⟨hn, -⟩
  · rw [enters] at h
    refine ⟨k, ?_, h⟩
    exact ⟨hk.kind, hk.flags, hk.matched, hk.children⟩
  · exact (hn ⟨nofun, _, rfl⟩).elim

theorem miss {p : MatcherId} {n : Str} {ch : Char} {w : Str} (hp : table p = .equals n false (.str [ch])) (hd : c.debug = 0)
    (hw : c.Unread w) (hne : w.head? ≠ some ch) : Runs table cfg p c sc s (.err .fail) s := by
  obtain ⟨⟨r, s', h⟩, -⟩ := C10_equals_total (T := table) (cfg := cfg) (sc := sc) (s := s) hp hw hd
  rcases C10_equals_sound hp hw h with ⟨-, ⟨v, hv⟩, -⟩ | ⟨-, rfl, rfl⟩
  · rw [← hv] at hne
    exact (hne rfl).elim
  · rw [enters] at h
    exact h

/-- What is known of `S` in front of `k` times `a`. -/
def Known (cfg : Cfg) (k : Nat) : Prop :=
  ∀ (c : Ctx) (sc : SCtxId) (s : State), c.debug = 0 → c.Unread (text k) → s.lookup sc ['S'] = some (.matcher 0) →
    ∃ s', Grows s s' ∧ s'.toks.length + 6 = s.toks.length + 9 * 2 ^ k ∧
      ((k = 0 ∧ Runs table cfg 0 c sc s (.err .fail) s') ∨
       (0 < k ∧ ∃ t tok, Runs table cfg 0 c sc s (.ok (.token t)) s' ∧ s'.toks[t]? = some tok ∧ One c.offset.start tok))

theorem One.adopted {pos : Nat} {k : Token} (h : One pos k) (t : TokId) (lo : Nat) : One pos (k.adopted t lo) := by
  unfold Token.adopted
  rw [if_neg (by rw [h.flags]; simp)]
  exact ⟨h.kind, h.flags, h.matched, h.children⟩

theorem unread_step {k : Nat} (hw : c.Unread (text (k + 1))) (t : TokId) :
    ({ c.setStart (c.offset.start + 1) with stack := t :: c.stack } : Ctx).Unread (text k) := by
  have : TextAt c.parser.src c.offset.start c.offset.stop (['a'] ++ text k) := hw
  exact this.suffix

/-- The programs fail, and have tried `S` behind the first `a`. -/
theorem program {p last : MatcherId} {nl : Str} {ch : Char} {k : Nat} (hk : Known cfg k)
    (hp : table p = .program [3, 4, last] "Program".toList false none false)
    (hl : table last = .equals nl false (.str [ch])) (hch : ch ≠ 'a')
    (hd : c.debug = 0) (hw : c.Unread (text (k + 1))) (hs : s.lookup sc ['S'] = some (.matcher 0)) :
    ∃ s', Grows s s' ∧ s'.toks.length + 4 = s.toks.length + 9 * 2 ^ k ∧ Runs table cfg p c sc s (.err .fail) s' := by
  have g0 := Grows.program s c.parser "Program".toList
  obtain ⟨k1, o1, h1⟩ := hit (cfg := cfg) (sc := sc) (s := s.withProgram c.parser "Program".toList)
    (c := { c.setStart c.offset.start with stack := s.toks.length :: c.stack }) (w := text k) hd hw
  generalize hs0 : s.withProgram c.parser "Program".toList = s0 at *
  generalize hs1 : ({ s0 with toks := s0.toks ++ [k1] } : State) = s1 at *
  have g1 : Grows s0 s1 := by
    subst hs1
    exact ⟨rfl, rfl, by simp⟩
  have t1 : s1.toks[s0.toks.length]? = some k1 := by
    subst hs1
    simp
  have k1a := o1.adopted s.toks.length (lowest (Acc.start c.offset.start).mats)
  have g2 := Grows.put s1 s0.toks.length (k1.adopted s.toks.length (lowest (Acc.start c.offset.start).mats))
  have take1 := Takes.token (cfg := cfg) (prog := s.toks.length) (start := c.offset.start) (con := true)
    (a := .start c.offset.start) t1 o1.kind (fun _ _ => by
      rw [o1.matched]
      show c.offset.start + 1 ≠ c.offset.start
      omega)
  generalize hs2 : s1.put s0.toks.length (k1.adopted s.toks.length (lowest (Acc.start c.offset.start).mats)) = s2 at *
  generalize ha : (Acc.start c.offset.start).add true s0.toks.length
    (k1.adopted s.toks.length (lowest (Acc.start c.offset.start).mats)) = a1 at *
  have hpos : a1.pos = c.offset.start + 1 := by
    rw [← ha]
    show (Token.adopted _ _ _).matched.stop = _
    rw [k1a.matched]
    rfl
  have hg : Grows s s2 := (g0.trans g1).trans g2
  have hlen : s2.toks.length = s.toks.length + 2 := by
    subst hs2 hs1 hs0
    simp [State.put, State.withProgram]
  obtain ⟨s3, g3, l3, h3⟩ := hk { c.setStart (c.offset.start + 1) with stack := s.toks.length :: c.stack } sc s2 hd (unread_step hw s.toks.length) (by rw [hg.lookup, hs])
  have hent : entered table p sc s = s := enters p
  rcases h3 with ⟨rfl, h3⟩ | ⟨hk0, t, tok, h3, t3, o3⟩
  · refine ⟨s3, hg.trans g3, by omega, ?_⟩
    refine C14_fails (pre := [3]) (p := 4) (post := [last]) hp hd (s1 := s2) (a := a1) ?_ ?_
    · rw [hent, hs0]
      exact .takes h1 nofun take1 .nil
    · refine (C27_ref (T := table) (m := 4) rfl).mpr (Or.inl ⟨0, ?_, ?_⟩)
      · rw [enters, hg.lookup, hs]
      · rw [enters, hpos]
        exact h3
  · have take3 := Takes.token (cfg := cfg) (prog := s.toks.length) (start := c.offset.start) (con := true)
      (a := a1) t3 o3.kind (fun _ _ => by
        rw [o3.matched, hpos]
        show c.offset.start + 1 + 1 ≠ c.offset.start + 1
        omega)
    have k3a := o3.adopted s.toks.length (lowest a1.mats)
    have g4 := Grows.put s3 t (tok.adopted s.toks.length (lowest a1.mats))
    refine ⟨_, (hg.trans g3).trans g4, by
      have : (s3.put t (tok.adopted s.toks.length (lowest a1.mats))).toks.length = s3.toks.length := by simp [State.put]
      omega, ?_⟩
    refine C14_fails (pre := [3, 4]) (p := last) (post := []) hp hd
      (s1 := s3.put t (tok.adopted s.toks.length (lowest a1.mats))) (a := a1.add true t (tok.adopted s.toks.length (lowest a1.mats))) ?_ ?_
    · rw [hent, hs0]
      refine .takes h1 nofun take1 (.takes (s1 := s3) ?_ nofun take3 .nil)
      refine (C27_ref (T := table) (m := 4) rfl).mpr (Or.inl ⟨0, ?_, ?_⟩)
      · rw [enters, hg.lookup, hs]
      · rw [enters, hpos]
        exact h3
    · obtain ⟨j, rfl⟩ : ∃ j, k = j + 1 := ⟨k - 1, by omega⟩
      have hpos3 : (a1.add true t (tok.adopted s.toks.length (lowest a1.mats))).pos = c.offset.start + 1 + 1 := by
        show (Token.adopted _ _ _).matched.stop = _
        rw [k3a.matched]
        rfl
      have hu := unread_step (unread_step hw s.toks.length) s.toks.length
      show Runs table cfg last _ sc _ _ _
      rw [hpos3]
      refine miss hl hd (w := text j) hu ?_
      cases j with
      | zero => nofun
      | succ j => exact fun h => hch (Option.some.inj h).symm

theorem known (cfg : Cfg) (k : Nat) : Known cfg k := by
  induction k with
  | zero =>
    intro c sc s hd hw hs
    have g0 := Grows.program s c.parser "Switch".toList
    have fails : ∀ (p : MatcherId) (last : MatcherId) (c : Ctx) (s : State), c.debug = 0 → c.Unread (text 0) →
        table p = .program [3, 4, last] "Program".toList false none false →
        Runs table cfg p c sc s (.err .fail) (s.withProgram c.parser "Program".toList) := by
      intro p last c s hd hw hp
      refine C14_fails (pre := []) (p := 3) (post := [4, last]) hp hd (a := .start c.offset.start)
        (s1 := s.withProgram c.parser "Program".toList) ?_ ?_
      · rw [enters]
        exact .nil
      · exact miss rfl hd hw nofun
    refine ⟨((s.withProgram c.parser "Switch".toList).withProgram c.parser "Program".toList).withProgram c.parser "Program".toList,
      (g0.trans (.program ..)).trans (.program ..), ?_, Or.inl ⟨rfl, ?_⟩⟩
    · simp [State.withProgram]
    · refine C15_none (T := table) (m := 0) rfl hd ?_
      rw [enters]
      exact .cons (fails 1 5 { c.setStart c.offset.start with stack := s.toks.length :: c.stack } _ hd hw rfl)
        (.cons (fails 2 6 { c.setStart c.offset.start with stack := s.toks.length :: c.stack } _ hd hw rfl)
          (.cons (miss (p := 3) rfl hd hw nofun) .nil))
  | succ k ih =>
    intro c sc s hd hw hs
    have g0 := Grows.program s c.parser "Switch".toList
    obtain ⟨s1, g1, l1, h1⟩ := program (p := 1) (last := 5) (s := s.withProgram c.parser "Switch".toList) (sc := sc) ih rfl rfl (by decide)
      (c := { c.setStart c.offset.start with stack := s.toks.length :: c.stack }) hd hw (by rw [g0.lookup, hs])
    obtain ⟨s2, g2, l2, h2⟩ := program (p := 2) (last := 6) (s := s1) (sc := sc) ih rfl rfl (by decide)
      (c := { c.setStart c.offset.start with stack := s.toks.length :: c.stack }) hd hw (by rw [g1.lookup, g0.lookup, hs])
    obtain ⟨tok, ho, h3⟩ := hit (cfg := cfg) (sc := sc) (s := s2)
      (c := { c.setStart c.offset.start with stack := s.toks.length :: c.stack }) (w := text k) hd hw
    refine ⟨{ s2 with toks := s2.toks ++ [tok] }, ((g0.trans g1).trans g2).trans ⟨rfl, rfl, by simp⟩, ?_, Or.inr ⟨Nat.succ_pos k, s2.toks.length, tok, ?_, by simp, ho⟩⟩
    · have hl : (s.withProgram c.parser "Switch".toList).toks.length = s.toks.length + 1 := by simp [State.withProgram]
      have := Nat.pow_succ 2 k
      simp only [List.length_append, List.length_singleton]
      omega
    · refine C15_first_match (T := table) (m := 0) (pre := [1, 2]) (p := 3) (post := []) rfl hd ?_ h3
        (.token (k := tok) (by simp) ho.kind)
      rw [enters]
      exact .cons h1 (.cons h2 .nil)

end Cost

open Cost in
/-- C65: there is a grammar of seven matchers with which, for every `n`, the parse of a text of
`n` characters makes `9 * 2 ^ n - 6` tokens, of which the result is one.  (The grammar is
`S = a S b / a S c / a`, the text is `aaa…`: what the first alternative has found out about `S`
behind the `a`, the second one finds out again.) -/
theorem C65_exponential (cfg : Cfg) (n : Nat) (c : Ctx) (sc : SCtxId) (s : State) (hd : c.debug = 0)
    (hw : c.Unread (text (n + 1))) (hs : s.lookup sc ['S'] = some (.matcher 0)) :
    ∃ t k s', Runs table cfg 0 c sc s (.ok (.token t)) s' ∧ s'.toks[t]? = some k ∧
      k.matched = ⟨c.offset.start, c.offset.start + 1⟩ ∧ s'.toks.length + 6 = s.toks.length + 9 * 2 ^ (n + 1) := by
  obtain ⟨s', g, hl, ⟨h, -⟩ | ⟨-, t, k, h, hk, ho⟩⟩ := known cfg (n + 1) c sc s hd hw hs
  · cases h
  · exact ⟨t, k, s', h, hk, ho.matched, hl⟩

/-- No tokens, and a scope in which `S` is registered. -/
def Cost.start : State := ⟨[], [[(['S'], .matcher 0)]], [[0]]⟩

open Cost in
/-- C65 for whole parses: a text of `n + 1` characters is parsed, the result is a token of one
character without children, and `9 * 2 ^ (n + 1) - 6` tokens were made for it. -/
theorem C65_tokenize (cfg : Cfg) (n : Nat) (file : Str) :
    ∃ t k s', (∃ N, ∀ fuel, N ≤ fuel →
        tokenize table cfg fuel (Ctx.new ⟨text (n + 1), file⟩ 0 []) 0 Cost.start = .ok (.ok t) s') ∧
      s'.toks[t]? = some k ∧ k.matched = ⟨0, 1⟩ ∧ k.children = [] ∧ s'.toks.length + 6 = 9 * 2 ^ (n + 1) := by
  have hw : (Ctx.new ⟨text (n + 1), file⟩ 0 []).Unread (text (n + 1)) := ⟨[], [], by simp [Ctx.new], rfl, by simp [Ctx.new, blen]⟩
  obtain ⟨s', g, hl, ⟨h, -⟩ | ⟨-, t, k, ⟨N, h⟩, hk, ho⟩⟩ := known cfg (n + 1) (Ctx.new ⟨text (n + 1), file⟩ 0 []) 0 Cost.start rfl hw rfl
  · cases h
  · obtain ⟨es, s1, hb, hc, -, -, h3, h4, -⟩ := C23_gather hk (l := []) (by rw [ho.children]; exact .nil) (by simp)
    rw [ho.children] at hb h4
    cases hb
    refine ⟨t, _, s1, ⟨N, fun fuel hf => ?_⟩, h4, ho.matched, rfl, ?_⟩
    · have h' : exec table cfg fuel 0 (Ctx.new ⟨text (n + 1), file⟩ 0 []) 0 Cost.start = .ok (.ok (.token t)) s' := by
        rw [C06_depth_independent hf (by rw [h]; nofun), h]
      unfold tokenize
      rw [bind_run (show exec table cfg fuel 0 _ (Ctx.new ⟨text (n + 1), file⟩ 0 []).scope Cost.start = _ from h')]
      dsimp only
      rw [bind_run hc]
      rfl
    · rw [h3]
      exact hl.trans (Nat.zero_add _)

/-- Non-vacuity: the numbers of tokens for texts of one to four characters. -/
example : (List.range 4).map (fun n =>
    match tokenize Cost.table ⟨true⟩ 40 (Ctx.new ⟨Cost.text (n + 1), []⟩ 0 []) 0 Cost.start with
    | .ok _ s => s.toks.length
    | _ => 0) = [12, 30, 66, 138] := by
  decide +kernel

end Adx
