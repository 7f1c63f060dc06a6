import Verif.Proofs.PegExec
import Verif.Proofs.Import
import Verif.Props.Proxy
import Verif.Props.Vars
import Verif.Props.Pin
import Verif.Props.Balance
/-
  Reading a given text with the matchers of a builder: rules for what comes out, without
  heaps.  A matcher is applied to the rest `w` of the text; the result says what is left.
-/
namespace Adx.Read

/-! ### Trees -/

/-- What matters of a token. -/
structure Info where
  name : Str
  captured : Range
  matched : Range
  value : Option Str
  attributes : AMap Str
  flags : Flags

@[inherit_doc Info]
def _root_.Adx.Token.info (k : Token) : Info := ⟨k.name, k.captured, k.matched, k.value, k.attributes, k.flags⟩

/-- A token with its children. -/
inductive Tr
  | node (i : Info) (kids : List Tr)

def Tr.info : Tr → Info | .node i _ => i
def Tr.kids : Tr → List Tr | .node _ ks => ks
abbrev Tr.name (t : Tr) : Str := t.info.name
abbrev Tr.captured (t : Tr) : Range := t.info.captured
abbrev Tr.matched (t : Tr) : Range := t.info.matched

/-- The matchers, the text, what the two names of the grammar of scripts stand for, and
whether there may be error tokens. -/
structure Setting where
  T : Table
  cfg : Cfg
  p : Parser
  sw : MatcherId
  pm : MatcherId
  mild : ∀ m, (T m).Mild
  small : blen p.src ≤ isizeMax
  ascii : Ascii p.src
  errs : Bool

/-- The name of error tokens. -/
def errorName : Str := "Error".toList

/-- An error token. -/
structure _root_.Adx.Token.Wrong (k : Token) : Prop where
  flags : k.flags = IS_ERROR
  name : k.name = errorName
  message : (k.attributes.get "__message".toList).isSome
  children : k.children = []

mutual
/-- No error token is in the tree. -/
def Tr.clean : Tr → Bool
  | .node i ks => i.name != errorName && cleans ks
@[inherit_doc Tr.clean]
def cleans : List Tr → Bool
  | [] => true
  | t :: ts => t.clean && cleans ts
end

/-- A token of the source, with no error unless there may be error tokens. -/
structure Plain (E : Setting) (k : Token) : Prop where
  kind : k.kind = .standard
  flags : k.flags = 0 ∨ (E.errs = true ∧ k.Wrong)
  parser : k.parser = E.p
  cap : k.capturedValue = k.captured.text E.p
  mat : k.matchedValue = k.matched.text E.p
  inside : k.matched.start ≤ blen E.p.src ∧ k.matched.stop ≤ blen E.p.src

/-- The tokens `ts`, all at `lo` or above, are the roots of the given trees; children are
above their parents. -/
inductive Reps (E : Setting) (toks : List Token) : Nat → List TokId → List Tr → Prop
  | nil {lo} : Reps E toks lo [] []
  | cons {lo t k ts cs trees} (hl : lo ≤ t) (hk : toks[t]? = some k) (hp : Plain E k)
      (hc : Reps E toks (t + 1) k.children cs) (hr : Reps E toks lo ts trees) :
      Reps E toks lo (t :: ts) (.node k.info cs :: trees)

section
variable {E : Setting} {toks toks' : List Token} {lo : Nat} {ts : List TokId} {trees : List Tr}

theorem Wrong.parent {k : Token} (h : k.Wrong) (q : Option TokId) : ({ k with parent := q } : Token).Wrong :=
  ⟨h.flags, h.name, h.message, h.children⟩

theorem Plain.parent {k : Token} (h : Plain E k) (q : Option TokId) : Plain E { k with parent := q } :=
  ⟨h.kind, h.flags.imp_right fun hh => ⟨hh.1, Wrong.parent hh.2 q⟩, h.parser, h.cap, h.mat, h.inside⟩

theorem Reps.lower {lo' : Nat} (h : Reps E toks lo ts trees) (hl : lo' ≤ lo) : Reps E toks lo' ts trees := by
  induction h generalizing lo' with
  | nil => exact .nil
  | cons h1 hk hp hc _ _ ih => exact .cons (Nat.le_trans hl h1) hk hp hc (ih hl)

theorem Reps.append {ts' : List TokId} {trees' : List Tr} (h : Reps E toks lo ts trees)
    (h' : Reps E toks lo ts' trees') : Reps E toks lo (ts ++ ts') (trees ++ trees') := by
  induction h with
  | nil => exact h'
  | cons h1 hk hp hc _ _ ih => exact .cons h1 hk hp hc (ih h')

theorem Reps.nil_iff (h : Reps E toks lo ts trees) : ts = [] ↔ trees = [] := by
  cases h <;> simp

/-- Only the parents of tokens may have changed. -/
theorem Reps.change (h : Reps E toks lo ts trees)
    (hc : ∀ (i : Nat) (k : Token), lo ≤ i → toks[i]? = some k → ∃ q, toks'[i]? = some { k with parent := q }) :
    Reps E toks' lo ts trees := by
  induction h with
  | nil => exact .nil
  | @cons lo t k ts cs trees hl hk hp _ _ ih1 ih2 =>
    obtain ⟨q, hk'⟩ := hc t k hl hk
    have := ih1 fun i k hi => hc i k (by omega)
    exact .cons (k := { k with parent := q }) hl hk' (hp.parent q) this (ih2 hc)

theorem Plain.unflagged {k : Token} (h : Plain E k) (hn : E.errs = false ∨ k.name ≠ errorName) : k.flags = 0 := by
  rcases h.flags with h | ⟨h1, h2⟩
  · exact h
  · rcases hn with hn | hn
    · rw [hn] at h1
      cases h1
    · exact (hn h2.name).elim

/-- The range of a token changes only if it is empty. -/
theorem adopted_wide {k : Token} (hr : k.matched.start ≠ k.matched.stop) (prog n : Nat) :
    k.adopted prog n = { k with parent := some prog } := by
  unfold Token.adopted
  rw [if_neg]
  exact fun hh => hr hh.2

theorem Reps.pre (h : Reps E toks lo ts trees) (hc : E.errs = false ∨ cleans trees = true) :
    ∃ l, Pre toks ts l ∧ (∀ u ∈ l, isErrorTok toks u = false) := by
  induction h with
  | nil => exact ⟨[], .nil, by simp⟩
  | @cons lo t k ts cs trees hl hk hp _ _ ih1 ih2 =>
    have hc' : E.errs = false ∨ (k.name ≠ errorName ∧ cleans cs = true) ∧ cleans trees = true := by
      refine hc.imp_right fun hh => ?_
      simpa [cleans, Tr.clean, Token.info] using hh
    obtain ⟨l1, p1, e1⟩ := ih1 (hc'.imp_right fun hh => hh.1.2)
    obtain ⟨l2, p2, e2⟩ := ih2 (hc'.imp_right fun hh => hh.2)
    refine ⟨t :: (l1 ++ l2), .cons hk p1 p2, ?_⟩
    intro u hu
    rcases List.mem_cons.mp hu with rfl | hu
    · rw [isErrorTok_eq hk]
      unfold Token.flagsEnabled
      rw [hp.unflagged (hc'.imp_right fun hh => hh.1.1)]
      decide
    · rcases List.mem_append.mp hu with hu | hu
      · exact e1 u hu
      · exact e2 u hu

/-- The root of a tree. -/
theorem Reps.root {t : TokId} {tree : Tr} (h : Reps E toks lo [t] [tree]) :
    ∃ k, lo ≤ t ∧ toks[t]? = some k ∧ Plain E k ∧ k.info = tree.info ∧
      Reps E toks (t + 1) k.children tree.kids := by
  cases h with
  | cons hl hk hp hc _ => exact ⟨_, hl, hk, hp, rfl, hc⟩

theorem Reps.of_root {t : TokId} {tree : Tr} {k : Token} (hl : lo ≤ t) (hk : toks[t]? = some k)
    (hp : Plain E k) (hi : k.info = tree.info) (hc : Reps E toks (t + 1) k.children tree.kids) :
    Reps E toks lo [t] [tree] := by
  cases tree with
  | node i ks =>
    obtain rfl : k.info = i := hi
    exact .cons hl hk hp hc .nil

theorem reps_same (h : Reps E toks lo ts trees) (hlen : ∀ (i : Nat) (k : Token), toks[i]? = some k → toks'[i]? = some k) :
    Reps E toks' lo ts trees :=
  h.change fun i k _ hk => ⟨k.parent, hlen i k hk⟩

end

open Peg (Keeps)

theorem keeps_reps {E : Setting} {b lo : Nat} {s s' : State} {ts : List TokId} {trees : List Tr}
    (h : Keeps b s s') (hb : s.toks.length ≤ b) (hr : Reps E s.toks lo ts trees) : Reps E s'.toks lo ts trees := by
  refine reps_same hr fun i k hk => ?_
  have hlt : i < s.toks.length := (List.getElem?_eq_some_iff.mp hk).1
  rw [h.same i (by omega), hk]

theorem put_reps {E : Setting} {lo : Nat} {s : State} {t : TokId} {k : Token} {q : Option TokId} {ts : List TokId}
    {trees : List Tr} (hk : s.toks[t]? = some k) (hr : Reps E s.toks lo ts trees) :
    Reps E (s.put t { k with parent := q }).toks lo ts trees := by
  refine hr.change fun i k' _ hk' => ?_
  by_cases hi : i = t
  · subst hi
    rw [hk] at hk'
    cases hk'
    exact ⟨q, put_get hk⟩
  · refine ⟨k'.parent, ?_⟩
    show (s.toks.set t _)[i]? = _
    rw [List.getElem?_set_ne (fun h => hi h.symm), hk']

/-- The token, and all below it but errors, are somewhere behind `lo` and before `hi`. -/
inductive Tr.Ok : Nat → Nat → Tr → Prop
  | node {lo hi i ks} (h1 : lo ≤ i.matched.start) (h2 : i.matched.start < i.matched.stop) (h3 : i.matched.stop ≤ hi)
      (h4 : i.captured.start ≤ i.matched.stop) (hk : ∀ k ∈ ks, k.name ≠ errorName → Tr.Ok lo i.matched.stop k) : Tr.Ok lo hi (.node i ks)

theorem Tr.Ok.mono {lo hi lo' hi' : Nat} {t : Tr} (h : t.Ok lo hi) (h1 : lo' ≤ lo) (h2 : hi ≤ hi') : t.Ok lo' hi' := by
  induction h generalizing lo' hi' with
  | node a1 a2 a3 a4 hk ih => exact .node (by omega) a2 (by omega) a4 fun k hk hn => ih k hk hn h1 (Nat.le_refl _)

theorem Tr.Ok.facts {lo hi : Nat} {t : Tr} (h : t.Ok lo hi) :
    lo ≤ t.matched.start ∧ t.matched.start < t.matched.stop ∧ t.matched.stop ≤ hi ∧ t.captured.start ≤ t.matched.stop ∧
    ∀ k ∈ t.kids, k.name ≠ errorName → k.Ok lo t.matched.stop := by
  cases h with
  | node a1 a2 a3 a4 hk => exact ⟨a1, a2, a3, a4, hk⟩

/-! ### The setting -/

namespace Setting
variable (E : Setting)

/-- The position at which the rest of the text is `w`. -/
def at_ (w : Str) : Nat := blen E.p.src - blen w

/-- `w` is the rest of the text from some position on. -/
def Has (w : Str) : Prop := w <:+ E.p.src

/-- The context reads at the rest `w`. -/
structure Here (w : Str) (c : Ctx) : Prop where
  parser : c.parser = E.p
  offset : c.offset = ⟨E.at_ w, blen E.p.src⟩
  debug : c.debug = 0

end Setting

section
variable {E : Setting} {w w' u : Str}

theorem Setting.Has.tail (h : E.Has w) (h' : w' <:+ w) : E.Has w' := h'.trans h

theorem Setting.Has.len (h : E.Has w) : E.at_ w + blen w = blen E.p.src := by
  obtain ⟨u, hu⟩ := h
  unfold Setting.at_
  rw [← hu, blen_append]
  omega

theorem Setting.Has.le (h : E.Has w) : E.at_ w ≤ blen E.p.src := by
  have := h.len
  omega

theorem Setting.Has.text (h : E.Has w) : TextAt E.p.src (E.at_ w) (blen E.p.src) w := by
  have hl := h.len
  obtain ⟨u, hu⟩ := h
  rw [← hu] at hl ⊢
  refine ⟨u, [], by simp, ?_, ?_⟩
  · rw [blen_append] at hl
    omega
  · rw [blen_append]

theorem Setting.Has.piece (h : E.Has (u ++ w')) : TextAt E.p.src (E.at_ (u ++ w')) (E.at_ w') u := by
  have h1 := h.text.prefix
  have h2 := h.len
  have h3 := (h.tail (List.suffix_append u w')).len
  rw [blen_append] at h2
  have : E.at_ w' = E.at_ (u ++ w') + blen u := by omega
  rw [this]
  exact h1

theorem Setting.Has.range (h : E.Has (u ++ w')) : (⟨E.at_ (u ++ w'), E.at_ w'⟩ : Range).text E.p = u := by
  unfold Range.text
  exact substring_textAt h.piece E.ascii

theorem suffix_blen (h' : w' <:+ w) : blen w' ≤ blen w := by
  obtain ⟨u, rfl⟩ := h'
  rw [blen_append]
  omega

theorem Setting.Has.mono (h : E.Has w) (h' : w' <:+ w) : E.at_ w ≤ E.at_ w' := by
  have := h.len
  have := (h.tail h').len
  have := suffix_blen h'
  omega

theorem Setting.Has.lt (h : E.Has w) (h' : w' <:+ w) (hn : blen w' < blen w) : E.at_ w < E.at_ w' := by
  have := h.len
  have := (h.tail h').len
  omega

theorem suffix_lt (h' : w' <:+ w) (hn : w' ≠ w) : blen w' < blen w := by
  obtain ⟨u, rfl⟩ := h'
  rw [blen_append]
  cases u with
  | nil => exact (hn rfl).elim
  | cons c u =>
    have := utf8Size_pos c
    show _ < c.utf8Size + _ + _
    omega

theorem Setting.Has.ascii (h : E.Has w) : Ascii w := by
  obtain ⟨u, hu⟩ := h
  have := E.ascii
  rw [← hu] at this
  exact (Ascii.append.mp this).2

theorem Setting.Has.spot {n : Nat} (h : E.Has w) (h1 : E.at_ w ≤ n) (h2 : n ≤ blen E.p.src) :
    ∃ w', w' <:+ w ∧ E.at_ w' = n := by
  refine ⟨w.drop (n - E.at_ w), List.drop_suffix .., ?_⟩
  have hl := h.len
  have ha := h.ascii
  have h3 := (h.tail (List.drop_suffix (n - E.at_ w) w)).len
  have h4 := (h.tail (List.drop_suffix (n - E.at_ w) w)).ascii
  rw [blen_ascii ha] at hl
  rw [blen_ascii h4, List.length_drop] at h3
  omega

theorem Setting.Here.unread {c : Ctx} (h : E.Here w c) (hw : E.Has w) : TextAt c.parser.src c.offset.start c.offset.stop w := by
  rw [h.parser, h.offset]
  exact hw.text

end

/-! ### Results -/

/-- What comes out. -/
inductive Got
  | fail
  /-- Text was skipped; `w` is left. -/
  | past (w : Str)
  | tok (w : Str) (t : Tr)
  /-- To be replaced by its children, behind which `w` is left. -/
  | splice (w : Str) (t : Tr)
  /-- A token of a part that does not consume. -/
  | aside (t : Tr)
  | pin
  | none
  | brk (name : Str) (g : Got)
  /-- An error of the whole parse. -/
  | fatal
  /-- An error token of a part that does not consume. -/
  | note (t : Tr)
  /-- An error token in place of another token. -/
  | odd (t : Tr)

/-- Sanity of a result, when `w` was there before. -/
def Got.Good (E : Setting) (w : Str) : Got → Prop
  | .fail => True
  | .past w' => w' <:+ w
  | .tok w' t => w' <:+ w ∧ t.matched = ⟨E.at_ w, E.at_ w'⟩ ∧ t.Ok (E.at_ w) (blen E.p.src)
  | .splice w' t => w' <:+ w ∧ t.matched.start = E.at_ w ∧ t.Ok (E.at_ w) (blen E.p.src) ∧
      E.at_ w' ≤ t.matched.stop ∧ (∃ k, t.kids.getLast? = some k ∧ k.matched.stop = E.at_ w') ∧
      ∀ k ∈ t.kids, k.name ≠ errorName
  | .aside t => t.Ok (E.at_ w) (blen E.p.src)
  | .pin => True
  | .none => True
  | .brk _ g => g.Good E w
  | .fatal => True
  | .note t => t.name = errorName ∧ t.matched.start < t.matched.stop
  | .odd t => t.name = errorName ∧ E.at_ w ≤ t.matched.start ∧ t.matched.start ≤ t.matched.stop ∧
      t.matched.stop ≤ blen E.p.src ∧ t.captured = t.matched

/-- What consuming and other matchers may return. -/
def Got.Con (w : Str) (con : Bool) : Got → Prop
  | .past w' => con = true ∨ w' = w
  | .tok _ _ => con = true
  | .splice _ _ => con = true
  | .aside _ => con = false
  | .note _ => con = false
  | .odd _ => con = true
  | _ => True

/-- A success of the engine shows this. -/
inductive ShowsS (E : Setting) (w : Str) (toks : List Token) (lo : Nat) : Success → Got → Prop
  | past {k : Int} {w'} (h : k + E.at_ w = E.at_ w') : ShowsS E w toks lo (.skip k) (.past w')
  | tok {t tree w'} (h : Reps E toks lo [t] [tree]) : ShowsS E w toks lo (.token t) (.tok w' tree)
  | splice {t tree w'} (h : Reps E toks lo [t] [tree]) : ShowsS E w toks lo (.proxyChildren t) (.splice w' tree)
  | aside {t tree} (h : Reps E toks lo [t] [tree]) : ShowsS E w toks lo (.token t) (.aside tree)
  | pin {t k} (hl : lo ≤ t) (hk : toks[t]? = some k) (hp : k.kind = .pin) : ShowsS E w toks lo (.token t) .pin
  | none : ShowsS E w toks lo .none .none
  | brk {n d g} (h : ShowsS E w toks lo d g) : ShowsS E w toks lo (.brk n d) (.brk n g)
  | note {t tree} (h : Reps E toks lo [t] [tree]) : ShowsS E w toks lo (.token t) (.note tree)
  | odd {t tree} (h : Reps E toks lo [t] [tree]) : ShowsS E w toks lo (.token t) (.odd tree)

/-- A result of the engine shows this. -/
inductive Shows (E : Setting) (w : Str) (toks : List Token) (lo : Nat) : R → Got → Prop
  | fail : Shows E w toks lo (.err .fail) .fail
  | fatal {e} : Shows E w toks lo (.err (.error e)) .fatal
  | ok {x g} (h : ShowsS E w toks lo x g) : Shows E w toks lo (.ok x) g

theorem ShowsS.lower {E : Setting} {w : Str} {toks : List Token} {lo lo' : Nat} {x : Success} {g : Got}
    (h : ShowsS E w toks lo x g) (hl : lo' ≤ lo) : ShowsS E w toks lo' x g := by
  induction h with
  | past h => exact .past h
  | tok h => exact .tok (h.lower hl)
  | splice h => exact .splice (h.lower hl)
  | aside h => exact .aside (h.lower hl)
  | pin h1 h2 h3 => exact .pin (Nat.le_trans hl h1) h2 h3
  | none => exact .none
  | brk _ ih => exact .brk ih
  | note h => exact .note (h.lower hl)
  | odd h => exact .odd (h.lower hl)

theorem ShowsS.same {E : Setting} {w : Str} {toks toks' : List Token} {lo : Nat} {x : Success} {g : Got}
    (h : ShowsS E w toks lo x g) (hs : ∀ (i : Nat) (k : Token), toks[i]? = some k → toks'[i]? = some k) :
    ShowsS E w toks' lo x g := by
  induction h with
  | past h => exact .past h
  | tok h => exact .tok (reps_same h hs)
  | splice h => exact .splice (reps_same h hs)
  | aside h => exact .aside (reps_same h hs)
  | pin h1 h2 h3 => exact .pin h1 (hs _ _ h2) h3
  | none => exact .none
  | brk _ ih => exact .brk ih
  | note h => exact .note (reps_same h hs)
  | odd h => exact .odd (reps_same h hs)

/-! ### Names -/

/-- The names of the grammar stand for what they should; with `K = some q`, the variable
`AttributeStartOffset` is a pin at position `q`. -/
structure Scoped (E : Setting) (K : Option Nat) (sc : SCtxId) (s : State) : Prop where
  ok : ScopesOK s
  len : sc < s.sctxs.length
  sw : s.lookup sc "SwitchMatcher".toList = some (.matcher E.sw)
  pm : s.lookup sc "ProgramMatcher".toList = some (.matcher E.pm)
  pin : ∀ q, K = some q → ∃ t k, s.lookup sc "AttributeStartOffset".toList = some (.token t) ∧
    s.toks[t]? = some k ∧ k.kind = .pin ∧ k.matched = ⟨q, blen E.p.src⟩

/-- A matcher of this name may be entered. -/
structure Setting.Names (E : Setting) (m : MatcherId) (n : Str) : Prop where
  sw : n = "SwitchMatcher".toList → m = E.sw
  pm : n = "ProgramMatcher".toList → m = E.pm
  aso : n ≠ "AttributeStartOffset".toList

/-- A name that means nothing. -/
def Free (n : String) : Prop := n ≠ "SwitchMatcher" ∧ n ≠ "ProgramMatcher" ∧ n ≠ "AttributeStartOffset" ∧ n ≠ "Error"

instance (n : String) : Decidable (Free n) := by unfold Free; infer_instance

theorem toList_ne {a b : String} (h : a ≠ b) : a.toList ≠ b.toList := fun hh => h (String.toList_inj.mp hh)

section
variable {E : Setting} {K : Option Nat} {sc : SCtxId} {s s' : State} {m : MatcherId}

theorem Free.names {n : String} (h : Free n) : E.Names m n.toList :=
  ⟨fun hh => (toList_ne h.1 hh).elim, fun hh => (toList_ne h.2.1 hh).elim, toList_ne h.2.2.1⟩

theorem Free.clean {n : String} (h : Free n) : n.toList ≠ errorName := toList_ne h.2.2.2

theorem Scoped.toks (h : Scoped E K sc s) (h1 : s'.scopes = s.scopes) (h2 : s'.sctxs = s.sctxs)
    (h3 : ∀ (i : Nat) (k : Token), s.toks[i]? = some k → k.kind = .pin → s'.toks[i]? = some k) : Scoped E K sc s' := by
  have hl : ∀ n, s'.lookup sc n = s.lookup sc n := by
    intro n
    unfold State.lookup
    rw [h1, h2]
  refine ⟨?_, by rw [h2]; exact h.len, by rw [hl]; exact h.sw, by rw [hl]; exact h.pm, ?_⟩
  · have := h.ok.toks s'.toks
    have he : { s with toks := s'.toks } = s' := by
      cases s
      cases s'
      cases h1
      cases h2
      rfl
    rwa [he] at this
  · intro q hq
    obtain ⟨t, k, a1, a2, a3, a4⟩ := h.pin q hq
    exact ⟨t, k, by rw [hl]; exact a1, h3 _ _ a2 a3, a3, a4⟩

theorem Scoped.put (h : Scoped E K sc s) {t : TokId} {k k' : Token} (hk : s.toks[t]? = some k)
    (hs : k.kind = .standard) : Scoped E K sc (s.put t k') := by
  refine h.toks rfl rfl fun i k2 hi hp => ?_
  show (s.toks.set t k')[i]? = _
  by_cases he : i = t
  · subst he
    rw [hk] at hi
    cases hi
    rw [hs] at hp
    cases hp
  · rw [List.getElem?_set_ne (fun h => he h.symm), hi]

theorem Scoped.grow (h : Scoped E K sc s) {ks : List Token} : Scoped E K sc { s with toks := s.toks ++ ks } := by
  refine h.toks rfl rfl fun i k hi _ => ?_
  show (s.toks ++ ks)[i]? = _
  rw [List.getElem?_append_left (List.getElem?_eq_some_iff.mp hi).1, hi]

/-- Binding a name. -/
theorem Scoped.bind (h : Scoped E K sc s) {n : Str} {v : Var}
    (h1 : n = "SwitchMatcher".toList → v = .matcher E.sw) (h2 : n = "ProgramMatcher".toList → v = .matcher E.pm)
    (h3 : n ≠ "AttributeStartOffset".toList) : Scoped E K sc (s.bindVar sc n v) := by
  have hstep := scopeStep_refines h.ok (.set sc n v) h.len
  have hg := C09_set_get s h.ok sc h.len n v
  have hlen : (s.bindVar sc n v).sctxs.length = s.sctxs.length := hstep.2.2
  refine ⟨hstep.2.1, by rw [hlen]; exact h.len, ?_, ?_, ?_⟩
  · by_cases he : n = "SwitchMatcher".toList
    · rw [← he, hg.1, h1 he]
    · rw [hg.2.1 _ (fun hh => he hh.symm), h.sw]
  · by_cases he : n = "ProgramMatcher".toList
    · rw [← he, hg.1, h2 he]
    · rw [hg.2.1 _ (fun hh => he hh.symm), h.pm]
  · intro q hq
    obtain ⟨t, k, a1, a2, a3, a4⟩ := h.pin q hq
    refine ⟨t, k, ?_, by rw [State.bindVar_toks]; exact a2, a3, a4⟩
    rw [hg.2.1 _ (fun hh => h3 hh.symm), a1]

theorem Scoped.enter (h : Scoped E K sc s) (hn : (E.T m).hasCustomName = true → E.Names m (E.T m).name) :
    Scoped E K sc (entered E.T m sc s) := by
  unfold entered
  split
  · rename_i hc
    have hn := hn hc
    exact h.bind (fun hh => by rw [hn.sw hh]) (fun hh => by rw [hn.pm hh]) hn.aso
  · exact h

/-- Forget the pin. -/
theorem Scoped.forget (h : Scoped E K sc s) : Scoped E none sc s :=
  ⟨h.ok, h.len, h.sw, h.pm, fun _ hq => by cases hq⟩

end

/-! ### Reading -/

/-- Matcher `m` at the rest `w` of the text gives `g`. -/
def Reads (E : Setting) (K K' : Option Nat) (m : MatcherId) (w : Str) (g : Got) : Prop :=
  ∀ c sc s, E.Has w → E.Here w c → Scoped E K sc s → g.Good E w ∧ g.Con w (E.T m).isConsuming ∧
      ∃ r s', Runs E.T E.cfg m c sc s r s' ∧ Shows E w s'.toks s.toks.length r g ∧ Scoped E K' sc s'

theorem Reads.keeps {E : Setting} {m : MatcherId} {c : Ctx} {sc : SCtxId} {s s' : State} {r : R}
    (h : Runs E.T E.cfg m c sc s r s') : Keeps s.toks.length s s' := by
  obtain ⟨n, h⟩ := h
  have := (C05_exec_frame (fun m => (E.mild m).frame) h).1
  refine ⟨?_, this⟩
  have hl : ∀ i, i < s.toks.length → i < s'.toks.length := by
    intro i hi
    have h1 := this i hi
    rw [List.getElem?_eq_getElem hi] at h1
    exact (List.getElem?_eq_some_iff.mp h1).1
  cases hs : s.toks.length with
  | zero => omega
  | succ n =>
    have := hl n (by omega)
    omega

/-- What a program has read: the rest, the furthest position, the children, the ranges
that its captured range has to cover, and whether there are children outside of it. -/
structure Run where
  rest : Str
  far : Nat
  kids : List Tr
  caps : List Range
  loose : Bool := false

def Run.start (E : Setting) (w : Str) : Run := ⟨w, E.at_ w, [], [], false⟩

/-- Go on with a result. -/
def Run.take (E : Setting) (r : Run) : Got → Run
  | .past w' => { r with rest := w', far := E.at_ w' }
  | .tok w' t => ⟨w', E.at_ w', r.kids ++ [t], r.caps ++ [t.captured], r.loose⟩
  | .splice w' t => ⟨w', t.matched.stop, r.kids ++ t.kids, r.caps ++ t.captured :: t.kids.map Tr.captured, r.loose⟩
  | .aside t => { r with kids := r.kids ++ [t], loose := true }
  | .note t => { r with kids := r.kids ++ [t] }
  | _ => r

/-- The token of a program. -/
def Run.tree (E : Setting) (name : Str) (w : Str) (r : Run) : Tr :=
  .node ⟨name, span r.caps, ⟨E.at_ w, r.far⟩, none, [], 0⟩ r.kids

/-- Results that a program takes up. -/
def Got.taken : Got → Bool
  | .past _ | .tok _ _ | .splice _ _ | .aside _ | .note _ | .pin => true
  | _ => false

/-- Payloads of a break. -/
def Got.paid : Got → Bool
  | .past _ | .tok _ _ | .splice _ _ | .none => true
  | _ => false

structure RunOk (E : Setting) (w : Str) (r : Run) : Prop where
  sfx : r.rest <:+ w
  le : E.at_ r.rest ≤ r.far
  far : r.far ≤ blen E.p.src
  kids : r.loose = false → ∀ k ∈ r.kids, k.name ≠ errorName → k.Ok (E.at_ w) r.far
  caps : ∀ c ∈ r.caps, c.start ≤ r.far
  some : r.caps ≠ [] → E.at_ w < r.far

/-- What a program has collected, on both sides. -/
structure Tracks (E : Setting) (w : Str) (name : Str) (prog : TokId) (s : State) (a : Acc) (r : Run) : Prop where
  pos : a.pos = E.at_ r.rest
  caps : a.caps = r.caps
  mats : (a.mats = [] ∧ r.far = E.at_ w ∧ E.at_ r.rest = E.at_ w) ∨ (lowest a.mats = E.at_ w ∧ highest a.mats = r.far)
  kids : Reps E s.toks (prog + 1) a.kids r.kids
  ok : RunOk E w r
  tok : s.toks[prog]? = some (Token.mk' E.p name ⟨0, 0⟩)

section
variable {E : Setting} {w name : Str} {prog : TokId} {s s' : State} {a : Acc} {r : Run} {c : Ctx} {sc : SCtxId}
  {K K' : Option Nat}

theorem usz : usizeMax = 2 * isizeMax + 1 := by decide
theorem u64 : 2 ^ 64 = usizeMax + 1 := by decide

theorem Tracks.keep (h : Tracks E w name prog s a r) (hk : Keeps s.toks.length s s') :
    Tracks E w name prog s' a r := by
  refine ⟨h.pos, h.caps, h.mats, keeps_reps hk (Nat.le_refl _) h.kids, h.ok, ?_⟩
  rw [hk.same _ (List.getElem?_eq_some_iff.mp h.tok).1, h.tok]

/-- Adding one token. -/
theorem Tracks.add1 (hw : E.Has w) (h : Tracks E w name prog s a r) {t : TokId} {tree : Tr}
    (ht : Reps E s.toks (prog + 1) [t] [tree]) (hok : tree.Ok (E.at_ w) (blen E.p.src))
    (hm : a.mats = [] → tree.matched.start = E.at_ w)
    {w' : Str} (hs : w' <:+ w) (hp : tree.matched.stop = E.at_ w') {f : Nat} (hf : f = max r.far tree.matched.stop) :
    ∃ k, s.toks[t]? = some k ∧ k.kind = .standard ∧ k.matched.start ≠ k.matched.stop ∧ k.matched = tree.matched ∧ k.info = tree.info ∧
      Reps E s.toks (t + 1) k.children tree.kids ∧ prog < t ∧
      Tracks E w name prog (s.put t (k.adopted prog (lowest a.mats)))
        (a.add true t (k.adopted prog (lowest a.mats))) ⟨w', f, r.kids ++ [tree], r.caps ++ [tree.captured], r.loose⟩ ∧
      (∀ K sc, Scoped E K sc s → Scoped E K sc (s.put t (k.adopted prog (lowest a.mats)))) ∧
      (a.add true t (k.adopted prog (lowest a.mats))).mats ≠ [] := by
  obtain ⟨k, hlo, hk, hpl, hi, hch⟩ := ht.root
  have hmt : k.matched = tree.matched := congrArg Info.matched hi
  have hcp : k.captured = tree.captured := congrArg Info.captured hi
  obtain ⟨f1, f2, f3, f4, f5⟩ := hok.facts
  have hwide : k.matched.start ≠ k.matched.stop := by rw [hmt]; omega
  refine ⟨k, hk, hpl.kind, hwide, hmt, hi, hch, hlo, ?_⟩
  rw [adopted_wide hwide]
  have hfar := h.ok.far
  have hle := h.ok.le
  have hb := E.small
  have := usz
  have hwle : E.at_ w ≤ r.far := Nat.le_trans (hw.mono h.ok.sfx) hle
  refine ⟨⟨?_, ?_, ?_, ?_, ⟨hs, ?_, ?_, ?_, ?_, ?_⟩, ?_⟩, fun K sc h => h.put hk hpl.kind, by simp [Acc.add, Acc.cover]⟩
  · show k.matched.stop = _
    rw [hmt, hp]
  · show a.caps ++ [k.captured] = r.caps ++ [tree.captured]
    rw [h.caps, hcp]
  · refine Or.inr ⟨?_, ?_⟩
    · show lowest (a.mats ++ [k.matched]) = _
      rw [lowest_append, hmt]
      show min _ (min _ usizeMax) = _
      rcases h.mats with ⟨h1, h2, h3⟩ | ⟨h1, h2⟩
      · have := hm h1
        rw [h1]
        show min usizeMax _ = _
        omega
      · rw [h1]
        omega
    · show highest (a.mats ++ [k.matched]) = f
      rw [highest_append, hmt, hf]
      rcases h.mats with ⟨h1, h2, h3⟩ | ⟨h1, h2⟩
      · have := hm h1
        rw [h1]
        show max 0 _ = _
        omega
      · rw [h2]
  · exact Reps.append (put_reps hk h.kids) (put_reps hk ht)
  · show E.at_ w' ≤ f
    omega
  · show f ≤ _
    omega
  · intro hl x hx hn
    rcases List.mem_append.mp hx with hx | hx
    · exact (h.ok.kids hl x hx hn).mono (Nat.le_refl _) (by show _ ≤ f; omega)
    · rw [List.mem_singleton.mp hx]
      cases hok with
      | node a1 a2 a3 a4 hk =>
        refine .node a1 a2 ?_ a4 hk
        have : _ = E.at_ w' := hp
        have : f = max r.far _ := hf
        show _ ≤ f
        rw [this]
        exact Nat.le_max_right ..
  · intro x hx
    rcases List.mem_append.mp hx with hx | hx
    · have := h.ok.caps x hx
      show _ ≤ f
      omega
    · rw [List.mem_singleton.mp hx]
      show _ ≤ f
      omega
  · intro _
    show _ < f
    omega
  · show (s.toks.set t _)[prog]? = _
    rw [List.getElem?_set_ne (by omega), h.tok]

/-- Splicing tokens in. -/
theorem Tracks.splice (hw : E.Has w) {trees : List Tr} {ts : List TokId} {lo : Nat}
    {toks : List Token} (hr : Reps E toks lo ts trees) (hlo : prog + 1 ≤ lo) :
    ∀ {s : State} {a : Acc} {r : Run}, (∀ i : Nat, s.toks[i]?.map Peg.Token.orphan = toks[i]?.map Peg.Token.orphan) →
      Tracks E w name prog s a r → a.mats ≠ [] →
      (∀ x ∈ trees, x.Ok (E.at_ w) r.far) → ∀ {w' : Str}, w' <:+ w →
      (∀ k, trees.getLast? = some k → k.matched.stop = E.at_ w') → trees ≠ [] →
      ∃ a' s', Splices prog true ts a s a' s' ∧
        Tracks E w name prog s' a' ⟨w', r.far, r.kids ++ trees, r.caps ++ trees.map Tr.captured, r.loose⟩ ∧
        (∀ K sc, Scoped E K sc s → Scoped E K sc s') := by
  induction hr with
  | nil => intro s a r _ _ _ _ w' _ _ hne; exact (hne rfl).elim
  | @cons lo t k ts cs trees hl hk hp hc hr ih1 ih2 =>
    intro s a r hsame h hm hok w' hs hlast _
    have hch : ∀ {lo ts trees}, Reps E toks lo ts trees → Reps E s.toks lo ts trees := by
      intro lo ts trees hx
      refine hx.change fun i k' _ hk' => ?_
      have := hsame i
      rw [hk'] at this
      obtain ⟨k2, hk2, he⟩ := Option.map_eq_some_iff.mp this
      refine ⟨k2.parent, ?_⟩
      rw [hk2]
      cases k2
      cases k'
      simp only [Peg.Token.orphan] at he
      cases he
      rfl
    have h1 : Reps E s.toks (prog + 1) [t] [.node k.info cs] := hch ((Reps.cons hl hk hp hc .nil).lower hlo)
    have hok1 := hok _ (List.mem_cons_self ..)
    obtain ⟨f1, f2, f3, f4, f5⟩ := hok1.facts
    have hfar := h.ok.far
    have step : ∀ {w1 : Str}, w1 <:+ w → (Tr.node k.info cs).matched.stop = E.at_ w1 → ∃ k', s.toks[t]? = some k' ∧
        k'.kind = .standard ∧
        (∀ i : Nat, (s.put t (k'.adopted prog (lowest a.mats))).toks[i]?.map Peg.Token.orphan = toks[i]?.map Peg.Token.orphan) ∧
        Tracks E w name prog (s.put t (k'.adopted prog (lowest a.mats)))
          (a.add true t (k'.adopted prog (lowest a.mats)))
          ⟨w1, r.far, r.kids ++ [.node k.info cs], r.caps ++ [k.captured], r.loose⟩ ∧
        (∀ K sc, Scoped E K sc s → Scoped E K sc (s.put t (k'.adopted prog (lowest a.mats)))) ∧
        (a.add true t (k'.adopted prog (lowest a.mats))).mats ≠ [] := by
      intro w1 hs1 hp1
      obtain ⟨k', hk', hs', hf', -, -, -, -, htr, hsc, hne⟩ := h.add1 hw h1 (hok1.mono (Nat.le_refl _) hfar)
        (fun h => (hm h).elim) hs1 hp1 (f := r.far) (by omega)
      refine ⟨k', hk', hs', ?_, htr, hsc, hne⟩
      intro i
      rw [← hsame i]
      by_cases hi : i = t
      · subst hi
        rw [put_get hk', hk', adopted_wide hf']
        rfl
      · show (s.toks.set t _)[i]?.map _ = _
        rw [List.getElem?_set_ne (fun h => hi h.symm)]
    cases trees with
    | nil =>
      cases hr
      obtain ⟨k', hk', hs', -, htr, hsc, -⟩ := step hs (hlast _ rfl)
      exact ⟨_, _, .kid hk' hs' .nil, htr, hsc⟩
    | cons tr trees =>
      obtain ⟨w1, hs1, hp1⟩ := hw.spot (n := (Tr.node k.info cs).matched.stop) (by omega) (by omega)
      obtain ⟨k', hk', hs', hsame', htr, hsc, hne⟩ := step hs1 hp1.symm
      obtain ⟨a', s', h2, h3, h4⟩ := ih2 hlo hsame' htr hne
        (fun x hx => hok x (List.mem_cons_of_mem _ hx)) hs (fun k hk => hlast k (by rwa [List.getLast?_cons_cons])) (by simp)
      refine ⟨a', s', .kid hk' hs' h2, ?_, fun K sc h => h4 K sc (hsc K sc h)⟩
      have e1 : (r.kids ++ [Tr.node k.info cs]) ++ (tr :: trees) = r.kids ++ (.node k.info cs :: tr :: trees) := by simp
      have e2 : (r.caps ++ [k.captured]) ++ (tr :: trees).map Tr.captured =
        r.caps ++ (Tr.node k.info cs :: tr :: trees).map Tr.captured := by
        simp only [List.append_assoc, List.singleton_append, List.map_cons]
        rfl
      rw [← e1, ← e2]
      exact h3

theorem Tracks.jump (hw : E.Has w) (h : Tracks E w name prog s a r) {w' : Str} (hs : w' <:+ r.rest)
    (hr : r.far = E.at_ r.rest) {k : Int} (hk : k + E.at_ r.rest = E.at_ w') :
    Moves E.cfg a.pos k (E.at_ w') ∧
      Tracks E w name prog s (a.jump (E.at_ w) (E.at_ w')) { r with rest := w', far := E.at_ w' } := by
  have h1 := hw.tail h.ok.sfx
  have h2 := h1.mono hs
  have h3 := (h1.tail hs).le
  have h5 := hw.mono h.ok.sfx
  have hb := E.small
  have := usz
  have := u64
  have hpos := h.pos
  obtain ⟨n, rfl⟩ : ∃ n : Nat, k = n := ⟨k.toNat, by omega⟩
  refine ⟨?_, rfl, h.caps, Or.inr ⟨?_, ?_⟩, h.kids, ⟨hs.trans h.ok.sfx, Nat.le_refl _, h3, ?_, ?_, ?_⟩, h.tok⟩
  · have : E.at_ w' = a.pos + n := by omega
    rw [this]
    exact Peg.moves_nat (by omega)
  · show lowest (a.mats ++ [⟨E.at_ w, E.at_ w'⟩]) = _
    rw [lowest_append]
    rcases h.mats with ⟨g1, g2, g3⟩ | ⟨g1, g2⟩
    · rw [g1]
      show min usizeMax (min (E.at_ w) usizeMax) = _
      omega
    · rw [g1]
      show min _ (min (E.at_ w) usizeMax) = _
      omega
  · show highest (a.mats ++ [⟨E.at_ w, E.at_ w'⟩]) = E.at_ w'
    rw [highest_append]
    rcases h.mats with ⟨g1, g2, g3⟩ | ⟨g1, g2⟩
    · rw [g1]
      show max 0 (E.at_ w') = _
      omega
    · rw [g2]
      show max _ (E.at_ w') = _
      omega
  · intro hl x hx hn
    exact (h.ok.kids hl x hx hn).mono (Nat.le_refl _) (by show _ ≤ E.at_ w'; omega)
  · intro x hx
    have := h.ok.caps x hx
    show _ ≤ E.at_ w'
    omega
  · intro hx
    have := h.ok.some hx
    show _ < E.at_ w'
    omega

theorem max_of_le {a b : Nat} (h : a ≤ b) : b = max a b := by omega

/-- The shape of the payload and the state: what `splice` does. -/
theorem Tracks.proxy (hw : E.Has w) (h : Tracks E w name prog s a r) (hr : r.far = E.at_ r.rest) {t : TokId} {tree : Tr} {w' : Str}
    (ht : Reps E s.toks (prog + 1) [t] [tree]) (hg : (Got.splice w' tree).Good E r.rest) :
    ∃ k a' s', s.toks[t]? = some k ∧ k.kind = .standard ∧ Splices prog true k.children (a.cover k) s a' s' ∧
      Tracks E w name prog s' a' (r.take E (.splice w' tree)) ∧ (∀ K sc, Scoped E K sc s → Scoped E K sc s') := by
  obtain ⟨hs, hstart, hok, hle, ⟨kl, hkl, hstop⟩, hnames⟩ := hg
  obtain ⟨k, hlo, hk, hpl, hi, hch⟩ := ht.root
  have hmt : k.matched = tree.matched := congrArg Info.matched hi
  have hcp : k.captured = tree.captured := congrArg Info.captured hi
  obtain ⟨f1, f2, f3, f4, f5⟩ := hok.facts
  have h5 := hw.mono h.ok.sfx
  have hfar := hr
  have hb := E.small
  have := usz
  have hok' := hok.mono h5 (Nat.le_refl _)
  obtain ⟨w1, hs1, hp1⟩ := hw.spot (n := tree.matched.stop) (by omega) f3
  have htr : Tracks E w name prog s (a.cover k) ⟨w1, tree.matched.stop, r.kids, r.caps ++ [tree.captured], r.loose⟩ := by
    refine ⟨?_, ?_, Or.inr ⟨?_, ?_⟩, h.kids, ⟨hs1, ?_, ?_, ?_, ?_, ?_⟩, h.tok⟩
    · show k.matched.stop = E.at_ w1
      rw [hmt, hp1]
    · show a.caps ++ [k.captured] = _
      rw [h.caps, hcp]
    · show lowest (a.mats ++ [k.matched]) = _
      rw [lowest_append, hmt]
      show min _ (min _ usizeMax) = _
      rcases h.mats with ⟨h1, h2, h3⟩ | ⟨h1, h2⟩
      · rw [h1]
        show min usizeMax _ = _
        omega
      · rw [h1]
        omega
    · show highest (a.mats ++ [k.matched]) = tree.matched.stop
      rw [highest_append, hmt]
      rcases h.mats with ⟨h1, h2, h3⟩ | ⟨h1, h2⟩
      · rw [h1]
        show max 0 tree.matched.stop = _
        omega
      · rw [h2]
        show max _ tree.matched.stop = _
        omega
    · show E.at_ w1 ≤ tree.matched.stop
      omega
    · exact f3
    · intro hl x hx hn
      exact (h.ok.kids hl x hx hn).mono (Nat.le_refl _) (by show _ ≤ tree.matched.stop; omega)
    · intro x hx
      rcases List.mem_append.mp hx with hx | hx
      · have := h.ok.caps x hx
        show _ ≤ tree.matched.stop
        omega
      · rw [List.mem_singleton.mp hx]
        exact f4
    · intro _
      show _ < tree.matched.stop
      omega
  have hlast : ∀ k, tree.kids.getLast? = some k → k.matched.stop = E.at_ w' := by
    intro k hk
    rw [hkl] at hk
    cases hk
    exact hstop
  have hne : tree.kids ≠ [] := by
    intro hh
    rw [hh] at hkl
    cases hkl
  obtain ⟨a', s', q1, q2, q3⟩ := Tracks.splice hw hch (Nat.le_succ_of_le hlo) (fun _ => rfl) htr (by simp [Acc.cover])
    (fun x hx => (f5 x hx (hnames x hx)).mono h5 (Nat.le_refl _)) (hs.trans h.ok.sfx) hlast hne
  refine ⟨k, a', s', hk, hpl.kind, q1, ?_, q3⟩
  have : r.caps ++ tree.captured :: tree.kids.map Tr.captured = (r.caps ++ [tree.captured]) ++ tree.kids.map Tr.captured := by
    simp
  show Tracks E w name prog s' a' ⟨w', tree.matched.stop, r.kids ++ tree.kids,
    r.caps ++ tree.captured :: tree.kids.map Tr.captured, r.loose⟩
  rw [this]
  exact q2

/-- Taking up the result of a part. -/
theorem Tracks.take (hw : E.Has w) (h : Tracks E w name prog s a r) {g : Got} (hg : g.Good E r.rest)
    (ht : g.taken = true) {con : Bool} (hc : g.Con r.rest con) (hr : r.far = E.at_ r.rest) {lo : Nat} (hlo : prog + 1 ≤ lo)
    {x : Success} (hx : ShowsS E r.rest s.toks lo x g) :
    ∃ a' s', Takes E.cfg prog (E.at_ w) con x a s a' s' ∧ Tracks E w name prog s' a' (r.take E g) ∧
      (∀ K sc, Scoped E K sc s → Scoped E K sc s') := by
  have hfar := hr
  cases hx with
  | @past k w' hk =>
    cases con with
    | true =>
      obtain ⟨h1, h2⟩ := h.jump hw hg hfar hk
      exact ⟨_, _, .skip rfl h1, h2, fun _ _ h => h⟩
    | false =>
      obtain rfl : w' = r.rest := hc.resolve_left (by simp)
      refine ⟨a, s, .idle rfl, ?_, fun _ _ h => h⟩
      have : r.take E (.past r.rest) = r := by
        show Run.mk _ (E.at_ r.rest) _ _ _ = r
        rw [← hfar]
      rw [this]
      exact h
  | @tok t tree w' hrep =>
    obtain rfl : con = true := hc
    obtain ⟨hs, hm, hok⟩ := hg
    have h5 := hw.mono h.ok.sfx
    have hrep := hrep.lower hlo
    obtain ⟨f1, f2, f3, f4, f5⟩ := hok.facts
    rw [hm] at f2
    replace f2 : E.at_ r.rest < E.at_ w' := f2
    have hstop : tree.matched.stop = E.at_ w' := by rw [hm]
    obtain ⟨k, hk, hs', hf', hmt, -, -, -, htr, hsc, -⟩ := h.add1 hw hrep (hok.mono h5 (Nat.le_refl _))
      (fun hh => by
        rcases h.mats with ⟨-, h2, h3⟩ | ⟨h2, h3⟩
        · rw [hm]
          exact h3
        · rw [hh] at h2
          have : usizeMax = E.at_ w := h2
          have := hw.le
          have := E.small
          have := usz
          omega) (hs.trans h.ok.sfx) hstop (f := E.at_ w') (by omega)
    refine ⟨_, _, .token hk hs' ?_, htr, hsc⟩
    intro _ _
    rw [hmt, hstop, h.pos]
    omega
  | @splice t tree w' hrep =>
    obtain rfl : con = true := hc
    obtain ⟨k, a', s', h1, h2, h3, h4, h5⟩ := h.proxy hw hr (hrep.lower hlo) hg
    exact ⟨a', s', .proxy h1 h2 (by rw [if_pos rfl]; exact h3), h4, h5⟩
  | @aside t tree hrep =>
    obtain rfl : con = false := hc
    obtain ⟨k, hlo', hk, hpl, hi, hch⟩ := (hrep.lower hlo).root
    refine ⟨_, _, .token hk hpl.kind (by simp), ?_, fun K sc h => h.put hk hpl.kind⟩
    have hg : tree.Ok (E.at_ r.rest) (blen E.p.src) := hg
    have hmt : k.matched = tree.matched := congrArg Info.matched hi
    rw [adopted_wide (by rw [hmt]; have := hg.facts; omega)]
    refine ⟨h.pos, h.caps, h.mats, Reps.append (put_reps hk h.kids) (put_reps hk (hrep.lower hlo)),
      ⟨h.ok.sfx, h.ok.le, h.ok.far, fun h => (by cases h), h.ok.caps, h.ok.some⟩, ?_⟩
    show (s.toks.set t _)[prog]? = _
    rw [List.getElem?_set_ne (by omega), h.tok]
  | @pin t k hl hk hp => exact ⟨a, s, .pin (Or.inl rfl) hk hp, h, fun _ _ h => h⟩
  | none => cases ht
  | brk _ => cases ht
  | odd _ => cases ht
  | @note t tree hrep =>
    obtain rfl : con = false := hc
    obtain ⟨k, hlo', hk, hpl, hi, hch⟩ := (hrep.lower hlo).root
    refine ⟨_, _, .token hk hpl.kind (by simp), ?_, fun K sc h => h.put hk hpl.kind⟩
    have hg : tree.name = errorName ∧ tree.matched.start < tree.matched.stop := hg
    have hmt : k.matched = tree.matched := congrArg Info.matched hi
    rw [adopted_wide (by rw [hmt]; omega)]
    refine ⟨h.pos, h.caps, h.mats, Reps.append (put_reps hk h.kids) (put_reps hk (hrep.lower hlo)),
      ⟨h.ok.sfx, h.ok.le, h.ok.far, fun hl x hx hn => ?_, h.ok.caps, h.ok.some⟩, ?_⟩
    · rcases List.mem_append.mp hx with hx | hx
      · exact h.ok.kids hl x hx hn
      · rw [List.mem_singleton.mp hx] at hn
        exact (hn hg.1).elim
    · show (s.toks.set t _)[prog]? = _
      rw [List.getElem?_set_ne (by omega), h.tok]

/-- Taking up the payload of a break. -/
theorem Tracks.pay (hw : E.Has w) (h : Tracks E w name prog s a r) {g : Got} (hg : g.Good E r.rest)
    (ht : g.paid = true) (hr : r.far = E.at_ r.rest) {lo : Nat} (hlo : prog + 1 ≤ lo)
    {x : Success} (hx : ShowsS E r.rest s.toks lo x g) :
    ∃ a' s', TakesPayload E.cfg prog (E.at_ w) x a s a' s' ∧ Tracks E w name prog s' a' (r.take E g) ∧
      (∀ K sc, Scoped E K sc s → Scoped E K sc s') := by
  have hfar := hr
  cases hx with
  | @past k w' hk =>
    obtain ⟨h1, h2⟩ := h.jump hw hg hfar hk
    exact ⟨_, _, .skip h1, h2, fun _ _ h => h⟩
  | @tok t tree w' hrep =>
    obtain ⟨a', s', h1, h2, h3⟩ := h.take hw hg rfl (con := true) rfl hr hlo (.tok hrep)
    cases h1 with
    | @token _ k _ _ hk hp hf =>
      refine ⟨_, _, .token hk, ?_, h3⟩
      rw [hp]
      exact h2
    | pin hx hk hp =>
      obtain ⟨k, -, hk', hpl, -⟩ := hrep.root
      rcases hx with hx | hx <;> cases hx
      rw [hk] at hk'
      cases hk'
      rw [hpl.kind] at hp
      cases hp
  | @splice t tree w' hrep =>
    obtain ⟨k, a', s', h1, h2, h3, h4, h5⟩ := h.proxy hw hr (hrep.lower hlo) hg
    refine ⟨a', s', .proxy h1 ?_, h4, h5⟩
    rw [h2]
    exact h3
  | aside _ => cases ht
  | pin _ _ _ => cases ht
  | none => exact ⟨a, s, .other ⟨by simp, by simp, by simp⟩, h, fun _ _ h => h⟩
  | brk _ => cases ht
  | note _ => cases ht
  | odd _ => cases ht

/-- Handing over what has been collected. -/
theorem Tracks.finish (h : Tracks E w name prog s a r) (hk : r.kids ≠ []) (hc : r.caps ≠ []) :
    ∃ s', Completes prog a s (.ok (.token prog)) s' ∧ Reps E s'.toks prog [prog] [r.tree E name w] ∧
      (∀ K sc, Scoped E K sc s → Scoped E K sc s') := by
  have h2 := h.ok.some hc
  have hm : lowest a.mats = E.at_ w ∧ highest a.mats = r.far := by
    rcases h.mats with ⟨-, h3, -⟩ | h3
    · omega
    · exact h3
  have := usz
  have := E.small
  have hfar := h.ok.far
  have hlc : lowest a.caps ≠ usizeMax := by
    rw [h.caps]
    cases hcs : r.caps with
    | nil => exact (hc hcs).elim
    | cons c cs =>
      have := h.ok.caps c (by rw [hcs]; exact List.mem_cons_self ..)
      show min c.start _ ≠ _
      omega
  refine ⟨_, .token (fun hh => hk (h.kids.nil_iff.mp hh)) hlc (by omega) h.tok, ?_, fun K sc hs => hs.put h.tok rfl⟩
  have hspan : span a.mats = ⟨E.at_ w, r.far⟩ := by unfold span; rw [hm.1, hm.2]
  rw [h.caps, hspan]
  refine Reps.of_root (Nat.le_refl _) (put_get h.tok) ⟨rfl, Or.inl rfl, rfl, rfl, rfl, Nat.sub_le _ _, h.ok.far⟩ rfl ?_
  show Reps E (s.put prog _).toks (prog + 1) a.kids r.kids
  refine h.kids.change fun i k hi hk' => ⟨k.parent, ?_⟩
  show (s.toks.set prog _)[i]? = _
  rw [List.getElem?_set_ne (by omega), hk']

theorem Tracks.nothing (h : Tracks E w name prog s a r) (hn : r.kids = [] ∨ r.caps = []) :
    Completes prog a s (.err .fail) s := by
  refine .nothing ?_
  rcases hn with hn | hn
  · exact Or.inl (h.kids.nil_iff.mpr hn)
  · refine Or.inr (Or.inl ?_)
    rw [h.caps, hn]
    rfl

theorem lowest_le {l : List Range} {c : Range} (h : c ∈ l) : lowest l ≤ c.start := by
  induction l with
  | nil => cases h
  | cons x l ih =>
    show min _ _ ≤ _
    rcases List.mem_cons.mp h with rfl | h
    · omega
    · have := ih h
      omega

theorem RunOk.tree (h : RunOk E w r) (hl : r.loose = false) (hc : r.caps ≠ []) :
    (r.tree E name w).Ok (E.at_ w) (blen E.p.src) := by
  refine .node (Nat.le_refl _) (h.some hc) h.far ?_ (h.kids hl)
  cases hcs : r.caps with
  | nil => exact (hc hcs).elim
  | cons c cs =>
    have h1 := h.caps c (by rw [hcs]; exact List.mem_cons_self ..)
    have h2 := lowest_le (l := c :: cs) (List.mem_cons_self ..)
    show lowest (c :: cs) ≤ r.far
    omega

end

end Adx.Read
