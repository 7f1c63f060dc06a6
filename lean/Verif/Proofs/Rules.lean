import Verif.Proofs.Passes
/-
  Reading with builders: one rule for each kind of matcher.
-/
namespace Adx.Read

section
variable {E : Setting} {w w' u : Str} {K K' : Option Nat} {m b : MatcherId} {name : Str} {cu : Bool} {g : Got}

/-- A token without children. -/
def leafT (E : Setting) (name w w' : Str) : Tr := .node ⟨name, ⟨E.at_ w, E.at_ w'⟩, ⟨E.at_ w, E.at_ w'⟩, none, [], 0⟩ []

theorem leafT_clean {w w' : Str} (h : name ≠ errorName) : (leafT E name w w').clean = true := by
  simp [leafT, Tr.clean, cleans, h]

/-- The token of a delimited text: `w1` is behind the opening, `w2` at the closing, `w'`
behind it. -/
def delimT (E : Setting) (name w w1 w2 w' val : Str) : Tr :=
  .node ⟨name, ⟨E.at_ w1, E.at_ w2⟩, ⟨E.at_ w, E.at_ w'⟩, none, [("__value".toList, val)], 0⟩ []

/-- A fresh token. -/
theorem shows_fresh {s : State} {k : Token} {tree : Tr} (hp : Plain E k) (hc : k.children = [])
    (hi : k.info = tree.info) (hk : tree.kids = []) :
    Shows E w (s.toks ++ [k]) s.toks.length (.ok (.token s.toks.length)) (.tok w' tree) := by
  refine .ok (.tok (Reps.of_root (Nat.le_refl _) (by simp) hp hi ?_))
  rw [hc, hk]
  exact .nil

theorem leaf_good (hw : E.Has (u ++ w')) (hu : u ≠ []) :
    (Got.tok w' (leafT E name (u ++ w') w')).Good E (u ++ w') := by
  have h1 : w' <:+ u ++ w' := List.suffix_append ..
  have h2 := hw.lt h1 (suffix_lt h1 (by simpa using hu))
  have h3 := (hw.tail h1).le
  exact ⟨h1, rfl, .node (Nat.le_refl _) h2 h3 (Nat.le_of_lt h2) (fun _ h => by cases h)⟩

theorem at_append (hw : E.Has (u ++ w')) : E.at_ (u ++ w') + blen u = E.at_ w' := by
  have h1 := hw.len
  have h2 := (hw.tail (List.suffix_append u w')).len
  rw [blen_append] at h1
  omega

theorem unread_name {c : Ctx} (hw : E.Has w) (hc : E.Here w c) : (c.withName name).Unread w :=
  hc.unread hw

theorem reads_equals {lit : Str} (hm : E.T m = .equals name cu (.str lit)) (hn : cu = true → E.Names m name)
    (hl : lit ≠ []) : Reads E K K m (lit ++ w) (.tok w (leafT E name (lit ++ w) w)) := by
  intro c sc s hw hc hs
  refine ⟨leaf_good hw hl, by rw [hm]; rfl, ?_⟩
  have hk : ∀ f, execNode E.T E.cfg f (E.T m) c sc = execEquals name (.str lit) c sc := by
    intro f; rw [hm]; rfl
  have hs' := hs.enter (m := m) (by rw [hm]; exact hn)
  refine ⟨.ok (.token s.toks.length), { entered E.T m sc s with toks := s.toks ++ [Token.mk' E.p name ⟨E.at_ (lit ++ w), E.at_ w⟩] }, ?_, ?_, ?_⟩
  · rw [runs_own hk]
    unfold execEquals
    refine bind_ok.mpr ⟨.inl lit, _, rfl, ?_⟩
    have hch := chunk_unread (unread_name (name := name) hw hc)
    have hmatch : (c.withName name).matchesStr lit = some (some ⟨E.at_ (lit ++ w), E.at_ w⟩) := by
      unfold Ctx.matchesStr
      rw [hch, if_neg hl]
      dsimp only
      rw [if_pos (List.isPrefixOf_iff_prefix.mpr (List.prefix_append ..))]
      show some (some (⟨c.offset.start, c.offset.start + blen lit⟩ : Range)) = _
      rw [hc.offset, ← at_append hw]
    refine bind_ok.mpr ⟨_, _, ofOpt_ok.mpr ⟨hmatch, rfl⟩, ?_⟩
    refine bind_ok.mpr ⟨_, _, dbg_off hc.debug, bind_ok.mpr ⟨_, _, newTok_ok.mpr ⟨rfl, rfl⟩, ?_⟩⟩
    have : (c.withName name).parser = E.p := hc.parser
    rw [this, entered_toks]
    rfl
  · exact shows_fresh ⟨rfl, Or.inl rfl, rfl, rfl, rfl, Nat.sub_le _ _, Nat.sub_le _ _⟩ rfl rfl rfl
  · have := hs'.grow (ks := [Token.mk' E.p name ⟨E.at_ (lit ++ w), E.at_ w⟩])
    rwa [entered_toks] at this

theorem reads_equals_fail {lit : Str} (hm : E.T m = .equals name cu (.str lit)) (hn : cu = true → E.Names m name)
    (hl : ¬ lit <+: w) : Reads E K K m w .fail := by
  intro c sc s hw hc hs
  refine ⟨trivial, trivial, ?_⟩
  have hk : ∀ f, execNode E.T E.cfg f (E.T m) c sc = execEquals name (.str lit) c sc := by
    intro f; rw [hm]; rfl
  have hs' := hs.enter (m := m) (by rw [hm]; exact hn)
  refine ⟨.err .fail, entered E.T m sc s, ?_, .fail, hs'⟩
  rw [runs_own hk]
  unfold execEquals
  refine bind_ok.mpr ⟨.inl lit, _, rfl, ?_⟩
  have hch := chunk_unread (unread_name (name := name) hw hc)
  have hmatch : (c.withName name).matchesStr lit = some none := by
    unfold Ctx.matchesStr
    rw [hch]
    by_cases h0 : lit = []
    · rw [if_pos h0]
    · rw [if_neg h0]
      dsimp only
      rw [if_neg fun h => hl (List.isPrefixOf_iff_prefix.mp h)]
  exact bind_ok.mpr ⟨_, _, ofOpt_ok.mpr ⟨hmatch, rfl⟩, bind_ok.mpr ⟨_, _, dbg_off hc.debug, rfl⟩⟩

theorem matchesRegexp_eq {c : Ctx} {re : Regex} (hch : c.chunk = some w) : c.matchesRegexp re =
    some (match re.find w with
      | some (a, b) => if a + c.offset.start ≠ c.offset.start then none
        else some (⟨a + c.offset.start, b + c.offset.start⟩ : Range)
      | none => none) := by
  unfold Ctx.matchesRegexp
  rw [hch]
  dsimp only
  cases re.find w with
  | none => rfl
  | some ab =>
    dsimp only
    by_cases hne : ab.1 + c.offset.start ≠ c.offset.start
    · rw [if_pos hne, if_pos hne]
    · rw [if_neg hne, if_neg hne]

theorem reads_regex {re : Regex} (hm : E.T m = .regex name cu re) (hn : cu = true → E.Names m name)
    (hu : u ≠ []) (hf : re.find (u ++ w) = some (0, blen u)) : Reads E K K m (u ++ w) (.tok w (leafT E name (u ++ w) w)) := by
  intro c sc s hw hc hs
  refine ⟨leaf_good hw hu, by rw [hm]; rfl, ?_⟩
  have hk : ∀ f, execNode E.T E.cfg f (E.T m) c sc = execMatches name re c := by
    intro f; rw [hm]; rfl
  have hs' := hs.enter (m := m) (by rw [hm]; exact hn)
  refine ⟨.ok (.token s.toks.length), { entered E.T m sc s with toks := s.toks ++ [Token.mk' E.p name ⟨E.at_ (u ++ w), E.at_ w⟩] }, ?_, ?_, ?_⟩
  · rw [runs_own hk]
    unfold execMatches
    have hmatch := matchesRegexp_eq (re := re) (chunk_unread (unread_name (name := name) hw hc))
    have hoff : (c.withName name).offset.start = E.at_ (u ++ w) := by
      show c.offset.start = _
      rw [hc.offset]
    rw [hf, hoff] at hmatch
    dsimp only at hmatch
    rw [if_neg (by omega), Nat.zero_add, Nat.add_comm, at_append hw] at hmatch
    refine bind_ok.mpr ⟨_, _, ofOpt_ok.mpr ⟨hmatch, rfl⟩, ?_⟩
    dsimp only
    have hlt := (leaf_good (name := name) hw hu).2.2.facts.2.1
    replace hlt : E.at_ (u ++ w) < E.at_ w := hlt
    rw [if_neg (by omega)]
    refine bind_ok.mpr ⟨_, _, newTok_ok.mpr ⟨rfl, rfl⟩, ?_⟩
    have : (c.withName name).parser = E.p := hc.parser
    rw [this, entered_toks]
    rfl
  · exact shows_fresh ⟨rfl, Or.inl rfl, rfl, rfl, rfl, Nat.sub_le _ _, Nat.sub_le _ _⟩ rfl rfl rfl
  · have := hs'.grow (ks := [Token.mk' E.p name ⟨E.at_ (u ++ w), E.at_ w⟩])
    rwa [entered_toks] at this

theorem reads_regex_empty {re : Regex} (hm : E.T m = .regex name cu re) (hn : cu = true → E.Names m name)
    (hf : re.find w = some (0, 0)) : Reads E K K m w (.past w) := by
  intro c sc s hw hc hs
  refine ⟨List.suffix_refl _, Or.inr rfl, ?_⟩
  have hk : ∀ f, execNode E.T E.cfg f (E.T m) c sc = execMatches name re c := by
    intro f; rw [hm]; rfl
  have hs' := hs.enter (m := m) (by rw [hm]; exact hn)
  refine ⟨.ok (.skip 0), entered E.T m sc s, ?_, .ok (.past (by omega)), hs'⟩
  rw [runs_own hk]
  unfold execMatches
  have hmatch := matchesRegexp_eq (re := re) (chunk_unread (unread_name (name := name) hw hc))
  rw [hf] at hmatch
  dsimp only at hmatch
  rw [if_neg (by omega)] at hmatch
  refine bind_ok.mpr ⟨_, _, ofOpt_ok.mpr ⟨hmatch, rfl⟩, ?_⟩
  dsimp only
  rw [if_pos rfl]
  exact bind_ok.mpr ⟨_, _, dbg_off hc.debug, rfl⟩

theorem reads_regex_fail {re : Regex} (hm : E.T m = .regex name cu re) (hn : cu = true → E.Names m name)
    (hf : ∀ n, re.find w ≠ some (0, n)) : Reads E K K m w .fail := by
  intro c sc s hw hc hs
  refine ⟨trivial, trivial, ?_⟩
  have hk : ∀ f, execNode E.T E.cfg f (E.T m) c sc = execMatches name re c := by
    intro f; rw [hm]; rfl
  have hs' := hs.enter (m := m) (by rw [hm]; exact hn)
  refine ⟨.err .fail, entered E.T m sc s, ?_, .fail, hs'⟩
  rw [runs_own hk]
  unfold execMatches
  have hmatch := matchesRegexp_eq (re := re) (chunk_unread (unread_name (name := name) hw hc))
  have hnone : (c.withName name).matchesRegexp re = some none := by
    rw [hmatch]
    cases hh : re.find w with
    | none => rfl
    | some ab =>
      obtain ⟨a, b⟩ := ab
      dsimp only
      rw [if_pos]
      intro he
      refine hf b ?_
      rw [hh]
      congr 2
      omega
  refine bind_ok.mpr ⟨_, _, ofOpt_ok.mpr ⟨hnone, rfl⟩, bind_ok.mpr ⟨_, _, dbg_off hc.debug, rfl⟩⟩

theorem reads_sequence {a z e w1 raw val : Str} (hm : E.T m = .sequence name cu (.str a) (.str z) (.str e))
    (hn : cu = true → E.Names m name) (ha : a ≠ []) (hz : z ≠ []) (hb : Body z e w1 raw val w) :
    Reads E K K m (a ++ w1) (.tok w (delimT E name (a ++ w1) w1 (z ++ w) w val)) := by
  intro c sc s hw hc hs
  have hsplit := hb.split
  have hw1 : E.Has w1 := hw.tail (List.suffix_append ..)
  have hs0 : z ++ w <:+ w1 := by rw [hsplit, List.append_assoc]; exact List.suffix_append ..
  have hs1 : w <:+ z ++ w := List.suffix_append ..
  have l1 : E.at_ (a ++ w1) + blen a = E.at_ w1 := at_append hw
  have l2 : E.at_ w1 + blen raw = E.at_ (z ++ w) := by
    rw [hsplit, List.append_assoc]
    refine at_append ?_
    rw [← List.append_assoc, ← hsplit]
    exact hw1
  have l3 : E.at_ (z ++ w) + blen z = E.at_ w := at_append (hw1.tail hs0)
  have l4 := (hw1.tail (hs1.trans hs0)).le
  have hap : 0 < blen a := by
    cases a with
    | nil => exact (ha rfl).elim
    | cons x a =>
      have := Char.utf8Size_pos x
      show 0 < x.utf8Size + _
      omega
  refine ⟨⟨(hs1.trans hs0).trans (List.suffix_append ..), rfl, .node (Nat.le_refl _) ?_ l4 ?_ (fun _ h => by cases h)⟩,
    by rw [hm]; rfl, ?_⟩
  · show E.at_ (a ++ w1) < E.at_ w
    omega
  · show E.at_ w1 ≤ E.at_ w
    omega
  have hk : ∀ f, execNode E.T E.cfg f (E.T m) c sc = execSequence name (.str a) (.str z) (.str e) c sc := by
    intro f; rw [hm]; rfl
  have hs' := hs.enter (m := m) (by rw [hm]; exact hn)
  let k : Token := (Token.mkMatched E.p name ⟨E.at_ w1, E.at_ (z ++ w)⟩ ⟨E.at_ (a ++ w1), E.at_ w⟩).setAttribute
    "__value".toList val
  refine ⟨.ok (.token s.toks.length), { entered E.T m sc s with toks := s.toks ++ [k] }, ?_, ?_, ?_⟩
  · rw [runs_own hk]
    unfold execSequence
    refine bind_ok.mpr ⟨.inl a, _, rfl, ?_⟩
    dsimp only
    rw [if_neg ha]
    refine bind_ok.mpr ⟨.inl z, _, rfl, ?_⟩
    dsimp only
    rw [if_neg hz]
    refine bind_ok.mpr ⟨.inl e, _, rfl, ?_⟩
    dsimp only
    have hun := unread_name (name := name) hw hc
    have hch := chunk_unread hun
    have hoff : (c.withName name).offset.start = E.at_ (a ++ w1) := by
      show c.offset.start = _
      rw [hc.offset]
    have hmatch : (c.withName name).matchesStr a = some (some ⟨E.at_ (a ++ w1), E.at_ w1⟩) := by
      unfold Ctx.matchesStr
      rw [hch, if_neg ha]
      dsimp only
      rw [if_pos (List.isPrefixOf_iff_prefix.mpr (List.prefix_append ..))]
      show some (some (⟨c.offset.start, c.offset.start + blen a⟩ : Range)) = _
      rw [hc.offset, ← l1]
    refine bind_ok.mpr ⟨_, _, ofOpt_ok.mpr ⟨hmatch, rfl⟩, ?_⟩
    dsimp only
    have hw1' : TextAt (c.withName name).parser.src (E.at_ w1) (c.withName name).offset.stop w1 := by
      rw [← l1, ← hoff]
      exact hun.suffix
    have haw : Ascii w1 := hw1.ascii
    have hle := hw1'.le
    rcases seqLoop_spec (c := c.withName name) (esc := e) hz ((c.withName name).offset.stop - E.at_ w1) w1 [] []
      (E.at_ w1) (E.at_ w1) [] (by rw [← blen_ascii haw]; omega) haw hw1' (by simp [blen]) rfl with
      ⟨raw', val', rest', parts', hB, hv, hloop⟩ | ⟨hno, hloop⟩
    · have hsame := Body.unique hz hB hb
      obtain ⟨rfl, rfl, rfl⟩ := hsame
      rw [hloop]
      dsimp only
      have hp : (c.withName name).parser = E.p := hc.parser
      refine bind_ok.mpr ⟨_, _, newTok_ok.mpr ⟨rfl, rfl⟩, bind_ok.mpr ⟨_, _, dbg_off hc.debug, ?_⟩⟩
      rw [hv, hp, hoff, l1, l2, l3, entered_toks, List.nil_append]
      have : E.at_ rest' - blen z = E.at_ (z ++ rest') := by omega
      rw [this]
      rfl
    · exact (hno ⟨_, _, _, hb⟩).elim
  · exact shows_fresh ⟨rfl, Or.inl rfl, rfl, rfl, rfl, Nat.sub_le _ _, Nat.sub_le _ _⟩ rfl rfl rfl
  · have := hs'.grow (ks := [k])
    rwa [entered_toks] at this

theorem reads_sequence_fail {a z e : Str} (hm : E.T m = .sequence name cu (.str a) (.str z) (.str e))
    (hn : cu = true → E.Names m name) (ha : a ≠ []) (hz : z ≠ [])
    (hno : ∀ w1 raw val rest, w = a ++ w1 → ¬ Body z e w1 raw val rest) : Reads E K K m w .fail := by
  intro c sc s hw hc hs
  refine ⟨trivial, trivial, ?_⟩
  have hk : ∀ f, execNode E.T E.cfg f (E.T m) c sc = execSequence name (.str a) (.str z) (.str e) c sc := by
    intro f; rw [hm]; rfl
  have hs' := hs.enter (m := m) (by rw [hm]; exact hn)
  refine ⟨.err .fail, entered E.T m sc s, ?_, .fail, hs'⟩
  rw [runs_own hk]
  unfold execSequence
  refine bind_ok.mpr ⟨.inl a, _, rfl, ?_⟩
  dsimp only
  rw [if_neg ha]
  refine bind_ok.mpr ⟨.inl z, _, rfl, ?_⟩
  dsimp only
  rw [if_neg hz]
  refine bind_ok.mpr ⟨.inl e, _, rfl, ?_⟩
  dsimp only
  have hun := unread_name (name := name) hw hc
  have hch := chunk_unread hun
  by_cases hl : a <+: w
  · obtain ⟨w1, rfl⟩ := hl
    have hw1 : E.Has w1 := hw.tail (List.suffix_append ..)
    have l1 : E.at_ (a ++ w1) + blen a = E.at_ w1 := at_append hw
    have hoff : (c.withName name).offset.start = E.at_ (a ++ w1) := by
      show c.offset.start = _
      rw [hc.offset]
    have hmatch : (c.withName name).matchesStr a = some (some ⟨E.at_ (a ++ w1), E.at_ w1⟩) := by
      unfold Ctx.matchesStr
      rw [hch, if_neg ha]
      dsimp only
      rw [if_pos (List.isPrefixOf_iff_prefix.mpr (List.prefix_append ..))]
      show some (some (⟨c.offset.start, c.offset.start + blen a⟩ : Range)) = _
      rw [hc.offset, ← l1]
    refine bind_ok.mpr ⟨_, _, ofOpt_ok.mpr ⟨hmatch, rfl⟩, ?_⟩
    dsimp only
    have hw1' : TextAt (c.withName name).parser.src (E.at_ w1) (c.withName name).offset.stop w1 := by
      rw [← l1, ← hoff]
      exact hun.suffix
    have haw : Ascii w1 := hw1.ascii
    have hle := hw1'.le
    rcases seqLoop_spec (c := c.withName name) (esc := e) hz ((c.withName name).offset.stop - E.at_ w1) w1 [] []
      (E.at_ w1) (E.at_ w1) [] (by rw [← blen_ascii haw]; omega) haw hw1' (by simp [blen]) rfl with
      ⟨raw', val', rest', parts', hB, hv, hloop⟩ | ⟨-, hloop⟩
    · exact (hno _ _ _ _ rfl hB).elim
    · rw [hloop]
      exact bind_ok.mpr ⟨_, _, dbg_off hc.debug, rfl⟩
  · have hmatch : (c.withName name).matchesStr a = some none := by
      unfold Ctx.matchesStr
      rw [hch, if_neg ha]
      dsimp only
      rw [if_neg fun h => hl (List.isPrefixOf_iff_prefix.mp h)]
    exact bind_ok.mpr ⟨_, _, ofOpt_ok.mpr ⟨hmatch, rfl⟩, bind_ok.mpr ⟨_, _, dbg_off hc.debug, rfl⟩⟩


/-! ### Wrappers -/

/-- `Optional` turns a failure into an empty skip. -/
def Got.opt (w : Str) : Got → Got
  | .fail => .past w
  | g => g

/-- Results of matchers that consume. -/
def Got.eager : Got → Bool
  | .aside _ | .note _ => false
  | _ => true

theorem Got.Con.eat {con : Bool} (h : g.Con w con) (hg : g.eager = true) : g.Con w true := by
  cases g <;> first | trivial | exact Or.inl rfl | exact rfl | cases hg

theorem reads_optional (hm : E.T m = .optional b) (h : Reads E K K' b w g) (hg : g.eager = true) :
    Reads E K K' m w (g.opt w) := by
  intro c sc s hw hc hs
  obtain ⟨h1, h2, r, s', h3, h4, h5⟩ := h c sc s hw hc hs
  have hcon : (E.T m).isConsuming = true := by rw [hm]; rfl
  rw [hcon]
  replace h2 := h2.eat hg
  simp only [C17_optional hm]
  cases h4 with
  | fail => exact ⟨List.suffix_refl _, Or.inl rfl, _, _, Or.inl ⟨h3, rfl⟩, .ok (.past (by omega)), h5⟩
  | fatal => exact ⟨trivial, trivial, _, _, Or.inr ⟨h3, fun h => by cases h⟩, .fatal, h5⟩
  | @ok x _ h4 =>
    have : g.opt w = g := by cases g <;> first | rfl | cases h4
    rw [this]
    exact ⟨h1, h2, _, _, Or.inr ⟨h3, fun h => by cases h⟩, .ok h4, h5⟩

/-- `Discard` turns tokens into skips. -/
def Got.dropped : Got → Got
  | .tok w' _ => .past w'
  | .brk n (.tok w' _) => .brk n (.past w')
  | g => g

/-- Results that are discarded. -/
def Got.plain : Got → Bool
  | .fail | .past _ | .none | .fatal | .brk _ .none | .brk _ (.past _) => true
  | .tok _ t | .brk _ (.tok _ t) => t.clean
  | _ => false

theorem discards {c : Ctx} {sc : SCtxId} {s s1 : State} {r0 : R} {t : TokId} {tree : Tr} {wrap : Success → R}
    (hm : E.T m = .discard b) (hw : E.Has w) (hc : E.Here w c) (hr : Runs E.T E.cfg b c sc s r0 s1)
    (hca : Carries r0 t wrap) (ht : Reps E s1.toks s.toks.length [t] [tree]) (hs : Scoped E K sc s1)
    (hg : (Got.tok w' tree).Good E w) (hcl : tree.clean = true) :
    ∃ k s', Runs E.T E.cfg m c sc s (wrap (.skip k)) s' ∧ k + (E.at_ w : Int) = E.at_ w' ∧ Scoped E K sc s' := by
  obtain ⟨l, hp, hne⟩ := ht.pre (Or.inr (by simp [cleans, hcl]))
  obtain ⟨k, -, hk, -, hi, -⟩ := ht.root
  have hmt : k.matched = ⟨E.at_ w, E.at_ w'⟩ := by
    have := congrArg Info.matched hi
    exact this.trans hg.2.1
  have hsm := E.small
  have hle := hw.le
  have hle' := (hw.tail hg.1).le
  have hoff : c.offset.start = E.at_ w := by rw [hc.offset]
  obtain ⟨⟨x, s', h1, k', e, hk', rfl, hcase⟩, -⟩ := C19_discard_token hm hr hca hp (by rw [hoff]; omega)
    (fun k2 h2 => by rw [hk] at h2; cases h2; rw [hmt]; show E.at_ w' ≤ _; omega)
  rw [hk] at hk'
  cases hk'
  have hfil : l.filter (isErrorTok s1.toks) = [] := by
    rw [List.filter_eq_nil_iff]
    intro u hu
    rw [hne u hu]
    simp
  rcases hcase with ⟨-, rfl⟩ | ⟨hh, -⟩
  · refine ⟨_, _, h1, ?_, hs.grow⟩
    rw [hmt, hoff]
    show ((E.at_ w' : Nat) : Int) - _ + _ = _
    omega
  · exact (hh hfil).elim

theorem reads_discard (hm : E.T m = .discard b) (h : Reads E K K' b w g) (hp : g.plain = true) :
    Reads E K K' m w g.dropped := by
  intro c sc s hw hc hs
  obtain ⟨h1, h2, r, s', h3, h4, h5⟩ := h c sc s hw hc hs
  clear h
  have hcon : (E.T m).isConsuming = true := by rw [hm]; rfl
  rw [hcon]
  cases h4 with
  | fail => exact ⟨trivial, trivial, _, _, C19_discard_other hm h3 trivial, .fail, h5⟩
  | fatal => exact ⟨trivial, trivial, _, _, C19_discard_other hm h3 trivial, .fatal, h5⟩
  | ok h4 =>
    cases h4 with
    | past h => exact ⟨h1, Or.inl rfl, _, _, C19_discard_other hm h3 trivial, .ok (.past h), h5⟩
    | tok h =>
      obtain ⟨k, s2, h6, h7, h8⟩ := discards hm hw hc h3 (.token _) h h5 h1 hp
      exact ⟨h1.1, Or.inl rfl, _, _, h6, .ok (.past h7), h8⟩
    | none => exact ⟨trivial, trivial, _, _, C19_discard_other hm h3 trivial, .ok .none, h5⟩
    | brk h =>
      cases h with
      | past h => exact ⟨h1, trivial, _, _, C19_discard_other hm h3 trivial, .ok (.brk (.past h)), h5⟩
      | tok h =>
        obtain ⟨k, s2, h6, h7, h8⟩ := discards hm hw hc h3 (.brkToken _ _) h h5 h1 hp
        exact ⟨h1.1, trivial, _, _, h6, .ok (.brk (.past h7)), h8⟩
      | none => exact ⟨trivial, trivial, _, _, C19_discard_other hm h3 trivial, .ok (.brk .none), h5⟩
      | _ => cases hp
    | _ => cases hp

/-- `ProxyChildren` marks tokens. -/
inductive Flat (E : Setting) (w : Str) : Got → Got → Prop
  | fail : Flat E w .fail .fail
  | fatal : Flat E w .fatal .fatal
  | past {w' : Str} : Flat E w (.past w') (.past w')
  | tok {w' w'' : Str} {t k : Tr} (h1 : w' <:+ w'') (h2 : w'' <:+ w) (h3 : t.kids.getLast? = some k) (h4 : k.matched.stop = E.at_ w'')
      (h5 : ∀ k ∈ t.kids, k.name ≠ errorName) : Flat E w (.tok w' t) (.splice w'' t)
  | brk {n w' w'' : Str} {t k : Tr} (h1 : w' <:+ w'') (h2 : w'' <:+ w) (h3 : t.kids.getLast? = some k) (h4 : k.matched.stop = E.at_ w'')
      (h5 : ∀ k ∈ t.kids, k.name ≠ errorName) : Flat E w (.brk n (.tok w' t)) (.brk n (.splice w'' t))

theorem clean_names {ts : List Tr} (h : ts.all (fun t => t.name != errorName) = true) : ∀ k ∈ ts, k.name ≠ errorName := by
  intro k hk
  have := List.all_eq_true.mp h k hk
  simpa using this

theorem splice_good {w'' : Str} {t k : Tr} (hw : E.Has w) (hg : (Got.tok w' t).Good E w) (h1 : w' <:+ w'') (h2 : w'' <:+ w)
    (h3 : t.kids.getLast? = some k) (h4 : k.matched.stop = E.at_ w'') (h5 : ∀ k ∈ t.kids, k.name ≠ errorName) : (Got.splice w'' t).Good E w := by
  obtain ⟨a1, a2, a3⟩ := hg
  refine ⟨h2, by rw [a2], a3, ?_, ⟨k, h3, h4⟩, h5⟩
  rw [a2]
  exact (hw.tail h2).mono h1

theorem reads_proxy {g' : Got} (hm : E.T m = .proxyChildren b name cu) (hn : cu = true → E.Names m name)
    (h : Reads E K K' b w g) (hf : Flat E w g g') : Reads E K K' m w g' := by
  intro c sc s hw hc hs
  have hs1 := hs.enter (m := m) (by rw [hm]; exact hn)
  obtain ⟨h1, h2, r, s', h3, h4, h5⟩ := h c sc _ hw hc hs1
  clear h
  have hcon : (E.T m).isConsuming = true := by rw [hm]; rfl
  rw [hcon]
  rw [entered_toks] at h4
  simp only [C20_proxy_children hm]
  cases hf with
  | fail =>
    cases h4 with
    | fail => exact ⟨trivial, trivial, _, _, ⟨_, h3, .other (fun _ h => by cases h) (fun _ _ h => by cases h)
        (fun _ _ h => by cases h)⟩, .fail, h5⟩
    | ok h => cases h
  | fatal =>
    cases h4 with
    | fatal => exact ⟨trivial, trivial, _, _, ⟨_, h3, .other (fun _ h => by cases h) (fun _ _ h => by cases h)
        (fun _ _ h => by cases h)⟩, .fatal, h5⟩
    | ok h => cases h
  | past =>
    cases h4 with
    | ok h => cases h with
      | past h => exact ⟨h1, Or.inl rfl, _, _, ⟨_, h3, .other (fun _ h => by cases h) (fun _ _ h => by cases h)
          (fun _ _ h => by cases h)⟩, .ok (.past h), h5⟩
  | tok a1 a2 a3 a4 a5 =>
    cases h4 with
    | ok h => cases h with
      | tok h => exact ⟨splice_good hw h1 a1 a2 a3 a4 a5, rfl, _, _, ⟨_, h3, .token⟩, .ok (.splice h), h5⟩
  | brk a1 a2 a3 a4 a5 =>
    cases h4 with
    | ok h => cases h with
      | brk h => cases h with
        | tok h => exact ⟨splice_good hw h1 a1 a2 a3 a4 a5, trivial, _, _, ⟨_, h3, .brk⟩, .ok (.brk (.splice h)), h5⟩

/-- What a callback makes of a token. -/
def Calls (E : Setting) (K K' : Option Nat) (sf : TokId → Ctx → SCtxId → M R) (w : Str) (t : Tr) (g : Got) : Prop :=
  ∀ c sc s lo i, E.Has w → E.Here w c → Scoped E K sc s → Reps E s.toks lo [i] [t] → t.Ok (E.at_ w) (blen E.p.src) →
    g.Good E w ∧ ∃ r s', sf i c sc s = .ok r s' ∧ Shows E w s'.toks lo r g ∧ Scoped E K' sc s'

theorem reads_map {sf : TokId → Ctx → SCtxId → M R} {ff : Failure → Ctx → SCtxId → M R} {t : Tr} {K1 : Option Nat}
    (hm : E.T m = .map b sf ff) (h : Reads E K K1 b w (.tok w' t)) (hsf : Calls E K1 K' sf w t g) (hg : g.Con w true) :
    Reads E K K' m w g := by
  intro c sc s hw hc hs
  obtain ⟨h1, h2, r, s1, h3, h4, h5⟩ := h c sc s hw hc hs
  have hcon : (E.T m).isConsuming = true := by rw [hm]; rfl
  rw [hcon]
  cases h4 with
  | ok h4 => cases h4 with
    | tok h4 =>
      obtain ⟨h6, r', s', h7, h8, h9⟩ := hsf (c.withName "Map".toList) sc s1 _ _ hw ⟨hc.parser, hc.offset, hc.debug⟩ h5 h4 h1.2.2
      exact ⟨h6, hg, r', s', (C41_map hm).mpr (Or.inl ⟨_, _, Or.inl h3, h7⟩), h8, h9⟩

theorem reads_map_fail {sf : TokId → Ctx → SCtxId → M R} (hm : E.T m = .map b sf passFailure)
    (h : Reads E K K' b w .fail) : Reads E K K' m w .fail := by
  intro c sc s hw hc hs
  obtain ⟨h1, h2, r, s1, h3, h4, h5⟩ := h c sc s hw hc hs
  cases h4 with
  | fail => exact ⟨trivial, trivial, _, _, (C41_map hm).mpr (Or.inr (Or.inl ⟨_, _, h3, rfl⟩)), .fail, h5⟩
  | ok h => cases h

theorem reads_map_fatal {sf : TokId → Ctx → SCtxId → M R} (hm : E.T m = .map b sf passFailure)
    (h : Reads E K K' b w .fatal) : Reads E K K' m w .fatal := by
  intro c sc s hw hc hs
  obtain ⟨h1, h2, r, s1, h3, h4, h5⟩ := h c sc s hw hc hs
  cases h4 with
  | fatal => exact ⟨trivial, trivial, _, _, (C41_map hm).mpr (Or.inr (Or.inl ⟨_, _, h3, rfl⟩)), .fatal, h5⟩
  | ok h => cases h

theorem reads_map_fine {sf : TokId → Ctx → SCtxId → M R} (hm : E.T m = .map b sf failureIsFine)
    (h : Reads E K K' b w .fail) : Reads E K K' m w (.past w) := by
  intro c sc s hw hc hs
  obtain ⟨h1, h2, r, s1, h3, h4, h5⟩ := h c sc s hw hc hs
  cases h4 with
  | fail => exact ⟨List.suffix_refl _, Or.inr rfl, _, _, (C41_map hm).mpr (Or.inr (Or.inl ⟨_, _, h3, rfl⟩)),
      .ok (.past (by omega)), h5⟩
  | ok h => cases h

/-! ### Pins, references and breaks -/

theorem selects_same {r r' : Range} : Selects E.cfg .same .same r r' ↔ r' = r := by
  constructor
  · rintro ⟨h1, h2⟩
    cases r; cases r'
    cases h1; cases h2
    rfl
  · rintro rfl
    exact ⟨.same, .same⟩

theorem here_small {c : Ctx} (hw : E.Has w) (hc : E.Here w c) : c.offset.start < 2 ^ 64 := by
  have h1 := hw.le
  have h2 := E.small
  have h3 := usz
  rw [hc.offset, u64]
  show E.at_ w < _
  omega

theorem runs_pin {c : Ctx} {sc : SCtxId} {s : State} (hm : E.T m = .pin none (.str []) name cu) (hw : E.Has w)
    (hc : E.Here w c) : Runs E.T E.cfg m c sc s (.ok (.token s.toks.length))
      { entered E.T m sc s with toks := s.toks ++ [Token.mkPin E.p name ⟨E.at_ w, blen E.p.src⟩ ⟨E.at_ w, blen E.p.src⟩] } := by
  refine (C29_empty_pin hm (here_small hw hc) rfl (.start .empty)).mpr ⟨_, selects_same.mpr rfl, rfl, ?_⟩
  rw [hc.parser, hc.offset]

theorem reads_pin (hm : E.T m = .pin none (.str []) name cu) (hn : cu = true → E.Names m name) : Reads E K K m w .pin := by
  intro c sc s hw hc hs
  have hs1 := hs.enter (m := m) (by rw [hm]; exact hn)
  refine ⟨trivial, trivial, _, _, runs_pin hm hw hc, .ok (.pin (Nat.le_refl _) List.getElem?_concat_length rfl), ?_⟩
  have := hs1.grow (ks := [Token.mkPin E.p name ⟨E.at_ w, blen E.p.src⟩ ⟨E.at_ w, blen E.p.src⟩])
  rwa [entered_toks] at this

theorem reads_aside {t : Tr} (hm : E.T m = .pin (some b) (.str []) name cu) (hn : cu = true → E.Names m name)
    (h : Reads E K K' b w (.tok w' t)) : Reads E K K' m w (.aside t) := by
  intro c sc s hw hc hs
  have hs1 := hs.enter (m := m) (by rw [hm]; exact hn)
  obtain ⟨h1, h2, r, s1, h3, h4, h5⟩ := h c sc _ hw hc hs1
  rw [entered_toks] at h4
  refine ⟨h1.2.2, by rw [hm]; rfl, r, s1, (C29_pin hm (here_small hw hc) rfl (.start .empty)).mpr ⟨_, selects_same.mpr rfl, h3⟩, ?_, h5⟩
  cases h4 with
  | ok h4 => cases h4 with
    | tok h4 => exact .ok (.aside h4)

theorem reads_aside_fail (hm : E.T m = .pin (some b) (.str []) name cu) (hn : cu = true → E.Names m name)
    (h : Reads E K K' b w .fail) : Reads E K K' m w .fail := by
  intro c sc s hw hc hs
  have hs1 := hs.enter (m := m) (by rw [hm]; exact hn)
  obtain ⟨h1, h2, r, s1, h3, h4, h5⟩ := h c sc _ hw hc hs1
  rw [entered_toks] at h4
  exact ⟨trivial, trivial, r, s1, (C29_pin hm (here_small hw hc) rfl (.start .empty)).mpr ⟨_, selects_same.mpr rfl, h3⟩, h4, h5⟩

/-- Binding the variable `AttributeStartOffset`. -/
theorem Scoped.mark {sc : SCtxId} {s : State} (h : Scoped E K sc s) {v : Var} {K' : Option Nat}
    (hv : ∀ q, K' = some q → ∃ t k, v = .token t ∧ s.toks[t]? = some k ∧ k.kind = .pin ∧ k.matched = ⟨q, blen E.p.src⟩) :
    Scoped E K' sc (s.bindVar sc "AttributeStartOffset".toList v) := by
  have hstep := scopeStep_refines h.ok (.set sc "AttributeStartOffset".toList v) h.len
  have hg := C09_set_get s h.ok sc h.len "AttributeStartOffset".toList v
  have hlen : (s.bindVar sc "AttributeStartOffset".toList v).sctxs.length = s.sctxs.length := hstep.2.2
  refine ⟨hstep.2.1, by rw [hlen]; exact h.len, ?_, ?_, ?_⟩
  · rw [hg.2.1 _ (toList_ne (by decide)), h.sw]
  · rw [hg.2.1 _ (toList_ne (by decide)), h.pm]
  · intro q hq
    obtain ⟨t, k, rfl, a2, a3, a4⟩ := hv q hq
    exact ⟨t, k, hg.1, by rw [State.bindVar_toks]; exact a2, a3, a4⟩

theorem reads_mark (hm : E.T m = .store b "AttributeStartOffset".toList true)
    (hb : E.T b = .pin none (.str []) name false) : Reads E K (some (E.at_ w)) m w .pin := by
  intro c sc s hw hc hs
  have he : entered E.T m sc s = s.bindVar sc "AttributeStartOffset".toList (.matcher m) := by
    unfold entered
    rw [hm]
    rfl
  have hs1 : Scoped E none sc (entered E.T m sc s) := by
    rw [he]
    exact hs.mark (fun _ h => by cases h)
  have hent : entered E.T b sc (entered E.T m sc s) = entered E.T m sc s := entered_plain (by rw [hb]; rfl)
  have hrun := runs_pin (sc := sc) (s := entered E.T m sc s) hb hw hc
  rw [hent, entered_toks] at hrun
  refine ⟨trivial, trivial, _, _, (C26_store hm).mpr ⟨_, hrun, Or.inl ⟨_, rfl, rfl⟩⟩, .ok (.pin (k := Token.mkPin E.p name ⟨E.at_ w, blen E.p.src⟩ ⟨E.at_ w, blen E.p.src⟩) (Nat.le_refl _) ?_ rfl), ?_⟩
  · rw [State.bindVar_toks]
    exact List.getElem?_concat_length
  · have hs2 := hs1.grow (ks := [Token.mkPin E.p name ⟨E.at_ w, blen E.p.src⟩ ⟨E.at_ w, blen E.p.src⟩])
    rw [entered_toks] at hs2
    refine hs2.mark fun q hq => ⟨_, _, rfl, List.getElem?_concat_length, rfl, ?_⟩
    cases hq
    rfl

/-- Looking again at the place of the pin. -/
theorem reads_look (hm : E.T m = .pin (some b) (.fetch "AttributeStartOffset.range".toList) name cu)
    (hn : cu = true → E.Names m name) (hw' : E.Has w') (h : Reads E (some (E.at_ w')) K' b w' (.past w')) :
    Reads E (some (E.at_ w')) K' m w (.past w) := by
  intro c sc s hw hc hs
  have hs1 := hs.enter (m := m) (by rw [hm]; exact hn)
  obtain ⟨t, k, a1, a2, -, a4⟩ := hs1.pin _ rfl
  rw [entered_toks] at a2
  obtain ⟨h1, h2, r, s1, h3, h4, h5⟩ := h { c with offset := k.matched } sc _ hw' ⟨hc.parser, a4, hc.debug⟩ hs1
  have hle := hw'.le
  have hsm := E.small
  have husz := usz
  have hm' : E.T m = .pin (some b) (.fetch ("AttributeStartOffset".toList ++ ".range".toList)) name cu := by
    rw [hm]
    rfl
  refine ⟨List.suffix_refl _, Or.inr rfl, r, s1, (C29_stored_range hm' (here_small hw hc) (by decide) a1 a2 ?_ ?_).mpr h3, ?_, h5⟩
  · rw [a4, u64]
    show E.at_ w' < _
    omega
  · rw [a4, u64]
    show blen E.p.src < _
    omega
  · cases h4 with
    | ok h4 => cases h4 with
      | past h4 => exact .ok (.past (by omega))

theorem reads_ref {n : Str} (hm : E.T m = .ref (.str n) name false)
    (hn : (n = "SwitchMatcher".toList ∧ b = E.sw) ∨ (n = "ProgramMatcher".toList ∧ b = E.pm))
    (h : Reads E K K' b w g) (hg : g.eager = true) : Reads E K K' m w g := by
  intro c sc s hw hc hs
  obtain ⟨h1, h2, r, s', h3, h4, h5⟩ := h c sc s hw hc hs
  replace h2 := h2.eat hg
  refine ⟨h1, by rw [hm]; exact h2, r, s', (C27_ref hm).mpr (Or.inl ⟨b, ?_, ?_⟩), h4, h5⟩
  · rw [entered_plain (by rw [hm]; rfl)]
    rcases hn with ⟨rfl, rfl⟩ | ⟨rfl, rfl⟩
    · exact hs.sw
    · exact hs.pm
  · rw [entered_plain (by rw [hm]; rfl)]
    exact h3

theorem reads_brk {n : Str} (hm : E.T m = .brk n) : Reads E K K m w (.brk n .none) := by
  intro c sc s hw hc hs
  refine ⟨trivial, trivial, .ok (.brk n .none), s, ⟨1, ?_⟩, .ok (.brk .none), hs⟩
  rw [exec_plain (by rw [hm]; rfl), hm]
  rfl

end

end Adx.Read
