import Verif.Spec.Sequence
import Verif.Proofs.Skims
import Verif.Props.Leaf
/-
  C12, C13: `Sequence`.
-/
namespace Adx

variable {T : Table} {cfg : Cfg} {m : MatcherId} {c : Ctx} {sc : SCtxId} {s s' : State} {r : R}
  {name : Str} {cu : Bool}

theorem Body.split {stop esc w raw val rest : Str} (h : Body stop esc w raw val rest) :
    w = raw ++ stop ++ rest := by
  induction h with
  | done rest => simp
  | escaped _ _ _ ih => rw [ih]; simp
  | plain _ _ _ ih => rw [ih]; simp

/-- The body, its value and the rest are determined by the text. -/
theorem Body.unique {stop esc w raw val rest raw' val' rest' : Str} (hs : stop ≠ [])
    (h : Body stop esc w raw val rest) (h' : Body stop esc w raw' val' rest') :
    raw = raw' ∧ val = val' ∧ rest = rest' := by
  induction h generalizing raw' val' rest' with
  | done rest =>
    generalize hw : stop ++ rest = w at h'
    cases h' with
    | done rest' => exact ⟨rfl, rfl, List.append_cancel_left hw⟩
    | escaped h1 _ _ => exact (h1 ⟨rest, hw⟩).elim
    | plain h1 _ _ => exact (h1 ⟨rest, hw⟩).elim
  | @escaped ch w raw val rest h1 h2 h ih =>
    generalize hw : esc ++ ch :: w = w0 at h'
    cases h' with
    | done rest' => exact (h1 ⟨rest', hw.symm⟩).elim
    | escaped h1' _ h' =>
      obtain ⟨rfl, rfl⟩ := List.cons.inj (List.append_cancel_left hw)
      obtain ⟨rfl, rfl, rfl⟩ := ih h'
      exact ⟨rfl, rfl, rfl⟩
    | plain h1' h2' _ =>
      rcases h2' with rfl | h2'
      · exact (h2 rfl).elim
      · exact (h2' ⟨ch :: w, hw⟩).elim
  | @plain ch w raw val rest h1 h2 h ih =>
    generalize hw : ch :: w = w0 at h'
    cases h' with
    | done rest' => exact (h1 ⟨rest', hw.symm⟩).elim
    | escaped h1' h2' h' =>
      rcases h2 with rfl | h2
      · exact (h2' rfl).elim
      · exact (h2 ⟨_, hw.symm⟩).elim
    | plain h1' h2' h' =>
      obtain ⟨rfl, rfl⟩ := List.cons.inj hw
      obtain ⟨rfl, rfl, rfl⟩ := ih h'
      exact ⟨rfl, rfl, rfl⟩

/-- The whole body is passed over. -/
theorem Body.skims {stop esc w raw val rest : Str} (h : Body stop esc w raw val rest) :
    Skims stop esc w val (stop ++ rest) := by
  induction h with
  | done rest => exact .here _
  | escaped h1 h2 _ ih => exact .escaped h1 h2 ih
  | plain h1 h2 _ ih => exact .plain h1 h2 ih

/-- Nothing but the body is passed over. -/
theorem Body.skims_prefix {stop esc w raw val rest v r : Str} (h : Body stop esc w raw val rest)
    (hv : Skims stop esc w v r) : v <+: val := by
  induction h generalizing v with
  | done rest => rw [hv.inv_stop ⟨rest, rfl⟩]; exact List.nil_prefix
  | escaped h1 h2 _ ih =>
    rcases hv.inv_escaped h2 with rfl | ⟨v', rfl, h3⟩
    · exact List.nil_prefix
    · exact List.cons_prefix_cons.mpr ⟨rfl, ih h3⟩
  | plain h1 h2 _ ih =>
    rcases hv.inv_plain h2 with rfl | ⟨v', rfl, h3⟩
    · exact List.nil_prefix
    · exact List.cons_prefix_cons.mpr ⟨rfl, ih h3⟩

/-- `matches_str_at_offset` on the text between `i` and the end of the window. -/
theorem matchesStrAt_text {w pat : Str} {i : Nat} (hw : TextAt c.parser.src i c.offset.stop w)
    (hi : i < c.offset.stop) :
    (pat ≠ [] ∧ pat <+: w ∧ c.matchesStrAt pat i = some (some ⟨i, i + blen pat⟩)) ∨
    ((pat = [] ∨ ¬ pat <+: w) ∧ c.matchesStrAt pat i = some none) := by
  unfold Ctx.matchesStrAt
  rw [bslice_iff.mpr hw]
  by_cases hp : pat = []
  · rw [if_pos (Or.inr hp)]
    exact Or.inr ⟨Or.inl hp, rfl⟩
  · rw [if_neg (by rintro (h | h); exact absurd hi (Nat.not_lt.mpr h); exact hp h)]
    dsimp only
    by_cases hpre : pat <+: w
    · rw [if_pos (List.isPrefixOf_iff_prefix.mpr hpre)]
      exact Or.inl ⟨hp, hpre, rfl⟩
    · rw [if_neg (fun h => hpre (List.isPrefixOf_iff_prefix.mp h))]
      exact Or.inr ⟨Or.inr hpre, rfl⟩

theorem seqPush_text {src p : Str} {a b : Nat} {parts : List Str} (h : TextAt src a b p) :
    ∃ parts', seqPush src a b parts = some parts' ∧ parts'.flatten = parts.flatten ++ p := by
  unfold seqPush
  split
  · rw [bslice_iff.mpr h]
    exact ⟨_, rfl, by simp⟩
  · have := h.le
    have hp : blen p = 0 := by omega
    rw [blen_eq_zero.mp hp]
    exact ⟨_, rfl, by simp⟩

theorem seqLoop_past {stop esc : Str} {k i prev : Nat} {parts : List Str} (h : c.offset.stop ≤ i) :
    seqLoop c stop esc k i prev parts = .fail := by
  cases k with
  | zero => rfl
  | succ k =>
    unfold seqLoop
    rw [if_pos h]

/-- In the middle of a character the scan panics. -/
theorem seqLoop_inside {stop esc w : Str} {ch : Char} {k i prev : Nat} {parts : List Str} (hs : stop ≠ [])
    (hw : TextAt c.parser.src i c.offset.stop (ch :: w)) (hch : ¬ ch.toNat < 128) :
    seqLoop c stop esc (k + 1) (i + 1) prev parts = .panic := by
  have h2 : 1 < ch.utf8Size := by
    have := utf8Size_pos ch
    rcases Nat.lt_or_ge 1 ch.utf8Size with h | h
    · exact h
    · exact (hch (ascii_of_utf8Size (by omega))).elim
  have hl := hw.le
  simp only [blen] at hl
  have hlt : ¬ c.offset.stop ≤ i + 1 := by omega
  unfold seqLoop
  rw [if_neg hlt]
  have : c.matchesStrAt stop (i + 1) = none := by
    unfold Ctx.matchesStrAt
    rw [if_neg (by rintro (h | h); exact hlt h; exact hs h)]
    have hb : bslice c.parser.src (i + 1) c.offset.stop = none := by
      cases hb : bslice c.parser.src (i + 1) c.offset.stop with
      | none => rfl
      | some x =>
        obtain ⟨u, v, e1, e2⟩ := (bslice_iff.mp hb).onChar.1
        exact (not_onChar_inside hw h2 ⟨u, v, e1, e2⟩).elim
    rw [hb]
  rw [this]

/-- The scanning loop on any text: it finds the body the specification speaks of, or there is
none, or it panics behind a character it cannot pass over. -/
theorem seqLoop_text {stop esc : Str} (hs : stop ≠ []) (k : Nat) (w x p : Str) (i prev : Nat)
    (parts : List Str) (hk : blen w ≤ k)
    (hw : TextAt c.parser.src prev c.offset.stop (p ++ w)) (hi : i = prev + blen p)
    (hx : x = parts.flatten ++ p) :
    (∃ raw val rest parts', Body stop esc w raw val rest ∧ (∀ v r, Skims stop esc w v r → Ascii v) ∧
      parts'.flatten = x ++ val ∧
      seqLoop c stop esc k i prev parts = .found (i + blen raw + blen stop) parts') ∨
    ((¬ ∃ raw val rest, Body stop esc w raw val rest) ∧ (∀ v r, Skims stop esc w v r → Ascii v) ∧
      seqLoop c stop esc k i prev parts = .fail) ∨
    ((∃ v r, Skims stop esc w v r ∧ ¬ Ascii v) ∧ seqLoop c stop esc k i prev parts = .panic) := by
  have nilAscii : Ascii ([] : Str) := fun ch h => by cases h
  have consAscii : ∀ {ch : Char} {v : Str}, ch.toNat < 128 → Ascii v → Ascii (ch :: v) := by
    intro ch v h1 h2 d hd
    rcases List.mem_cons.mp hd with rfl | hd
    · exact h1
    · exact h2 d hd
  have noBody : ¬ ∃ raw val rest, Body stop esc [] raw val rest := by
    rintro ⟨raw, val, rest, h⟩
    have := h.split
    exact hs (List.append_eq_nil_iff.mp (List.append_eq_nil_iff.mp this.symm).1).2
  induction k generalizing w x p i prev parts with
  | zero =>
    have hwn : w = [] := blen_eq_zero.mp (by omega)
    subst hwn
    exact Or.inr (Or.inl ⟨noBody, fun v r h => by rw [h.inv_nil rfl]; exact nilAscii, rfl⟩)
  | succ k ih =>
    have hwi : TextAt c.parser.src i c.offset.stop w := by rw [hi]; exact hw.suffix
    have hpi : TextAt c.parser.src prev i p := by rw [hi]; exact hw.prefix
    by_cases hend : c.offset.stop ≤ i
    · have := hwi.le
      have hwn : w = [] := blen_eq_zero.mp (by omega)
      subst hwn
      exact Or.inr (Or.inl ⟨noBody, fun v r h => by rw [h.inv_nil rfl]; exact nilAscii, seqLoop_past hend⟩)
    · have hlt : i < c.offset.stop := Nat.lt_of_not_le hend
      unfold seqLoop
      rw [if_neg hend]
      rcases matchesStrAt_text (pat := stop) hwi hlt with ⟨_, hpre, hm⟩ | ⟨hno, hm⟩
      · -- terminator
        rw [hm]
        dsimp only
        obtain ⟨parts', hp1, hp2⟩ := seqPush_text (parts := parts) hpi
        rw [hp1]
        have hstop : ∀ v r, Skims stop esc w v r → Ascii v := fun v r h => by
          rw [h.inv_stop hpre]; exact nilAscii
        obtain ⟨rest, rfl⟩ := hpre
        exact Or.inl ⟨[], [], rest, parts', Body.done rest, hstop, by rw [hp2, hx]; simp, by simp [blen]⟩
      · have hno : ¬ stop <+: w := hno.resolve_left hs
        rw [hm]
        dsimp only
        rcases matchesStrAt_text (pat := esc) hwi hlt with ⟨hesc, hpre, hm⟩ | ⟨hnoe, hm⟩
        · -- escape marker
          rw [hm]
          dsimp only
          obtain ⟨parts', hp1, hp2⟩ := seqPush_text (parts := parts) hpi
          rw [hp1]
          dsimp only
          obtain ⟨w1, rfl⟩ := hpre
          have hwe : TextAt c.parser.src (i + blen esc) c.offset.stop w1 := hwi.suffix
          cases w1 with
          | nil =>
            have hl := hwe.le
            simp only [blen] at hl
            refine Or.inr (Or.inl ⟨?_, ?_, seqLoop_past (by omega)⟩)
            · rintro ⟨raw, val, rest, h⟩
              generalize hw0 : esc ++ [] = w0 at h
              cases h with
              | done rest => exact hno ⟨rest, hw0.symm⟩
              | escaped _ _ _ =>
                have := congrArg List.length hw0
                simp at this
              | plain _ h2 _ =>
                rcases h2 with rfl | h2
                · exact hesc rfl
                · exact h2 ⟨[], hw0⟩
            · intro v r h
              rw [List.append_nil] at h
              rw [h.inv_escape hesc rfl]
              exact nilAscii
          | cons ch w1 =>
            by_cases hasc : ch.toNat < 128
            · have hch : ch.utf8Size = 1 := utf8Size_ascii hasc
              have hlen : blen w1 ≤ k := by
                simp only [blen_append, blen] at hk
                omega
              have hwalk : (∀ v r, Skims stop esc w1 v r → Ascii v) →
                  ∀ v r, Skims stop esc (esc ++ ch :: w1) v r → Ascii v := by
                intro hA v r h
                rcases h.inv_escaped hesc with rfl | ⟨v', rfl, h3⟩
                · exact nilAscii
                · exact consAscii hasc (hA _ _ h3)
              have hrec := ih w1 (x ++ [ch]) [ch] (i + blen esc + 1) (i + blen esc) parts' hlen
                hwe (by simp [blen, hch]) (by rw [hp2, hx])
              rcases hrec with ⟨raw, val, rest, parts2, hb, hA, hv, hl⟩ | ⟨hno2, hA, hl⟩ | ⟨⟨v, r, h1, h2⟩, hl⟩
              · refine Or.inl ⟨esc ++ ch :: raw, ch :: val, rest, parts2, Body.escaped hno hesc hb, hwalk hA, ?_, ?_⟩
                · rw [hv]; simp
                · rw [hl]
                  congr 1
                  simp only [blen_append, blen, hch]
                  omega
              · refine Or.inr (Or.inl ⟨?_, hwalk hA, hl⟩)
                rintro ⟨raw, val, rest, h⟩
                generalize hw0 : esc ++ ch :: w1 = w0 at h
                cases h with
                | done rest => exact hno ⟨rest, hw0.symm⟩
                | escaped _ _ h =>
                  obtain ⟨rfl, rfl⟩ := List.cons.inj (List.append_cancel_left hw0)
                  exact hno2 ⟨_, _, _, h⟩
                | plain _ h2 _ =>
                  rcases h2 with rfl | h2
                  · exact hesc rfl
                  · exact h2 ⟨_, hw0⟩
              · exact Or.inr (Or.inr ⟨⟨ch :: v, r, .escaped hno hesc h1, fun hA => h2 fun d hd => hA d (by simp [hd])⟩, hl⟩)
            · refine Or.inr (Or.inr ⟨⟨[ch], w1, .escaped hno hesc (.here _), fun hA => hasc (hA ch (by simp))⟩, ?_⟩)
              have := utf8Size_pos ch
              have : 0 < blen esc := by
                rcases Nat.eq_zero_or_pos (blen esc) with h | h
                · exact (hesc (blen_eq_zero.mp h)).elim
                · exact h
              simp only [blen_append, blen] at hk
              cases k with
              | zero => omega
              | succ k => exact seqLoop_inside hs hwe hasc
        · -- any other character
          rw [hm]
          dsimp only
          cases w with
          | nil =>
            have := hwi.le
            simp only [blen] at this
            omega
          | cons ch w1 =>
            by_cases hasc : ch.toNat < 128
            · have hch : ch.utf8Size = 1 := utf8Size_ascii hasc
              have hwalk : (∀ v r, Skims stop esc w1 v r → Ascii v) →
                  ∀ v r, Skims stop esc (ch :: w1) v r → Ascii v := by
                intro hA v r h
                rcases h.inv_plain hnoe with rfl | ⟨v', rfl, h3⟩
                · exact nilAscii
                · exact consAscii hasc (hA _ _ h3)
              have hrec := ih w1 (x ++ [ch]) (p ++ [ch]) (i + 1) prev parts
                (by simp only [blen] at hk; omega) (by simpa using hw)
                (by rw [blen_append, hi]; simp [blen, hch]; omega) (by rw [hx]; simp)
              rcases hrec with ⟨raw, val, rest, parts2, hb, hA, hv, hl⟩ | ⟨hno2, hA, hl⟩ | ⟨⟨v, r, h1, h2⟩, hl⟩
              · refine Or.inl ⟨ch :: raw, ch :: val, rest, parts2, Body.plain hno hnoe hb, hwalk hA, ?_, ?_⟩
                · rw [hv]; simp
                · rw [hl]
                  congr 1
                  simp only [blen, hch]
                  omega
              · refine Or.inr (Or.inl ⟨?_, hwalk hA, hl⟩)
                rintro ⟨raw, val, rest, h⟩
                generalize hw0 : ch :: w1 = w0 at h
                cases h with
                | done rest => exact hno ⟨rest, hw0.symm⟩
                | escaped _ h2 _ =>
                  rcases hnoe with rfl | hnoe
                  · exact h2 rfl
                  · exact hnoe ⟨_, hw0.symm⟩
                | plain _ _ h =>
                  obtain ⟨rfl, rfl⟩ := List.cons.inj hw0
                  exact hno2 ⟨_, _, _, h⟩
              · exact Or.inr (Or.inr ⟨⟨ch :: v, r, .plain hno hnoe h1, fun hA => h2 fun d hd => hA d (by simp [hd])⟩, hl⟩)
            · refine Or.inr (Or.inr ⟨⟨[ch], w1, .plain hno hnoe (.here _), fun hA => hasc (hA ch (by simp))⟩, ?_⟩)
              have hsz : 1 < ch.utf8Size := by
                have := utf8Size_pos ch
                rcases Nat.lt_or_ge 1 ch.utf8Size with h | h
                · exact h
                · exact (hasc (ascii_of_utf8Size (by omega))).elim
              simp only [blen] at hk
              cases k with
              | zero => omega
              | succ k => exact seqLoop_inside hs hwi hasc

/-- The scanning loop finds the body the specification speaks of, or there is none. -/
theorem seqLoop_spec {stop esc : Str} (hs : stop ≠ []) (k : Nat) (w x p : Str) (i prev : Nat)
    (parts : List Str) (hk : w.length ≤ k) (ha : Ascii w)
    (hw : TextAt c.parser.src prev c.offset.stop (p ++ w)) (hi : i = prev + blen p)
    (hx : x = parts.flatten ++ p) :
    (∃ raw val rest parts', Body stop esc w raw val rest ∧ parts'.flatten = x ++ val ∧
      seqLoop c stop esc k i prev parts = .found (i + blen raw + blen stop) parts') ∨
    ((¬ ∃ raw val rest, Body stop esc w raw val rest) ∧ seqLoop c stop esc k i prev parts = .fail) := by
  rcases seqLoop_text (esc := esc) hs k w x p i prev parts (by rw [blen_ascii ha]; exact hk) hw hi hx with
    ⟨raw, val, rest, parts', h1, _, h2, h3⟩ | ⟨h1, _, h2⟩ | ⟨⟨v, r, h1, h2⟩, _⟩
  · exact Or.inl ⟨raw, val, rest, parts', h1, h2, h3⟩
  · exact Or.inr ⟨h1, h2⟩
  · exact (h2 fun ch hch => ha ch (h1.mem ch hch)).elim

/-- What `Sequence` must do: `start`, then a body up to the first unescaped `stop`. -/
def SequenceSpec (start stop esc w : Str) (p : Parser) (name : Str) (a : Nat) (s : State) (r : R)
    (s' : State) : Prop :=
  (∃ raw val rest w1 tk, w = start ++ w1 ∧ Body stop esc w1 raw val rest ∧ Ascii val ∧
      tk.matched = ⟨a, a + blen start + blen raw + blen stop⟩ ∧
      tk.captured = ⟨a + blen start, a + blen start + blen raw⟩ ∧
      tk.name = name ∧ tk.getValue = val ∧ tk.children = [] ∧ tk.flags = 0 ∧
      (Ascii p.src → tk.getCapturedValue = raw ∧ tk.getMatchedValue = start ++ raw ++ stop) ∧
      r = .ok (.token s.toks.length) ∧ s' = { s with toks := s.toks ++ [tk] }) ∨
  ((¬ ∃ raw val rest w1, w = start ++ w1 ∧ Body stop esc w1 raw val rest) ∧
    r = .err .fail ∧ s' = s)

theorem getValue_setAttribute (t : Token) (v : Str) (h : t.attributes = []) :
    (t.setAttribute "__value".toList v).getValue = v := by
  have : (t.setAttribute "__value".toList v).getAttribute "__value".toList = some v := by
    unfold Token.setAttribute Token.getAttribute
    rw [h]
    rfl
  unfold Token.getValue
  rw [this]

/-- C12 (any debug mode): whatever a `Sequence` with literal delimiters returns is what the
specification says. -/
theorem C12_sequence_sound {start stop esc w : Str}
    (hm : T m = .sequence name cu (.str start) (.str stop) (.str esc))
    (hs1 : start ≠ []) (hs2 : stop ≠ []) (hw : c.Unread w)
    (h : Runs T cfg m c sc s r s') :
    SequenceSpec start stop esc w c.parser name c.offset.start (entered T m sc s) r s' := by
  have hk : ∀ f, execNode T cfg f (T m) c sc =
      execSequence name (.str start) (.str stop) (.str esc) c sc := by
    intro f; rw [hm]; rfl
  rw [runs_own hk] at h
  unfold execSequence at h
  obtain ⟨v, s1, h1, h⟩ := bind_ok.mp h
  obtain ⟨rfl, rfl⟩ := pure_ok'.mp h1
  dsimp only at h
  rw [if_neg hs1] at h
  obtain ⟨v, s1, h1, h⟩ := bind_ok.mp h
  obtain ⟨rfl, rfl⟩ := pure_ok'.mp h1
  dsimp only at h
  rw [if_neg hs2] at h
  obtain ⟨v, s1, h1, h⟩ := bind_ok.mp h
  obtain ⟨rfl, rfl⟩ := pure_ok'.mp h1
  dsimp only at h
  obtain ⟨o, s2, h2, h⟩ := bind_ok.mp h
  obtain ⟨h2, rfl⟩ := ofOpt_ok.mp h2
  have hch : (c.withName name).chunk = some w := chunk_unread hw
  unfold Ctx.matchesStr at h2
  rw [hch, if_neg hs1] at h2
  dsimp only at h2
  by_cases hp : start <+: w
  · rw [if_pos (List.isPrefixOf_iff_prefix.mpr hp)] at h2
    cases h2
    obtain ⟨w1, rfl⟩ := hp
    have hw1 : TextAt c.parser.src (c.offset.start + blen start) c.offset.stop w1 := hw.suffix
    have hl := hw1.le
    have hspec := seqLoop_text (c := c.withName name) (esc := esc) hs2
      (c.offset.stop - (c.offset.start + blen start)) w1 [] [] (c.offset.start + blen start)
      (c.offset.start + blen start) [] (by omega) hw1
      (by simp [blen]) rfl
    dsimp only [Range.cloneWithLen] at h
    rcases hspec with ⟨raw, val, rest, parts', hb, hA, hv, hloop⟩ | ⟨hno, _, hloop⟩ | ⟨_, hloop⟩
    · have hloop' : seqLoop (c.withName name) stop esc
          ((c.withName name).offset.stop - ((c.withName name).offset.start + blen start))
          ((c.withName name).offset.start + blen start) ((c.withName name).offset.start + blen start) [] =
          .found (c.offset.start + blen start + blen raw + blen stop) parts' := hloop
      rw [hloop'] at h
      dsimp only at h
      obtain ⟨i, s4, h4, h⟩ := bind_ok.mp h
      obtain ⟨rfl, rfl⟩ := newTok_ok.mp h4
      obtain ⟨_, s3, h3, h⟩ := bind_ok.mp h
      have := dbg_ok h3
      subst this
      obtain ⟨rfl, rfl⟩ := pure_ok'.mp h
      have hsub : c.offset.start + blen start + blen raw + blen stop - blen stop =
          c.offset.start + blen start + blen raw := by omega
      refine Or.inl ⟨raw, val, rest, w1, _, rfl, hb, hA _ _ hb.skims, rfl, ?_, rfl, ?_, rfl, rfl, ?_, rfl, rfl⟩
      · show (⟨_, _ - _⟩ : Range) = _
        rw [hsub]; rfl
      · rw [getValue_setAttribute _ _ rfl, hv]; simp
      · intro hasc
        have hsplit := hb.split
        subst hsplit
        constructor
        · show Range.text ⟨c.offset.start + blen start, _ - _⟩ c.parser = raw
          rw [hsub]
          have hx : TextAt c.parser.src (c.offset.start + blen start) c.offset.stop
              (raw ++ (stop ++ rest)) := by rw [← List.append_assoc]; exact hw1
          exact substring_textAt hx.prefix hasc
        · show Range.text ⟨c.offset.start, c.offset.start + blen start + blen raw + blen stop⟩
            c.parser = _
          have hx : TextAt c.parser.src c.offset.start c.offset.stop
              ((start ++ raw ++ stop) ++ rest) := by
            have := hw
            unfold Ctx.Unread at this
            simpa using this
          have := substring_textAt hx.prefix hasc
          unfold Range.text
          rw [blen_append, blen_append, ← Nat.add_assoc, ← Nat.add_assoc] at this
          exact this
    · have hloop' : seqLoop (c.withName name) stop esc
          ((c.withName name).offset.stop - ((c.withName name).offset.start + blen start))
          ((c.withName name).offset.start + blen start) ((c.withName name).offset.start + blen start) [] =
          .fail := hloop
      rw [hloop'] at h
      dsimp only at h
      obtain ⟨_, s3, h3, h⟩ := bind_ok.mp h
      have := dbg_ok h3
      subst this
      obtain ⟨rfl, rfl⟩ := pure_ok'.mp h
      refine Or.inr ⟨?_, rfl, rfl⟩
      rintro ⟨raw, val, rest, w2, hw2, hb⟩
      have := List.append_cancel_left hw2
      subst this
      exact hno ⟨_, _, _, hb⟩
    · have hloop' : seqLoop (c.withName name) stop esc
          ((c.withName name).offset.stop - ((c.withName name).offset.start + blen start))
          ((c.withName name).offset.start + blen start) ((c.withName name).offset.start + blen start) [] =
          .panic := hloop
      rw [hloop'] at h
      cases h
  · rw [if_neg (fun hh => hp (List.isPrefixOf_iff_prefix.mp hh))] at h2
    cases h2
    obtain ⟨_, s3, h3, h⟩ := bind_ok.mp h
    have := dbg_ok h3
    subst this
    obtain ⟨rfl, rfl⟩ := pure_ok'.mp h
    refine Or.inr ⟨?_, rfl, rfl⟩
    rintro ⟨raw, val, rest, w2, hw2, hb⟩
    exact hp ⟨w2, hw2.symm⟩

/-- C12: outside debug mode `Sequence` panics exactly if, behind the opening delimiter, a
character that is not ASCII has to be passed over on the way to the terminator; else it returns. -/
theorem C12_sequence_panics {start stop esc w : Str}
    (hm : T m = .sequence name cu (.str start) (.str stop) (.str esc))
    (hs1 : start ≠ []) (hs2 : stop ≠ []) (hw : c.Unread w) (hd : c.debug = 0) :
    (Panics T cfg m c sc s ↔ ∃ w1 val rest, w = start ++ w1 ∧ Skims stop esc w1 val rest ∧ ¬ Ascii val) ∧
    ((∃ r s', Runs T cfg m c sc s r s') ↔
      ∀ w1 val rest, w = start ++ w1 → Skims stop esc w1 val rest → Ascii val) := by
  have hk : ∀ f, execNode T cfg f (T m) c sc =
      execSequence name (.str start) (.str stop) (.str esc) c sc := by
    intro f; rw [hm]; rfl
  have hd' : (c.withName name).debug = 0 := hd
  have hch : (c.withName name).chunk = some w := chunk_unread hw
  have hcase : (Rets (execSequence name (.str start) (.str stop) (.str esc) c sc) (entered T m sc s) ∧
        ∀ w1 val rest, w = start ++ w1 → Skims stop esc w1 val rest → Ascii val) ∨
      ((∃ e, execSequence name (.str start) (.str stop) (.str esc) c sc (entered T m sc s) = .panic e) ∧
        ∃ w1 val rest, w = start ++ w1 ∧ Skims stop esc w1 val rest ∧ ¬ Ascii val) := by
    by_cases hp : start <+: w
    · have h2 : (c.withName name).matchesStr start =
          some (some ((c.withName name).offset.cloneWithLen (blen start))) := by
        unfold Ctx.matchesStr
        rw [hch, if_neg hs1]
        dsimp only
        rw [if_pos (List.isPrefixOf_iff_prefix.mpr hp)]
      obtain ⟨w1, rfl⟩ := hp
      have hw1 : TextAt c.parser.src (c.offset.start + blen start) c.offset.stop w1 := hw.suffix
      have hl := hw1.le
      have hspec := seqLoop_text (c := c.withName name) (esc := esc) hs2
        (c.offset.stop - (c.offset.start + blen start)) w1 [] [] (c.offset.start + blen start)
        (c.offset.start + blen start) [] (by omega) hw1 (by simp [blen]) rfl
      have run : ∀ o, seqLoop (c.withName name) stop esc
            (c.offset.stop - (c.offset.start + blen start))
            (c.offset.start + blen start) (c.offset.start + blen start) [] = o →
          (o = .panic ∧ ∃ e, execSequence name (.str start) (.str stop) (.str esc) c sc (entered T m sc s) = .panic e) ∨
          (o ≠ .panic ∧ Rets (execSequence name (.str start) (.str stop) (.str esc) c sc) (entered T m sc s)) := by
        intro o ho
        have ho' : seqLoop (c.withName name) stop esc
            ((c.withName name).offset.stop - ((c.withName name).offset.cloneWithLen (blen start)).stop)
            ((c.withName name).offset.cloneWithLen (blen start)).stop
            ((c.withName name).offset.cloneWithLen (blen start)).stop [] = o := ho
        cases o with
        | panic =>
          refine Or.inl ⟨rfl, "sequence: slice", ?_⟩
          unfold execSequence
          refine bind_panic.mpr (Or.inr ⟨_, _, rfl, ?_⟩)
          dsimp only
          rw [if_neg hs1]
          refine bind_panic.mpr (Or.inr ⟨_, _, rfl, ?_⟩)
          dsimp only
          rw [if_neg hs2]
          refine bind_panic.mpr (Or.inr ⟨_, _, rfl, ?_⟩)
          dsimp only
          refine bind_panic.mpr (Or.inr ⟨_, _, ofOpt_ok.mpr ⟨h2, rfl⟩, ?_⟩)
          dsimp only
          rw [ho']
          rfl
        | fail =>
          refine Or.inr ⟨by simp, ?_⟩
          unfold execSequence
          refine Rets.bind rfl ?_
          dsimp only
          rw [if_neg hs1]
          refine Rets.bind rfl ?_
          dsimp only
          rw [if_neg hs2]
          refine Rets.bind rfl ?_
          dsimp only
          refine Rets.bind (ofOpt_ok.mpr ⟨h2, rfl⟩) ?_
          dsimp only
          rw [ho']
          exact Rets.bind (dbg_off hd') (Rets.pure _ _)
        | found i parts =>
          refine Or.inr ⟨by simp, ?_⟩
          unfold execSequence
          refine Rets.bind rfl ?_
          dsimp only
          rw [if_neg hs1]
          refine Rets.bind rfl ?_
          dsimp only
          rw [if_neg hs2]
          refine Rets.bind rfl ?_
          dsimp only
          refine Rets.bind (ofOpt_ok.mpr ⟨h2, rfl⟩) ?_
          dsimp only
          rw [ho']
          exact Rets.bind rfl (Rets.bind (dbg_off hd') (Rets.pure _ _))
      have only : ∀ {w2 : Str}, start ++ w1 = start ++ w2 → w2 = w1 := fun h => (List.append_cancel_left h).symm
      rcases hspec with ⟨_, _, _, _, _, hA, _, hl⟩ | ⟨_, hA, hl⟩ | ⟨⟨v, r, h3, h4⟩, hl⟩
      · rcases run _ hl with ⟨h, _⟩ | ⟨_, h⟩
        · cases h
        · exact Or.inl ⟨h, fun w2 val rest h5 h6 => hA val rest (only h5 ▸ h6)⟩
      · rcases run _ hl with ⟨h, _⟩ | ⟨_, h⟩
        · cases h
        · exact Or.inl ⟨h, fun w2 val rest h5 h6 => hA val rest (only h5 ▸ h6)⟩
      · rcases run _ hl with ⟨_, h⟩ | ⟨h, _⟩
        · exact Or.inr ⟨h, w1, v, r, rfl, h3, h4⟩
        · exact (h rfl).elim
    · refine Or.inl ⟨?_, fun w1 _ _ h _ => (hp ⟨w1, h.symm⟩).elim⟩
      have h2 : (c.withName name).matchesStr start = some none := by
        unfold Ctx.matchesStr
        rw [hch, if_neg hs1]
        dsimp only
        rw [if_neg (fun hh => hp (List.isPrefixOf_iff_prefix.mp hh))]
      unfold execSequence
      refine Rets.bind rfl ?_
      dsimp only
      rw [if_neg hs1]
      refine Rets.bind rfl ?_
      dsimp only
      rw [if_neg hs2]
      refine Rets.bind rfl ?_
      dsimp only
      exact Rets.bind (ofOpt_ok.mpr ⟨h2, rfl⟩) (Rets.bind (dbg_off hd') (Rets.pure _ _))
  rcases hcase with ⟨h1, h2⟩ | ⟨h1, w1, val, rest, h2, h3, h4⟩
  · obtain ⟨h3, h4⟩ := own_total (cfg := cfg) (m := m) hk h1
    refine ⟨⟨fun h => (h4 h).elim, ?_⟩, ⟨fun _ => h2, fun _ => h3⟩⟩
    rintro ⟨w1, val, rest, h5, h6, h7⟩
    exact (h7 (h2 _ _ _ h5 h6)).elim
  · refine ⟨⟨fun _ => ⟨w1, val, rest, h2, h3, h4⟩, fun _ => (panics_own hk).mpr h1⟩, ⟨?_, fun h => (h4 (h _ _ _ h2 h3)).elim⟩⟩
    rintro ⟨r, s', h⟩
    obtain ⟨e, h1⟩ := h1
    rw [runs_own hk, h1] at h
    cases h

/-- C12: on an ASCII window, outside debug mode, `Sequence` always returns. -/
theorem C12_sequence_total {start stop esc w : Str}
    (hm : T m = .sequence name cu (.str start) (.str stop) (.str esc))
    (hs1 : start ≠ []) (hs2 : stop ≠ []) (hw : c.Unread w) (ha : Ascii w) (hd : c.debug = 0) :
    (∃ r s', Runs T cfg m c sc s r s') ∧ ¬ Panics T cfg m c sc s := by
  obtain ⟨h1, h2⟩ := C12_sequence_panics (cfg := cfg) (sc := sc) (s := s) hm hs1 hs2 hw hd
  have hA : ∀ w1 val rest, w = start ++ w1 → Skims stop esc w1 val rest → Ascii val := by
    rintro w1 val rest rfl h ch hch
    exact (Ascii.append.mp ha).2 ch (h.mem ch hch)
  refine ⟨h2.mpr hA, fun h => ?_⟩
  obtain ⟨w1, val, rest, h3, h4, h5⟩ := h1.mp h
  exact h5 (hA _ _ _ h3 h4)

/-- C12: a `Sequence` returns a token if and only if the text starts with the opening
delimiter and has a later unescaped terminator, and only ASCII characters are passed over
on the way to it. -/
theorem C12_sequence {start stop esc w : Str}
    (hm : T m = .sequence name cu (.str start) (.str stop) (.str esc))
    (hs1 : start ≠ []) (hs2 : stop ≠ []) (hw : c.Unread w) (hd : c.debug = 0) :
    (∃ t s', Runs T cfg m c sc s (.ok (.token t)) s') ↔
      ∃ w1 raw val rest, w = start ++ w1 ∧ Body stop esc w1 raw val rest ∧ Ascii val := by
  constructor
  · rintro ⟨t, s', h⟩
    rcases C12_sequence_sound hm hs1 hs2 hw h with ⟨raw, val, rest, w1, _, h1, h2, h3, _⟩ | ⟨_, h2, _⟩
    · exact ⟨w1, raw, val, rest, h1, h2, h3⟩
    · cases h2
  · rintro ⟨w1, raw, val, rest, h1, h2, hv⟩
    have hA : ∀ w1 val rest, w = start ++ w1 → Skims stop esc w1 val rest → Ascii val := by
      intro w2 v r h3 h4
      rw [h1] at h3
      have := List.append_cancel_left h3
      subst this
      obtain ⟨x, h5⟩ := h2.skims_prefix h4
      exact fun ch hch => hv ch (by rw [← h5]; simp [hch])
    obtain ⟨r, s', h⟩ :=
      (C12_sequence_panics (cfg := cfg) (sc := sc) (s := s) hm hs1 hs2 hw hd).2.mpr hA
    rcases C12_sequence_sound hm hs1 hs2 hw h with ⟨_, _, _, _, _, _, _, _, _, _, _, _, _, _, _, rfl, _⟩ | ⟨h3, _⟩
    · exact ⟨_, _, h⟩
    · exact (h3 ⟨raw, val, rest, w1, h1, h2⟩).elim

/-- Non-vacuity of C12: an escaped terminator, and a missing one. -/
example :
    let T : Table := fun _ => .sequence "S".toList true (.str "<<".toList) (.str ">".toList)
      (.str "!".toList)
    let run (src : String) := exec T ⟨true⟩ 5 0 (Ctx.new ⟨src.toList, []⟩ 0 []) 0 ⟨[], [], [[]]⟩
    (run "<<a!>b>c>").holds (fun r s => r = .ok (.token 0) ∧
      s.toks.map (fun k => (k.getValue, k.captured, k.matched)) =
        [("a>b".toList, ⟨2, 6⟩, ⟨0, 7⟩)]) ∧
    (run "<<a!>b").holds (fun r s => r = .err .fail ∧ s.toks = []) := by
  decide +kernel

/-- Delimiters and escape marker need not be ASCII, nor what follows. -/
example :
    let T : Table := fun _ => .sequence "S".toList true (.str "«".toList) (.str "»".toList) (.str "→".toList)
    (exec T ⟨true⟩ 5 0 (Ctx.new ⟨"«a→b» ä".toList, []⟩ 0 []) 0 ⟨[], [], [[]]⟩).holds (fun r s =>
      r = .ok (.token 0) ∧ s.toks.map (fun k => (k.getValue, k.captured, k.matched)) =
        [("ab".toList, ⟨2, 7⟩, ⟨0, 9⟩)]) := by
  decide +kernel

/-- On non-ASCII text `Sequence` panics: it slices in the middle of a character. -/
theorem C12_sequence_non_ascii_counterexample :
    let T : Table := fun _ => .sequence "S".toList false (.str ['"']) (.str ['"']) (.str ['\\'])
    Panics T ⟨true⟩ 0 (Ctx.new ⟨"\"ä\"".toList, []⟩ 0 []) 0 ⟨[], [], [[]]⟩ := by
  refine ⟨1, "sequence: slice", ?_⟩
  rfl

/-- The message when an argument of `Sequence` is a matcher.  *Sic*: the escape sequence is
called `end_pattern`, too. -/
def noText (name : Str) (which : String) : R :=
  .err (.error ⟨("`Sequence` (" ++ String.ofList name ++ ") matcher received another matcher as a `" ++ which ++
    "`... this makes no sense... aborting...").toList, none⟩)

/-- C12: a matcher as an argument of `Sequence` is an error that ends the parse and says
which argument it was; the arguments are looked at in order. -/
theorem C12_sequence_matcher_argument {a b e : Fetchable} {x : MatcherId}
    (hm : T m = .sequence name cu a b e) :
    (a = .matcher x → (Runs T cfg m c sc s r s' ↔ r = noText name "start_pattern" ∧ s' = entered T m sc s)) ∧
    (∀ start, a = .str start → start ≠ [] → b = .matcher x →
      (Runs T cfg m c sc s r s' ↔ r = noText name "end_pattern" ∧ s' = entered T m sc s)) ∧
    (∀ start stop, a = .str start → start ≠ [] → b = .str stop → stop ≠ [] → e = .matcher x →
      (Runs T cfg m c sc s r s' ↔ r = noText name "end_pattern" ∧ s' = entered T m sc s)) := by
  have hk : ∀ f, execNode T cfg f (T m) c sc = execSequence name a b e c sc := by
    intro f; rw [hm]; rfl
  have msg : ∀ which : String, seqErr name which.toList = noText name which := by
    intro which
    unfold seqErr noText
    simp
  have fin : ∀ (which : String) (s0 : State), (Res.ok (seqErr name which.toList) s0 = .ok r s') ↔
      r = noText name which ∧ s' = s0 := by
    intro which s0
    rw [msg]
    constructor
    · intro h
      cases h
      exact ⟨rfl, rfl⟩
    · rintro ⟨rfl, rfl⟩
      rfl
  refine ⟨?_, ?_, ?_⟩
  · rintro rfl
    rw [runs_own hk]
    exact fin _ _
  · rintro start rfl h1 rfl
    rw [runs_own hk]
    unfold execSequence
    rw [bind_run (show fetchValue (.str start) sc (entered T m sc s) = .ok (.inl start) (entered T m sc s) from rfl)]
    dsimp only
    rw [if_neg h1]
    exact fin _ _
  · rintro start stop rfl h1 rfl h2 rfl
    rw [runs_own hk]
    unfold execSequence
    rw [bind_run (show fetchValue (.str start) sc (entered T m sc s) = .ok (.inl start) (entered T m sc s) from rfl)]
    dsimp only
    rw [if_neg h1, bind_run (show fetchValue (.str stop) sc (entered T m sc s) = .ok (.inl stop) (entered T m sc s) from rfl)]
    dsimp only
    rw [if_neg h2]
    exact fin _ _

/-- A `Sequence` whose escape sequence is a matcher. -/
example :
    let T : Table := fun _ => .sequence "S".toList true (.str "<".toList) (.str ">".toList) (.matcher 7)
    (exec T ⟨true⟩ 5 0 (Ctx.new ⟨"<a>".toList, []⟩ 0 []) 0 ⟨[], [], [[]]⟩).holds (fun r _ =>
      r = noText "S".toList "end_pattern") := by
  decide +kernel

/-- C12: empty delimiters panic. -/
theorem C12_sequence_empty {start stop esc : Str} (hm : T m = .sequence name cu (.str start) (.str stop) (.str esc))
    (h : start = [] ∨ stop = []) : Panics T cfg m c sc s := by
  have hk : ∀ f, execNode T cfg f (T m) c sc = execSequence name (.str start) (.str stop) (.str esc) c sc := by
    intro f; rw [hm]; rfl
  have fetch : ∀ (x : Str) (s : State), fetchValue (.str x) sc s = .ok (.inl x) s := fun _ _ => rfl
  by_cases h1 : start = []
  · refine ⟨1, "Sequence `start` pattern of \"\" makes no sense", ?_⟩
    rw [exec_succ, hk]
    unfold execSequence
    rw [bind_run (fetch ..)]
    dsimp only
    rw [if_pos h1]
    rfl
  · have h2 := h.resolve_left h1
    refine ⟨1, "Sequence `end` pattern of \"\" makes no sense", ?_⟩
    rw [exec_succ, hk]
    unfold execSequence
    rw [bind_run (fetch ..)]
    dsimp only
    rw [if_neg h1, bind_run (fetch ..)]
    dsimp only
    rw [if_pos h2]
    rfl

theorem body_escapeText {q e : Char} (hqe : q ≠ e) (body rest : Str) :
    Body [q] [e] (escapeText q e body ++ q :: rest) (escapeText q e body) body rest := by
  induction body with
  | nil => exact Body.done rest
  | cons ch cs ih =>
    unfold escapeText
    split
    · have : ¬ [q] <+: [e] ++ ch :: (escapeText q e cs ++ q :: rest) := by
        rintro ⟨t, ht⟩
        exact hqe (List.cons.inj ht).1
      exact Body.escaped this (by simp) ih
    · rename_i hne
      refine Body.plain ?_ (Or.inr ?_) ih
      · rintro ⟨t, ht⟩
        exact hne (Or.inl (List.cons.inj ht).1.symm)
      · rintro ⟨t, ht⟩
        exact hne (Or.inr (List.cons.inj ht).1.symm)

/-- C13: a quoted ASCII text, followed by anything, parses to one token over exactly the
quoted text whose value is the original text.  Quote, escape character and what follows may be
any characters. -/
theorem C13_quote_round_trip {q e : Char} {body rest : Str} (hqe : q ≠ e)
    (hm : T m = .sequence name cu (.str [q]) (.str [q]) (.str [e]))
    (hw : c.Unread (quoteText q e body ++ rest)) (ha : Ascii body) (hd : c.debug = 0) :
    ∃ tk, Runs T cfg m c sc s (.ok (.token s.toks.length))
        { entered T m sc s with toks := s.toks ++ [tk] } ∧
      tk.getValue = body ∧
      tk.matched = ⟨c.offset.start, c.offset.start + blen (quoteText q e body)⟩ ∧
      tk.name = name := by
  have hb := body_escapeText hqe body rest
  have heq : quoteText q e body ++ rest = [q] ++ (escapeText q e body ++ q :: rest) := by
    simp [quoteText]
  obtain ⟨t, s', h⟩ :=
    (C12_sequence (cfg := cfg) (sc := sc) (s := s) hm (by simp) (by simp) hw hd).mpr ⟨_, _, _, _, heq, hb, ha⟩
  rcases C12_sequence_sound hm (by simp) (by simp) hw h with
    ⟨raw, val, rest', w1, tk, h1, h2, _, h3, h4, h5, h6, _, _, _, h7, h8⟩ | ⟨h3, _⟩
  · rw [heq] at h1
    have := List.append_cancel_left h1
    subst this
    obtain ⟨rfl, rfl, rfl⟩ := hb.unique (by simp) h2
    rw [h7] at h
    subst h8
    rw [entered_toks] at h
    refine ⟨tk, h, h6, ?_, h5⟩
    rw [h3]
    have : quoteText q e body = [q] ++ escapeText q e body ++ [q] := rfl
    rw [this, blen_append, blen_append, ← Nat.add_assoc, ← Nat.add_assoc]
  · exact (h3 ⟨_, _, _, _, heq, hb⟩).elim

/-- C13: a quoted text that is not ASCII panics. -/
theorem C13_quote_panics {q e : Char} {body rest : Str} (hqe : q ≠ e)
    (hm : T m = .sequence name cu (.str [q]) (.str [q]) (.str [e]))
    (hw : c.Unread (quoteText q e body ++ rest)) (ha : ¬ Ascii body) (hd : c.debug = 0) :
    Panics T cfg m c sc s :=
  (C12_sequence_panics hm (by simp) (by simp) hw hd).1.mpr
    ⟨_, _, _, by simp [quoteText], (body_escapeText hqe body rest).skims, ha⟩

/-- Non-vacuity of C13: a body with quotes and escapes in it. -/
example :
    let T : Table := fun _ => .sequence "S".toList false (.str ['\'']) (.str ['\'']) (.str ['\\'])
    let src := quoteText '\'' '\\' "it's a \\".toList ++ "' tail".toList
    (exec T ⟨true⟩ 5 0 (Ctx.new ⟨src, []⟩ 0 []) 0 ⟨[], [], [[]]⟩).holds (fun r s =>
      r = .ok (.token 0) ∧ s.toks.map (·.getValue) = ["it's a \\".toList]) := by
  decide +kernel

end Adx
