import Verif.Proofs.Text
import Verif.Spec.Lines
/-
  C30: line and column numbers.
-/
namespace Adx

/-- Line ends of a text that starts at `pos`. -/
def LineEndFrom (pos : Nat) (s : Str) (e : Nat) : Prop :=
  (∃ pre post, s = pre ++ '\n' :: post ∧ e = pos + blen pre + 1) ∨
  (∃ pre post, s = pre ++ '\r' :: post ∧ (∀ t, post ≠ '\n' :: t) ∧ e = pos + blen pre + 1)

theorem lineEnd_from {s : Str} {e : Nat} : LineEnd s e ↔ LineEndFrom 0 s e := by
  unfold LineEnd LineEndFrom
  simp

theorem lineEndFrom_nil {pos e : Nat} : ¬ LineEndFrom pos [] e := by
  rintro (⟨pre, post, h, _⟩ | ⟨pre, post, h, _⟩) <;> simp at h

theorem lineEndFrom_cons {pos e : Nat} {c : Char} {cs : Str} :
    LineEndFrom pos (c :: cs) e ↔ ((c = '\n' ∨ c = '\r' ∧ ∀ t, cs ≠ '\n' :: t) ∧ e = pos + 1) ∨
      LineEndFrom (pos + c.utf8Size) cs e := by
  constructor
  · rintro (⟨pre, post, h, he⟩ | ⟨pre, post, h, hp, he⟩)
    · cases pre with
      | nil =>
        obtain ⟨rfl, rfl⟩ := List.cons.inj h
        exact Or.inl ⟨Or.inl rfl, by simpa [blen] using he⟩
      | cons c' pre =>
        obtain ⟨rfl, rfl⟩ := List.cons.inj h
        exact Or.inr (Or.inl ⟨pre, post, rfl, by simp only [blen] at he; omega⟩)
    · cases pre with
      | nil =>
        obtain ⟨rfl, rfl⟩ := List.cons.inj h
        exact Or.inl ⟨Or.inr ⟨rfl, hp⟩, by simpa [blen] using he⟩
      | cons c' pre =>
        obtain ⟨rfl, rfl⟩ := List.cons.inj h
        exact Or.inr (Or.inr ⟨pre, post, rfl, hp, by simp only [blen] at he; omega⟩)
  · rintro (⟨rfl | ⟨rfl, hp⟩, he⟩ | ⟨pre, post, rfl, he⟩ | ⟨pre, post, rfl, hp, he⟩)
    · exact Or.inl ⟨[], cs, rfl, by simpa [blen] using he⟩
    · exact Or.inr ⟨[], cs, rfl, hp, by simpa [blen] using he⟩
    · exact Or.inl ⟨c :: pre, post, rfl, by simp only [blen]; omega⟩
    · exact Or.inr ⟨c :: pre, post, rfl, hp, by simp only [blen]; omega⟩

theorem mem_newlineEnds (pos : Nat) (s : Str) :
    (∀ e, e ∈ Ctx.newlineEnds pos s ↔ LineEndFrom pos s e) ∧
    (∀ e ∈ Ctx.newlineEnds pos s, pos < e ∧ e ≤ pos + blen s) ∧
    (Ctx.newlineEnds pos s).Pairwise (· < ·) := by
  have h1 : '\n'.utf8Size = 1 := rfl
  have h2 : '\r'.utf8Size = 1 := rfl
  fun_induction Ctx.newlineEnds pos s with
  | case1 pos =>
    exact ⟨fun e => ⟨fun h => by simp at h, fun h => (lineEndFrom_nil h).elim⟩, by simp, .nil⟩
  | case2 pos cs ih =>
    obtain ⟨i1, i2, i3⟩ := ih
    refine ⟨fun e => ?_, fun e he => ?_, ?_⟩
    · rw [lineEndFrom_cons, lineEndFrom_cons, List.mem_cons, i1, h1, h2]
      simp
    · rcases List.mem_cons.mp he with rfl | he
      · simp only [blen, h1, h2]; omega
      · have := i2 e he
        simp only [blen, h1, h2]; omega
    · exact List.pairwise_cons.mpr ⟨fun e he => (i2 e he).1, i3⟩
  | case3 pos cs ih =>
    obtain ⟨i1, i2, i3⟩ := ih
    refine ⟨fun e => ?_, fun e he => ?_, ?_⟩
    · rw [lineEndFrom_cons, List.mem_cons, i1, h1]
      simp
    · rcases List.mem_cons.mp he with rfl | he
      · simp only [blen, h1]; omega
      · have := i2 e he
        simp only [blen, h1]; omega
    · exact List.pairwise_cons.mpr ⟨fun e he => (i2 e he).1, i3⟩
  | case4 pos cs hn ih =>
    obtain ⟨i1, i2, i3⟩ := ih
    refine ⟨fun e => ?_, fun e he => ?_, ?_⟩
    · rw [lineEndFrom_cons, List.mem_cons, i1, h2]
      have : ∀ t, cs ≠ '\n' :: t := hn
      simp [this]
    · rcases List.mem_cons.mp he with rfl | he
      · simp only [blen, h2]; omega
      · have := i2 e he
        simp only [blen, h2]; omega
    · exact List.pairwise_cons.mpr ⟨fun e he => (i2 e he).1, i3⟩
  | case5 pos c cs hn hn1 hn2 ih =>
    obtain ⟨i1, i2, i3⟩ := ih
    have hc1 : c ≠ '\n' := hn1
    have hc2 : c ≠ '\r' := hn2
    have hp := Char.utf8Size_pos c
    refine ⟨fun e => ?_, fun e he => ?_, i3⟩
    · rw [lineEndFrom_cons, i1]
      simp [hc1, hc2]
    · have := i2 e he
      simp only [blen]; omega

/-- Line ends of the text before `n` are the line ends of the source up to `n`, unless
`n` cuts a CRLF in two. -/
theorem lineEnd_prefix {src a : Str} {n e : Nat} (h : TextAt src 0 n a) (hc : ¬ InsideCRLF src n) :
    LineEnd a e ↔ LineEnd src e ∧ e ≤ n := by
  obtain ⟨x, post, rfl, h0, hn⟩ := h
  have hx : x = [] := blen_eq_zero.mp h0.symm
  subst hx
  simp only [List.nil_append, blen, Nat.zero_add] at hn hc ⊢
  subst hn
  have h1 : '\n'.utf8Size = 1 := rfl
  have h2 : '\r'.utf8Size = 1 := rfl
  have cut : ∀ {u v w z : Str} {ch : Char}, ch.utf8Size = 1 → u ++ v = w ++ ch :: z →
      blen w + 1 ≤ blen u → ∃ z1, u = w ++ ch :: z1 ∧ z = z1 ++ v := by
    intro u v w z ch hch he hl
    rcases List.append_eq_append_iff.mp he with ⟨as, hw, hv⟩ | ⟨bs, hu, hz⟩
    · subst hw
      rw [blen_append] at hl
      omega
    · cases bs with
      | nil =>
        simp only [List.append_nil] at hu
        subst hu
        omega
      | cons d bs =>
        obtain ⟨rfl, rfl⟩ := List.cons.inj hz
        exact ⟨bs, hu, rfl⟩
  constructor
  · rintro (⟨pre, po, rfl, rfl⟩ | ⟨pre, po, rfl, hp, rfl⟩)
    · refine ⟨Or.inl ⟨pre, po ++ post, by simp, rfl⟩, ?_⟩
      rw [blen_append]
      simp only [blen, h1]; omega
    · refine ⟨Or.inr ⟨pre, po ++ post, by simp, ?_, rfl⟩, ?_⟩
      · intro t ht
        cases po with
        | nil =>
          refine hc ⟨pre, t, ?_, ?_⟩
          · simp only [List.nil_append] at ht
            simp [ht]
          · rw [blen_append]
            simp [blen, h2]
        | cons d po =>
          rw [List.cons_append] at ht
          exact hp po (by rw [(List.cons.inj ht).1])
      · rw [blen_append]
        simp only [blen, h2]; omega
  · rintro ⟨⟨pre, po, he, rfl⟩ | ⟨pre, po, he, hp, rfl⟩, hle⟩
    · obtain ⟨z, rfl, rfl⟩ := cut h1 he hle
      exact Or.inl ⟨pre, z, rfl, rfl⟩
    · obtain ⟨z, rfl, rfl⟩ := cut h2 he hle
      exact Or.inr ⟨pre, z, rfl, fun t ht => hp (t ++ post) (by rw [ht]; rfl), rfl⟩

theorem lineNumber_newlineEnds {src a : Str} {n : Nat} (h : TextAt src 0 n a) (hc : ¬ InsideCRLF src n) :
    LineNumber src n ((Ctx.newlineEnds 0 a).length + 1) := by
  obtain ⟨h1, _, h3⟩ := mem_newlineEnds 0 a
  refine ⟨_, h3, fun e => ?_, rfl⟩
  rw [h1, ← lineEnd_from, lineEnd_prefix h hc]

/-- Line numbers are unique. -/
theorem LineNumber.unique {s : Str} {n l l' : Nat} (h : LineNumber s n l) (h' : LineNumber s n l') :
    l = l' := by
  obtain ⟨e, h1, h2, rfl⟩ := h
  obtain ⟨e', h1', h2', rfl⟩ := h'
  have : e = e' := by
    refine List.Perm.eq_of_pairwise (le := (· < ·)) ?_ h1 h1' ?_
    · intro a b _ _ hab hba
      omega
    · refine (List.perm_ext_iff_of_nodup ?_ ?_).mpr (fun a => by rw [h2, h2'])
      · exact h1.imp (fun h => by omega)
      · exact h1'.imp (fun h => by omega)
  rw [this]

theorem LineStart.unique {s : Str} {n e e' : Nat} (h : LineStart s n e) (h' : LineStart s n e') : e = e' := by
  obtain ⟨h1, h2, h3⟩ := h
  obtain ⟨h1', h2', h3'⟩ := h'
  have a : e ≤ e' := by
    rcases h2 with rfl | h2
    · omega
    · exact h3' e h2 h1
  have b : e' ≤ e := by
    rcases h2' with rfl | h2'
    · omega
    · exact h3 e' h2' h1'
  omega

theorem ColumnNumber.unique {s : Str} {n k k' : Nat} (h : ColumnNumber s n k) (h' : ColumnNumber s n k') :
    k = k' := by
  obtain ⟨e, h1, rfl⟩ := h
  obtain ⟨e', h1', rfl⟩ := h'
  rw [h1.unique h1']

variable {c : Ctx} {r : Range}

/-- C30: the reported first line is the line of the start of the range, the reported
last line is the line of its end. -/
theorem C30_lines {a b : Str} (h1 : TextAt c.parser.src 0 r.start a) (h2 : TextAt c.parser.src 0 r.stop b)
    (hc1 : ¬ InsideCRLF c.parser.src r.start) (hc2 : ¬ InsideCRLF c.parser.src r.stop) :
    ∃ l l', c.getLines r = some (l, l') ∧ LineNumber c.parser.src r.start l ∧
      LineNumber c.parser.src r.stop l' := by
  refine ⟨_, _, ?_, lineNumber_newlineEnds h1 hc1, lineNumber_newlineEnds h2 hc2⟩
  unfold Ctx.getLines
  rw [bslice_iff.mpr h1, bslice_iff.mpr h2]

/-- What the scanning loop of `get_columns` has found when it is through with line ends
that are all inside the range's end. -/
theorem colLoop_spec (es : List Nat) : ∀ (st : Ctx.ColSt), (∀ e ∈ es, e ≤ r.stop) →
    es.Pairwise (· < ·) → (∀ e ∈ es, st.lastNewline < e) →
    (st.firstColumn = 0 → st.lastNewline ≤ r.start) →
    ∃ st', Ctx.colLoop r es st = some st' ∧ st'.lastColumn = st.lastColumn ∧
      (st'.lastNewline = st.lastNewline ∨ st'.lastNewline ∈ es) ∧
      (∀ e ∈ es, e ≤ st'.lastNewline) ∧
      (st.firstColumn ≠ 0 → st'.firstColumn = st.firstColumn) ∧
      (st.firstColumn = 0 →
        (st'.firstColumn = 0 ∧ st'.lastNewline ≤ r.start) ∨
        (∃ e, (e = st.lastNewline ∨ e ∈ es) ∧ e ≤ r.start ∧ st'.firstColumn = r.start - e + 1 ∧
          (∀ e' ∈ es, e' ≤ r.start → e' ≤ e))) := by
  induction es with
  | nil =>
    intro st _ _ _ hfirst
    exact ⟨st, rfl, rfl, Or.inl rfl, by simp, fun _ => rfl, fun h => Or.inl ⟨h, hfirst h⟩⟩
  | cons e es ih =>
    intro st hle hp hlt hfirst
    have hle_e : e ≤ r.stop := hle e (by simp)
    have hp' := List.pairwise_cons.mp hp
    have hmem : ∀ e' ∈ es, e' ≤ r.stop := fun e' h => hle e' (by simp [h])
    unfold Ctx.colLoop
    by_cases h0 : st.firstColumn = 0 ∧ e > r.start
    · obtain ⟨hz, hgt⟩ := h0
      have hst : st.lastNewline ≤ r.start := hfirst hz
      rw [if_pos ⟨hz, hgt⟩, if_pos hst]
      dsimp only
      rw [if_neg (by omega)]
      obtain ⟨st', g1, g2, g3, g4, g5, g6⟩ := ih ⟨e, (r.start - st.lastNewline) + 1, st.lastColumn⟩ hmem hp'.2
        hp'.1 (fun h => by simp at h)
      refine ⟨st', g1, g2, ?_, ?_, fun h => (h hz).elim, fun _ => Or.inr ?_⟩
      · rcases g3 with g3 | g3
        · exact Or.inr (by rw [g3]; simp)
        · exact Or.inr (by simp [g3])
      · intro e' he'
        rcases List.mem_cons.mp he' with rfl | he'
        · rcases g3 with g3 | g3
          · rw [g3]; exact Nat.le_refl _
          · exact Nat.le_of_lt (hp'.1 _ g3)
        · exact g4 e' he'
      · refine ⟨st.lastNewline, Or.inl rfl, hst, g5 (by simp), ?_⟩
        intro e' he' hle'
        rcases List.mem_cons.mp he' with rfl | he'
        · omega
        · have := hp'.1 e' he'
          omega
    · rw [if_neg h0]
      dsimp only
      rw [if_neg (by omega)]
      have hnext : st.firstColumn = 0 → e ≤ r.start := by
        intro hz
        by_cases he : e > r.start
        · exact (h0 ⟨hz, he⟩).elim
        · omega
      obtain ⟨st', g1, g2, g3, g4, g5, g6⟩ := ih ⟨e, st.firstColumn, st.lastColumn⟩ hmem hp'.2
        hp'.1 hnext
      refine ⟨st', g1, g2, ?_, ?_, g5, fun hz => ?_⟩
      · rcases g3 with g3 | g3
        · exact Or.inr (by rw [g3]; simp)
        · exact Or.inr (by simp [g3])
      · intro e' he'
        rcases List.mem_cons.mp he' with rfl | he'
        · rcases g3 with g3 | g3
          · rw [g3]; exact Nat.le_refl _
          · exact Nat.le_of_lt (hp'.1 _ g3)
        · exact g4 e' he'
      · rcases g6 hz with g6 | ⟨e1, g6, g7, g8, g9⟩
        · exact Or.inl g6
        · refine Or.inr ⟨e1, ?_, g7, g8, ?_⟩
          · rcases g6 with rfl | g6
            · exact Or.inr (by simp)
            · exact Or.inr (by simp [g6])
          · intro e' he' hle'
            rcases List.mem_cons.mp he' with rfl | he'
            · rcases g6 with rfl | g6
              · exact Nat.le_refl _
              · exact Nat.le_of_lt (hp'.1 _ g6)
            · exact g9 e' he' hle'

/-- C30: the reported first column is the column of the start of the range; the reported
last column is the column of its end, but never less than the first column. -/
theorem C30_columns {b : Str} (hle : r.start ≤ r.stop) (h : TextAt c.parser.src 0 r.stop b)
    (hc : ¬ InsideCRLF c.parser.src r.stop) :
    ∃ f l, c.getColumns r = some (f, max f l) ∧ ColumnNumber c.parser.src r.start f ∧
      ColumnNumber c.parser.src r.stop l := by
  obtain ⟨h1, h2, h3⟩ := mem_newlineEnds 0 b
  have hend : ∀ e, e ∈ Ctx.newlineEnds 0 b ↔ LineEnd c.parser.src e ∧ e ≤ r.stop := by
    intro e
    rw [h1, ← lineEnd_from, lineEnd_prefix h hc]
  obtain ⟨st, g1, g2, g3, g4, -, g6⟩ := colLoop_spec (r := r) (Ctx.newlineEnds 0 b) ⟨0, 0, 0⟩
    (fun e he => ((hend e).mp he).2) h3 (fun e he => (h2 e he).1) (fun _ => Nat.zero_le _)
  have hlast : LineStart c.parser.src r.stop st.lastNewline := by
    refine ⟨?_, ?_, fun e' he hle' => g4 e' ((hend e').mpr ⟨he, hle'⟩)⟩
    · rcases g3 with g3 | g3
      · rw [g3]; exact Nat.zero_le _
      · exact ((hend _).mp g3).2
    · rcases g3 with g3 | g3
      · exact Or.inl g3
      · exact Or.inr ((hend _).mp g3).1
  unfold Ctx.getColumns
  rw [bslice_iff.mpr h]
  dsimp only
  rw [g1]
  dsimp only
  have hl : (if st.lastColumn = 0 then
      if st.lastNewline ≠ 0 then
        if st.lastNewline ≤ r.stop then some ((r.stop - st.lastNewline) + 1) else none
      else some (r.stop + 1)
      else some st.lastColumn) = some (r.stop - st.lastNewline + 1) := by
    rw [if_pos g2]
    split
    · rw [if_pos hlast.1]
    · rename_i h0
      have : st.lastNewline = 0 := by simpa using h0
      rw [this]
      rfl
  rw [hl]
  have hf : ∃ e, LineStart c.parser.src r.start e ∧ (if st.firstColumn = 0 then
          if st.lastNewline ≠ 0 then
            if st.lastNewline ≤ r.start then some ((r.start - st.lastNewline) + 1) else none
          else some (r.start + 1)
        else some st.firstColumn) = some (r.start - e + 1) := by
    rcases g6 rfl with ⟨hz, hs⟩ | ⟨e, he, hs, hv, hmax⟩
    · refine ⟨st.lastNewline, ⟨hs, hlast.2.1, fun e' h' hle' => hlast.2.2 e' h' (by omega)⟩, ?_⟩
      rw [if_pos hz, if_pos hs]
      split
      · rfl
      · rename_i h0
        have : st.lastNewline = 0 := by simpa using h0
        rw [this]
        rfl
    · refine ⟨e, ⟨hs, ?_, fun e' h' hle' => hmax e' ((hend e').mpr ⟨h', by omega⟩) hle'⟩, ?_⟩
      · rcases he with he | he
        · exact Or.inl he
        · exact Or.inr ((hend e).mp he).1
      · rw [if_neg (by omega), hv]
  obtain ⟨e, he, hf⟩ := hf
  rw [hf]
  refine ⟨r.start - e + 1, r.stop - st.lastNewline + 1, ?_, ⟨e, he, rfl⟩, ⟨_, hlast, rfl⟩⟩
  dsimp only
  congr 2
  rw [Nat.max_def]
  split <;> split <;> omega

/-- C30: for a range within one line both columns are exact. -/
theorem C30_columns_one_line {b : Str} (hle : r.start ≤ r.stop) (h : TextAt c.parser.src 0 r.stop b)
    (hc : ¬ InsideCRLF c.parser.src r.stop)
    (hone : ∀ e, LineEnd c.parser.src e → r.start < e → r.stop < e) :
    ∃ f l, c.getColumns r = some (f, l) ∧ ColumnNumber c.parser.src r.start f ∧
      ColumnNumber c.parser.src r.stop l := by
  obtain ⟨f, l, h1, h2, h3⟩ := C30_columns hle h hc
  have hmax : max f l = l := by
    obtain ⟨e, he, rfl⟩ := h2
    obtain ⟨e', he', rfl⟩ := h3
    have : LineStart c.parser.src r.stop e := by
      refine ⟨Nat.le_trans he.1 hle, he.2.1, fun x hx hxs => ?_⟩
      by_cases hxx : r.start < x
      · have := hone x hx hxx
        omega
      · exact he.2.2 x hx (by omega)
    rw [this.unique he'] at *
    omega
  rw [hmax] at h1
  exact ⟨f, l, h1, h2, h3⟩

/-- C30: computing lines and columns never underflows: inside the source, on character
boundaries, there is always an answer. -/
theorem C30_total {a b : Str} (h1 : TextAt c.parser.src 0 r.start a) (h2 : TextAt c.parser.src 0 r.stop b) :
    (∃ x, c.getLines r = some x) ∧ (∃ y, c.getColumns r = some y) ∧
      ∀ msg, ∃ e, c.errorString msg r = some e := by
  have hl : ∃ x, c.getLines r = some x := by
    unfold Ctx.getLines
    rw [bslice_iff.mpr h1, bslice_iff.mpr h2]
    exact ⟨_, rfl⟩
  have hcol : ∃ y, c.getColumns r = some y := by
    obtain ⟨m1, m2, m3⟩ := mem_newlineEnds 0 b
    have hb : ∀ e ∈ Ctx.newlineEnds 0 b, e ≤ r.stop := by
      intro e he
      have := (m2 e he).2
      have := h2.le.1
      omega
    obtain ⟨st, g1, g2, g3, g4, -, g6⟩ := colLoop_spec (r := r) (Ctx.newlineEnds 0 b) ⟨0, 0, 0⟩
      hb m3 (fun e he => (m2 e he).1) (fun _ => Nat.zero_le _)
    have hlast : st.lastNewline ≤ r.stop := by
      rcases g3 with g3 | g3
      · rw [g3]; exact Nat.zero_le _
      · exact hb _ g3
    unfold Ctx.getColumns
    rw [bslice_iff.mpr h2]
    dsimp only
    rw [g1]
    dsimp only
    have g2' : st.lastColumn = 0 := g2
    rw [if_pos g2', if_pos hlast]
    rcases g6 rfl with ⟨hz, hs⟩ | ⟨e, he, hs, hv, hmax⟩
    · rw [if_pos hz, if_pos hs]
      by_cases h0 : st.lastNewline = 0 <;> simp [h0]
    · rw [if_neg (by omega)]
      by_cases h0 : st.lastNewline = 0 <;> simp [h0]
  refine ⟨hl, hcol, fun msg => ?_⟩
  obtain ⟨x, hx⟩ := hl
  obtain ⟨y, hy⟩ := hcol
  unfold Ctx.errorString
  rw [hx, hy]
  exact ⟨_, rfl⟩

/-- C30: the error string of a range names the file, the lines and the columns. -/
theorem C30_error_string {l l' k k' : Nat} (msg : Str) (h1 : c.getLines r = some (l, l'))
    (h2 : c.getColumns r = some (k, k')) (hl : l ≠ l') (hk : k ≠ k') :
    c.errorString msg r = some ("Error: ".toList ++ c.parser.filename ++ "@[".toList ++
      (natStr l ++ "-".toList ++ natStr l') ++ ":".toList ++ (natStr k ++ "-".toList ++ natStr k') ++
      "]: ".toList ++ msg) := by
  unfold Ctx.errorString
  rw [h1, h2]
  simp [Ctx.spanStr, hl, hk]

/-- A single line and column are printed once. -/
theorem C30_error_string_point {l k : Nat} (msg : Str) (h1 : c.getLines r = some (l, l))
    (h2 : c.getColumns r = some (k, k)) :
    c.errorString msg r = some ("Error: ".toList ++ c.parser.filename ++ "@[".toList ++
      natStr l ++ ":".toList ++ natStr k ++ "]: ".toList ++ msg) := by
  unfold Ctx.errorString
  rw [h1, h2]
  simp [Ctx.spanStr]

/-- C30, falsified part: on a range over two lines whose end is further left than its
start, the last column is reported as the first one: `bc⏎d` in `abc⏎d` ends in column 2,
reported is 3. -/
theorem C30_two_lines_counterexample :
    let c := Ctx.new ⟨"abc\nd".toList, []⟩ 0 []
    c.getColumns ⟨2, 5⟩ = some (3, 3) ∧ ColumnNumber c.parser.src 5 2 := by
  refine ⟨by decide +kernel, 4, ⟨by omega, Or.inr (Or.inl ⟨"abc".toList, "d".toList, rfl, rfl⟩), ?_⟩, rfl⟩
  intro e he hle
  have := (mem_newlineEnds 0 "abc\nd".toList).1 e
  rw [← lineEnd_from] at this
  have hm := this.mpr he
  have hends : Ctx.newlineEnds 0 "abc\nd".toList = [4] := by decide +kernel
  rw [hends] at hm
  have he' : e = 4 := by simpa using hm
  omega

/-- C30, boundary: between the characters of a CRLF the line is already counted as
ended, the column is not. -/
theorem C30_inside_crlf_counterexample :
    let c := Ctx.new ⟨"a\r\nb".toList, []⟩ 0 []
    InsideCRLF c.parser.src 2 ∧ c.getLines ⟨2, 4⟩ = some (2, 2) ∧
      (c.getColumns ⟨2, 4⟩).map (·.1) = some 3 := by
  exact ⟨⟨"a".toList, "b".toList, rfl, rfl⟩, by decide +kernel, by decide +kernel⟩

/-- Non-vacuity: a mixture of line ends, and a two-byte character. -/
example :
    let c := Ctx.new ⟨"é\r\nb\rc\nde".toList, "f".toList⟩ 0 []
    c.getLines ⟨8, 10⟩ = some (4, 4) ∧ c.getColumns ⟨8, 10⟩ = some (1, 3) ∧
    c.errorString "m".toList ⟨8, 10⟩ = some "Error: f@[4:1-3]: m".toList := by
  decide +kernel

end Adx
