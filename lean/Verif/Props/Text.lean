import Verif.Proofs.TokInv
import Verif.Proofs.Text
import Verif.Proofs.Step
import Verif.Spec.Chars
import Verif.Spec.Outcome
import Verif.Model.Build
/-
  C01: the text of tokens agrees with their ranges.
-/
namespace Adx

/-- What the engine keeps true of every token: the stored texts are the substrings
at the ranges, and `Pin` tokens are as they were created. -/
structure TextInv (p : Parser) (k : Token) : Prop where
  parser : k.parser = p
  captured : k.capturedValue = k.captured.text p
  matched : k.matchedValue = k.matched.text p
  pin : k.kind = .pin → k.captured = k.matched ∧ k.flagsEnabled IS_ERROR = false ∧ k.attributes = []

section
variable {p : Parser}

theorem TextInv.setCaptured {k : Token} (h : TextInv p k) (hs : k.kind = .standard) (r : Range) :
    TextInv p (k.setCaptured r) := by
  obtain ⟨h1, h2, h3, h4⟩ := h
  unfold Token.setCaptured
  rw [hs]
  exact ⟨h1, by rw [← h1], h3, fun hk => by simp at hk⟩

theorem TextInv.setMatched {k : Token} (h : TextInv p k) (hs : k.kind = .standard) (r : Range) :
    TextInv p (k.setMatched r) := by
  obtain ⟨h1, h2, h3, h4⟩ := h
  unfold Token.setMatched
  rw [hs]
  exact ⟨h1, h2, by rw [← h1], fun hk => by simp at hk⟩

theorem TextInv.std {k : Token} (h : TextInv p k)
    (hs : k.kind = .standard ∨ k.flagsEnabled IS_ERROR = true) : k.kind = .standard := by
  rcases hs with hs | hs
  · exact hs
  · cases hk : k.kind with
    | standard => rfl
    | pin => rw [(h.pin hk).2.1] at hs; cases hs

theorem TextInv.mkMatched (name : Str) (c m : Range) : TextInv p (Token.mkMatched p name c m) :=
  ⟨rfl, rfl, rfl, fun h => by cases h⟩

theorem TextInv.inv : TokInv (TextInv p) p where
  fresh name c m := TextInv.mkMatched name c m
  quoted name c m v := ⟨rfl, rfl, rfl, fun h => by cases h⟩
  error r v := ⟨rfl, rfl, rfl, fun h => by cases h⟩
  pin name r := ⟨rfl, rfl, rfl, fun _ => ⟨rfl, by simp [Token.mkPin, Token.mkMatched, Token.flagsEnabled], rfl⟩⟩
  parent k q h := ⟨h.parser, h.captured, h.matched, h.pin⟩
  kids k l h := ⟨h.parser, h.captured, h.matched, h.pin⟩
  captured k r h hs := h.setCaptured (h.std hs) r
  matched k r h hs := h.setMatched (h.std hs) r
  expand k h := by
    cases hk : k.kind with
    | standard => exact h.setCaptured hk _
    | pin =>
      have he := h.pin hk
      unfold Token.setCaptured
      rw [hk]
      exact ⟨h.parser, by rw [h.captured, he.1], h.matched, fun _ => ⟨rfl, he.2⟩⟩

theorem Edit.apply_kind (e : Edit) (k : Token) : (e.apply k).kind = k.kind := by
  cases e <;> first | rfl | simp [Edit.apply] | skip
  simp only [Token.setValue]
  split <;> rfl

theorem TextInv.edit {k : Token} (h : TextInv p k) (hs : k.kind = .standard) (e : Edit) :
    TextInv p (e.apply k) := by
  have hn : (e.apply k).kind = .pin → False := by
    rw [Edit.apply_kind, hs]
    intro h
    cases h
  cases e with
  | captured r => exact h.setCaptured hs r
  | matched r => exact h.setMatched hs r
  | value v =>
    have : (Edit.value v).apply k = k.setValue v := rfl
    rw [this] at hn ⊢
    unfold Token.setValue at hn ⊢
    split
    · exact ⟨h.parser, h.captured, h.matched, h.pin⟩
    · exact ⟨h.parser, h.captured, h.matched, h.pin⟩
  | _ => exact ⟨h.parser, h.captured, h.matched, fun hk => (hn hk).elim⟩

theorem TextInv.edits (es : List Edit) : ∀ {k : Token}, TextInv p k → k.kind = .standard →
    TextInv p (es.foldl (fun k e => e.apply k) k) := by
  induction es with
  | nil => intro k h _; exact h
  | cons e es ih => intro k h hs; exact ih (h.edit hs e) (by rw [Edit.apply_kind, hs])

theorem Polite.good {α : Type} {x : M α} (h : Polite p x) : Pres (Good (TextInv p)) x := by
  have H := Good.steps (TextInv p)
  induction h with
  | pure a => exact H.pure a
  | bind _ _ ih1 ih2 => exact H.bind ih1 ih2
  | panic e => exact Pres.panic e
  | read t => exact H.getTok t
  | new name c m es => exact new_good (TextInv.edits es (TextInv.mkMatched name c m) rfl)
  | edit t e =>
    refine Steps.modTok (fun s k hk => ?_)
    by_cases hs : k.kind = .standard
    · rw [if_pos hs]
      exact Good.set hk (Edit.apply_kind e k) (fun hp => hp.edit hs e)
    · rw [if_neg hs]
      exact Good.set hk rfl id
  | lookup sc k => exact H.lookupVar sc k
  | set sc k v => exact bindVar_good sc k v

theorem Node.Polite.good {n : Node} (h : n.Polite p) : GoodNode (TextInv p) p n := by
  cases n with
  | catch_ m f => exact fun c e hc => (h c e hc).good
  | map m sf ff => exact ⟨fun t c sc hc => (h.1 t c sc hc).good, fun e c sc hc => (h.2 e c sc hc).good⟩
  | _ => trivial

theorem charsIn_ascii (a b : Nat) (s : Str) : ∀ pos, Ascii s →
    charsIn a b pos s = (s.drop (a - pos)).take (b - max a pos) := by
  induction s with
  | nil => intro pos _; simp [charsIn]
  | cons c s ih =>
    intro pos ha
    have hc : c.utf8Size = 1 := utf8Size_ascii (ha c (by simp))
    have hs : Ascii s := fun ch h => ha ch (by simp [h])
    unfold charsIn
    rw [hc, ih (pos + 1) hs]
    by_cases h : a ≤ pos ∧ pos < b
    · rw [if_pos h]
      have e1 : a - pos = 0 := by omega
      have e2 : a - (pos + 1) = 0 := by omega
      have e3 : b - max a pos = (b - max a (pos + 1)) + 1 := by omega
      rw [e1, e2, e3]
      rfl
    · rw [if_neg h]
      by_cases h1 : a ≤ pos
      · have e1 : b - max a pos = 0 := by omega
        have e2 : b - max a (pos + 1) = 0 := by omega
        rw [e1, e2]
        simp
      · have e1 : a - pos = (a - (pos + 1)) + 1 := by omega
        have e2 : max a pos = max a (pos + 1) := by omega
        rw [e1, e2]
        rfl

theorem text_ascii {r : Range} (ha : Ascii p.src) : r.text p = charsIn r.start r.stop 0 p.src := by
  rw [charsIn_ascii _ _ _ _ ha]
  unfold Range.text substring
  split
  · have : r.stop - max r.start 0 = 0 := by omega
    rw [this]
    simp
  · simp

theorem TextInv.faithful {k : Token} (ha : Ascii p.src) (h : TextInv p k) : k.Faithful p := by
  refine ⟨h.parser, ?_, ?_⟩
  · rw [← text_ascii ha, ← h.captured]
    unfold Token.getCapturedValue
    cases hk : k.kind with
    | standard => rfl
    | pin => simp [Token.getAttribute, (h.pin hk).2.2, AMap.get]
  · rw [← text_ascii ha, ← h.matched]
    unfold Token.getMatchedValue
    cases hk : k.kind with
    | standard => rfl
    | pin => simp [Token.getAttribute, (h.pin hk).2.2, AMap.get]

theorem text_counted (r : Range) : CharsNumbered p.src r (r.text p) := by
  intro i
  unfold Range.text substring
  split
  · rw [if_neg (by omega)]
    rfl
  · rw [List.getElem?_take, List.getElem?_drop]
    by_cases h : r.start + i < r.stop
    · rw [if_pos h, if_pos (by omega)]
    · rw [if_neg h, if_neg (by omega)]

theorem TextInv.counted {k : Token} (h : TextInv p k) : k.Counted p := by
  refine ⟨h.parser, ?_, ?_⟩
  · have : k.getCapturedValue = k.captured.text p := by
      rw [← h.captured]
      unfold Token.getCapturedValue
      cases hk : k.kind with
      | standard => rfl
      | pin => simp [Token.getAttribute, (h.pin hk).2.2, AMap.get]
    rw [this]
    exact text_counted _
  · have : k.getMatchedValue = k.matched.text p := by
      rw [← h.matched]
      unfold Token.getMatchedValue
      cases hk : k.kind with
      | standard => rfl
      | pin => simp [Token.getAttribute, (h.pin hk).2.2, AMap.get]
    rw [this]
    exact text_counted _

end

theorem CharsNumbered.unique {src v w : Str} {r : Range} (hv : CharsNumbered src r v) (hw : CharsNumbered src r w) :
    v = w := List.ext_getElem? fun i => by rw [hv i, hw i]

/-- The characters of a range that lies on character boundaries are the text between
them. -/
theorem charsIn_textAt {src w : Str} {a e : Nat} (h : TextAt src a e w) (ha : Ascii src) :
    charsIn a e 0 src = w := by
  rw [← substring_textAt h ha]
  exact (text_ascii (p := ⟨src, []⟩) (r := ⟨a, e⟩) ha).symm

variable {T : Table} {cfg : Cfg} {m : MatcherId} {c : Ctx} {sc : SCtxId} {s s' : State} {r : R}

/-- C01.  After any run over an ASCII source, with callbacks that change tokens only
through setters, every token there is (reachable or not, error or not, `Pin` or not)
has the texts of its ranges, if the tokens that existed before had (for a fresh heap
there are none). -/
theorem C01_text (hT : ∀ m, (T m).Polite c.parser) (ha : Ascii c.parser.src)
    (h0 : AllTok (TextInv c.parser) s) (h : Runs T cfg m c sc s r s') :
    ∀ (t : TokId) k, s'.toks[t]? = some k → k.Faithful c.parser := by
  obtain ⟨n, h⟩ := h
  have hg := exec_good TextInv.inv cfg (fun m => (hT m).good) n m c sc rfl s r s' h
  exact fun t k hk => (hg.all h0 t k hk).faithful ha

/-- C01 for whole parses, starting without tokens. -/
theorem C01_tokenize {n : Nat} {res : Except Failure TokId} (hT : ∀ m, (T m).Polite c.parser)
    (ha : Ascii c.parser.src) (h0 : s.toks = []) (h : tokenize T cfg n c m s = .ok res s') :
    ∀ (t : TokId) k, s'.toks[t]? = some k → k.Faithful c.parser := by
  have hg := tokenize_good TextInv.inv cfg (fun m => (hT m).good) n c m rfl s res s' h
  refine fun t k hk => (hg.all ?_ t k hk).faithful ha
  intro t k hk
  rw [h0] at hk
  cases hk

/-- C01 for texts with any characters: every token there is has the characters that one gets
by counting characters up to the byte offsets of its ranges. -/
theorem C01_unicode (hT : ∀ m, (T m).Polite c.parser) (h0 : AllTok (TextInv c.parser) s)
    (h : Runs T cfg m c sc s r s') : ∀ (t : TokId) k, s'.toks[t]? = some k → k.Counted c.parser := by
  obtain ⟨n, h⟩ := h
  have hg := exec_good TextInv.inv cfg (fun m => (hT m).good) n m c sc rfl s r s' h
  exact fun t k hk => (hg.all h0 t k hk).counted

/-- The same for whole parses. -/
theorem C01_tokenize_unicode {n : Nat} {res : Except Failure TokId} (hT : ∀ m, (T m).Polite c.parser)
    (h0 : s.toks = []) (h : tokenize T cfg n c m s = .ok res s') :
    ∀ (t : TokId) k, s'.toks[t]? = some k → k.Counted c.parser := by
  have hg := tokenize_good TextInv.inv cfg (fun m => (hT m).good) n c m rfl s res s' h
  refine fun t k hk => (hg.all ?_ t k hk).counted
  intro t k hk
  rw [h0] at hk
  cases hk

/-- What this is for the range of the text `w` behind `pre`: the text starts as many characters
too late as `pre` has bytes more than characters, and has as many characters as `w` has bytes. -/
theorem C01_shifted {pre w post v : Str}
    (h : CharsNumbered (pre ++ w ++ post) ⟨blen pre, blen pre + blen w⟩ v) :
    v = ((w ++ post).drop (blen pre - pre.length)).take (blen w) := by
  have hlen : ∀ u : Str, u.length ≤ blen u := by
    intro u
    induction u with
    | nil => exact Nat.le_refl _
    | cons ch u ih =>
      have := utf8Size_pos ch
      simp only [List.length_cons, blen]
      omega
  refine h.unique fun i => ?_
  have := hlen pre
  show _ = if blen pre + i < blen pre + blen w then (pre ++ w ++ post)[blen pre + i]? else none
  rw [List.getElem?_take, List.getElem?_drop, List.append_assoc]
  by_cases hi : i < blen w
  · rw [if_pos hi, if_pos (by omega), List.getElem?_append_right (l₁ := pre) (by omega)]
    congr 1
    omega
  · rw [if_neg hi, if_neg (by omega)]

/-- So what is ASCII up to the end of the range is cut right, whatever follows. -/
theorem C01_ascii_up_to_here {pre w post v : Str} (hp : Ascii pre) (hw : Ascii w)
    (h : CharsNumbered (pre ++ w ++ post) ⟨blen pre, blen pre + blen w⟩ v) : v = w := by
  rw [C01_shifted h, blen_ascii hp, blen_ascii hw, Nat.sub_self, List.drop_zero, List.take_left]

/-- The first text with other characters is too long: it goes on behind the range. -/
theorem C01_too_long {pre w post v : Str} (hp : Ascii pre)
    (h : CharsNumbered (pre ++ w ++ post) ⟨blen pre, blen pre + blen w⟩ v) :
    v = w ++ post.take (blen w - w.length) := by
  have hlen : w.length ≤ blen w := by
    clear h
    induction w with
    | nil => exact Nat.le_refl _
    | cons ch u ih =>
      have := utf8Size_pos ch
      simp only [List.length_cons, blen]
      omega
  rw [C01_shifted h, blen_ascii hp, Nat.sub_self, List.drop_zero, List.take_append, List.take_of_length_le hlen]

/-- What is ASCII behind `n` bytes too many is cut `n` characters too late. -/
theorem C01_too_late {pre w post v : Str} (hw : Ascii (w ++ post))
    (h : CharsNumbered (pre ++ w ++ post) ⟨blen pre, blen pre + blen w⟩ v) :
    v = charsIn (blen pre - pre.length) (blen pre - pre.length + blen w) 0 (w ++ post) := by
  rw [C01_shifted h, charsIn_ascii _ _ _ _ hw]
  simp

/-- C01 on a second parse: the tokens left by a first parse over the same source
satisfy the premise. -/
theorem C01_again {m2 : MatcherId} {c2 : Ctx} {sc2 : SCtxId} {s2 : State} {r2 : R}
    (hT : ∀ m, (T m).Polite c.parser) (ha : Ascii c.parser.src) (hc : c2.parser = c.parser)
    (h0 : s.toks = []) (h : Runs T cfg m c sc s r s') (h2 : Runs T cfg m2 c2 sc2 s' r2 s2) :
    ∀ (t : TokId) k, s2.toks[t]? = some k → k.Faithful c.parser := by
  obtain ⟨n, h⟩ := h
  have hg := exec_good TextInv.inv cfg (fun m => (hT m).good) n m c sc rfl s r s' h
  have := C01_text (T := T) (c := c2) (fun m => by rw [hc]; exact hT m) (by rw [hc]; exact ha)
    (by
      rw [hc]
      refine hg.all ?_
      intro t k hk
      rw [h0] at hk
      cases hk) h2
  rw [hc] at this
  exact this

/-- The crate's own callbacks only use setters. -/
theorem C01_own_callbacks (p : Parser) (m : MatcherId) (msg : Str) :
    Node.Polite p (.map m (fatalIfOk msg) failureIsFine) ∧
    Node.Polite p (.map m successIsFine (fatalIfNotErr msg)) ∧
    Node.Polite p (.map m (assertIfOk msg) failureIsFine) ∧
    Node.Polite p (.map m successIsFine (assertIfNotErr msg)) := by
  have hopt : ∀ {α : Type} (e : String) (o : Option α), Polite p (M.ofOpt e o) := by
    intro α e o
    cases o with
    | none => exact .panic e
    | some a => exact .pure a
  have herr : ∀ (c : Ctx) (r : Range), c.parser = p → Polite p (newErrorTokenWithRange c msg r) := by
    intro c r hc
    refine .bind (hopt _ _) (fun v => ?_)
    rw [hc]
    exact .new "Error".toList r r [.attribute "__message".toList v, .enableFlags IS_ERROR]
  have hfine : ∀ f c sc, Polite p (failureIsFine f c sc) := by
    intro f c sc
    cases f <;> exact .pure _
  refine ⟨⟨fun t c sc _ => ?_, fun f c sc _ => hfine f c sc⟩, ⟨fun _ _ _ _ => .pure _, fun f c sc _ => ?_⟩,
    ⟨fun t c sc hc => ?_, fun f c sc _ => hfine f c sc⟩, ⟨fun _ _ _ _ => .pure _, fun f c sc hc => ?_⟩⟩
  · exact .bind (.read _) (fun _ => .bind (hopt _ _) (fun _ => .pure _))
  · cases f with
    | fail => exact .bind (hopt _ _) (fun _ => .pure _)
    | error e => exact .pure _
  · exact .bind (.read _) (fun _ => .bind (herr _ _ hc) (fun _ => .pure _))
  · cases f with
    | fail => exact .bind (herr _ _ hc) (fun _ => .pure _)
    | error e => exact .pure _

/-- On a source with a two-byte character the text of the second token of `é`, `b` is
not `b` but empty: the range `2..3` counts bytes, its text is cut by characters. -/
theorem C01_non_ascii_counterexample :
    let T : Table := fun
      | 0 => .program [1, 2] "P".toList false none false
      | 1 => .equals "E".toList false (.str "é".toList)
      | 2 => .equals "B".toList false (.str "b".toList)
      | _ => .null
    ∃ s', Runs T ⟨true⟩ 0 (Ctx.new ⟨"éb".toList, []⟩ 0 []) 0 ⟨[], [], [[]]⟩ (.ok (.token 0)) s' ∧
      (s'.toks[2]?).map (fun k => (k.name, k.matched, k.getMatchedValue)) =
        some ("B".toList, ⟨2, 3⟩, []) ∧
      charsIn 2 3 0 "éb".toList = "b".toList := by
  exact Runs.of_check 9 (by decide +kernel)

/-- Non-vacuity: the texts of `é`, `b` and `c` in `ébcd` are `éb`, `c` and `d`. -/
example :
    let T : Table := fun
      | 0 => .program [1, 2, 3] "P".toList false none false
      | 1 => .equals "E".toList false (.str "é".toList)
      | 2 => .equals "B".toList false (.str "b".toList)
      | 3 => .equals "C".toList false (.str "c".toList)
      | _ => .null
    (exec T ⟨true⟩ 9 0 (Ctx.new ⟨"ébcd".toList, []⟩ 0 []) 0 ⟨[], [], [[]]⟩).holds (fun r s' =>
      r = .ok (.token 0) ∧ s'.toks.map (fun k => (k.matched, k.getMatchedValue)) =
        [(⟨0, 4⟩, "ébcd".toList), (⟨0, 2⟩, "éb".toList), (⟨2, 3⟩, "c".toList), (⟨3, 4⟩, "d".toList)]) := by
  decide +kernel

/-- The contract on callbacks matters for `Pin` tokens: their range setters do not
recompute the text. -/
theorem C01_pin_setter_counterexample :
    let p : Parser := ⟨"abc".toList, []⟩
    let k := Token.mkPin p "Pin".toList ⟨0, 1⟩ ⟨0, 1⟩
    k.Faithful p ∧ ¬ (k.setCaptured ⟨1, 2⟩).Faithful p ∧
      ((Token.mkMatched p "Std".toList ⟨0, 1⟩ ⟨0, 1⟩).setCaptured ⟨1, 2⟩).Faithful p := by
  unfold Token.Faithful
  decide +kernel

/-- Non-vacuity: a quoted string inside a program, with an error token; all texts are
as expected. -/
example :
    let T : Table := fun
      | 0 => .program [1, 2, 3] "P".toList false none false
      | 1 => .equals "A".toList false (.str "ab".toList)
      | 2 => .sequence "S".toList false (.str "'".toList) (.str "'".toList) (.str "\\".toList)
      | 3 => .error "oops".toList
      | _ => .null
    (exec T ⟨true⟩ 9 0 (Ctx.new ⟨"ab'cd'".toList, []⟩ 0 []) 0 ⟨[], [], [[]]⟩).holds (fun r s' =>
      r = .ok (.token 0) ∧ s'.toks.map (fun k => (k.getMatchedValue, k.getCapturedValue)) =
        [("ab'cd'".toList, "ab'cd'".toList), ("ab".toList, "ab".toList), ("'cd'".toList, "cd".toList),
         ("ab'cd'".toList, "ab'cd'".toList)]) := by
  decide +kernel

end Adx
