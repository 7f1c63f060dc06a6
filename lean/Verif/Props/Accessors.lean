import Verif.Model.Children
import Verif.Model.Exec
import Verif.Proofs.Post
import Verif.Proofs.Step
import Verif.Props.Scopes
import Verif.Spec.View
import Verif.Spec.Outcome
/-
  C32: token accessor laws.
-/
namespace Adx

section
variable (k : Token)

/-- C32: a new token of either kind has the given name, both of the given ranges, each with
its own text, and nothing else. -/
theorem C32_new (p : Parser) (name : Str) (captured matched : Range) :
    let text := fun r : Range => (p.src.drop r.start).take (r.stop - r.start)
    let v : View :=
      { kind := .standard, parser := p, name, captured, matched, capturedText := text captured,
        matchedText := text matched, explicit := none, attr := fun _ => none, flag := fun _ => false,
        parent := none, children := [] }
    (Token.mkMatched p name captured matched).view = v ∧
    (Token.mkPin p name captured matched).view = { v with kind := .pin } ∧
    (Token.mk' p name captured).view = { v with matched := captured, matchedText := text captured } := by
  have ht : ∀ r : Range, r.text p = (p.src.drop r.start).take (r.stop - r.start) := by
    intro r
    unfold Range.text substring
    split
    · rw [show r.stop - r.start = 0 by omega, List.take_zero]
    · rfl
  have hf : BitVec.getLsbD (0 : Flags) = fun _ => false := by
    funext i
    exact BitVec.getLsbD_zero
  unfold Token.mk' Token.mkPin Token.mkMatched Token.view
  simp only [ht, hf]
  exact ⟨rfl, rfl, rfl⟩

/-- Non-vacuity: a pin and a token with a captured range smaller than the matched one. -/
example :
    let k := Token.mkPin ⟨"abcd".toList, []⟩ "P".toList ⟨1, 2⟩ ⟨0, 4⟩
    k.view.capturedText = "b".toList ∧ k.view.matchedText = "abcd".toList ∧ k.view.matched = ⟨0, 4⟩ := by
  decide +kernel

/-- C32: setting an attribute changes that attribute and nothing else. -/
theorem C32_set_attribute (a v : Str) :
    (k.setAttribute a v).view = { k.view with attr := put k.view.attr a v } := by
  unfold Token.setAttribute Token.view put Token.getAttribute
  simp only [View.mk.injEq, true_and, and_true]
  funext b
  exact AMap.get_insert _ _ _ _

/-- C32: `has_attribute` and `attribute_equals` say what the attribute is. -/
theorem C32_attribute_tests (a v : Str) :
    (k.hasAttribute a = true ↔ ∃ w, k.view.attr a = some w) ∧
    (k.attributeEquals a v = true ↔ k.view.attr a = some v) := by
  refine ⟨Option.isSome_iff_exists, ?_⟩
  unfold Token.attributeEquals
  show _ ↔ k.attributes.get a = some v
  cases k.attributes.get a with
  | none => simp
  | some w => simp

/-- C32: setting the name changes the name and nothing else. -/
theorem C32_set_name (n : Str) : (k.setName n).view = { k.view with name := n } := rfl

/-- C32: setting the captured range of a standard token changes the range and the text
of the range and nothing else. -/
theorem C32_set_captured (h : k.kind = .standard) (r : Range) :
    (k.setCaptured r).view =
      { k.view with captured := r, capturedText := (k.parser.src.drop r.start).take (r.stop - r.start) } := by
  unfold Token.setCaptured
  rw [h]
  unfold Token.view
  simp only [View.mk.injEq, true_and, and_true]
  refine ⟨by rw [h], ?_, rfl⟩
  unfold Range.text substring
  split
  · rw [show r.stop - r.start = 0 by omega, List.take_zero]
  · rfl

/-- C32: the same for the matched range. -/
theorem C32_set_matched (h : k.kind = .standard) (r : Range) :
    (k.setMatched r).view =
      { k.view with matched := r, matchedText := (k.parser.src.drop r.start).take (r.stop - r.start) } := by
  unfold Token.setMatched
  rw [h]
  unfold Token.view
  simp only [View.mk.injEq, true_and, and_true]
  refine ⟨by rw [h], ?_, rfl⟩
  unfold Range.text substring
  split
  · rw [show r.stop - r.start = 0 by omega, List.take_zero]
  · rfl

/-- C32: on a `Pin` token the range setters change the range and nothing else, the text
stays behind. -/
theorem C32_pin_ranges (h : k.kind = .pin) (r : Range) :
    (k.setCaptured r).view = { k.view with captured := r } ∧
    (k.setMatched r).view = { k.view with matched := r } := by
  unfold Token.setCaptured Token.setMatched
  rw [h]
  exact ⟨by simp [Token.view, h]; rfl, by simp [Token.view, h]; rfl⟩

/-- C32: setting the value changes the explicit value and nothing else; setting it to
the empty string removes it. -/
theorem C32_set_value (v : Str) :
    (k.setValue v).view = { k.view with explicit := if v = [] then none else some v } := by
  unfold Token.setValue
  split
  · rfl
  · rfl

/-- C32: setting the texts changes them and nothing else. -/
theorem C32_set_texts (v : Str) :
    (k.setCapturedValue v).view = { k.view with capturedText := v } ∧
    (k.setMatchedValue v).view = { k.view with matchedText := v } := ⟨rfl, rfl⟩

/-- C32: adding a child adds it at the end and changes nothing else. -/
theorem C32_add_child (c : TokId) :
    (k.addChild c).view = { k.view with children := k.view.children ++ [c] } := rfl

/-- C32: the value of a token is the `__value` attribute, else the explicit value, else
the captured text; for both kinds of token. -/
theorem C32_value :
    k.getValue = firstOf [k.view.attr "__value".toList, k.view.explicit] k.view.capturedText := by
  unfold Token.getValue
  show _ = firstOf [k.getAttribute "__value".toList, k.value] k.capturedValue
  cases h : k.getAttribute "__value".toList with
  | some v => rfl
  | none =>
    cases hv : k.value with
    | some v => rfl
    | none =>
      show k.getCapturedValue = k.capturedValue
      unfold Token.getCapturedValue
      cases k.kind with
      | standard => rfl
      | pin => rw [h]; rfl

/-- C32: captured and matched text of a token: for a `Pin`, an attribute overrides. -/
theorem C32_texts :
    k.getCapturedValue = (match k.view.kind with
      | .standard => k.view.capturedText
      | .pin => firstOf [k.view.attr "__value".toList] k.view.capturedText) ∧
    k.getMatchedValue = (match k.view.kind with
      | .standard => k.view.matchedText
      | .pin => firstOf [k.view.attr "__matched_value".toList] k.view.matchedText) := by
  unfold Token.getCapturedValue Token.getMatchedValue
  have hv : k.view.kind = k.kind := rfl
  rw [hv]
  cases k.kind with
  | standard => exact ⟨rfl, rfl⟩
  | pin =>
    constructor
    · show _ = firstOf [k.getAttribute "__value".toList] k.capturedValue
      cases k.getAttribute "__value".toList <;> rfl
    · show _ = firstOf [k.getAttribute "__matched_value".toList] k.matchedValue
      cases k.getAttribute "__matched_value".toList <;> rfl

/-- C32: flag operations work bit by bit and change nothing else. -/
theorem C32_flags (f : Flags) :
    (k.setFlags f).view = { k.view with flag := f.getLsbD } ∧
    (k.enableFlags f).view = { k.view with flag := fun i => k.view.flag i || f.getLsbD i } ∧
    (k.disableFlags f).view = { k.view with flag := fun i => k.view.flag i && !f.getLsbD i } := by
  refine ⟨rfl, ?_, ?_⟩
  · unfold Token.enableFlags Token.view
    simp only [View.mk.injEq, true_and, and_true]
    refine ⟨rfl, ?_⟩
    funext i
    exact BitVec.getLsbD_or
  · unfold Token.disableFlags Token.view
    simp only [View.mk.injEq, true_and, and_true]
    refine ⟨rfl, ?_⟩
    funext i
    rw [BitVec.getLsbD_and, BitVec.getLsbD_not]
    by_cases hi : i < 8
    · simp [hi]
    · rw [BitVec.getLsbD_of_ge _ _ (by omega)]
      simp

/-- C32: `flags_enabled` asks whether *any* of the flags is set. -/
theorem C32_flags_enabled (f : Flags) :
    k.flagsEnabled f = true ↔ ∃ i, k.view.flag i = true ∧ f.getLsbD i = true := by
  unfold Token.flagsEnabled Token.view
  simp only [bne_iff_ne, ne_eq]
  constructor
  · intro h
    refine Classical.byContradiction (fun hn => h ?_)
    refine BitVec.eq_of_getLsbD_eq (fun i hi => ?_)
    rw [BitVec.getLsbD_and]
    cases h1 : k.flags.getLsbD i with
    | false => simp
    | true =>
      cases h2 : f.getLsbD i with
      | false => simp
      | true => exact (hn ⟨i, h1, h2⟩).elim
  · rintro ⟨i, h1, h2⟩ h
    have := congrArg (fun x => BitVec.getLsbD x i) h
    simp only [BitVec.getLsbD_and, h1, h2] at this
    simp at this

/-- C32: enabling and disabling undo each other where they change something. -/
theorem C32_flags_inverse (f : Flags) :
    ((∀ i, f.getLsbD i = true → k.view.flag i = false) → (k.enableFlags f).disableFlags f = k) ∧
    ((∀ i, f.getLsbD i = true → k.view.flag i = true) → (k.disableFlags f).enableFlags f = k) ∧
    (k.enableFlags f).enableFlags f = k.enableFlags f ∧
    (k.disableFlags f).disableFlags f = k.disableFlags f := by
  have key : ∀ (g : Flags), (∀ i, i < 8 → g.getLsbD i = k.flags.getLsbD i) → { k with flags := g } = k := by
    intro g hg
    have : g = k.flags := BitVec.eq_of_getLsbD_eq hg
    subst this
    rfl
  refine ⟨fun h => ?_, fun h => ?_, ?_, ?_⟩
  · refine key _ (fun i hi => ?_)
    have := h i
    simp only [Token.view] at this
    simp only [Token.enableFlags, BitVec.getLsbD_and, BitVec.getLsbD_or, BitVec.getLsbD_not, hi]
    cases h2 : f.getLsbD i with
    | false => simp
    | true => simp [this h2]
  · refine key _ (fun i hi => ?_)
    have := h i
    simp only [Token.view] at this
    simp only [Token.disableFlags, BitVec.getLsbD_and, BitVec.getLsbD_or, BitVec.getLsbD_not, hi]
    cases h2 : f.getLsbD i with
    | false => simp
    | true => simp [this h2]
  · unfold Token.enableFlags
    simp only [Token.mk.injEq, true_and]
    rw [BitVec.or_assoc, BitVec.or_self]
  · unfold Token.disableFlags
    simp only [Token.mk.injEq, true_and]
    rw [BitVec.and_assoc, BitVec.and_self]

/-- C32: equality of tokens compares the name and the two ranges, nothing else. -/
theorem C32_equality (k' : Token) : k.sameAs k' = true ↔
    k.view.name = k'.view.name ∧ k.view.captured = k'.view.captured ∧ k.view.matched = k'.view.matched := by
  simp [Token.sameAs, Token.view, and_assoc]

end

/-- `c` is the first of the list whose token passes the test. -/
def FirstNamed (s : State) (test : Str → Bool) (l : List TokId) (c : TokId) : Prop :=
  ∃ pre post k, l = pre ++ c :: post ∧ s.toks[c]? = some k ∧ test k.name = true ∧
    ∀ d ∈ pre, ∃ kd, s.toks[d]? = some kd ∧ test kd.name = false

theorem findLoop_spec {s s' : State} {test : Str → Bool} : ∀ {l : List TokId} {o : Option TokId},
    findLoop test l s = .ok o s' → s' = s ∧
      match (generalizing := false) o with
      | some c => FirstNamed s test l c
      | none => ∀ d ∈ l, ∃ kd, s.toks[d]? = some kd ∧ test kd.name = false := by
  intro l
  induction l with
  | nil =>
    intro o h
    cases h
    exact ⟨rfl, by simp⟩
  | cons c l ih =>
    intro o h
    unfold findLoop at h
    replace h := bind_ok.mp h
    obtain ⟨k, s1, h1, h⟩ := h
    obtain ⟨hk, rfl⟩ := getTok_ok.mp h1
    by_cases ht : test k.name = true
    · rw [if_pos ht] at h
      cases h
      exact ⟨rfl, [], l, k, rfl, hk, ht, by simp⟩
    · rw [if_neg ht] at h
      have ht' : test k.name = false := by simpa using ht
      obtain ⟨rfl, hs⟩ := ih h
      refine ⟨rfl, ?_⟩
      cases o with
      | none =>
        intro d hd
        rcases List.mem_cons.mp hd with rfl | hd
        · exact ⟨k, hk, ht'⟩
        · exact hs d hd
      | some d =>
        obtain ⟨pre, post, kd, rfl, h3, h4, h5⟩ := hs
        refine ⟨c :: pre, post, kd, rfl, h3, h4, ?_⟩
        intro e he
        rcases List.mem_cons.mp he with rfl | he
        · exact ⟨k, hk, ht'⟩
        · exact h5 e he

/-- C32: `find_child` returns the first child of that name, and nothing if there is
none; it changes nothing. -/
theorem C32_find_child {s s' : State} {k : Token} {needle : Str} {o : Option TokId}
    (h : k.findChild needle s = .ok o s') : s' = s ∧
      match (generalizing := false) o with
      | some c => FirstNamed s (fun n => decide (n = needle)) k.children c
      | none => ∀ d ∈ k.children, ∃ kd, s.toks[d]? = some kd ∧ kd.name ≠ needle := by
  have ht : (fun n : Str => n == needle) = (fun n => decide (n = needle)) := by
    funext n
    exact (Bool.beq_eq_decide_eq n needle)
  unfold Token.findChild at h
  split at h
  · rename_i h0
    cases h
    have h0 := List.length_eq_zero_iff.mp h0
    exact ⟨rfl, by simp [h0]⟩
  · rw [ht] at h
    obtain ⟨h1, h2⟩ := findLoop_spec h
    refine ⟨h1, ?_⟩
    cases o with
    | some c => exact h2
    | none =>
      intro d hd
      obtain ⟨kd, h3, h4⟩ := h2 d hd
      exact ⟨kd, h3, by simpa using h4⟩

/-- C32: the same for `find_child_fuzzy`, with any test on names. -/
theorem C32_find_child_fuzzy {s s' : State} {k : Token} {test : Str → Bool} {o : Option TokId}
    (h : k.findChildFuzzy test s = .ok o s') : s' = s ∧
      match (generalizing := false) o with
      | some c => FirstNamed s test k.children c
      | none => ∀ d ∈ k.children, ∃ kd, s.toks[d]? = some kd ∧ test kd.name = false := by
  unfold Token.findChildFuzzy at h
  split at h
  · rename_i h0
    cases h
    have h0 := List.length_eq_zero_iff.mp h0
    exact ⟨rfl, by simp [h0]⟩
  · exact findLoop_spec h

/-- C32: `has_child`. -/
theorem C32_has_child {s s' : State} {k : Token} {needle : Str} {b : Bool}
    (h : k.hasChild needle s = .ok b s') :
    s' = s ∧ (b = true ↔ ∃ c ∈ k.children, ∃ kc, s.toks[c]? = some kc ∧ kc.name = needle) := by
  unfold Token.hasChild at h
  replace h := bind_ok.mp h
  obtain ⟨o, s1, h1, h⟩ := h
  obtain ⟨rfl, hs⟩ := C32_find_child h1
  cases o with
  | some c =>
    cases h
    obtain ⟨pre, post, kc, h2, h3, h4, _⟩ := hs
    refine ⟨rfl, ⟨fun _ => ⟨c, by rw [h2]; simp, kc, h3, by simpa using h4⟩, fun _ => rfl⟩⟩
  | none =>
    cases h
    refine ⟨rfl, ⟨fun h => by simp at h, ?_⟩⟩
    rintro ⟨c, hc, kc, h3, h4⟩
    obtain ⟨kd, h5, h6⟩ := hs c hc
    rw [h3] at h5
    cases h5
    exact (h6 h4).elim

/-- Non-vacuity: the observable parts after some changes. -/
example :
    let k := Token.mk' ⟨"abc".toList, []⟩ "T".toList ⟨0, 1⟩
    let k1 := ((k.setValue "v".toList).setCaptured ⟨1, 3⟩).enableFlags IS_ERROR
    k1.getValue = "v".toList ∧ k1.getCapturedValue = "bc".toList ∧ k1.flagsEnabled IS_ERROR ∧
    k1.flagsEnabled IS_WARNING = false ∧ (k1.setValue []).getValue = "bc".toList ∧
    (k1.setAttribute "__value".toList "w".toList).getValue = "w".toList ∧
    ((k1.setAttribute "x".toList "y".toList).setAttribute "x".toList "z".toList).getAttribute "x".toList
      = some "z".toList := by
  decide +kernel

/-- Non-vacuity: finding a child. -/
example :
    let s : State := ⟨[{ Token.mk' ⟨[], []⟩ "P".toList ⟨0, 0⟩ with children := [1, 2, 3] },
      Token.mk' ⟨[], []⟩ "A".toList ⟨0, 0⟩, Token.mk' ⟨[], []⟩ "B".toList ⟨0, 0⟩,
      Token.mk' ⟨[], []⟩ "B".toList ⟨0, 0⟩], [], []⟩
    ((getTok 0 >>= fun k => k.findChild "B".toList) s).holds (fun o s' => o = some 2 ∧ s' = s) ∧
    ((getTok 0 >>= fun k => k.hasChild "C".toList) s).holds (fun b s' => b = false ∧ s' = s) := by
  decide +kernel

end Adx
