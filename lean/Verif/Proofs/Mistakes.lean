import Verif.Proofs.ScriptDefs
/-
  Reading with builders: the rules for error tokens and for errors of the whole parse.
-/
namespace Adx.Read

open B

section
variable {E : Setting} {K K' K1 : Option Nat} {w w' : Str} {msg : Str} {r : Range} {x : B MatcherId} {t : Tr}

/-- The message of an error token. -/
def errorMsg (E : Setting) (msg : Str) (r : Range) : Str := ((Ctx.new E.p 0 []).errorString msg r).getD []

/-- An error token. -/
def errorT (E : Setting) (msg : Str) (r : Range) : Tr :=
  .node ⟨errorName, r, r, none, [("__message".toList, errorMsg E msg r)], IS_ERROR⟩ []

theorem errorString_eq {c : Ctx} (hc : c.parser = E.p) (h1 : r.start ≤ blen E.p.src) (h2 : r.stop ≤ blen E.p.src) :
    c.errorString msg r = some (errorMsg E msg r) := by
  have he : c.errorString msg r = (Ctx.new E.p 0 []).errorString msg r := by
    unfold Ctx.errorString Ctx.getLines Ctx.getColumns
    rw [hc]
    rfl
  rw [he]
  unfold errorMsg
  cases h : (Ctx.new E.p 0 []).errorString msg r with
  | none => exact (errorString_some (p := False) (P := E.p) rfl (.of_ascii E.ascii h1) (.of_ascii E.ascii h2) h).elim
  | some v => rfl

/-- A new error token. -/
theorem newError_run (hE : E.errs = true) {c : Ctx} (hc : c.parser = E.p) (h1 : r.start ≤ blen E.p.src) (h2 : r.stop ≤ blen E.p.src)
    {s : State} {lo : Nat} (hlo : lo ≤ s.toks.length) :
    ∃ s', newErrorTokenWithRange c msg r s = .ok s.toks.length s' ∧ Reps E s'.toks lo [s.toks.length] [errorT E msg r] ∧
      ∀ {K sc}, Scoped E K sc s → Scoped E K sc s' := by
  have he := errorString_eq (msg := msg) hc h1 h2
  let k : Token := ((Token.mk' E.p "Error".toList r).setAttribute "__message".toList (errorMsg E msg r)).enableFlags IS_ERROR
  refine ⟨{ s with toks := s.toks ++ [k] }, ?_, ?_, fun h => h.grow⟩
  · unfold newErrorTokenWithRange
    refine bind_ok.mpr ⟨_, _, ofOpt_ok.mpr ⟨he, rfl⟩, newTok_ok.mpr ⟨rfl, ?_⟩⟩
    rw [hc]
  · have hf : (0 : Flags) ||| IS_ERROR = IS_ERROR := by decide
    refine Reps.of_root hlo List.getElem?_concat_length ⟨rfl, Or.inr ⟨hE, ⟨hf, rfl, rfl, rfl⟩⟩, rfl, rfl, rfl, h1, h2⟩ ?_ .nil
    show Info.mk errorName r r none _ ((0 : Flags) ||| IS_ERROR) = _
    rw [hf]
    rfl

theorem calls_assert (hE : E.errs = true) (hs : w' <:+ w) (hm : t.matched = ⟨E.at_ w, E.at_ w'⟩) :
    Calls E K K (assertIfOk msg) w t (.tok w' (errorT E msg ⟨E.at_ w, E.at_ w'⟩)) := by
  intro c sc s lo i hw hc hS hr hok
  obtain ⟨k, hl, hk, hp, hi, hch⟩ := hr.root
  have hkm : k.matched = ⟨E.at_ w, E.at_ w'⟩ := (congrArg Info.matched hi).trans hm
  obtain ⟨f1, f2, f3, f4, f5⟩ := hok.facts
  rw [hm] at f2 f3
  have hlen : lo ≤ s.toks.length := Nat.le_of_lt (Nat.lt_of_le_of_lt hl (List.getElem?_eq_some_iff.mp hk).1)
  obtain ⟨s', h1, h2, h3⟩ := newError_run (msg := msg) hE hc.parser (r := ⟨E.at_ w, E.at_ w'⟩) hw.le f3 hlen
  refine ⟨⟨hs, rfl, .node (Nat.le_refl _) f2 f3 (Nat.le_of_lt f2) (fun _ h => by cases h)⟩, _, _, ?_, .ok (.tok h2), h3 hS⟩
  unfold assertIfOk
  rw [bind_run (getTok_ok.mpr ⟨hk, rfl⟩), hkm, bind_run h1]
  rfl

theorem calls_fatal (hm : t.matched = ⟨E.at_ w, E.at_ w'⟩) :
    Calls E K K (fatalIfOk msg) w t .fatal := by
  intro c sc s lo i hw hc hS hr hok
  obtain ⟨k, hl, hk, hp, hi, hch⟩ := hr.root
  have hkm : k.matched = ⟨E.at_ w, E.at_ w'⟩ := (congrArg Info.matched hi).trans hm
  obtain ⟨f1, f2, f3, f4, f5⟩ := hok.facts
  rw [hm] at f2 f3
  refine ⟨trivial, .err (.error ⟨errorMsg E msg ⟨E.at_ w, E.at_ w'⟩, some ⟨E.at_ w, E.at_ w'⟩⟩), s, ?_, .fatal, hS⟩
  · unfold fatalIfOk
    rw [bind_run (getTok_ok.mpr ⟨hk, rfl⟩), hkm,
      bind_run (ofOpt_ok.mpr ⟨errorString_eq (msg := msg) hc.parser (r := ⟨E.at_ w, E.at_ w'⟩) hw.le f3, rfl⟩)]
    rfl

theorem reads_map_past {m b : MatcherId} {sf : TokId → Ctx → SCtxId → M R} {ff : Failure → Ctx → SCtxId → M R} (hm : E.T m = .map b sf ff)
    (h : Reads E K K' b w (.past w')) : Reads E K K' m w (.past w') := by
  intro c sc s hw hc hs
  obtain ⟨h1, h2, r, s1, h3, h4, h5⟩ := h c sc s hw hc hs
  cases h4 with
  | ok h4 => cases h4 with
    | past h4 =>
      exact ⟨h1, by rw [hm]; exact Or.inl rfl, _, _, (C41_map hm).mpr (Or.inr (Or.inr ⟨h3, ⟨_, rfl⟩, (fun _ h => by cases h), (fun _ h => by cases h)⟩)),
        .ok (.past h4), h5⟩

theorem BReads.map_past {sf : TokId → Ctx → SCtxId → M R} (h : BReads E K K' x w (.past w')) : BReads E K K' (B.map x sf) w (.past w') := by
  intro m hm
  obtain ⟨b, h1, h2⟩ := Is.wrap (f := fun m => .map m sf passFailure) hm
  exact reads_map_past h2 (h b h1)

theorem BReads.assertIf_past {msg : String} (h : BReads E K K' x w (.past w')) : BReads E K K' (B.assertIf x msg) w (.past w') := by
  intro m hm
  obtain ⟨b, h1, h2⟩ := Is.wrap (f := fun m => .map m (assertIfOk msg.toList) failureIsFine) hm
  exact reads_map_past h2 (h b h1)

theorem BReads.fatalIf_past {msg : String} (h : BReads E K K' x w (.past w')) : BReads E K K' (B.fatalIf x msg) w (.past w') := by
  intro m hm
  obtain ⟨b, h1, h2⟩ := Is.wrap (f := fun m => .map m (fatalIfOk msg.toList) failureIsFine) hm
  exact reads_map_past h2 (h b h1)

theorem BReads.assertIf_hit (hE : E.errs = true) {msg : String} (h : BReads E K K' x w (.tok w' t)) (hs : w' <:+ w)
    (hm : t.matched = ⟨E.at_ w, E.at_ w'⟩) :
    BReads E K K' (B.assertIf x msg) w (.tok w' (errorT E msg.toList ⟨E.at_ w, E.at_ w'⟩)) := by
  intro m hx
  obtain ⟨b, h1, h2⟩ := Is.wrap (f := fun m => .map m (assertIfOk msg.toList) failureIsFine) hx
  exact reads_map h2 (h b h1) (calls_assert hE hs hm) rfl

theorem BReads.fatalIf_hit {msg : String} (h : BReads E K K' x w (.tok w' t)) (hm : t.matched = ⟨E.at_ w, E.at_ w'⟩) :
    BReads E K K' (B.fatalIf x msg) w .fatal := by
  intro m hx
  obtain ⟨b, h1, h2⟩ := Is.wrap (f := fun m => .map m (fatalIfOk msg.toList) failureIsFine) hx
  exact reads_map h2 (h b h1) (calls_fatal hm) trivial

/-- Looking again at the place of the pin, and finding an error there. -/
theorem reads_look_note {m b : MatcherId} {name : Str} {cu : Bool} {w1 : Str}
    (hm : E.T m = .pin (some b) (.fetch "AttributeStartOffset.range".toList) name cu)
    (hn : cu = true → E.Names m name) (hw' : E.Has w') (h : Reads E (some (E.at_ w')) K' b w' (.tok w1 t)) (ht : t.name = errorName) :
    Reads E (some (E.at_ w')) K' m w (.note t) := by
  intro c sc s hw hc hs
  have hs1 := hs.enter (m := m) (by rw [hm]; exact hn)
  obtain ⟨i, k, a1, a2, -, a4⟩ := hs1.pin _ rfl
  rw [entered_toks] at a2
  obtain ⟨h1, h2, r, s1, h3, h4, h5⟩ := h { c with offset := k.matched } sc _ hw' ⟨hc.parser, a4, hc.debug⟩ hs1
  have hle := hw'.le
  have hsm := E.small
  have husz := usz
  have hm' : E.T m = .pin (some b) (.fetch ("AttributeStartOffset".toList ++ ".range".toList)) name cu := by
    rw [hm]
    rfl
  refine ⟨⟨ht, h1.2.2.facts.2.1⟩, by rw [hm]; rfl, r, s1, (C29_stored_range hm' (here_small hw hc) (by decide) a1 a2 ?_ ?_).mpr h3, ?_, h5⟩
  · rw [a4, u64]
    show E.at_ w' < _
    omega
  · rw [a4, u64]
    show blen E.p.src < _
    omega
  · rw [entered_toks] at h4
    cases h4 with
    | ok h4 => cases h4 with
      | tok h4 => exact .ok (.note h4)

theorem BReads.look_note {n : String} {w1 : Str} (hw' : E.Has w') (h : BReads E (some (E.at_ w')) K' x w' (.tok w1 t)) (ht : t.name = errorName)
    (hn : Free n := by decide) :
    BReads E (some (E.at_ w')) K' (pinN n (.fetch "AttributeStartOffset.range".toList) x) w (.note t) := by
  intro m hm
  obtain ⟨b, h1, h2⟩ := Is.wrap (f := fun m => .pin (some m) (.fetch "AttributeStartOffset.range".toList) n.toList true) hm
  exact reads_look_note h2 (fun _ => hn.names) hw' (h b h1) ht

end

end Adx.Read
