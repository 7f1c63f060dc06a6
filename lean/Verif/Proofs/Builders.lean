import Verif.Proofs.Rules
/-
  Reading with builders: the rules, for the builders themselves.
-/
namespace Adx.Read

open B

/-! ### Builders only add -/

section
variable {x : B MatcherId} {xs : List (B MatcherId)}

instance {s : String} : Adds (equals s) := adds_mk _
instance {n s : String} : Adds (equalsN n s) := adds_mk _
instance {r : Regex} : Adds (regex r) := adds_mk _
instance {n : String} {r : Regex} : Adds (regexN n r) := adds_mk _
instance {n a b e : String} : Adds (sequenceN n a b e) := adds_mk _
instance [AddsAll xs] : Adds (program xs) := inferInstanceAs (Adds (prog xs _ _ _ _))
instance {n : String} [AddsAll xs] : Adds (programN n xs) := inferInstanceAs (Adds (prog xs _ _ _ _))
instance [AddsAll xs] : Adds (switch xs) := inferInstanceAs (Adds (prog xs _ _ _ _))
instance {n : String} [AddsAll xs] : Adds (switchN n xs) := inferInstanceAs (Adds (prog xs _ _ _ _))
instance {lo hi : Bound} [AddsAll xs] : Adds (loop xs lo hi) := inferInstanceAs (Adds (prog xs _ _ _ _))
instance {n : String} {lo hi : Bound} [AddsAll xs] : Adds (loopN n xs lo hi) := inferInstanceAs (Adds (prog xs _ _ _ _))
instance [h : Adds x] : Adds (optional x) := adds_wrap h
instance [h : Adds x] : Adds (discard x) := adds_wrap h
instance [h : Adds x] : Adds (proxyChildren x) := adds_wrap (f := fun m => .proxyChildren m "Flatten".toList false) h
instance {sf : TokId → Ctx → SCtxId → M R} [h : Adds x] : Adds (map x sf) := adds_wrap (f := fun m => .map m sf passFailure) h
instance {msg : String} [h : Adds x] : Adds (fatalIf x msg) :=
  adds_wrap (f := fun m => .map m (fatalIfOk msg.toList) failureIsFine) h
instance {msg : String} [h : Adds x] : Adds (assertIf x msg) :=
  adds_wrap (f := fun m => .map m (assertIfOk msg.toList) failureIsFine) h
instance {n : String} [h : Adds x] : Adds (store n x) := adds_wrap (f := fun m => .store m n.toList true) h
instance {n : String} {f : Fetchable} [h : Adds x] : Adds (pinN n f x) := adds_wrap (f := fun m => .pin (some m) f n.toList true) h
instance {s : String} : Adds (ref s) := adds_mk _
instance {s : String} : Adds (brk s) := adds_mk _
instance : Adds pin := adds_mk _
instance {n : Node} : Adds (B.mk n) := adds_mk _
instance {f : MatcherId → Node} [h : Adds x] : Adds (do B.mk (f (← x))) := adds_wrap h

end

section
variable {E : Setting} {K K' K1 : Option Nat} {w w' u : Str} {g g' : Got} {x : B MatcherId} {xs : List (B MatcherId)}

theorem BReads.forget (h : BReads E K K' x w g) : BReads E K none x w g := by
  intro m hm c sc s hw hc hs
  obtain ⟨h1, h2, r, s', h3, h4, h5⟩ := h m hm c sc s hw hc hs
  exact ⟨h1, h2, r, s', h3, h4, h5.forget⟩

theorem BReads.any (h : BReads E none K' x w g) : BReads E K K' x w g :=
  fun m hm c sc s hw hc hs => h m hm c sc s hw hc hs.forget

theorem BReads.of_has (h : E.Has w → BReads E K K' x w g) : BReads E K K' x w g :=
  fun m hm c sc s hw hc hs => h hw m hm c sc s hw hc hs

theorem BReads.equals {s : String} {l : Str} (hs : s.toList = l := by rfl) (hl : l ≠ [] := by simp) :
    BReads E K K (B.equals s) (l ++ w) (.tok w (leafT E "Equals".toList (l ++ w) w)) := by
  subst hs
  exact fun m hm => reads_equals hm.mk (fun h => by cases h) hl

theorem BReads.equals_fail {s : String} {l : Str} (h : ¬ l <+: w) (hs : s.toList = l := by rfl) :
    BReads E K K (B.equals s) w .fail := by
  subst hs
  exact fun m hm => reads_equals_fail hm.mk (fun h => by cases h) h

theorem BReads.equalsN {n s : String} {l : Str} (hn : Free n := by decide) (hs : s.toList = l := by rfl) (hl : l ≠ [] := by simp) :
    BReads E K K (B.equalsN n s) (l ++ w) (.tok w (leafT E n.toList (l ++ w) w)) := by
  subst hs
  exact fun m hm => reads_equals hm.mk (fun _ => hn.names) hl

theorem BReads.equalsN_fail {n s : String} {l : Str} (h : ¬ l <+: w) (hn : Free n := by decide) (hs : s.toList = l := by rfl) :
    BReads E K K (B.equalsN n s) w .fail := by
  subst hs
  exact fun m hm => reads_equals_fail hm.mk (fun _ => hn.names) h

theorem BReads.regex {re : Regex} (hu : u ≠ []) (hf : re.find (u ++ w) = some (0, blen u)) :
    BReads E K K (B.regex re) (u ++ w) (.tok w (leafT E "Matches".toList (u ++ w) w)) :=
  fun _ hm => reads_regex hm.mk (fun h => by cases h) hu hf

theorem BReads.regex_empty {re : Regex} (hf : re.find w = some (0, 0)) : BReads E K K (B.regex re) w (.past w) :=
  fun _ hm => reads_regex_empty hm.mk (fun h => by cases h) hf

theorem BReads.regex_fail {re : Regex} (hf : ∀ n, re.find w ≠ some (0, n)) : BReads E K K (B.regex re) w .fail :=
  fun _ hm => reads_regex_fail hm.mk (fun h => by cases h) hf

theorem BReads.regexN {n : String} {re : Regex} (hu : u ≠ []) (hf : re.find (u ++ w) = some (0, blen u)) (hn : Free n := by decide) :
    BReads E K K (B.regexN n re) (u ++ w) (.tok w (leafT E n.toList (u ++ w) w)) :=
  fun _ hm => reads_regex hm.mk (fun _ => hn.names) hu hf

theorem BReads.regexN_empty {n : String} {re : Regex} (hf : re.find w = some (0, 0)) (hn : Free n := by decide) :
    BReads E K K (B.regexN n re) w (.past w) :=
  fun _ hm => reads_regex_empty hm.mk (fun _ => hn.names) hf

theorem BReads.regexN_fail {n : String} {re : Regex} (hf : ∀ n, re.find w ≠ some (0, n)) (hn : Free n := by decide) :
    BReads E K K (B.regexN n re) w .fail :=
  fun _ hm => reads_regex_fail hm.mk (fun _ => hn.names) hf

theorem BReads.sequenceN {n sa sz se : String} {a z e w1 raw val : Str} (hb : Body z e w1 raw val w) (hn : Free n := by decide)
    (ha : sa.toList = a := by rfl) (hz : sz.toList = z := by rfl) (he : se.toList = e := by rfl)
    (ha' : a ≠ [] := by simp) (hz' : z ≠ [] := by simp) :
    BReads E K K (B.sequenceN n sa sz se) (a ++ w1) (.tok w (delimT E n.toList (a ++ w1) w1 (z ++ w) w val)) := by
  subst ha hz he
  exact fun m hm => reads_sequence hm.mk (fun _ => hn.names) ha' hz' hb

theorem BReads.sequenceN_fail {n sa sz se : String} {a z e : Str} (hno : ∀ w1 raw val rest, w = a ++ w1 → ¬ Body z e w1 raw val rest)
    (hn : Free n := by decide) (ha : sa.toList = a := by rfl) (hz : sz.toList = z := by rfl) (he : se.toList = e := by rfl)
    (ha' : a ≠ [] := by simp) (hz' : z ≠ [] := by simp) : BReads E K K (B.sequenceN n sa sz se) w .fail := by
  subst ha hz he
  exact fun m hm => reads_sequence_fail hm.mk (fun _ => hn.names) ha' hz' hno

theorem BReads.program [AddsAll xs] {o : End} (hp : Pass E K xs (.start E w) o) (hg : ProgramGives E w "Program".toList o K' g) :
    BReads E K K' (B.program xs) w g := by
  intro m hm
  obtain ⟨ms, h1, h2⟩ := Is.prog hm
  exact reads_program h2 (fun h => by cases h) h1 hp hg

theorem BReads.programN {n : String} [AddsAll xs] {o : End} (hp : Pass E K xs (.start E w) o)
    (hg : ProgramGives E w n.toList o K' g) (hn : Free n := by decide) : BReads E K K' (B.programN n xs) w g := by
  intro m hm
  obtain ⟨ms, h1, h2⟩ := Is.prog hm
  exact reads_program h2 (fun _ => hn.names) h1 hp hg

theorem BReads.switch [AddsAll xs] (hp : Picks E w K xs K' g) : BReads E K K' (B.switch xs) w g := by
  intro m hm
  obtain ⟨ms, h1, h2⟩ := Is.prog hm
  exact reads_switch h2 (fun h => by cases h) h1 hp

theorem BReads.switchN {n : String} [AddsAll xs] (hp : Picks E w K xs K' g) (hn : Free n := by decide) :
    BReads E K K' (B.switchN n xs) w g := by
  intro m hm
  obtain ⟨ms, h1, h2⟩ := Is.prog hm
  exact reads_switch h2 (fun _ => hn.names) h1 hp

theorem range_room (lo : Bound) (h : (getRange lo .unbounded).1 ≤ 1) :
    isizeMax + (getRange lo .unbounded).1 < (getRange lo .unbounded).2 := by
  have : (getRange lo .unbounded).2 = usizeMax := rfl
  have h1 := usz
  have : 0 < isizeMax := by decide
  omega

theorem BReads.loop {lo : Bound} [AddsAll xs] {o : End} {r : Run} (hr : Rounds E xs K (.start E w) K1 r) (hp : Pass E K1 xs r o)
    (hg : LoopGives E w "Loop".toList o K' g) (hlo : (getRange lo .unbounded).1 ≤ 1 := by decide) :
    BReads E K K' (B.loop xs lo .unbounded) w g := by
  intro m hm
  obtain ⟨ms, h1, h2⟩ := Is.prog hm
  exact reads_loop h2 (fun h => by cases h) (range_room lo hlo) h1 hr hp hg

theorem BReads.loopN {n : String} {lo : Bound} [AddsAll xs] {o : End} {r : Run} (hr : Rounds E xs K (.start E w) K1 r)
    (hp : Pass E K1 xs r o) (hg : LoopGives E w n.toList o K' g) (hlo : (getRange lo .unbounded).1 ≤ 1 := by decide)
    (hn : Free n := by decide) : BReads E K K' (B.loopN n xs lo .unbounded) w g := by
  intro m hm
  obtain ⟨ms, h1, h2⟩ := Is.prog hm
  exact reads_loop h2 (fun _ => hn.names) (range_room lo hlo) h1 hr hp hg

theorem BReads.optional (h : BReads E K K' x w g) (hg : g.eager = true := by rfl) : BReads E K K' (B.optional x) w (g.opt w) := by
  intro m hm
  obtain ⟨b, h1, h2⟩ := Is.wrap hm
  exact reads_optional h2 (h b h1) hg

theorem BReads.discard (h : BReads E K K' x w g) (hg : g.plain = true := by rfl) : BReads E K K' (B.discard x) w g.dropped := by
  intro m hm
  obtain ⟨b, h1, h2⟩ := Is.wrap hm
  exact reads_discard h2 (h b h1) hg

theorem BReads.proxyChildren (h : BReads E K K' x w g) (hf : Flat E w g g') : BReads E K K' (B.proxyChildren x) w g' := by
  intro m hm
  obtain ⟨b, h1, h2⟩ := Is.wrap (f := fun m => .proxyChildren m "Flatten".toList false) hm
  exact reads_proxy h2 (fun h => by cases h) (h b h1) hf

theorem BReads.map {sf : TokId → Ctx → SCtxId → M R} {t : Tr} (h : BReads E K K1 x w (.tok w' t))
    (hsf : Calls E K1 K' sf w t g) (hg : g.Con w true := by trivial) : BReads E K K' (B.map x sf) w g := by
  intro m hm
  obtain ⟨b, h1, h2⟩ := Is.wrap (f := fun m => .map m sf passFailure) hm
  exact reads_map h2 (h b h1) hsf hg

theorem BReads.map_fail {sf : TokId → Ctx → SCtxId → M R} (h : BReads E K K' x w .fail) : BReads E K K' (B.map x sf) w .fail := by
  intro m hm
  obtain ⟨b, h1, h2⟩ := Is.wrap (f := fun m => .map m sf passFailure) hm
  exact reads_map_fail h2 (h b h1)

theorem BReads.map_fatal {sf : TokId → Ctx → SCtxId → M R} (h : BReads E K K' x w .fatal) : BReads E K K' (B.map x sf) w .fatal := by
  intro m hm
  obtain ⟨b, h1, h2⟩ := Is.wrap (f := fun m => .map m sf passFailure) hm
  exact reads_map_fatal h2 (h b h1)

theorem BReads.fatalIf {msg : String} (h : BReads E K K' x w .fail) : BReads E K K' (B.fatalIf x msg) w (.past w) := by
  intro m hm
  obtain ⟨b, h1, h2⟩ := Is.wrap (f := fun m => .map m (fatalIfOk msg.toList) failureIsFine) hm
  exact reads_map_fine h2 (h b h1)

theorem BReads.assertIf {msg : String} (h : BReads E K K' x w .fail) : BReads E K K' (B.assertIf x msg) w (.past w) := by
  intro m hm
  obtain ⟨b, h1, h2⟩ := Is.wrap (f := fun m => .map m (assertIfOk msg.toList) failureIsFine) hm
  exact reads_map_fine h2 (h b h1)

theorem BReads.mark : BReads E K (some (E.at_ w)) (store "AttributeStartOffset" B.pin) w .pin := by
  intro m hm
  obtain ⟨b, h1, h2⟩ := Is.wrap (f := fun m => .store m "AttributeStartOffset".toList true) hm
  exact reads_mark h2 h1.mk

theorem BReads.look {n : String} (hw' : E.Has w') (h : BReads E (some (E.at_ w')) K' x w' (.past w')) (hn : Free n := by decide) :
    BReads E (some (E.at_ w')) K' (pinN n (.fetch "AttributeStartOffset.range".toList) x) w (.past w) := by
  intro m hm
  obtain ⟨b, h1, h2⟩ := Is.wrap (f := fun m => .pin (some m) (.fetch "AttributeStartOffset.range".toList) n.toList true) hm
  exact reads_look h2 (fun _ => hn.names) hw' (h b h1)

theorem BReads.brk {s : String} : BReads E K K (B.brk s) w (.brk s.toList .none) :=
  fun _ hm => reads_brk hm.mk

end

end Adx.Read
