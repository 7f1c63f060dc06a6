import Verif.Proofs.TotalText
import Verif.Spec.Lax
/-
  Reading any text: what is read, and where it ends.  These are the rules of
  `Proofs/Total.lean`, with the rest of the text in what is known of the tokens.
-/
namespace Adx.Read

open B

/-- What is known when some matcher reads the text `w` up to a rest `w'`, with these tokens. -/
abbrev Rel := Str → Str → List Tr → Prop

/-- One after the other. -/
def Seq (N M : Rel) : Rel := fun w w' l => ∃ w1 l1 l2, l = l1 ++ l2 ∧ N w w1 l1 ∧ M w1 w' l2

/-- Nothing is read. -/
def Stop : Rel := fun w w' l => w' = w ∧ l = []

def Either (N M : Rel) : Rel := fun w w' l => N w w' l ∨ M w w' l

/-- The outcomes of matchers that consume: `N` is what is known of the rest and the tokens,
`X` what is known if there is nothing; with `strict`, skips are not empty. -/
inductive Comes (E : Setting) (strict : Bool) (w : Str) (N : Str → List Tr → Prop) (X : Prop) : Got → Prop
  | fail (h : X) : Comes E strict w N X .fail
  | fatal : Comes E strict w N X .fatal
  | past {w' : Str} (h : N w' []) (hs : strict = true → blen w' < blen w) : Comes E strict w N X (.past w')
  | tok {w' : Str} {t : Tr} (h : N w' [t]) : Comes E strict w N X (.tok w' t)
  | pin (h : N w []) (hs : strict = false) : Comes E strict w N X .pin

/-- Something comes out. -/
def Yields (E : Setting) (K : Option Nat) (strict : Bool) (x : B MatcherId) (w : Str) (N : Str → List Tr → Prop) (X : Prop) : Prop :=
  ∃ g, BReads E K K x w g ∧ g.Good E w ∧ Comes E strict w N X g

/-- What a program has read, while nothing is odd. -/
structure Neat (E : Setting) (w : Str) (a : Run) : Prop where
  ok : RunOk E w a
  sync : a.far = E.at_ a.rest
  tight : a.loose = false
  caps : a.caps = a.kids.map Tr.captured

section
variable {E : Setting} {K : Option Nat} {w w' : Str} {x : B MatcherId} {xs : List (B MatcherId)} {N M : Rel} {X : Prop} {strict : Bool}
  {a : Run} {g : Got}

theorem Comes.mono {N M : Str → List Tr → Prop} {X Y : Prop} (h : Comes E strict w N X g) (hN : ∀ w' l, N w' l → M w' l) (hX : X → Y) :
    Comes E strict w M Y g := by
  cases h with
  | fail h => exact .fail (hX h)
  | fatal => exact .fatal
  | past h hs => exact .past (hN _ _ h) hs
  | tok h => exact .tok (hN _ _ h)
  | pin h hs => exact .pin (hN _ _ h) hs

theorem Yields.mono' {N M : Str → List Tr → Prop} {X Y : Prop} (h : Yields E K strict x w N X) (hN : ∀ w' l, N w' l → M w' l) (hX : X → Y) :
    Yields E K strict x w M Y := by
  obtain ⟨g, h1, h2, h3⟩ := h
  exact ⟨g, h1, h2, h3.mono hN hX⟩

theorem Yields.mono {N M : Str → List Tr → Prop} {X : Prop} (h : Yields E K strict x w N X) (hN : ∀ w' l, N w' l → M w' l) :
    Yields E K strict x w M X := h.mono' hN id

theorem Yields.slack {N : Str → List Tr → Prop} {X : Prop} (h : Yields E K strict x w N X) : Yields E K false x w N X := by
  obtain ⟨g, h1, h2, h3⟩ := h
  refine ⟨g, h1, h2, ?_⟩
  cases h3 with
  | fail h => exact .fail h
  | fatal => exact .fatal
  | past h _ => exact .past h (fun h => by cases h)
  | tok h => exact .tok h
  | pin h _ => exact .pin h rfl

/-- What is known can be assumed to be about a good outcome. -/
theorem Yields.sfx {N : Str → List Tr → Prop} {X : Prop} (h : Yields E K strict x w N X) :
    Yields E K strict x w (fun w' l => N w' l ∧ w' <:+ w) X := by
  obtain ⟨g, h1, h2, h3⟩ := h
  refine ⟨g, h1, h2, ?_⟩
  cases h3 with
  | fail h => exact .fail h
  | fatal => exact .fatal
  | past h hs => exact .past ⟨h, h2⟩ hs
  | tok h => exact .tok ⟨h, h2.1⟩
  | pin h hs => exact .pin ⟨h, List.suffix_refl _⟩ hs

/-! ### Runs -/

theorem Neat.start (hw : E.Has w) : Neat E w (.start E w) := by
  have := Inv.start hw
  exact ⟨this.ok, this.sync, this.tight, rfl⟩

theorem Neat.past (hw : E.Has w) (h : Neat E w a) (hs : w' <:+ a.rest) : Neat E w (a.take E (.past w')) := by
  have h1 := (hw.tail h.ok.sfx).mono hs
  have := h.ok.grow (w1 := w') (f := E.at_ w') (ks := []) (cs := []) (hs.trans h.ok.sfx) (by rw [h.sync]; exact h1) (Nat.le_refl _)
    ((hw.tail h.ok.sfx).tail hs).le (fun _ h => by cases h) (fun _ h => by cases h) (fun h => (h rfl).elim)
  rw [List.append_nil, List.append_nil] at this
  exact ⟨this, rfl, h.tight, h.caps⟩

theorem Neat.tok (hw : E.Has w) (h : Neat E w a) {t : Tr} (hg : (Got.tok w' t).Good E a.rest) :
    Neat E w (a.take E (.tok w' t)) ∧ blen w' < blen a.rest := by
  obtain ⟨g1, g2, g3⟩ := hg
  have hr := hw.tail h.ok.sfx
  have h1 := hr.mono g1
  have h2 := hr.len
  have h3 := (hr.tail g1).len
  obtain ⟨f1, f2, f3, f4, f5⟩ := g3.facts
  have f1' := hw.mono h.ok.sfx
  rw [g2] at f2
  refine ⟨⟨h.ok.grow (ks := [t]) (cs := [t.captured]) (g1.trans h.ok.sfx) (by rw [h.sync]; exact h1) (Nat.le_refl _)
    (hr.tail g1).le ?_ ?_ ?_, rfl, h.tight, ?_⟩, ?_⟩
  · intro k hk _
    rw [List.mem_singleton.mp hk]
    exact (kids_ok g3 (by rw [g2])).mono f1' (Nat.le_refl _)
  · intro c hc
    rw [List.mem_singleton.mp hc]
    rw [g2] at f4
    exact f4
  · intro _
    exact Nat.lt_of_le_of_lt f1' f2
  · show a.caps ++ [t.captured] = (a.kids ++ [t]).map Tr.captured
    rw [h.caps, List.map_append]
    rfl
  · replace f2 : E.at_ a.rest < E.at_ w' := f2
    omega

theorem Neat.splice (hw : E.Has w) (h : Neat E w a) {t : Tr} (hg : (Got.splice w' t).Good E a.rest) :
    RunOk E w (a.take E (.splice w' t)) ∧ (a.take E (.splice w' t)).loose = false ∧ (a.take E (.splice w' t)).caps ≠ [] := by
  obtain ⟨g1, g2, g3, g4, ⟨l, g5, g6⟩, g7⟩ := hg
  have hr := hw.tail h.ok.sfx
  have h1 := hr.mono g1
  have h2 := hr.len
  have h3 := (hr.tail g1).len
  obtain ⟨f1, f2, f3, f4, f5⟩ := g3.facts
  have f1' := hw.mono h.ok.sfx
  rw [g2] at f2
  have hok : RunOk E w (a.take E (.splice w' t)) := by
    refine h.ok.grow (ks := t.kids) (cs := t.captured :: t.kids.map Tr.captured) (g1.trans h.ok.sfx) (by rw [h.sync]; omega) g4 f3 ?_ ?_ ?_
    · intro k hk hn
      exact (f5 k hk hn).mono f1' (Nat.le_refl _)
    · intro c hc
      rcases List.mem_cons.mp hc with rfl | hc
      · exact f4
      · obtain ⟨k, hk, rfl⟩ := List.mem_map.mp hc
        have := (f5 k hk (g7 k hk)).facts
        omega
    · intro _
      exact Nat.lt_of_le_of_lt f1' f2
  refine ⟨hok, h.tight, ?_⟩
  show a.caps ++ (t.captured :: t.kids.map Tr.captured) ≠ []
  simp

/-- Take up an outcome. -/
theorem Neat.comes {N : Str → List Tr → Prop} {X : Prop} (hw : E.Has w) (h : Neat E w a) (hg : g.Good E a.rest)
    (hn : Comes E strict a.rest N X g) :
    (g = .fail ∧ X) ∨ g = .fatal ∨ (g.taken = true ∧ Neat E w (a.take E g) ∧ (a.take E g).rest <:+ a.rest ∧
      (strict = true → blen (a.take E g).rest < blen a.rest) ∧
      ∃ l, (a.take E g).kids = a.kids ++ l ∧ N (a.take E g).rest l ∧ (l ≠ [] → blen (a.take E g).rest < blen a.rest)) := by
  cases hn with
  | fail h => exact Or.inl ⟨rfl, h⟩
  | fatal => exact Or.inr (Or.inl rfl)
  | past hN hs =>
    exact Or.inr (Or.inr ⟨rfl, h.past hw hg, hg, hs, [], (List.append_nil _).symm, hN, fun h => (h rfl).elim⟩)
  | @tok w' t hN =>
    obtain ⟨h1, h2⟩ := h.tok hw hg
    exact Or.inr (Or.inr ⟨rfl, h1, hg.1, fun _ => h2, [t], rfl, hN, fun _ => h2⟩)
  | pin hN hs =>
    exact Or.inr (Or.inr ⟨rfl, h, List.suffix_refl _, (fun h => by rw [hs] at h; cases h), [], (List.append_nil _).symm, hN,
      fun h => (h rfl).elim⟩)

/-! ### Programs -/

/-- Something comes out of each of the parts of a program, for rests of less than `n`
bytes; `M` is what is known of the tokens. -/
inductive Row (E : Setting) (K : Option Nat) : Nat → List (B MatcherId) → Rel → Prop
  | nil {n : Nat} : Row E K n [] Stop
  | cons {n : Nat} {x : B MatcherId} {xs : List (B MatcherId)} {N M : Rel} {X : Str → Prop}
      (h : ∀ w, E.Has w → blen w < n → Yields E K false x w (N w) (X w)) (h' : Row E K n xs M) : Row E K n (x :: xs) (Seq N M)
  | eat {n : Nat} {x : B MatcherId} {xs : List (B MatcherId)} {N M : Rel} {X : Str → Prop}
      (h : ∀ w, E.Has w → blen w < n + 1 → Yields E K true x w (N w) (X w)) (h' : Row E K n xs M) : Row E K (n + 1) (x :: xs) (Seq N M)

theorem Row.go {n : Nat} (h : Row E K n xs M) (hw : E.Has w) : ∀ {a : Run}, Neat E w a → blen a.rest < n →
    ∃ o, Pass E K xs a o ∧ match (generalizing := false) o with
      | .done K' a' => K' = K ∧ Neat E w a' ∧ a'.rest <:+ a.rest ∧ ∃ l, a'.kids = a.kids ++ l ∧ M a.rest a'.rest l ∧ (l ≠ [] → blen a'.rest < blen a.rest)
      | .fails K' a' => K' = K
      | .breaks .. => False
      | .fatal K' => K' = K := by
  induction h with
  | nil =>
    intro a ha hn
    exact ⟨_, .nil, rfl, ha, List.suffix_refl _, [], (List.append_nil _).symm, ⟨rfl, rfl⟩, fun h => (h rfl).elim⟩
  | @cons n x xs N M X hx _ ih =>
    intro a ha hn
    obtain ⟨g, h1, h2, h3⟩ := hx a.rest (hw.tail ha.ok.sfx) hn
    rcases ha.comes hw h2 h3 with ⟨rfl, -⟩ | rfl | ⟨ht, hi, hs, -, l, hl, hN, hlt⟩
    · exact ⟨_, .fail h1, rfl⟩
    · exact ⟨_, .fatal h1, rfl⟩
    · obtain ⟨o, h4, h5⟩ := ih hi (Nat.lt_of_le_of_lt (suffix_blen hs) hn)
      refine ⟨o, .cons h1 h4 ht ha.sync, ?_⟩
      cases o with
      | done K' a' =>
        obtain ⟨b1, b2, b3, l', b4, b5, b6⟩ := h5
        refine ⟨b1, b2, b3.trans hs, l ++ l', by rw [b4, hl, List.append_assoc], ⟨_, l, l', rfl, hN, b5⟩, fun hne => ?_⟩
        have := suffix_blen b3
        have := suffix_blen hs
        by_cases hl0 : l = []
        · by_cases hl1 : l' = []
          · rw [hl0, hl1] at hne
            exact (hne rfl).elim
          · have := b6 hl1
            omega
        · have := hlt hl0
          omega
      | fails K' a' => exact h5
      | breaks => exact h5.elim
      | fatal => exact h5
  | @eat n x xs N M X hx _ ih =>
    intro a ha hn
    obtain ⟨g, h1, h2, h3⟩ := hx a.rest (hw.tail ha.ok.sfx) hn
    rcases ha.comes hw h2 h3 with ⟨rfl, -⟩ | rfl | ⟨ht, hi, hs, hst, l, hl, hN, hlt⟩
    · exact ⟨_, .fail h1, rfl⟩
    · exact ⟨_, .fatal h1, rfl⟩
    · have hst := hst rfl
      obtain ⟨o, h4, h5⟩ := ih hi (by omega)
      refine ⟨o, .cons h1 h4 ht ha.sync, ?_⟩
      cases o with
      | done K' a' =>
        obtain ⟨b1, b2, b3, l', b4, b5, b6⟩ := h5
        refine ⟨b1, b2, b3.trans hs, l ++ l', by rw [b4, hl, List.append_assoc], ⟨_, l, l', rfl, hN, b5⟩, fun _ => ?_⟩
        have := suffix_blen b3
        omega
      | fails K' a' => exact h5
      | breaks => exact h5.elim
      | fatal => exact h5

/-- The parts are known everywhere. -/
theorem Row.free {n : Nat} {Y : Str → Prop} (h : ∀ w, E.Has w → Yields E K strict x w (N w) (Y w)) (h' : Row E K n xs M) : Row E K n (x :: xs) (Seq N M) :=
  .cons (fun w hw _ => (h w hw).slack) h'

theorem Neat.tree (h : Neat E w a) {name : Str} : a.tree E name w = nodeT E name w a.rest a.kids := by
  unfold Run.tree nodeT
  rw [h.caps, h.sync]

theorem Neat.gives (h : Neat E w a) {name : Str} : (a.kids = [] ∧ Gives E w name a .fail) ∨
    (a.kids ≠ [] ∧ Gives E w name a (.tok a.rest (nodeT E name w a.rest a.kids)) ∧
      (Got.tok a.rest (nodeT E name w a.rest a.kids)).Good E w) := by
  by_cases h1 : a.kids = []
  · exact Or.inl ⟨h1, .nothing (Or.inl h1)⟩
  · have h2 : a.caps ≠ [] := by
      rw [h.caps]
      simpa using h1
    have := Gives.tok (E := E) (name := name) h1 h2 h.tight h.ok.sfx h.sync
    have h4 := this.good h.ok
    rw [h.tree] at this h4
    exact Or.inr ⟨h1, this, h4⟩

/-- A token of a program. -/
def Nodes (E : Setting) (n : String) (w : Str) (M : Str → List Tr → Prop) : Str → List Tr → Prop :=
  fun w' l => ∃ ks, l = [nodeT E n.toList w w' ks] ∧ ks ≠ [] ∧ M w' ks

theorem Yields.programN {n : String} [AddsAll xs] {b : Nat} (h : Row E K b xs M) (hw : E.Has w) (hb : blen w < b)
    (hn : Free n := by decide) : Yields E K true (programN n xs) w (Nodes E n w (M w)) True := by
  obtain ⟨o, h1, h2⟩ := h.go hw (.start hw) hb
  cases o with
  | done K' a =>
    obtain ⟨rfl, h3, h4, l, h5, h6, h7⟩ := h2
    rcases h3.gives (name := n.toList) with ⟨-, h8⟩ | ⟨h8, h9, h10⟩
    · exact ⟨_, .programN h1 (.done h8) hn, trivial, .fail trivial⟩
    · replace h5 : a.kids = l := h5
      subst h5
      exact ⟨_, .programN h1 (.done h9) hn, h10, .tok ⟨_, rfl, h8, h6⟩⟩
  | fails K' a =>
    obtain rfl := h2
    exact ⟨_, .programN h1 .fails hn, trivial, .fail trivial⟩
  | breaks => exact h2.elim
  | fatal K' =>
    obtain rfl := h2
    exact ⟨_, .programN h1 .fatal hn, trivial, .fatal⟩

/-! ### Loops -/

/-- The breaks of a loop. -/
inductive Exit (E : Setting) (w : Str) (name : Str) (L : Str → List Tr → Prop) : Got → Prop
  | past {m w' : Str} (hm : m = name ∨ m = []) (h : L w' []) : Exit E w name L (.brk m (.past w'))
  | splice {m w' : Str} {t : Tr} (hm : m = name ∨ m = []) (h : L w' t.kids) (hs : t.matched.stop = E.at_ w') :
      Exit E w name L (.brk m (.splice w' t))

/-- Something comes out, perhaps a break. -/
def YieldsB (E : Setting) (K : Option Nat) (strict : Bool) (name : Str) (x : B MatcherId) (w : Str) (N L : Str → List Tr → Prop) (X : Prop) : Prop :=
  ∃ g, BReads E K K x w g ∧ g.Good E w ∧ (Comes E strict w N X g ∨ Exit E w name L g)

/-- No break. -/
def Never : Str → List Tr → Prop := fun _ _ => False

theorem Yields.turn {name : Str} {N L : Str → List Tr → Prop} {X : Prop} (h : Yields E K strict x w N X) : YieldsB E K strict name x w N L X := by
  obtain ⟨g, h1, h2, h3⟩ := h
  exact ⟨g, h1, h2, Or.inl h3⟩

theorem YieldsB.mono {name : Str} {N L N' L' : Str → List Tr → Prop} {X X' : Prop} (h : YieldsB E K strict name x w N L X)
    (hN : ∀ w' l, N w' l → N' w' l) (hL : ∀ w' l, L w' l → L' w' l) (hX : X → X') : YieldsB E K strict name x w N' L' X' := by
  obtain ⟨g, h1, h2, h3⟩ := h
  refine ⟨g, h1, h2, h3.imp (fun h => h.mono hN hX) fun h => ?_⟩
  cases h with
  | past hm h => exact .past hm (hL _ _ h)
  | splice hm h hs => exact .splice hm (hL _ _ h) hs

/-- The parts of a round; with `true`, some part moves on.  `D`, `F` and `B` are what is
known when the round is done, fails, or breaks. -/
inductive Lap (E : Setting) (K : Option Nat) (n : Nat) (name : Str) : Bool → List (B MatcherId) → Rel → Rel → Rel → Prop
  | nil : Lap E K n name false [] Stop (fun _ => Never) (fun _ => Never)
  | cons {s s' : Bool} {x : B MatcherId} {xs : List (B MatcherId)} {N L D F B : Rel} {X : Str → Prop}
      (h : ∀ w, E.Has w → blen w < n → YieldsB E K s name x w (N w) (L w) (X w))
      (h' : Lap E K n name s' xs D F B) : Lap E K n name (s || s') (x :: xs) (Seq N D)
        (fun w w' l => (X w ∧ Stop w w' l) ∨ Seq N F w w' l) (fun w w' l => L w w' l ∨ Seq N B w w' l)

/-- What a loop has collected in the end. -/
structure Kept (E : Setting) (w : Str) (a : Run) : Prop where
  ok : RunOk E w a
  sync : a.far = E.at_ a.rest
  tight : a.loose = false
  caps : a.kids ≠ [] → a.caps ≠ []

theorem Neat.kept (h : Neat E w a) : Kept E w a := ⟨h.ok, h.sync, h.tight, fun hk => by rw [h.caps]; simpa using hk⟩

/-- How a round ends. -/
def RoundEnds (E : Setting) (K : Option Nat) (w name : Str) (strict : Bool) (D F B : Rel) (a : Run) : End → Prop
  | .done K' a' => K' = K ∧ Neat E w a' ∧ a'.rest <:+ a.rest ∧ (strict = true → blen a'.rest < blen a.rest) ∧
      ∃ l, a'.kids = a.kids ++ l ∧ D a.rest a'.rest l
  | .fails K' a' => K' = K ∧ Kept E w a' ∧ ∃ l, a'.kids = a.kids ++ l ∧ F a.rest a'.rest l
  | .breaks K' m g a' => K' = K ∧ (m = name ∨ m = []) ∧ Kept E w (a'.take E g) ∧
      ∃ l, (a'.take E g).kids = a.kids ++ l ∧ B a.rest (a'.take E g).rest l
  | .fatal K' => K' = K

theorem Lap.go {n : Nat} {name : Str} {D F B : Rel} (h : Lap E K n name strict xs D F B) (hw : E.Has w) : ∀ {a : Run}, Neat E w a → blen a.rest < n →
    ∃ o, Pass E K xs a o ∧ RoundEnds E K w name strict D F B a o := by
  induction h with
  | nil =>
    intro a ha hn
    exact ⟨_, .nil, rfl, ha, List.suffix_refl _, (fun h => by cases h), [], (List.append_nil _).symm, rfl, rfl⟩
  | @cons s s' x xs N L D F B X hx _ ih =>
    intro a ha hn
    obtain ⟨g, h1, h2, h3⟩ := hx a.rest (hw.tail ha.ok.sfx) hn
    rcases h3 with h3 | h3
    · rcases ha.comes hw h2 h3 with ⟨rfl, hX⟩ | rfl | ⟨ht, hi, hs, hst, l, hl, hN, hlt⟩
      · exact ⟨_, .fail h1, rfl, ha.kept, [], (List.append_nil _).symm, Or.inl ⟨hX, rfl, rfl⟩⟩
      · exact ⟨_, .fatal h1, rfl⟩
      · obtain ⟨o, h4, h5⟩ := ih hi (Nat.lt_of_le_of_lt (suffix_blen hs) hn)
        refine ⟨o, .cons h1 h4 ht ha.sync, ?_⟩
        cases o with
        | done K' a' =>
          obtain ⟨b1, b2, b3, b4, l', b5, b6⟩ := h5
          refine ⟨b1, b2, b3.trans hs, fun hst' => ?_, l ++ l', by rw [b5, hl, List.append_assoc], _, l, l', rfl, hN, b6⟩
          have := suffix_blen b3
          have := suffix_blen hs
          rcases (Bool.or_eq_true _ _).mp hst' with h | h
          · have := hst h
            omega
          · have := b4 h
            omega
        | fails K' a' =>
          obtain ⟨b1, b2, l', b5, b6⟩ := h5
          exact ⟨b1, b2, l ++ l', by rw [b5, hl, List.append_assoc], Or.inr ⟨_, l, l', rfl, hN, b6⟩⟩
        | breaks K' m g' a' =>
          obtain ⟨b1, b2, b3, l', b5, b6⟩ := h5
          exact ⟨b1, b2, b3, l ++ l', by rw [b5, hl, List.append_assoc], Or.inr ⟨_, l, l', rfl, hN, b6⟩⟩
        | fatal => exact h5
    · cases h3 with
      | @past m w' hm hL =>
        exact ⟨_, .brk h1 rfl ha.sync, rfl, hm, (ha.past hw h2).kept, [], (List.append_nil _).symm, Or.inl hL⟩
      | @splice m w' t hm hL hs =>
        obtain ⟨a1, a2, a3⟩ := ha.splice hw h2
        exact ⟨_, .brk h1 rfl ha.sync, rfl, hm, ⟨a1, hs, a2, fun _ => a3⟩, t.kids, rfl, Or.inl hL⟩

/-- Rounds, up to one that fails or breaks. -/
inductive Laps (D F B : Rel) : Rel
  | fail {w w' : Str} {l : List Tr} (h : F w w' l) : Laps D F B w w' l
  | brk {w w' : Str} {l : List Tr} (h : B w w' l) : Laps D F B w w' l
  | next {w w1 w' : Str} {l1 l2 : List Tr} (h : D w w1 l1) (hs : blen w1 < blen w) (hr : Laps D F B w1 w' l2) : Laps D F B w w' (l1 ++ l2)

theorem Laps.fold {D F B P : Rel} (hF : ∀ w w' l, F w w' l → P w w' l) (hB : ∀ w w' l, B w w' l → P w w' l)
    (hD : ∀ w w1 w' l1 l2, D w w1 l1 → P w1 w' l2 → P w w' (l1 ++ l2)) {l : List Tr} (h : Laps D F B w w' l) : P w w' l := by
  induction h with
  | fail h => exact hF _ _ _ h
  | brk h => exact hB _ _ _ h
  | next h _ _ ih => exact hD _ _ _ _ _ h ih

theorem Lap.rounds {n : Nat} {name : Str} {D F B : Rel} (h : Lap E K n name true xs D F B) (hw : E.Has w) : ∀ (b : Nat) {a : Run}, Neat E w a →
    blen a.rest < n → blen a.rest ≤ b → ∃ r o, Rounds E xs K a K r ∧ Pass E K xs r o ∧
      match (generalizing := false) o with
      | .done .. => False
      | .fails K' a' => K' = K ∧ Kept E w a' ∧ ∃ l, a'.kids = a.kids ++ l ∧ Laps D F B a.rest a'.rest l
      | .breaks K' m g a' => K' = K ∧ (m = name ∨ m = []) ∧ Kept E w (a'.take E g) ∧
          ∃ l, (a'.take E g).kids = a.kids ++ l ∧ Laps D F B a.rest (a'.take E g).rest l
      | .fatal K' => K' = K := by
  intro b
  induction b with
  | zero =>
    intro a ha hn hb
    obtain ⟨o, h1, h2⟩ := h.go hw ha hn
    refine ⟨_, o, .zero, h1, ?_⟩
    cases o with
    | done K' a' =>
      have := h2.2.2.2.1 rfl
      omega
    | fails =>
      obtain ⟨b1, b2, l, b3, b4⟩ := h2
      exact ⟨b1, b2, l, b3, .fail b4⟩
    | breaks =>
      obtain ⟨b1, b2, b3, l, b4, b5⟩ := h2
      exact ⟨b1, b2, b3, l, b4, .brk b5⟩
    | fatal => exact h2
  | succ b ih =>
    intro a ha hn hb
    obtain ⟨o, h1, h2⟩ := h.go hw ha hn
    cases o with
    | done K' a' =>
      obtain ⟨rfl, h3, h4, h5, l, h6, h7⟩ := h2
      have h5 := h5 rfl
      obtain ⟨r, o, c1, c2, c3⟩ := ih h3 (by omega) (by omega)
      refine ⟨r, o, .next h1 h5 c1, c2, ?_⟩
      cases o with
      | done => exact c3
      | fails =>
        obtain ⟨b1, b2, l', b3, b4⟩ := c3
        exact ⟨b1, b2, l ++ l', by rw [b3, h6, List.append_assoc], .next h7 h5 b4⟩
      | breaks =>
        obtain ⟨b1, b2, b3, l', b4, b5⟩ := c3
        exact ⟨b1, b2, b3, l ++ l', by rw [b4, h6, List.append_assoc], .next h7 h5 b5⟩
      | fatal => exact c3
    | fails =>
      obtain ⟨b1, b2, l, b3, b4⟩ := h2
      exact ⟨_, _, .zero, h1, b1, b2, l, b3, .fail b4⟩
    | breaks =>
      obtain ⟨b1, b2, b3, l, b4, b5⟩ := h2
      exact ⟨_, _, .zero, h1, b1, b2, b3, l, b4, .brk b5⟩
    | fatal => exact ⟨_, _, .zero, h1, h2⟩

/-- A token of a loop. -/
def blockT (E : Setting) (n : Str) (c : Range) (w w' : Str) (ks : List Tr) : Tr := .node ⟨n, c, ⟨E.at_ w, E.at_ w'⟩, none, [], 0⟩ ks

/-- What comes out of a loop. -/
inductive Heap (E : Setting) (w : Str) (name : Str) (M : Str → List Tr → Prop) : Got → Prop
  | fail {w' : Str} (h : M w' []) : Heap E w name M .fail
  | fatal : Heap E w name M .fatal
  | tok {w' : Str} {c : Range} {ks : List Tr} (h : M w' ks) (hne : ks ≠ []) : Heap E w name M (.tok w' (blockT E name c w w' ks))

theorem Heap.mono {name : Str} {M M' : Str → List Tr → Prop} (h : Heap E w name M g) (hM : ∀ w' l, M w' l → M' w' l) : Heap E w name M' g := by
  cases h with
  | fail h => exact .fail (hM _ _ h)
  | fatal => exact .fatal
  | tok h hne => exact .tok (hM _ _ h) hne

theorem Lap.gives {n : Nat} {name : Str} {D F B : Rel} (h : Lap E K n name true xs D F B) (hw : E.Has w) (hn : blen w < n) :
    ∃ r o g, Rounds E xs K (.start E w) K r ∧ Pass E K xs r o ∧ LoopGives E w name o K g ∧ g.Good E w ∧ Heap E w name (Laps D F B w) g := by
  obtain ⟨r, o, h1, h2, h3⟩ := h.rounds hw (blen w) (.start hw) hn (Nat.le_refl _)
  have key : ∀ a : Run, Kept E w a → Laps D F B w a.rest a.kids → ∃ g, Gives E w name a g ∧ g.Good E w ∧ Heap E w name (Laps D F B w) g := by
    intro a ha hl
    by_cases h1 : a.kids = []
    · rw [h1] at hl
      exact ⟨_, .nothing (Or.inl h1), trivial, .fail hl⟩
    · have := Gives.tok (E := E) (name := name) h1 (ha.caps h1) ha.tight ha.ok.sfx ha.sync
      have h4 := this.good ha.ok
      refine ⟨_, this, h4, ?_⟩
      have h5 : a.tree E name w = blockT E name (span a.caps) w a.rest a.kids := by
        unfold Run.tree blockT
        rw [ha.sync]
      rw [h5]
      exact .tok hl h1
  cases o with
  | done => exact h3.elim
  | fails K' a =>
    obtain ⟨rfl, h4, l, h5, h6⟩ := h3
    replace h5 : a.kids = l := h5
    subst h5
    obtain ⟨g, h5, h6, h7⟩ := key a h4 h6
    exact ⟨r, _, g, h1, h2, .fails h5, h6, h7⟩
  | breaks K' m g' a =>
    obtain ⟨rfl, hm, h4, l, h5, h6⟩ := h3
    replace h5 : (a.take E g').kids = l := h5
    subst h5
    obtain ⟨g, h5, h6, h7⟩ := key _ h4 h6
    exact ⟨r, _, g, h1, h2, .breaks hm h5, h6, h7⟩
  | fatal K' =>
    obtain rfl := h3
    exact ⟨r, _, _, h1, h2, .fatal, trivial, .fatal⟩

theorem Lap.loop {n : Nat} {D F B : Rel} [AddsAll xs] (h : Lap E K n "Loop".toList true xs D F B) (hw : E.Has w) (hn : blen w < n) :
    ∃ g, BReads E K K (loop xs) w g ∧ g.Good E w ∧ Heap E w "Loop".toList (Laps D F B w) g := by
  obtain ⟨r, o, g, h1, h2, h3, h4, h5⟩ := h.gives hw hn
  exact ⟨g, .loop h1 h2 h3, h4, h5⟩

theorem Lap.loopN {n : Nat} {name : String} {lo : Bound} {D F B : Rel} [AddsAll xs] (h : Lap E K n name.toList true xs D F B) (hw : E.Has w)
    (hn : blen w < n) (hlo : (getRange lo .unbounded).1 ≤ 1 := by decide) (hf : Free name := by decide) :
    ∃ g, BReads E K K (Adx.B.loopN name xs lo .unbounded) w g ∧ g.Good E w ∧ Heap E w name.toList (Laps D F B w) g := by
  obtain ⟨r, o, g, h1, h2, h3, h4, h5⟩ := h.gives hw hn
  exact ⟨g, .loopN h1 h2 h3 hlo hf, h4, h5⟩

/-- A loop as a part of a program. -/
theorem Heap.yields {name : Str} {M : Str → List Tr → Prop} (hx : BReads E K K x w g) (hg : g.Good E w) (h : Heap E w name M g) :
    Yields E K true x w (fun w' l => ∃ c ks, l = [blockT E name c w w' ks] ∧ ks ≠ [] ∧ M w' ks) (∃ w', M w' []) := by
  refine ⟨g, hx, hg, ?_⟩
  cases h with
  | fail h => exact .fail ⟨_, h⟩
  | fatal => exact .fatal
  | tok h hne => exact .tok ⟨_, _, rfl, hne, h⟩

/-- The children of a loop in place of it. -/
inductive Strewn (E : Setting) (w : Str) (M : Str → List Tr → Prop) : Got → Prop
  | fail : Strewn E w M .fail
  | fatal : Strewn E w M .fatal
  | splice {t : Tr} {w' w'' : Str} (h : M w' t.kids) (hne : t.kids ≠ []) (hs : t.matched.stop = E.at_ w') (hw : w' <:+ w) :
      Strewn E w M (.splice w'' t)

theorem Heap.splice (hw : E.Has w) {name : Str} {M : Str → List Tr → Prop} (hx : BReads E K K x w g) (hg : g.Good E w) (h : Heap E w name M g)
    (hq : ∀ w' l, M w' l → ∀ k ∈ l, k.name ≠ errorName) : ∃ g, BReads E K K (proxyChildren x) w g ∧ g.Good E w ∧ Strewn E w M g := by
  cases h with
  | fail => exact ⟨_, .proxyChildren hx .fail, trivial, .fail⟩
  | fatal => exact ⟨_, .proxyChildren hx .fatal, trivial, .fatal⟩
  | @tok w' c ks h hne =>
    have hq' : ∀ k ∈ (blockT E name c w w' ks).kids, k.name ≠ errorName := hq _ _ h
    obtain ⟨w'', k, h1, h2, h3, h4⟩ := kids_end hw hg hne hq'
    exact ⟨_, .proxyChildren hx (.tok h1 h2 h3 h4 hq'), splice_good hw hg h1 h2 h3 h4 hq', .splice h hne rfl hg.1⟩

/-- A program that ends with such a loop. -/
theorem Yields.group {n : Str} {x y : B MatcherId} [Adds x] [Adds y] {N : Str → List Tr → Prop} {X : Prop} {M : Rel} (hw : E.Has w)
    (hx : Yields E K true x w N X)
    (hy : ∀ w', E.Has w' → blen w' < blen w → ∃ g, BReads E K K y w' g ∧ g.Good E w' ∧ Strewn E w' (M w') g) :
    ∃ o g, Pass E K [x, y] (.start E w) o ∧ ProgramGives E w n o K g ∧ g.Good E w ∧
      Comes E true w (fun w' l => ∃ c ks, l = [blockT E n c w w' ks] ∧ ∃ w1 l1 l2, ks = l1 ++ l2 ∧ N w1 l1 ∧ M w1 w' l2) True g := by
  obtain ⟨g, h1, h2, h3⟩ := hx
  have hi := Neat.start hw
  rcases hi.comes hw (show g.Good E (Run.start E w).rest from h2) h3 with ⟨rfl, -⟩ | rfl | ⟨ht, hi, hs, hst, l, hl, hN, hlt⟩
  · exact ⟨_, _, .fail h1, .fails, trivial, .fail trivial⟩
  · exact ⟨_, _, .fatal h1, .fatal, trivial, .fatal⟩
  · obtain ⟨g', h4, h5, h6⟩ := hy _ (hw.tail hs) (hst rfl)
    cases h6 with
    | fail => exact ⟨_, _, .cons h1 (.fail h4) ht, .fails, trivial, .fail trivial⟩
    | fatal => exact ⟨_, _, .cons h1 (.fatal h4) ht, .fatal, trivial, .fatal⟩
    | @splice t w' w'' h6 hne hst' hsw =>
      obtain ⟨a1, a2, a3⟩ := hi.splice hw h5
      have hp : Pass E K [x, y] (.start E w) (.done K (((Run.start E w).take E g).take E (.splice w'' t))) :=
        .cons h1 (.cons h4 .nil rfl hi.sync) ht
      have hk : (((Run.start E w).take E g).take E (.splice w'' t)).kids = l ++ t.kids := by
        rw [show (((Run.start E w).take E g).take E (.splice w'' t)).kids = ((Run.start E w).take E g).kids ++ t.kids from rfl, hl]
        rfl
      have hf : (((Run.start E w).take E g).take E (.splice w'' t)).far = E.at_ w' := hst'
      have hG := Gives.tok (E := E) (name := n) (r := ((Run.start E w).take E g).take E (.splice w'' t)) (w := w) (w' := w')
        (by rw [hk]; simp [hne]) a3 a2 (hsw.trans hs) hf
      have hgood := hG.good a1
      have h5 : (((Run.start E w).take E g).take E (.splice w'' t)).tree E n w
          = blockT E n (span (((Run.start E w).take E g).take E (.splice w'' t)).caps) w w' (l ++ t.kids) := by
        unfold Run.tree blockT
        rw [hf, hk]
      refine ⟨_, _, hp, .done hG, hgood, ?_⟩
      rw [h5]
      exact .tok ⟨_, _, rfl, _, l, t.kids, rfl, hN, h6⟩

/-! ### Alternatives -/

/-- Something comes out of the first of these. -/
def YieldsP (E : Setting) (K : Option Nat) (name : Str) (xs : List (B MatcherId)) (w : Str) (N L : Str → List Tr → Prop) (X : Prop) : Prop :=
  ∃ g, Picks E w K xs K g ∧ g.Good E w ∧ (Comes E true w N X g ∨ Exit E w name L g)

theorem YieldsP.nil {name : Str} {N L : Str → List Tr → Prop} : YieldsP E K name [] w N L True := ⟨_, .nil, trivial, Or.inl (.fail trivial)⟩

theorem YieldsP.cons {name : Str} {N L : Str → List Tr → Prop} {X Y : Prop} (h : YieldsB E K true name x w N L X) (h' : YieldsP E K name xs w N L Y) :
    YieldsP E K name (x :: xs) w N L (X ∧ Y) := by
  obtain ⟨g, h1, h2, h3⟩ := h
  rcases h3 with h3 | h3
  · cases h3 with
    | fail hX =>
      obtain ⟨g', h4, h5, h6⟩ := h'
      exact ⟨g', .next h1 h4, h5, h6.imp_left fun h => h.mono (fun _ _ h => h) fun hY => ⟨hX, hY⟩⟩
    | fatal => exact ⟨_, .fatal h1, h2, Or.inl .fatal⟩
    | past hN hs => exact ⟨_, .here h1 (hs rfl), h2, Or.inl (.past hN hs)⟩
    | tok hN => exact ⟨_, .here h1 trivial, h2, Or.inl (.tok hN)⟩
    | pin _ hs => cases hs
  · refine ⟨g, .here h1 ?_, h2, Or.inr h3⟩
    cases h3 <;> trivial

theorem YieldsP.switchB {name : Str} {N L : Str → List Tr → Prop} {X : Prop} [AddsAll xs] (h : YieldsP E K name xs w N L X) :
    YieldsB E K true name (B.switch xs) w N L X := by
  obtain ⟨g, h1, h2, h3⟩ := h
  exact ⟨g, .switch h1, h2, h3⟩

theorem Exit.never {name : Str} (h : Exit E w name Never g) : False := by
  cases h <;> assumption

theorem YieldsP.switch {name : Str} {N : Str → List Tr → Prop} {X : Prop} [AddsAll xs] (h : YieldsP E K name xs w N Never X) :
    Yields E K true (B.switch xs) w N X := by
  obtain ⟨g, h1, h2, h3⟩ := h
  exact ⟨g, .switch h1, h2, h3.resolve_right Exit.never⟩

theorem YieldsP.switchN {name : Str} {n : String} {N : Str → List Tr → Prop} {X : Prop} [AddsAll xs] (h : YieldsP E K name xs w N Never X)
    (hn : Free n := by decide) : Yields E K true (B.switchN n xs) w N X := by
  obtain ⟨g, h1, h2, h3⟩ := h
  exact ⟨g, .switchN h1 hn, h2, h3.resolve_right Exit.never⟩

/-! ### Wrappers -/

theorem Yields.optional {N : Str → List Tr → Prop} {X : Prop} (h : Yields E K strict x w N X) (hN : X → N w []) :
    Yields E K false (optional x) w N False := by
  obtain ⟨g, h1, h2, h3⟩ := h
  cases h3 with
  | fail hX => exact ⟨_, .optional h1, List.suffix_refl _, .past (hN hX) (fun h => by cases h)⟩
  | fatal => exact ⟨_, .optional h1, h2, .fatal⟩
  | past hN hs => exact ⟨_, .optional h1, h2, .past hN (fun h => by cases h)⟩
  | tok hN => exact ⟨_, .optional h1, h2, .tok hN⟩
  | pin hN hs => exact ⟨_, .optional h1, h2, .pin hN rfl⟩

/-! ### Callbacks -/

/-- A callback that gives the token of a program a value and attributes. -/
theorem Yields.map {N : Str → List Tr → Prop} {X : Prop} {sf : TokId → Ctx → SCtxId → Adx.M R} {P : Str → Tr → Option Str → AMap Str → Prop}
    (hx : ∃ g, BReads E K K x w g ∧ g.Good E w ∧ Comes E true w N X g)
    (hpast : ∀ w', ¬ N w' [])
    (hsf : ∀ w' t, N w' [t] → t.name ≠ errorName ∧ ∃ v as, P w' t v as ∧ ∀ (c : Ctx) (sc : SCtxId) (s : State) (i : TokId) (k : Token), E.Has w →
      s.toks[i]? = some k → k.info = t.info → Plain E k → Reps E s.toks (i + 1) k.children t.kids →
      sf i c sc s = .ok (.ok (.token i)) (s.put i { k with value := v, attributes := as })) :
    Yields E K true (B.map x sf) w (fun w' l => ∃ t v as, l = [.node { t.info with value := v, attributes := as } t.kids] ∧ N w' [t] ∧ P w' t v as) X := by
  obtain ⟨g, h1, h2, h3⟩ := hx
  cases h3 with
  | fail hX => exact ⟨_, .map_fail h1, trivial, .fail hX⟩
  | fatal => exact ⟨_, .map_fatal h1, trivial, .fatal⟩
  | past hN _ => exact (hpast _ hN).elim
  | @tok w' t hN =>
    obtain ⟨hnm, v, as, hP, hv⟩ := hsf w' t hN
    refine ⟨_, .map (g := .tok w' _) h1 (Calls.retag (v := v) (as := as) h2.1 h2.2.1 hnm
      (fun c sc s i k hw hk hi hp hr => hv c sc s i k hw hk hi hp hr)) rfl, ⟨h2.1, h2.2.1, ?_⟩, .tok ⟨t, v, as, rfl, hN, hP⟩⟩
    obtain ⟨-, -, h4⟩ := h2
    cases h4 with
    | node a1 a2 a3 a4 hk => exact .node a1 a2 a3 a4 hk
  | pin _ hs => cases hs

end

end Adx.Read
