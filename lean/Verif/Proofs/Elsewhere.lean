import Verif.Spec.Elsewhere
import Verif.Props.Relocate
import Verif.Props.Compile
/-
  Scripts are compiled in every world as in each part of it.
-/
namespace Adx.Reloc

variable {ρ : Reloc}

/-! ### Matchers -/

theorem Nodes.refl_new {ns ns' : List Node} (h : ρ.Nodes ns ns') : ρ.mat ns.length = ns'.length := h.new 0

theorem Nodes.appends {ns ns' ys ys' : List Node} (h : ρ.Nodes ns ns') (hy : List.Forall₂ (ρ.NodeMoved True) ys ys') :
    ρ.Nodes (ns ++ ys) (ns' ++ ys') := by
  have hl : ys.length = ys'.length := hy.length_eq
  refine ⟨?_, ?_, ?_, ?_⟩
  · intro m n hm
    by_cases hlt : m < ns.length
    · rw [List.getElem?_append_left hlt] at hm
      obtain ⟨n', h1, h2⟩ := h.found m n hm
      exact ⟨n', by rw [List.getElem?_append_left (List.getElem?_eq_some_iff.mp h1).1]; exact h1, h2⟩
    · obtain ⟨i, rfl⟩ := Nat.exists_eq_add_of_le (Nat.le_of_not_lt hlt)
      rw [List.getElem?_append_right (Nat.le_add_right _ _), Nat.add_sub_cancel_left] at hm
      rw [h.new i, List.getElem?_append_right (Nat.le_add_right _ _), Nat.add_sub_cancel_left]
      have hi := (List.getElem?_eq_some_iff.mp hm).1
      refine ⟨ys'[i], List.getElem?_eq_getElem (by omega), ?_⟩
      have := hy.get hi (by omega)
      rw [(List.getElem?_eq_some_iff.mp hm).2.symm]
      exact this
  · intro m hm
    have hlt := List.getElem?_eq_none_iff.mp hm
    rw [List.length_append] at hlt
    obtain ⟨i, rfl⟩ := Nat.exists_eq_add_of_le (Nat.le_trans (Nat.le_add_right _ _) hlt)
    rw [h.new i]
    apply List.getElem?_eq_none
    rw [List.length_append, ← hl]
    exact Nat.add_le_add_left (Nat.le_of_add_le_add_left hlt) _
  · intro i
    rw [List.length_append, List.length_append, ← hl, Nat.add_assoc, h.new]
    exact (Nat.add_assoc _ _ _).symm
  · have := h.le
    rw [List.length_append, List.length_append]
    omega

theorem Nodes.snoc {ns ns' : List Node} (h : ρ.Nodes ns ns') {n n' : Node} (hn : ρ.NodeMoved True n n') :
    ρ.Nodes (ns ++ [n]) (ns' ++ [n']) := h.appends (.cons hn .nil)

theorem Nodes.set (hi : Function.Injective ρ.mat) {ns ns' : List Node} (h : ρ.Nodes ns ns') {n n' : Node}
    (hn : ρ.NodeMoved True n n') (m : MatcherId) : ρ.Nodes (ns.set m n) (ns'.set (ρ.mat m) n') := by
  refine ⟨?_, ?_, ?_, ?_⟩
  · intro i x hx
    rw [List.getElem?_set] at hx ⊢
    by_cases hmi : m = i
    · subst hmi
      rw [if_pos rfl] at hx ⊢
      split at hx
      · rename_i hlt
        cases hx
        obtain ⟨_, h1, -⟩ := h.found m _ (List.getElem?_eq_getElem hlt)
        rw [if_pos (List.getElem?_eq_some_iff.mp h1).1]
        exact ⟨n', rfl, hn⟩
      · cases hx
    · rw [if_neg hmi] at hx
      rw [if_neg (fun he => hmi (hi he))]
      exact h.found i x hx
  · intro i hx
    have := h.absent i (by simpa using hx)
    simpa using this
  · intro i
    rw [List.length_set, List.length_set]
    exact h.new i
  · rw [List.length_set, List.length_set]
    exact h.le

theorem Nodes.moved {ns ns' : List Node} (h : ρ.Nodes ns ns') : ρ.Moved True (tableOf ns) (tableOf ns') := by
  intro m
  unfold tableOf
  cases hm : ns[m]? with
  | none =>
    rw [h.absent m hm]
    exact .null
  | some n =>
    obtain ⟨n', h1, h2⟩ := h.found m n hm
    rw [h1]
    exact h2

/-! ### Builders of the script grammar -/

/-- The second builder does what the first does, elsewhere. -/
def BMove (ρ : Reloc) {α β : Type} (V : α → β → Prop) (x : B α) (x' : B β) : Prop :=
  ∀ ns ns', ρ.Nodes ns ns' → V (x.run ns).1 (x'.run ns').1 ∧ ρ.Nodes (x.run ns).2 (x'.run ns').2

namespace BMove
variable {α β γ δ : Type} {V : α → β → Prop} {W : γ → δ → Prop}

theorem pure {a : α} {b : β} (h : V a b) : ρ.BMove V (Pure.pure a : B α) (Pure.pure b : B β) := fun _ _ hn => ⟨h, hn⟩

theorem bind {x : B α} {x' : B β} {f : α → B γ} {f' : β → B δ} (h : ρ.BMove V x x')
    (hf : ∀ a b, V a b → ρ.BMove W (f a) (f' b)) : ρ.BMove W (x >>= f) (x' >>= f') := by
  intro ns ns' hn
  obtain ⟨h1, h2⟩ := h ns ns' hn
  exact hf _ _ h1 _ _ h2

theorem mk {n n' : Node} (h : ρ.NodeMoved True n n') : ρ.BMove (fun m m' => m' = ρ.mat m) (B.mk n) (B.mk n') :=
  fun _ _ hn => ⟨hn.refl_new.symm, hn.snoc h⟩

end BMove

/-- A builder of a matcher that does the same everywhere. -/
abbrev BSame (ρ : Reloc) (x : B MatcherId) : Prop := ρ.BMove (fun m m' => m' = ρ.mat m) x x

/-- A list of such builders. -/
def BSames (ρ : Reloc) (xs : List (B MatcherId)) : Prop := ∀ x ∈ xs, ρ.BSame x

theorem BSames.mapM {xs : List (B MatcherId)} (h : ρ.BSames xs) :
    ρ.BMove (fun l l' => l' = l.map ρ.mat) (xs.mapM id) (xs.mapM id) := by
  induction xs with
  | nil => rw [List.mapM_nil]; exact .pure rfl
  | cons x xs ih =>
    rw [List.mapM_cons]
    refine (h x (by simp)).bind fun a b hab => (ih fun y hy => h y (by simp [hy])).bind fun l l' hl => .pure ?_
    rw [hab, hl]
    rfl

namespace BSame

theorem leaf {n : Node} (h : ρ.NodeMoved True n n) : ρ.BSame (B.mk n) := .mk h

theorem one {x : B MatcherId} {f : MatcherId → Node} (hx : ρ.BSame x)
    (hf : ∀ m, ρ.NodeMoved True (f m) (f (ρ.mat m))) : ρ.BSame (do B.mk (f (← x))) :=
  BMove.bind hx fun a b hab => by subst hab; exact .mk (hf a)

theorem many {xs : List (B MatcherId)} {n : Str} {c : Bool} {i : Option (Nat × Nat)} {f : Bool}
    (hx : ρ.BSames xs) : ρ.BSame (do let ps ← xs.mapM id; B.mk (.program ps n c i f)) :=
  BMove.bind hx.mapM fun a b hab => by subst hab; exact .mk .program

theorem nil' : ρ.BSames ([] : List (B MatcherId)) := by simp [BSames]

theorem cons' {p : B MatcherId} {ps : List (B MatcherId)} (hp : ρ.BSame p) (hs : ρ.BSames ps) : ρ.BSames (p :: ps) := by
  intro q hq
  rcases List.mem_cons.mp hq with rfl | hq
  · exact hp
  · exact hs q hq

theorem regexN {n : String} {r : Regex} : ρ.BSame (B.regexN n r) := leaf .regex
theorem regex {r : Regex} : ρ.BSame (B.regex r) := leaf .regex
theorem equalsN {n s : String} : ρ.BSame (B.equalsN n s) := leaf .equals
theorem equals {s : String} : ρ.BSame (B.equals s) := leaf .equals
theorem equalsFetch {s : String} : ρ.BSame (B.equalsFetch s) := leaf .equals
theorem sequenceN {n a b e : String} : ρ.BSame (B.sequenceN n a b e) := leaf .sequence
theorem sequence {a b e : String} : ρ.BSame (B.sequence a b e) := leaf .sequence
theorem ref {s : String} : ρ.BSame (B.ref s) := leaf .ref
theorem brk {s : String} : ρ.BSame (B.brk s) := leaf .brk
theorem null : ρ.BSame B.null := leaf .null
theorem pin : ρ.BSame B.pin := leaf .pin
theorem error {s : String} : ρ.BSame (B.error s) := leaf .error
theorem panic {s : String} : ρ.BSame (B.panic s) := leaf .panic
theorem programN {n : String} {ps : List (B MatcherId)} (hp : ρ.BSames ps) : ρ.BSame (B.programN n ps) := many hp
theorem program {ps : List (B MatcherId)} (hp : ρ.BSames ps) : ρ.BSame (B.program ps) := many hp
theorem switchN {n : String} {ps : List (B MatcherId)} (hp : ρ.BSames ps) : ρ.BSame (B.switchN n ps) := many hp
theorem switch {ps : List (B MatcherId)} (hp : ρ.BSames ps) : ρ.BSame (B.switch ps) := many hp
theorem loopN {n : String} {ps : List (B MatcherId)} {a b : Bound} (hp : ρ.BSames ps) :
    ρ.BSame (B.loopN n ps a b) := many hp
theorem loop {ps : List (B MatcherId)} {a b : Bound} (hp : ρ.BSames ps) : ρ.BSame (B.loop ps a b) := many hp
theorem optional {m : B MatcherId} (hm : ρ.BSame m) : ρ.BSame (B.optional m) := one hm fun _ => .optional
theorem not {m : B MatcherId} (hm : ρ.BSame m) : ρ.BSame (B.not m) := one hm fun _ => .not
theorem discard {m : B MatcherId} (hm : ρ.BSame m) : ρ.BSame (B.discard m) := one hm fun _ => .discard
theorem proxyChildren {m : B MatcherId} (hm : ρ.BSame m) : ρ.BSame (B.proxyChildren m) :=
  one hm fun _ => .proxyChildren
theorem store {n : String} {m : B MatcherId} (hm : ρ.BSame m) : ρ.BSame (B.store n m) := one hm fun _ => .store
theorem pinN {n : String} {f : Fetchable} (hf : ρ.arg f = f) {m : B MatcherId} (hm : ρ.BSame m) :
    ρ.BSame (B.pinN n f m) := by
  refine one hm fun m => ?_
  have : ρ.NodeMoved True (.pin (some m) f n.toList true) (.pin ((some m).map ρ.mat) (ρ.arg f) n.toList true) := .pin
  rwa [hf] at this

/-- A `Map!` whose callbacks do the same everywhere. -/
theorem mapped (hi : ρ.Inj) {m : B MatcherId} {sf ff} (hm : ρ.BSame m)
    (hp : ∀ i, (Node.map i sf ff).Portable) : ρ.BSame (do B.mk (.map (← m) sf ff)) :=
  one hm fun i => .map (hp i ρ True hi).1 (hp i ρ True hi).2

theorem fatalIf (hi : ρ.Inj) {msg : String} {m : B MatcherId} (hm : ρ.BSame m) : ρ.BSame (B.fatalIf m msg) :=
  mapped hi hm fun _ => C48_fatal_if _ _
theorem assertIf (hi : ρ.Inj) {msg : String} {m : B MatcherId} (hm : ρ.BSame m) : ρ.BSame (B.assertIf m msg) :=
  mapped hi hm fun _ => C48_assert_if _ _

/-- Walk through a builder. -/
local macro "bwalk" : tactic => `(tactic| repeat' first
  | with_reducible assumption
  | with_reducible exact nil'
  | with_reducible apply cons'
  | with_reducible apply programN
  | with_reducible apply program
  | with_reducible apply switchN
  | with_reducible apply switch
  | with_reducible apply loopN
  | with_reducible apply loop
  | with_reducible apply optional
  | with_reducible apply discard
  | with_reducible apply proxyChildren
  | with_reducible apply store
  | with_reducible apply pinN rfl
  | with_reducible apply fatalIf
  | with_reducible apply assertIf
  | with_reducible exact regexN
  | with_reducible exact regex
  | with_reducible exact equalsN
  | with_reducible exact equals
  | with_reducible exact equalsFetch
  | with_reducible exact sequenceN
  | with_reducible exact sequence
  | with_reducible exact ref
  | with_reducible exact brk
  | with_reducible exact null
  | with_reducible exact pin
  | with_reducible exact error
  | with_reducible exact panic)

theorem ws0 : ρ.BSame Script.ws0 := discard regexN
theorem wsn0 : ρ.BSame Script.wsn0 := discard regexN
theorem identifier {n : String} : ρ.BSame (Script.identifier n) := regexN
theorem string {n : String} : ρ.BSame (Script.string n) := sequenceN
theorem comment : ρ.BSame Script.comment := regexN

section
variable (hi : ρ.Inj) (u : Uni)
include hi

theorem repeatSpecifier : ρ.BSame (Script.repeatSpecifier u) := by
  have h1 := ws0 (ρ := ρ)
  unfold Script.repeatSpecifier Script.repeatRange Script.repeatZeroOrMore Script.repeatOneOrMore
  bwalk

omit u in
theorem matcher : ρ.BSame Script.matcher := by
  have h1 := ws0 (ρ := ρ)
  have h2 := wsn0 (ρ := ρ)
  have h4 := fun n => string (ρ := ρ) (n := n)
  have h5 := fun n => identifier (ρ := ρ) (n := n)
  have hr : ρ.BSame Script.regexMatcher := by
    unfold Script.regexMatcher B.map
    refine mapped hi ?_ Script.portable_regex
    bwalk
  unfold Script.matcher Script.equalsMatcher Script.sequenceMatcher Script.customMatcher
  bwalk
  all_goals first | exact h4 _ | exact h5 _

theorem attributes : ρ.BSame (Script.attributes u) := by
  have h1 := ws0 (ρ := ρ)
  have h2 := wsn0 (ρ := ρ)
  unfold Script.attributes Script.attribute_ Script.string
  bwalk

theorem patternDefinition : ρ.BSame (Script.patternDefinition u) := by
  have h1 := matcher hi
  have h2 := attributes hi u
  have h3 := repeatSpecifier hi u
  have h4 := ws0 (ρ := ρ)
  have h5 := wsn0 (ρ := ρ)
  unfold Script.patternDefinition B.map
  refine mapped hi ?_ Script.portable_definition
  bwalk

theorem pattern : ρ.BSame (Script.pattern u) := by
  have h1 := patternDefinition hi u
  have h4 := ws0 (ρ := ρ)
  have h5 := wsn0 (ρ := ρ)
  unfold Script.pattern Script.matcherName Script.string
  bwalk

theorem programMatcher : ρ.BSame (Script.programMatcher u) := by
  have h1 := pattern hi u
  have h4 := ws0 (ρ := ρ)
  have h5 := wsn0 (ρ := ρ)
  unfold Script.programMatcher
  bwalk

theorem switchMatcher : ρ.BSame (Script.switchMatcher u) := by
  have h1 := pattern hi u
  have h4 := ws0 (ρ := ρ)
  have h5 := wsn0 (ρ := ρ)
  unfold Script.switchMatcher
  bwalk

theorem patternScope : ρ.BSame (Script.patternScope u) := by
  have h1 := pattern hi u
  have h4 := ws0 (ρ := ρ)
  have h5 := wsn0 (ρ := ρ)
  have h6 := comment (ρ := ρ)
  unfold Script.patternScope B.map
  refine mapped hi ?_ Script.portable_scope
  bwalk

theorem adextopaScope : ρ.BSame (Script.adextopaScope u) := by
  have h1 := patternDefinition hi u
  have h2 := attributes hi u
  have h4 := ws0 (ρ := ρ)
  have h5 := wsn0 (ρ := ρ)
  have h6 := comment (ρ := ρ)
  have h3 : ρ.BSame (do B.mk (.pin (some (← B.equals "-->")) (.str []) "Pin".toList false)) :=
    one equals fun _ => .pin
  unfold Script.adextopaScope B.map Script.importStatement Script.assignmentExpression Script.string Script.identifier
  refine mapped hi ?_ Script.portable_header
  bwalk
  exact leaf .pin

theorem script : ρ.BSame (Script.script u) := by
  have h1 := adextopaScope hi u
  have h2 := patternScope hi u
  have h4 := ws0 (ρ := ρ)
  have h5 := wsn0 (ρ := ρ)
  have h6 := comment (ρ := ρ)
  unfold Script.script B.map
  refine mapped hi ?_ Script.portable_script
  bwalk

end

end BSame

/-! ### Steps of the builder of scripts -/

/-- The second outcome is the first but for places. -/
def CSame (ρ : Reloc) {α β : Type} (V : α → β → Prop) : CRes α → CRes β → Prop
  | .ok a ns, x => ∃ b ns', x = .ok b ns' ∧ V a b ∧ ρ.Nodes ns ns'
  | .err e, x => x = .err e
  | .panic e, x => x = .panic e
  | .diverge, x => x = .diverge

/-- The second step does with the tokens `toks'` what the first does with `toks`. -/
def CMove (ρ : Reloc) (toks toks' : List Token) {α β : Type} (V : α → β → Prop) (x : C α) (x' : C β) : Prop :=
  ∀ ns ns', ρ.Nodes ns ns' → ρ.CSame V (x toks ns) (x' toks' ns')

/-- There is a tree of at most the given depth below the token. -/
def Low (toks : List Token) : Nat → TokId → Prop
  | 0, _ => False
  | d + 1, t => ∃ k, toks[t]? = some k ∧ ∀ c ∈ k.children, Low toks d c

theorem Low.succ {toks : List Token} : ∀ {d : Nat} {t : TokId}, Low toks d t → Low toks (d + 1) t
  | 0, _, h => h.elim
  | _ + 1, _, ⟨k, hk, hc⟩ => ⟨k, hk, fun c h => (hc c h).succ⟩

theorem Low.mono {toks : List Token} {d d' : Nat} {t : TokId} (h : Low toks d t) (hd : d ≤ d') : Low toks d' t := by
  induction hd with
  | refl => exact h
  | step _ ih => exact ih.succ

theorem Low.prefix {toks toks' : List Token} (hp : toks <+: toks') : ∀ {d : Nat} {t : TokId}, Low toks d t → Low toks' d t
  | 0, _, h => h.elim
  | _ + 1, t, ⟨k, hk, hc⟩ => by
    refine ⟨k, ?_, fun c h => (hc c h).prefix hp⟩
    obtain ⟨y, rfl⟩ := hp
    rw [List.getElem?_append_left (List.getElem?_eq_some_iff.mp hk).1]
    exact hk

theorem Low.of_tree {toks : List Token} : ∀ {d : Nat} {t : TokId}, (treeOf toks d t).isSome → Low toks d t
  | 0, _, h => by cases h
  | d + 1, t, h => by
    unfold treeOf at h
    cases hk : toks[t]? with
    | none => rw [hk] at h; cases h
    | some k =>
      rw [hk] at h
      dsimp only at h
      refine ⟨k, hk, fun c hc => Low.of_tree ?_⟩
      cases hm : k.children.mapM (treeOf toks d) with
      | none => rw [hm] at h; cases h
      | some ts =>
        clear h hk
        generalize k.children = cs at hc hm
        induction cs generalizing ts with
        | nil => cases hc
        | cons x xs ih =>
          rw [List.mapM_cons] at hm
          cases hx : treeOf toks d x with
          | none => rw [hx] at hm; cases hm
          | some tx =>
            rw [hx] at hm
            rcases List.mem_cons.mp hc with rfl | hc
            · rw [hx]; rfl
            · cases hxs : xs.mapM (treeOf toks d) with
              | none => rw [hxs] at hm; cases hm
              | some l => exact ih _ hc hxs

namespace CMove
variable {toks toks' : List Token} {α β γ δ : Type} {V : α → β → Prop} {W : γ → δ → Prop}

theorem pure {a : α} {b : β} (h : V a b) : ρ.CMove toks toks' V (Pure.pure a : C α) (Pure.pure b : C β) :=
  fun _ ns' hn => ⟨b, ns', rfl, h, hn⟩

theorem err {e : Str} : ρ.CMove toks toks' V (C.err e : C α) (C.err e : C β) := fun _ _ _ => rfl

theorem panic {e : String} : ρ.CMove toks toks' V (C.panic e : C α) (C.panic e : C β) := fun _ _ _ => rfl

theorem bind {x : C α} {x' : C β} {f : α → C γ} {f' : β → C δ} (h : ρ.CMove toks toks' V x x')
    (hf : ∀ a b, V a b → ρ.CMove toks toks' W (f a) (f' b)) : ρ.CMove toks toks' W (x >>= f) (x' >>= f') := by
  intro ns ns' hn
  have := h ns ns' hn
  show ρ.CSame W (C.bind' x f toks ns) (C.bind' x' f' toks' ns')
  unfold C.bind'
  cases hx : x toks ns with
  | ok a ms =>
    rw [hx] at this
    obtain ⟨b, ms', h1, h2, h3⟩ := this
    rw [h1]
    exact hf a b h2 ms ms' h3
  | err e => rw [hx] at this; rw [this]; exact rfl
  | panic e => rw [hx] at this; rw [this]; exact rfl
  | diverge => rw [hx] at this; rw [this]; exact rfl

theorem ite {c : Prop} [Decidable c] {x y : C α} {x' y' : C β} (h : c → ρ.CMove toks toks' V x x')
    (h' : ¬ c → ρ.CMove toks toks' V y y') : ρ.CMove toks toks' V (if c then x else y) (if c then x' else y') := by
  by_cases hc : c
  · rw [if_pos hc, if_pos hc]; exact h hc
  · rw [if_neg hc, if_neg hc]; exact h' hc

theorem ofOpt {e : String} {o : Option α} : ρ.CMove toks toks' Eq (C.ofOpt e o) (C.ofOpt e o) := by
  cases o with
  | none => exact panic
  | some a => exact pure rfl

theorem ofOptMap {e : String} {o : Option α} {f : α → β} :
    ρ.CMove toks toks' (fun x y => o = some x ∧ y = f x) (C.ofOpt e o) (C.ofOpt e (o.map f)) := by
  cases o with
  | none => exact panic
  | some a => exact pure ⟨rfl, rfl⟩

theorem mk {n n' : Node} (h : ρ.NodeMoved True n n') :
    ρ.CMove toks toks' (fun m m' => m' = ρ.mat m) (C.mk n) (C.mk n') :=
  fun ns ns' hn => ⟨ns'.length, ns' ++ [n'], rfl, hn.refl_new.symm, hn.snoc h⟩

theorem child {k : Token} {i : Nat} :
    ρ.CMove toks toks' (fun x y => x ∈ k.children ∧ y = ρ.tok x) (C.child k i) (C.child (ρ.token k) i) := by
  unfold C.child
  have : (ρ.token k).children[i]? = k.children[i]?.map ρ.tok := by simp [Reloc.token]
  rw [this]
  intro ns ns' hn
  cases hc : k.children[i]? with
  | none => exact rfl
  | some c => exact ⟨_, ns', rfl, ⟨List.mem_of_getElem? hc, rfl⟩, hn⟩

theorem parseUsize {s : Str} : ρ.CMove toks toks' Eq (C.parseUsize s) (C.parseUsize s) := by
  unfold C.parseUsize
  split
  · exact pure rfl
  · exact err

/-! Renaming a matcher -/

/-- The name is passed on that many times. -/
def Passed (ns : List Node) : Nat → MatcherId → Prop
  | 0, m => ns[m]?.bind Node.namePassedTo = none
  | j + 1, m => ∃ m', ns[m]?.bind Node.namePassedTo = some m' ∧ Passed ns j m'

theorem Passed.unique {ns : List Node} : ∀ {i j : Nat} {m : MatcherId}, Passed ns i m → Passed ns j m → i = j
  | 0, 0, _, _, _ => rfl
  | 0, _ + 1, _, h, ⟨_, h', _⟩ => by rw [show _ = none from h] at h'; cases h'
  | _ + 1, 0, _, ⟨_, h', _⟩, h => by rw [show _ = none from h] at h'; cases h'
  | i + 1, j + 1, _, ⟨_, h1, h2⟩, ⟨_, h3, h4⟩ => by
    rw [h1] at h3
    cases h3
    rw [h2.unique h4]

theorem Passed.path {ns : List Node} : ∀ {j : Nat} {m : MatcherId}, Passed ns j m →
    ∃ l : List Nat, l.length = j ∧ l.Nodup ∧ ∀ x ∈ l, x < ns.length ∧ ∃ i, i ≤ j ∧ Passed ns i x
  | 0, _, _ => ⟨[], rfl, List.nodup_nil, fun _ h => nomatch h⟩
  | j + 1, m, ⟨m', h1, h2⟩ => by
    obtain ⟨l, h3, h4, h5⟩ := h2.path
    refine ⟨m :: l, by simp [h3], List.nodup_cons.mpr ⟨?_, h4⟩, ?_⟩
    · intro hm
      obtain ⟨-, i, hi, hp⟩ := h5 m hm
      have := hp.unique (show Passed ns (j + 1) m from ⟨m', h1, h2⟩)
      omega
    · intro x hx
      rcases List.mem_cons.mp hx with rfl | hx
      · refine ⟨?_, j + 1, Nat.le_refl _, m', h1, h2⟩
        apply Decidable.byContradiction
        intro hlt
        rw [List.getElem?_eq_none (Nat.le_of_not_lt hlt)] at h1
        cases h1
      · obtain ⟨h6, i, h7, h8⟩ := h5 x hx
        exact ⟨h6, i, Nat.le_succ_of_le h7, h8⟩

theorem Passed.le {ns : List Node} {j : Nat} {m : MatcherId} (h : Passed ns j m) : j ≤ ns.length := by
  obtain ⟨l, h1, h2, h3⟩ := h.path
  have : l ⊆ List.range ns.length := fun x hx => List.mem_range.mpr (h3 x hx).1
  have := (h2.subperm this).length_le
  rw [List.length_range] at this
  omega

theorem setNameGo_passed {n : Str} {ns : List Node} : ∀ {j d d' : Nat} {m : MatcherId}, Passed ns j m → j < d → j < d' →
    setNameGo n d m ns = setNameGo n d' m ns
  | j, d + 1, d' + 1, m, h, h1, h2 => by
    unfold setNameGo
    cases hm : ns[m]? with
    | none => rfl
    | some nd =>
      dsimp only
      cases hp : nd.namePassedTo with
      | none => rfl
      | some m' =>
        cases j with
        | zero =>
          have : ns[m]?.bind Node.namePassedTo = none := h
          rw [hm] at this
          rw [show (some nd).bind Node.namePassedTo = nd.namePassedTo from rfl, hp] at this
          cases this
        | succ j =>
          obtain ⟨m2, h3, h4⟩ := h
          rw [hm] at h3
          rw [show (some nd).bind Node.namePassedTo = nd.namePassedTo from rfl, hp] at h3
          cases h3
          exact setNameGo_passed h4 (by omega) (by omega)

theorem setNameGo_cycle {n : Str} {ns : List Node} : ∀ {d : Nat} {m : MatcherId}, (∀ j, ¬ Passed ns j m) →
    setNameGo n d m ns = .panic "already mutably borrowed"
  | 0, _, _ => rfl
  | d + 1, m, h => by
    unfold setNameGo
    have h0 : ns[m]?.bind Node.namePassedTo ≠ none := h 0
    cases hm : ns[m]? with
    | none => rw [hm] at h0; exact (h0 rfl).elim
    | some nd =>
      rw [hm] at h0
      dsimp only
      cases hp : nd.namePassedTo with
      | none => exact (h0 hp).elim
      | some m' =>
        refine setNameGo_cycle fun j hj => h (j + 1) ⟨m', ?_, hj⟩
        rw [hm]
        exact hp

theorem setNameGo_more {n : Str} {ns : List Node} {d : Nat} {m : MatcherId} (hd : ns.length + 1 ≤ d) :
    setNameGo n (ns.length + 1) m ns = setNameGo n d m ns := by
  by_cases h : ∃ j, Passed ns j m
  · obtain ⟨j, h⟩ := h
    have := h.le
    exact setNameGo_passed h (by omega) (by omega)
  · have h : ∀ j, ¬ Passed ns j m := fun j hj => h ⟨j, hj⟩
    rw [setNameGo_cycle h, setNameGo_cycle h]

theorem namePassedTo_moved {n n' : Node} (h : ρ.NodeMoved True n n') :
    n'.namePassedTo = n.namePassedTo.map ρ.mat := by
  cases h <;> rfl

theorem setOwnName_moved {n n' : Node} (h : ρ.NodeMoved True n n') (s : Str) :
    ρ.NodeMoved True (n.setOwnName s) (n'.setOwnName s) := by
  cases h with
  | catch_ h => exact .catch_ h
  | map h h' => exact .map h h'
  | _ => constructor

theorem setNameGo_move (hm : Function.Injective ρ.mat) {s : Str} : ∀ {d : Nat} {m : MatcherId} {ns ns' : List Node},
    ρ.Nodes ns ns' → ρ.CSame (fun _ _ => True) (setNameGo s d m ns) (setNameGo s d (ρ.mat m) ns')
  | 0, _, _, _, _ => rfl
  | d + 1, m, ns, ns', h => by
    unfold setNameGo
    cases hn : ns[m]? with
    | none =>
      rw [h.absent m hn]
      exact rfl
    | some nd =>
      obtain ⟨nd', h1, h2⟩ := h.found m nd hn
      rw [h1]
      dsimp only
      rw [namePassedTo_moved h2]
      cases nd.namePassedTo with
      | some m' => exact setNameGo_move hm h
      | none => exact ⟨(), _, rfl, trivial, h.set hm (setOwnName_moved h2 s) m⟩

theorem setName (hm : Function.Injective ρ.mat) {m : MatcherId} {n : Str} :
    ρ.CMove toks toks' (fun _ _ => True) (C.setName m n) (C.setName (ρ.mat m) n) := by
  intro ns ns' hn
  unfold C.setName
  rw [setNameGo_more (Nat.succ_le_succ hn.le)]
  exact setNameGo_move hm hn

theorem addPattern (hm : Function.Injective ρ.mat) {m p : MatcherId} :
    ρ.CMove toks toks' (fun _ _ => True) (C.addPattern m p) (C.addPattern (ρ.mat m) (ρ.mat p)) := by
  intro ns ns' hn
  unfold C.addPattern
  cases hx : ns[m]? with
  | none => rw [hn.absent m hx]; exact rfl
  | some nd =>
    obtain ⟨nd', h1, h2⟩ := hn.found m nd hx
    rw [h1]
    cases h2 with
    | @program ps n c i f =>
      refine ⟨(), _, rfl, trivial, ?_⟩
      have : ρ.NodeMoved True (.program (ps ++ [p]) n c i f) (.program ((ps ++ [p]).map ρ.mat) n c i f) := .program
      rw [List.map_append] at this
      exact hn.set hm this m
    | @register ps =>
      refine ⟨(), _, rfl, trivial, ?_⟩
      have : ρ.NodeMoved True (.register (ps ++ [p])) (.register ((ps ++ [p]).map ρ.mat)) := .register
      rw [List.map_append] at this
      exact hn.set hm this m
    | _ => exact rfl

section
variable (hT : ∀ t, toks'[ρ.tok t]? = toks[t]?.map ρ.token)
include hT

theorem tok {t : TokId} :
    ρ.CMove toks toks' (fun k k' => toks[t]? = some k ∧ k' = ρ.token k) (C.tok t) (C.tok (ρ.tok t)) := by
  intro ns ns' hn
  unfold C.tok
  rw [hT t]
  cases hk : toks[t]? with
  | none => exact rfl
  | some k => exact ⟨_, ns', rfl, ⟨rfl, rfl⟩, hn⟩

theorem findChild_eq {n : Str} (cs : List TokId) :
    Adx.findChild toks' n (cs.map ρ.tok) = (Adx.findChild toks n cs).map ρ.tok := by
  induction cs with
  | nil => rfl
  | cons c cs ih =>
    rw [List.map_cons]
    unfold Adx.findChild
    rw [hT c]
    cases toks[c]? with
    | none => exact ih
    | some k =>
      dsimp only [Option.map_some]
      rw [show (ρ.token k).name = k.name from rfl]
      split
      · rfl
      · exact ih

theorem findChildFuzzy_eq {p : Str → Bool} (cs : List TokId) :
    Adx.findChildFuzzy toks' p (cs.map ρ.tok) = (Adx.findChildFuzzy toks p cs).map ρ.tok := by
  induction cs with
  | nil => rfl
  | cons c cs ih =>
    rw [List.map_cons]
    unfold Adx.findChildFuzzy
    rw [hT c]
    cases toks[c]? with
    | none => exact ih
    | some k =>
      dsimp only [Option.map_some]
      rw [show (ρ.token k).name = k.name from rfl]
      split
      · rfl
      · exact ih

omit hT in
theorem findChild_mem {n : Str} {c : TokId} {cs : List TokId} (h : Adx.findChild toks n cs = some c) : c ∈ cs := by
  induction cs with
  | nil => cases h
  | cons x cs ih =>
    unfold Adx.findChild at h
    split at h
    · split at h
      · cases h; simp
      · exact List.mem_cons_of_mem _ (ih h)
    · exact List.mem_cons_of_mem _ (ih h)

omit hT in
theorem findChildFuzzy_mem {p : Str → Bool} {c : TokId} {cs : List TokId}
    (h : Adx.findChildFuzzy toks p cs = some c) : c ∈ cs := by
  induction cs with
  | nil => cases h
  | cons x cs ih =>
    unfold Adx.findChildFuzzy at h
    split at h
    · split at h
      · cases h; simp
      · exact List.mem_cons_of_mem _ (ih h)
    · exact List.mem_cons_of_mem _ (ih h)

theorem findChild {k : Token} {n : String} :
    ρ.CMove toks toks' (fun o o' => (∀ c, o = some c → c ∈ k.children) ∧ o' = o.map ρ.tok)
      (C.findChild k n) (C.findChild (ρ.token k) n) :=
  fun _ ns' hn => ⟨_, ns', rfl, ⟨fun _ h => findChild_mem h, findChild_eq hT k.children⟩, hn⟩

theorem hasChild {k : Token} {n : String} :
    ρ.CMove toks toks' Eq (C.hasChild k n) (C.hasChild (ρ.token k) n) := by
  refine fun _ ns' hn => ⟨_, ns', rfl, ?_, hn⟩
  unfold Adx.hasChild
  rw [show (ρ.token k).children = k.children.map ρ.tok from rfl, findChild_eq hT, Option.isSome_map]

theorem findChildOf {k : Token} {n : List String} :
    ρ.CMove toks toks' (fun o o' => (∀ c, o = some c → c ∈ k.children) ∧ o' = o.map ρ.tok)
      (C.findChildOf k n) (C.findChildOf (ρ.token k) n) :=
  fun _ ns' hn => ⟨_, ns', rfl, ⟨fun _ h => findChildFuzzy_mem h, findChildFuzzy_eq hT k.children⟩, hn⟩

theorem repeatRange {t : TokId} :
    ρ.CMove toks toks' Eq (getRepeatSpecifierRange t) (getRepeatSpecifierRange (ρ.tok t)) := by
  unfold getRepeatSpecifierRange
  apply bind (tok hT)
  rintro k _ ⟨-, rfl⟩
  refine ite (fun _ => pure rfl) fun _ => ite (fun _ => pure rfl) fun _ => ite (fun _ => ?_) fun _ => err
  apply bind (findChild hT)
  rintro o _ ⟨-, rfl⟩
  apply bind ofOptMap
  rintro x _ ⟨-, rfl⟩
  apply bind (hasChild hT)
  rintro b _ rfl
  apply bind (tok hT)
  rintro xk _ ⟨-, rfl⟩
  apply bind parseUsize
  rintro lo _ rfl
  refine ite (fun _ => ?_) fun _ => pure rfl
  apply bind (findChild hT)
  rintro o _ ⟨-, rfl⟩
  cases o with
  | none => exact pure rfl
  | some y =>
    apply bind (tok hT)
    rintro yk _ ⟨-, rfl⟩
    apply bind parseUsize
    rintro up _ rfl
    exact ite (fun _ => err) fun _ => pure rfl

theorem collectAttributes (cs : List TokId) : ∀ m, ρ.CMove toks toks' Eq (Adx.collectAttributes cs m)
    (Adx.collectAttributes (cs.map ρ.tok) m) := by
  induction cs with
  | nil => exact fun _ => pure rfl
  | cons c cs ih =>
    intro m
    rw [List.map_cons]
    unfold Adx.collectAttributes
    apply bind (tok hT)
    rintro k _ ⟨-, rfl⟩
    apply bind child
    rintro x _ ⟨-, rfl⟩
    apply bind (tok hT)
    rintro xk _ ⟨-, rfl⟩
    apply bind child
    rintro y _ ⟨-, rfl⟩
    apply bind (tok hT)
    rintro yk _ ⟨-, rfl⟩
    exact ih _

theorem withAttributes (hi : ρ.Inj) {k : Token} {m : MatcherId} :
    ρ.CMove toks toks' (fun m m' => m' = ρ.mat m) (Adx.withAttributes k m)
      (Adx.withAttributes (ρ.token k) (ρ.mat m)) := by
  unfold Adx.withAttributes
  apply bind (findChild hT)
  rintro o _ ⟨-, rfl⟩
  cases o with
  | none => exact pure rfl
  | some a =>
    apply bind (tok hT)
    rintro ak _ ⟨-, rfl⟩
    have : ((ρ.token ak).children.length > 0) = (ak.children.length > 0) := by simp [Reloc.token]
    simp only [this]
    refine ite (fun _ => ?_) fun _ => pure rfl
    apply bind (collectAttributes hT ak.children [])
    rintro at' _ rfl
    exact mk (.map (C48_attributes 0 at' ρ True hi).1 (C48_attributes 0 at' ρ True hi).2)

omit hT in
theorem withModifiers {o n : Bool} {m : MatcherId} :
    ρ.CMove toks toks' (fun m m' => m' = ρ.mat m) (Adx.withModifiers o n m) (Adx.withModifiers o n (ρ.mat m)) := by
  unfold Adx.withModifiers
  exact ite (fun _ => mk .optional) fun _ => ite (fun _ => mk .not) fun _ => pure rfl

theorem withRepeat {k : Token} {m : MatcherId} :
    ρ.CMove toks toks' (fun m m' => m' = ρ.mat m) (Adx.withRepeat k m) (Adx.withRepeat (ρ.token k) (ρ.mat m)) := by
  unfold Adx.withRepeat
  apply bind (findChildOf hT)
  rintro o _ ⟨-, rfl⟩
  cases o with
  | none => exact pure rfl
  | some r =>
    apply bind (repeatRange hT)
    rintro x _ rfl
    exact mk .program

omit hT in
theorem withDiscard {b : Bool} {m : MatcherId} :
    ρ.CMove toks toks' (fun m m' => m' = ρ.mat m) (Adx.withDiscard b m) (Adx.withDiscard b (ρ.mat m)) := by
  unfold Adx.withDiscard
  exact ite (fun _ => pure rfl) fun _ => mk .discard

omit hT in
theorem withName (hm : Function.Injective ρ.mat) {m : MatcherId} {n : Str} :
    ρ.CMove toks toks' (fun _ _ => True) (Adx.withName m n) (Adx.withName (ρ.mat m) n) := by
  unfold Adx.withName
  exact ite (fun _ => setName hm) fun _ => pure trivial

/-- Both matchers of a pair are moved. -/
def Pair (ρ : Reloc) (p q : MatcherId × MatcherId) : Prop := q = (ρ.mat p.1, ρ.mat p.2)

variable (hi : ρ.Inj) (hm : Function.Injective ρ.mat) {env : Env} {pat pat' : TokId → C (MatcherId × MatcherId)} {d : Nat}

omit hT in
include hm in
theorem constructChildren (hp : ∀ c, Low toks d c → ρ.CMove toks toks' (Pair ρ) (pat c) (pat' (ρ.tok c)))
    {into : MatcherId} (cs : List TokId) (hc : ∀ c ∈ cs, Low toks d c) :
    ρ.CMove toks toks' (fun _ _ => True) (Adx.constructChildren pat into cs)
      (Adx.constructChildren pat' (ρ.mat into) (cs.map ρ.tok)) := by
  induction cs with
  | nil => exact pure trivial
  | cons c cs ih =>
    rw [List.map_cons]
    unfold Adx.constructChildren
    apply bind (hp c (hc c (by simp)))
    rintro m _ rfl
    exact bind (addPattern hm) fun _ _ _ => ih fun x hx => hc x (by simp [hx])

include hi hm

omit hi in
theorem constructInner (hp : ∀ c, Low toks d c → ρ.CMove toks toks' (Pair ρ) (pat c) (pat' (ρ.tok c)))
    {t : TokId} (hl : Low toks (d + 1) t) :
    ρ.CMove toks toks' (fun m m' => m' = ρ.mat m) (Adx.constructInner env pat t)
      (Adx.constructInner env pat' (ρ.tok t)) := by
  unfold Adx.constructInner
  apply bind (tok hT)
  rintro k _ ⟨hk, rfl⟩
  obtain ⟨_, hk', hlow⟩ := hl
  rw [hk] at hk'
  cases hk'
  have hlen : ((ρ.token k).children.length = 0) = (k.children.length = 0) := by simp [Reloc.token]
  have hgroup : ∀ n f, ρ.CMove toks toks' (fun m m' => m' = ρ.mat m)
      (do
        let m ← C.mk (.program [] n false none f)
        Adx.constructChildren pat m k.children
        Pure.pure m : C MatcherId)
      (do
        let m ← C.mk (.program [] n false none f)
        Adx.constructChildren pat' m (k.children.map ρ.tok)
        Pure.pure m : C MatcherId) := by
    intro n f
    apply bind (mk .program)
    rintro m _ rfl
    exact bind (constructChildren hm hp k.children hlow) fun _ _ _ => pure rfl
  refine ite (fun _ => ?_) fun _ => ite (fun _ => ?_) fun _ => ite (fun _ => ?_) fun _ => ite (fun _ => ?_) fun _ =>
    ite (fun _ => ?_) fun _ => ite (fun _ => ?_) fun _ => err
  · apply bind child
    rintro x _ ⟨-, rfl⟩
    apply bind (tok hT)
    rintro xk _ ⟨-, rfl⟩
    exact ite (fun _ => err) fun _ => mk .equals
  · refine ite (fun _ => err) fun _ => ?_
    apply bind (findChild hT)
    rintro o _ ⟨-, rfl⟩
    cases o with
    | none =>
      apply bind ofOpt
      rintro r _ rfl
      exact mk .regex
    | some f =>
      apply bind (tok hT)
      rintro fk _ ⟨-, rfl⟩
      apply bind ofOpt
      rintro r _ rfl
      exact mk .regex
  · apply bind child
    rintro x _ ⟨-, rfl⟩
    apply bind (tok hT)
    rintro xk _ ⟨-, rfl⟩
    apply bind child
    rintro y _ ⟨-, rfl⟩
    apply bind (tok hT)
    rintro yk _ ⟨-, rfl⟩
    apply bind child
    rintro z _ ⟨-, rfl⟩
    apply bind (tok hT)
    rintro zk _ ⟨-, rfl⟩
    exact ite (fun _ => panic) fun _ => ite (fun _ => panic) fun _ => mk .sequence
  · apply bind child
    rintro x _ ⟨-, rfl⟩
    apply bind (tok hT)
    rintro xk _ ⟨-, rfl⟩
    exact ite (fun _ => err) fun _ => mk .ref
  · simp only [hlen]
    exact ite (fun _ => mk .null) fun _ => hgroup _ _
  · simp only [hlen]
    exact ite (fun _ => mk .null) fun _ => hgroup _ _

theorem constructDefinition (hp : ∀ c, Low toks d c → ρ.CMove toks toks' (Pair ρ) (pat c) (pat' (ρ.tok c)))
    {t : TokId} (hl : Low toks (d + 1) t) {name : Str} {captured : Bool} :
    ρ.CMove toks toks' (Pair ρ) (Adx.constructDefinition env pat t name captured)
      (Adx.constructDefinition env pat' (ρ.tok t) name captured) := by
  unfold Adx.constructDefinition
  apply bind (tok hT)
  rintro k _ ⟨hk, rfl⟩
  obtain ⟨_, hk', hlow⟩ := hl
  rw [hk] at hk'
  cases hk'
  refine ite (fun _ => err) fun _ => ?_
  apply bind (hasChild hT)
  rintro a _ rfl
  apply bind (hasChild hT)
  rintro b _ rfl
  apply bind (hasChild hT)
  rintro c _ rfl
  apply bind (hasChild hT)
  rintro e _ rfl
  apply bind (findChildOf hT)
  rintro o _ ⟨ho, rfl⟩
  cases o with
  | none => exact err
  | some x =>
    apply bind (constructInner hT hm hp (hlow x (ho x rfl)).succ)
    rintro m _ rfl
    refine bind (withName hm) fun _ _ _ => ?_
    apply bind (withAttributes hT hi)
    rintro m1 _ rfl
    apply bind withModifiers
    rintro m2 _ rfl
    apply bind (withRepeat hT)
    rintro m3 _ rfl
    apply bind withModifiers
    rintro m4 _ rfl
    apply bind withDiscard
    rintro m5 _ rfl
    exact pure rfl

theorem constructPattern : ∀ {d d' : Nat} (_ : d ≤ d') {t : TokId} (_ : Low toks d t),
    ρ.CMove toks toks' (Pair ρ) (Adx.constructPattern env d t) (Adx.constructPattern env d' (ρ.tok t))
  | 0, _, _, _, hl => hl.elim
  | d + 1, d' + 1, hd, t, hl => by
    have ih := fun c (hc : Low toks d c) => constructPattern (Nat.le_of_succ_le_succ hd) hc
    unfold Adx.constructPattern
    apply bind (tok hT)
    rintro k _ ⟨hk, rfl⟩
    have hl2 := hl
    obtain ⟨_, hk', hlow⟩ := hl
    rw [hk] at hk'
    cases hk'
    refine ite (fun _ => ?_) fun _ => ite (fun _ => constructDefinition hT hi hm ih hl2) fun _ => err
    apply bind (findChild hT)
    rintro o _ ⟨-, rfl⟩
    cases o with
    | none =>
      apply bind child
      rintro x _ ⟨hx, rfl⟩
      exact constructDefinition hT hi hm ih (hlow x hx).succ
    | some n =>
      apply bind (tok hT)
      rintro nk _ ⟨-, rfl⟩
      apply bind child
      rintro y _ ⟨-, rfl⟩
      apply bind (tok hT)
      rintro yk _ ⟨-, rfl⟩
      apply bind child
      rintro x _ ⟨hx, rfl⟩
      exact constructDefinition hT hi hm ih (hlow x hx).succ

theorem constructScope {d d' : Nat} (hd : d ≤ d') {inScope : MatcherId} (cs : List TokId) (hc : ∀ c ∈ cs, Low toks d c) :
    ρ.CMove toks toks' (fun _ _ => True) (Adx.constructScope env d inScope cs)
      (Adx.constructScope env d' (ρ.mat inScope) (cs.map ρ.tok)) := by
  induction cs with
  | nil => exact pure trivial
  | cons c cs ih =>
    rw [List.map_cons]
    unfold Adx.constructScope
    apply bind (tok hT)
    rintro k _ ⟨-, rfl⟩
    have ih := ih fun x hx => hc x (by simp [hx])
    refine ite (fun _ => ?_) fun _ => ih
    apply bind (constructPattern hT hi hm hd (hc c (by simp)))
    rintro p _ rfl
    exact bind (addPattern hm) fun _ _ _ => ih

end

end CMove

end Adx.Reloc
