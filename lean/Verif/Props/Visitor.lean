import Verif.Model.Visitor
import Verif.Proofs.Forest
/-
  C31: visiting a tree.
-/
namespace Adx

variable {σ : Type}

/-- The hook meant for a token of the given name. -/
def hookFor (hooks : List (Str × Hook σ)) (name : Str) : Option (Hook σ) :=
  match hooks.find? (fun h => h.1 == name) with
  | some h => some h.2
  | none => (hooks.find? (fun h => h.1 == ['*'])).map Prod.snd

/-- Call, for each token of the list in turn, the hook meant for it; stop at the
first error. -/
def callHooks (toks : List Token) (hooks : List (Str × Hook σ)) : List TokId → σ → VRes σ
  | [], s => .ok s
  | t :: ts, s =>
    match (toks[t]?).bind (fun k => hookFor hooks k.name) with
    | none => callHooks toks hooks ts s
    | some h =>
      match h t s with
      | (.ok _, s) => callHooks toks hooks ts s
      | (.error e, s) => .err e s

theorem findHook_eq (hooks : List (Str × Hook σ)) (k : Str) :
    findHook hooks k = (hooks.find? (fun h => h.1 == k)).map Prod.snd := by
  induction hooks with
  | nil => rfl
  | cons x xs ih =>
    obtain ⟨n, h⟩ := x
    unfold findHook
    by_cases hn : n = k
    · simp [hn]
    · have : (n == k) = false := by simpa using hn
      simp [hn, this, ih]

theorem callHooks_append (toks : List Token) (hooks : List (Str × Hook σ)) (l l' : List TokId) (s : σ) :
    callHooks toks hooks (l ++ l') s =
      match callHooks toks hooks l s with
      | .ok s => callHooks toks hooks l' s
      | r => r := by
  induction l generalizing s with
  | nil => rfl
  | cons t ts ih =>
    simp only [List.cons_append, callHooks]
    split
    · exact ih s
    · split
      · exact ih _
      · rfl

theorem visitList_walk (toks : List Token) (hooks : List (Str × Hook σ)) {dflt : Option (Hook σ)}
    (hdf : dflt = (hooks.find? (fun h => h.1 == ['*'])).map Prod.snd) {n : Nat}
    {ts l : List TokId} (h : Walk toks n ts l) (s : σ) :
    visitList (visitGo toks hooks dflt n) ts s = callHooks toks hooks l s := by
  induction h generalizing s with
  | nil n => rfl
  | @cons n t k ts l l' hk hc hs ih1 ih2 =>
    have hgo : ∀ s, visitGo toks hooks dflt (n + 1) t s = callHooks toks hooks (t :: l) s := by
      intro s
      unfold visitGo
      rw [hk]
      dsimp only
      have hb : (toks[t]?).bind (fun k => hookFor hooks k.name) = hookFor hooks k.name := by
        rw [hk]; rfl
      unfold callHooks
      rw [hb]
      unfold hookFor
      rw [findHook_eq, ← hdf]
      cases hf : hooks.find? (fun h => h.1 == k.name) with
      | some x =>
        dsimp only [Option.map]
        rcases hx : x.2 t s with ⟨r, s1⟩
        cases r with
        | error e => rfl
        | ok u => exact ih1 s1
      | none =>
        cases dflt with
        | none =>
          dsimp only [Option.map]
          exact ih1 s
        | some x =>
          dsimp only [Option.map]
          rcases hx : x t s with ⟨r, s1⟩
          cases r with
          | error e => rfl
          | ok u => exact ih1 s1
    show (match visitGo toks hooks dflt (n + 1) t s with
      | .ok s => visitList (visitGo toks hooks dflt (n + 1)) ts s
      | r => r) = callHooks toks hooks ((t :: l) ++ l') s
    rw [callHooks_append, hgo]
    cases callHooks toks hooks (t :: l) s with
    | ok s1 => exact ih2 s1
    | _ => rfl

/-- C31: visiting a finite tree calls the hooks of its tokens in document pre-order,
each token getting the hook of its name or else the `*` hook, and stops at the first
hook that returns an error. -/
theorem C31_visit_preorder (toks : List Token) (hooks : List (Str × Hook σ)) {t : TokId}
    {l : List TokId} (h : Pre toks [t] l) {depth : Nat} (hd : toks.length ≤ depth) (s : σ) :
    visit toks hooks depth t s = callHooks toks hooks l s := by
  have := visitList_walk toks hooks (findHook_eq hooks ['*']) (h.walk hd) s
  unfold visitList at this
  unfold visit
  rw [← this]
  split
  · rename_i s1 h1
    rw [h1]; rfl
  · rfl

/-- C31: when no hook errs, every token's hook is called exactly once, in order: the
hooks that log their token log exactly the pre-order list. -/
theorem C31_visit_logs (toks : List Token) {t : TokId} {l : List TokId} (h : Pre toks [t] l)
    {depth : Nat} (hd : toks.length ≤ depth) :
    visit toks [(['*'], fun u (log : List TokId) => (.ok (), log ++ [u]))] depth t [] = .ok l := by
  rw [C31_visit_preorder toks _ h hd]
  have key : ∀ (l log : List TokId), (∀ u ∈ l, u < toks.length) → callHooks toks
      [(['*'], fun u (log : List TokId) => (.ok (), log ++ [u]))] l log = .ok (log ++ l) := by
    intro l
    induction l with
    | nil => intro log _; simp [callHooks]
    | cons u us ih =>
      intro log hv
      have hu : u < toks.length := hv u (by simp)
      unfold callHooks
      have hf : (toks[u]?).bind (fun k => hookFor
          [(['*'], fun u (log : List TokId) => (.ok (), log ++ [u]))] k.name) =
          some (fun u (log : List TokId) => (.ok (), log ++ [u])) := by
        rw [List.getElem?_eq_getElem hu]
        show hookFor _ _ = _
        unfold hookFor
        by_cases hn : toks[u].name = ['*']
        · rw [hn]; rfl
        · have : (['*'] == toks[u].name) = false := by
            rw [beq_eq_false_iff_ne]; exact fun h => hn h.symm
          simp [this]
      rw [hf]
      dsimp only
      rw [ih (log ++ [u]) (fun v hv' => hv v (by simp [hv']))]
      simp
  simpa using key l [] h.valid

/-- Non-vacuity of C31: a tree of five tokens, two named hooks and a default hook,
and a hook that stops the visit. -/
example :
    let mk (n : String) (cs : List TokId) : Token :=
      { Token.mk' ⟨[], []⟩ n.toList ⟨0, 0⟩ with children := cs }
    let toks := [mk "c" [], mk "a" [0, 2], mk "b" [3], mk "c" [], mk "d" [1, 3]]
    let log (x : Nat) : Hook (List (Nat × TokId)) := fun t s => (.ok (), s ++ [(x, t)])
    Pre toks [4] [4, 1, 0, 2, 3, 3] ∧
    (match visit toks [("a".toList, log 1), ("*".toList, log 0), ("c".toList, log 2)] 5 4 [] with
      | .ok s => s == [(0, 4), (1, 1), (2, 0), (0, 2), (2, 3), (2, 3)]
      | _ => false) = true ∧
    (match visit toks [("b".toList, fun _ s => (.error ⟨[], none⟩, s)), ("*".toList, log 0)] 5 4 [] with
      | .err _ s => s == [(0, 4), (0, 1), (0, 0)]
      | _ => false) = true := by
  intro mk toks log
  have h3 : Pre toks [3] [3] := .cons (l := []) rfl .nil .nil
  have h2 : Pre toks [2] [2, 3] := .cons (l := [3]) rfl h3 .nil
  have h0 : Pre toks [0] [0] := .cons (l := []) rfl .nil .nil
  have h1 : Pre toks [1] [1, 0, 2, 3] := .cons (l := [0, 2, 3]) rfl (h0.append h2) .nil
  exact ⟨.cons (l := [1, 0, 2, 3, 3]) rfl (h1.append h3) .nil, by decide +kernel, by decide +kernel⟩

end Adx
