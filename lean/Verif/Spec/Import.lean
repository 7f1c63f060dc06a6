import Verif.Spec.Script
import Verif.Spec.Forest
/-
  What a grammar script with imports describes, without heaps of matchers or scopes:
  grammars as plain terms, and scopes as plain lists of definitions.
-/
namespace Adx

/-- What a name of a script can stand for. -/
inductive Thing
  /-- A definition of the script itself. -/
  | own (g : Gram)
  /-- A whole script that was imported: a program called `name` that matches `gs`, and in
  which the definitions `bs` can be used.  The import statement is the one after `t`
  definitions. -/
  | file (t : Nat) (name : Str) (gs : List Gram) (bs : List (Str × Thing))
  /-- The definition of `ident` among `bs`, whose tokens are called `name`, imported by the
  statement after `t` definitions. -/
  | member (t : Nat) (bs : List (Str × Thing)) (ident name : Str)

mutual

/-- The matcher `m` is `th`.  None of its own matchers is below `lo`, and none of the scopes
that it brings is below `slo`. -/
inductive IsThing (w : World) : Nat → Nat → MatcherId → Thing → Prop
  | own {lo slo m g} (h : Built w.nodes lo m g) : IsThing w lo slo m (.own g)
  | file {lo slo m t sc n gs bs} (h : IsFile w lo slo m sc n gs bs) :
      IsThing w lo slo m (.file t n gs bs)
  | member {lo slo m t a x sc bs ident name} (hl : lo ≤ m) (hla : lo ≤ a) (hs : slo ≤ sc)
      (hm : w.nodes[m]? = some (.setScope (some sc) a))
      (ha : w.nodes[a]? = some (.map x (renameToken name) passFailure))
      (hx : w.st.lookup sc ident = some (.matcher x)) (hbs : InScope w lo sc bs) :
      IsThing w lo slo m (.member t bs ident name)

/-- The matcher `m` is the whole script of name `n` with patterns `gs`, and the definitions
`bs` are in its scope `sc`. -/
inductive IsFile (w : World) : Nat → Nat → MatcherId → SCtxId → Str → List Gram →
    List (Str × Thing) → Prop
  | mk {lo slo m a b i sc n ps gs bs} (hl : lo ≤ m) (hs : slo ≤ sc)
      (hm : w.nodes[m]? = some (.program [a] n true none false)) (hla : m + 1 ≤ a)
      (ha : w.nodes[a]? = some (.setScope (some sc) b)) (hlb : m + 1 ≤ b)
      (hb : w.nodes[b]? = some (.proxyChildren i "Flatten".toList false)) (hli : m + 1 ≤ i)
      (hi : w.nodes[i]? = some (.program ps "Program".toList false none false))
      (hps : BuiltAll w.nodes (m + 1) ps gs) (hbs : InScope w (m + 1) sc bs) :
      IsFile w lo slo m sc n gs bs

/-- In the scope `sc` every name stands for its last definition in `bs`, and no other name
is bound. -/
inductive InScope (w : World) : Nat → SCtxId → List (Str × Thing) → Prop
  | mk {lo sc bs} (hsc : sc < w.st.sctxs.length) (f : Str → MatcherId)
      (hd : ∀ n th, lastDef bs n = some th → w.st.lookup sc n = some (.matcher (f n)))
      (ht : ∀ n th, lastDef bs n = some th → IsThing w lo (sc + 1) (f n) th)
      (hu : ∀ n, lastDef bs n = none → w.st.lookup sc n = none) : InScope w lo sc bs

end

/-- One identifier of an import statement: the name in the imported file, and the name
here. -/
inductive ImportNames (toks : List Token) (c : TokId) : Str → Str → Prop
  | plain {k i ik} (hk : toks[c]? = some k) (hi : First toks ["ImportName"] k.children i)
      (hik : toks[i]? = some ik) (ha : Absent toks ["ImportAsName"] k.children) :
      ImportNames toks c ik.getValue ik.getValue
  | renamed {k i ik a ak} (hk : toks[c]? = some k) (hi : First toks ["ImportName"] k.children i)
      (hik : toks[i]? = some ik) (ha : First toks ["ImportAsName"] k.children a)
      (hak : toks[a]? = some ak) : ImportNames toks c ik.getValue ak.getValue

/-- What the identifiers of an import statement bring, when the imported script is the
program `gs` with the definitions `bs`.  The statement has one copy of the program, whose
name is `cur` before these identifiers and `n` in the end.  There are `t` definitions before
the statement. -/
inductive Imports (toks : List Token) (t : Nat) (gs : List Gram) (bs : List (Str × Thing)) (n : Str) :
    Str → List TokId → List (Str × Thing) → Prop
  | nil : Imports toks t gs bs n n [] []
  /-- `_ as Name`: the program. -/
  | root {cur c cs name ths} (h : ImportNames toks c "_".toList name) (hn : name ≠ "_".toList)
      (hs : Imports toks t gs bs n name cs ths) :
      Imports toks t gs bs n cur (c :: cs) ((name, .file t n gs bs) :: ths)
  /-- `Ident` or `Ident as Name`: a definition. -/
  | member {cur c cs ident name th ths} (h : ImportNames toks c ident name)
      (hn : ident ≠ "_".toList) (hd : lastDef bs ident = some th)
      (hs : Imports toks t gs bs n cur cs ths) :
      Imports toks t gs bs n cur (c :: cs) ((name, .member t bs ident name) :: ths)

/-- What one token of a script contributes: patterns to be matched, and definitions.
`fromFile` is the file that the script was read from; `imp` says what files mean, as a name,
patterns, and definitions; `t` definitions come before the token. -/
inductive ItemBrings (env : Env) (fromFile : Option Str)
    (imp : Str → Str → List Gram → List (Str × Thing) → Prop) (toks : List Token) (t : Nat) (x : TokId) :
    List Gram → List (Str × Thing) → Prop
  | own {gs bs} (h : ItemMeans env toks x gs bs) :
      ItemBrings env fromFile imp toks t x gs (bs.map fun b => (b.1, .own b.2))
  | imported {k ids idk p pk base joined file n0 n gs bs ths} (hk : toks[x]? = some k)
      (hn : k.name = "ImportStatement".toList) (hids : First toks ["ImportIdentifiers"] k.children ids)
      (hidk : toks[ids]? = some idk) (hp : First toks ["Path"] k.children p)
      (hpk : toks[p]? = some pk) (hf : fromFile = some base)
      (hj : env.relative base pk.getValue = some joined) (hc : env.canonical joined = some file)
      (himp : imp file n0 gs bs) (h : Imports toks t gs bs n n0 idk.children ths) :
      ItemBrings env fromFile imp toks t x [] ths

/-- What a list of tokens contributes that comes after `t` definitions. -/
inductive ScriptBrings (env : Env) (fromFile : Option Str)
    (imp : Str → Str → List Gram → List (Str × Thing) → Prop) (toks : List Token) :
    Nat → List TokId → List Gram → List (Str × Thing) → Prop
  | nil {t} : ScriptBrings env fromFile imp toks t [] [] []
  | cons {t x xs gs gs' bs bs'} (h : ItemBrings env fromFile imp toks t x gs bs)
      (hs : ScriptBrings env fromFile imp toks (t + bs.length) xs gs' bs') :
      ScriptBrings env fromFile imp toks t (x :: xs) (gs ++ gs') (bs ++ bs')

/-- The name of a script: that of its last header with a name, or else the one it was
given. -/
def scriptName (toks : List Token) : List TokId → Str → Str
  | [], n => n
  | t :: ts, n =>
    match toks[t]? with
    | some k =>
      if k.name = "AdextopaScope".toList then
        scriptName toks ts ((k.getAttribute "name".toList).getD n)
      else scriptName toks ts n
    | none => scriptName toks ts n

end Adx
