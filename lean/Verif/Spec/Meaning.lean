import Verif.Spec.Import
import Verif.Spec.Syntax
/-
  What the text of a script means, with the files it imports.
-/
namespace Adx.Syntax

/-- What the identifiers of an import bring, when the imported script is the program `gs`
with the definitions `bs`.  There is one copy of the program, whose name is `cur` before
these identifiers and `n` in the end.  There are `t` definitions before the statement. -/
inductive Brought (t : Nat) (gs : List Gram) (bs : List (Str × Thing)) (n : Str) :
    Str → List (Str × Str) → List (Str × Thing) → Prop
  | nil : Brought t gs bs n n [] []
  /-- `_ as Name`: the program. -/
  | root {cur name ids ths} (hn : name ≠ "_".toList) (hs : Brought t gs bs n name ids ths) :
      Brought t gs bs n cur (("_".toList, name) :: ids) ((name, .file t n gs bs) :: ths)
  /-- `Ident` or `Ident as Name`: a definition. -/
  | member {cur ident name ids th ths} (hn : ident ≠ "_".toList) (hd : lastDef bs ident = some th)
      (hs : Brought t gs bs n cur ids ths) :
      Brought t gs bs n cur ((ident, name) :: ids) ((name, .member t bs ident name) :: ths)

/-- What statements define, in a script from the file `fromFile`.  `imp` says what files
mean, as a name, patterns, and definitions; `t` definitions come before the statements. -/
inductive Defines (env : Env) (imp : Str → Str → List Gram → List (Str × Thing) → Prop) :
    Option Str → Nat → List Stmt → List (Str × Thing) → Prop
  | nil {fromFile t} : Defines env imp fromFile t [] []
  | own {fromFile t name g ss bs} (hs : Defines env imp fromFile (t + 1) ss bs) :
      Defines env imp fromFile t (.own name g :: ss) ((name, .own g) :: bs)
  | imports {base t path joined file ids n0 n gs fbs ths ss bs} (hj : env.relative base path = some joined)
      (hc : env.canonical joined = some file) (himp : imp file n0 gs fbs) (h : Brought t gs fbs n n0 ids ths)
      (hs : Defines env imp (some base) (t + ths.length) ss bs) :
      Defines env imp (some base) t (.imports path ids :: ss) (ths ++ bs)

mutual

/-- The text `src`, from the file `fromFile`, is a script called `n`, if it would else be
called `name`, with the patterns `gs` and the definitions `bs`. -/
inductive Text (env : Env) : Str → Str → Option Str → Str → List Gram → List (Str × Thing) → Prop
  | mk {src name fromFile nm gs ss bs} (ha : Ascii src) (hs : blen src ≤ isizeMax) (h : Script env src nm gs ss)
      (hd : Defines env (File env) fromFile 0 ss bs) : Text env src name fromFile (nm.getD name) gs bs

/-- What a file means. -/
inductive File (env : Env) : Str → Str → List Gram → List (Str × Thing) → Prop
  | mk {file full src n gs bs} (hc : env.canonical file = some full) (hr : env.read full = some src)
      (h : Text env src file (some full) n gs bs) : File env file n gs bs

end

end Adx.Syntax
