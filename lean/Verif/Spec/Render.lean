import Verif.Spec.Syntax
/-
  Grammar scripts as trees, how such a tree is written down, and what it describes.
-/
namespace Adx.Render

open Syntax (Mod Stmt repeated flagged space idStart idChar attrChar flagChar lineChar Regular)

/-- How often. -/
inductive Rep
  | once
  | any
  | some
  | upTo (n : Nat)
  | atLeast (n : Nat)
  | between (n m : Nat)

mutual

/-- A pattern. -/
inductive Pat
  | plain (d : Def)
  | captured (d : Def)
  | named (label : Str) (d : Def)

/-- A definition `<..>`: with modifiers, attributes (with their values as they are written),
and how often it is matched. -/
inductive Def
  | mk (outer inner : Mod) (m : Leaf) (as : List (Str × Str)) (r : Rep)

/-- What is matched. -/
inductive Leaf
  | equals (s : Str)
  | regex (text flags : Str)
  | sequence (a b e : Str)
  | ref (n : Str)
  | switch (ps : Pats)
  | program (ps : Pats)

/-- One pattern or more. -/
inductive Pats
  | one (p : Pat)
  | more (p : Pat) (ps : Pats)

end

/-- A statement of a header. -/
inductive Stm
  | own (n : Str) (d : Def)
  /-- Its meaning depends on the white space around the equals sign. -/
  | alias (n before behind m : Str)
  | imports (path : Str) (ids : List (Str × Str))
  | comment (line : Str)

/-- A script. -/
inductive Scr
  | headed (version : Nat) (name : Option Str) (ss : List Stm) (ps : List Pat)
  | bare (p : Pat) (ps : List Pat)

/-! ### How it is written -/

/-- A text in quotes. -/
def quote (s : Str) : Str := '\'' :: (escapeText '\'' '\\' s ++ ['\''])

def Rep.text : Rep → Str
  | once => []
  | any => ['*']
  | some => ['+']
  | upTo n => '{' :: (natStr n ++ ['}'])
  | atLeast n => '{' :: (natStr n ++ [',', '}'])
  | between n m => '{' :: (natStr n ++ ',' :: (natStr m ++ ['}']))

def attrsText : List (Str × Str) → Str
  | [] => []
  | a :: as => ' ' :: (a.1 ++ '=' :: '\'' :: (a.2 ++ '\'' :: attrsText as))

mutual

def Pat.text : Pat → Str
  | .plain d => d.text
  | .captured d => '(' :: (d.text ++ [')'])
  | .named l d => '(' :: '?' :: (quote l ++ ' ' :: (d.text ++ [')']))

def Def.text : Def → Str
  | .mk outer inner m as r => outer.text ++ '<' :: (inner.text ++ (m.text ++ (attrsText as ++ '>' :: r.text)))

def Leaf.text : Leaf → Str
  | .equals s => '=' :: quote s
  | .regex t f => '/' :: (t ++ '/' :: f)
  | .sequence a b e => '%' :: (quote a ++ ',' :: ' ' :: (quote b ++ ',' :: ' ' :: quote e))
  | .ref n => n
  | .switch ps => '[' :: (ps.barred ++ [']'])
  | .program ps => '{' :: (ps.spaced ++ ['}'])

def Pats.barred : Pats → Str
  | .one p => p.text
  | .more p ps => p.text ++ ' ' :: '|' :: ' ' :: ps.barred

def Pats.spaced : Pats → Str
  | .one p => p.text
  | .more p ps => p.text ++ ' ' :: ps.spaced

end

def idsText : List (Str × Str) → Str
  | [] => []
  | i :: is => ' ' :: (i.1 ++ " as ".toList ++ i.2 ++ ',' :: idsText is)

def Stm.text : Stm → Str
  | .own n d => n ++ ' ' :: '=' :: ' ' :: d.text
  | .alias n x y m => n ++ (x ++ '=' :: (y ++ m))
  | .imports path ids => "import {".toList ++ (idsText ids ++ " } from ".toList ++ quote path)
  | .comment line => '#' :: line

/-- Each on a line of its own. -/
def lines : List Str → Str
  | [] => []
  | l :: ls => '\n' :: (l ++ lines ls)

def Scr.text : Scr → Str
  | .headed v n ss ps => "<!--[adextopa".toList ++
      (attrsText (("version".toList, natStr v) :: (n.map fun n => ("name".toList, escapeText '\'' '\\' n)).toList) ++
        ']' :: (lines (ss.map Stm.text) ++ ((if ss = [] then [] else ['\n']) ++ ("-->".toList ++ lines (ps.map Pat.text)))))
  | .bare p ps => p.text ++ lines (ps.map Pat.text)

/-! ### What it describes -/

def Rep.range : Rep → Option (Nat × Nat)
  | once => none
  | any => Option.some (0, usizeMax)
  | some => Option.some (1, usizeMax)
  | upTo n => Option.some (0, n)
  | atLeast n => Option.some (n, usizeMax)
  | between n m => Option.some (n, m)

/-- Attributes for tokens. -/
def valued (as : List (Str × Str)) (g : Gram) : Gram :=
  if as = [] then g else .attrs (as.foldl (fun m a => m.insert a.1 a.2) []) g

mutual

def Pat.gram (env : Env) : Pat → Gram
  | .plain d => .discard (d.gram env [])
  | .captured d => d.gram env []
  | .named _ d => d.gram env "Name".toList

def Def.gram (env : Env) (name : Str) : Def → Gram
  | .mk outer inner m as r => outer.wrap (repeated r.range (inner.wrap (valued as ((m.gram env).called name))))

def Leaf.gram (env : Env) : Leaf → Gram
  | .equals s => .equals "Equals".toList false s
  | .regex t f => .regex "Matches".toList false ((env.regex (flagged f t)).getD ⟨[], fun _ => none⟩)
  | .sequence a b e => .sequence "Sequence".toList false a b e
  | .ref n => .ref "Ref".toList false n
  | .switch ps => .group "Switch".toList false true (ps.grams env)
  | .program ps => .group "Program".toList false false (ps.grams env)

def Pats.grams (env : Env) : Pats → List Gram
  | .one p => [p.gram env]
  | .more p ps => p.gram env :: ps.grams env

end

def Stm.stmts (env : Env) : Stm → List Stmt
  | .own n d => [.own n (d.gram env n)]
  | .alias n x y m => [.own n (.ref "Ref".toList false (n ++ (x ++ '=' :: (y ++ m))))]
  | .imports path ids => [.imports path ids]
  | .comment _ => []

def Scr.name : Scr → Option Str
  | .headed _ n _ _ => n
  | .bare .. => none

def Scr.stmts (env : Env) : Scr → List Stmt
  | .headed _ _ ss _ => ss.flatMap (Stm.stmts env)
  | .bare .. => []

def Scr.grams (env : Env) : Scr → List Gram
  | .headed _ _ _ ps => ps.map (Pat.gram env)
  | .bare p ps => (p :: ps).map (Pat.gram env)

/-! ### What can be written -/

/-- An identifier. -/
def Ident (n : Str) : Prop := (∃ c cs, n = c :: cs ∧ idStart c = true) ∧ ∀ c ∈ n, idChar c = true

/-- A name of an attribute. -/
def AttrName (n : Str) : Prop := n ≠ [] ∧ (∀ c ∈ n, attrChar c = true) ∧ (n.head? = some '_' → n = ['_'])

/-- The value of an attribute as it is written: quotes and a last backslash are escaped. -/
inductive AttrRaw : Str → Prop
  | nil : AttrRaw []
  | char {c : Char} {r : Str} (h : c ≠ '\'' ∧ c ≠ '\\') (hr : AttrRaw r) : AttrRaw (c :: r)
  | escaped {c : Char} {r : Str} (hr : AttrRaw r) : AttrRaw ('\\' :: c :: r)

def Rep.Good : Rep → Prop
  | upTo n => n < 2 ^ 64
  | atLeast n => n < 2 ^ 64
  | between n m => n ≤ m ∧ m < 2 ^ 64
  | _ => True

mutual

def Pat.Good (env : Env) : Pat → Prop
  | .plain d => d.Good env
  | .captured d => d.Good env
  | .named _ d => d.Good env

def Def.Good (env : Env) : Def → Prop
  | .mk _ _ m as r => m.Good env ∧ (∀ a ∈ as, AttrName a.1 ∧ AttrRaw a.2) ∧ r.Good

def Leaf.Good (env : Env) : Leaf → Prop
  | .equals s => s ≠ []
  | .regex t f => t ≠ [] ∧ Regular (t ++ ['/']) t [] ∧ (∀ c ∈ f, flagChar c = true) ∧ env.regex (flagged f t) ≠ none
  | .sequence a b _ => a ≠ [] ∧ b ≠ []
  | .ref n => Ident n
  | .switch ps => ps.Good env
  | .program ps => ps.Good env

def Pats.Good (env : Env) : Pats → Prop
  | .one p => p.Good env
  | .more p ps => p.Good env ∧ ps.Good env

end

def Stm.Good (env : Env) : Stm → Prop
  | .own n d => Ident n ∧ d.Good env
  | .alias n x y m => Ident n ∧ Ident m ∧ (∀ c ∈ x ++ y, space c = true)
  | .imports _ ids => ids ≠ [] ∧ ∀ i ∈ ids, Ident i.1 ∧ Ident i.2
  | .comment line => ∀ c ∈ line, lineChar c = true

def Scr.Good (env : Env) : Scr → Prop
  | .headed v _ ss ps => v < 2 ^ 64 ∧ (∀ s ∈ ss, s.Good env) ∧ ∀ p ∈ ps, p.Good env
  | .bare p ps => p.Good env ∧ ∀ p ∈ ps, p.Good env

end Adx.Render
